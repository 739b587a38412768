import Verif.Proof.WakeDemo
/-! # A failed `shr_open` releases what it took: lemmas for C54 -/
namespace Shr

/-- Slots and sockets only disappear. -/
structure Shrunk (b b' : BSys) : Prop where
  slots : ∀ hi n, ((b'.hd hi).wr n).pid ≠ 0 → ((b'.hd hi).wr n).pid = ((b.hd hi).wr n).pid
  ids : ∀ y ∈ b'.kern.socks, ∃ x ∈ b.kern.socks, x.id = y.id

theorem Shrunk.refl (b : BSys) : Shrunk b b := ⟨fun _ _ _ => rfl, fun y hy => ⟨y, hy, rfl⟩⟩
theorem Shrunk.trans {a b c : BSys} (h : Shrunk a b) (g : Shrunk b c) : Shrunk a c := by
  refine ⟨fun hi n hn => ?_, fun y hy => ?_⟩
  · have e := g.slots hi n hn
    rw [e]; exact h.slots hi n (by rw [← e]; exact hn)
  · obtain ⟨x, hx, e⟩ := g.ids y hy
    obtain ⟨z, hz, e2⟩ := h.ids x hx
    exact ⟨z, hz, e2.trans e⟩

/-- Slots only become free. -/
def Fewer (h h' : BwH) : Prop := ∀ n, (h'.wr n).pid ≠ 0 → (h'.wr n).pid = (h.wr n).pid
theorem Fewer.refl (h : BwH) : Fewer h h := fun _ _ => rfl
theorem Fewer.trans {a b c : BwH} (h : Fewer a b) (g : Fewer b c) : Fewer a c := fun n hn => by
  have e := g n hn
  rw [e]; exact h n (by rw [← e]; exact hn)
theorem Fewer.release (h : BwH) (n : Nat) : Fewer h (h.release n) := by
  intro m hm
  by_cases e : m = n
  · subst e; exact absurd (release_pid h m) hm
  · rw [release_other h e]
theorem Fewer.prune (k : Kern) (os : Os) (h : BwH) : Fewer h (prune_handle k os h) := by
  unfold prune_handle
  generalize List.range BW_WAITMAX = l
  induction l generalizing h with
  | nil => exact .refl h
  | cons n l ih =>
    rw [List.foldl_cons]
    refine .trans ?_ (ih _)
    unfold pruneSlot
    split
    · exact .refl h
    · split
      · exact .release h n
      · exact .refl h
theorem Fewer.open_socket (k : Kern) (os : Os) (h : BwH) (w : WakeT) (n : Nat) : Fewer h (open_socket k os h w n).1 := by
  unfold Shr.open_socket
  split
  · exact .refl h
  · split
    · exact .refl h
    · split
      · exact .release h n
      · exact .refl h
theorem Fewer.syncSlot (k : Kern) (os : Os) (h : BwH) (w : WakeT) (n : Nat) : Fewer h (syncSlot k os h w n).1 := by
  unfold Shr.syncSlot
  dsimp only
  by_cases c : w.fd n ≠ none ∧ ((h.wr n).pid = 0 ∨ (h.wr n).name ≠ w.name n)
  · rw [if_pos c]
    split
    · exact Fewer.open_socket _ _ _ _ _
    · exact .refl h
  · rw [if_neg c]
    split
    · exact Fewer.open_socket _ _ _ _ _
    · exact .refl h
theorem Fewer.syncLoop (k : Kern) (os : Os) : ∀ (l : List Nat) (h : BwH) (w : WakeT), Fewer h (syncLoop k os l h w).1
  | [], h, w => .refl h
  | n :: l, h, w => by
    unfold Shr.syncLoop
    have h1 := Fewer.syncSlot k os h w n
    generalize Shr.syncSlot k os h w n = z at h1
    obtain ⟨h', w', ok⟩ := z
    cases ok
    · exact h1
    · exact h1.trans (Fewer.syncLoop k os l h' w')
theorem Fewer.bw_sync (k : Kern) (os : Os) (h : BwH) (w : WakeT) : Fewer h (bw_sync k os h w).1 := by
  unfold Shr.bw_sync
  split
  · exact .refl h
  · have h1 := Fewer.syncLoop k os (List.range BW_WAITMAX) h w
    generalize Shr.syncLoop k os (List.range BW_WAITMAX) h w = z at h1
    obtain ⟨h', w', ok⟩ := z
    cases ok <;> exact h1
theorem Fewer.openWake (k : Kern) (os : Os) (h : BwH) : Fewer h (bw_open_wake k os h).1 := by
  unfold bw_open_wake
  split
  · exact .refl h
  · have h1 := (Fewer.prune k os h).trans (Fewer.bw_sync k os (prune_handle k os h) {})
    generalize Shr.bw_sync k os (prune_handle k os h) {} = z at h1
    obtain ⟨h', w', ok⟩ := z
    cases ok <;> exact h1

theorem shrunk_of {b : BSys} {k : Kern} {hi : Nat} {h : BwH} {ts : Nat → Option BwT} (h1 : Fewer (b.hd hi) h)
    (h2 : ∀ y ∈ k.socks, ∃ x ∈ b.kern.socks, x.id = y.id) : Shrunk b ⟨k, upd b.hd hi h, ts⟩ := by
  refine ⟨fun hj n hn => ?_, h2⟩
  by_cases e : hj = hi
  · subst e
    simp only [upd_same] at hn ⊢
    exact h1 n hn
  · simp only [upd_other _ _ e]

theorem shrunk_openWake (b : BSys) (i hi p : Nat) (os : Os) : Shrunk b (b.step (.openWake i hi p os)).1 := by
  unfold BSys.step; dsimp only
  split
  · exact .refl b
  · unfold BSys.openWake
    have h1 := Fewer.openWake b.kern os (b.hd hi)
    generalize bw_open_wake b.kern os (b.hd hi) = z at h1
    obtain ⟨h, w⟩ := z
    cases w <;> exact shrunk_of h1 (fun y hy => ⟨y, hy, rfl⟩)

theorem openWake_fail_ts {b : BSys} {i hi p : Nat} {os : Os} (h : (b.step (.openWake i hi p os)).2 = false) : (b.step (.openWake i hi p os)).1.ts = b.ts := by
  unfold BSys.step at h ⊢; dsimp only at h ⊢
  split at h
  · rw [if_pos (by assumption)]
  · rw [if_neg (by assumption)]
    unfold BSys.openWake at h ⊢
    generalize bw_open_wake b.kern os (b.hd hi) = z at h
    obtain ⟨h', w⟩ := z
    cases w
    · rfl
    · cases h

theorem shrunk_close (b : BSys) (i : Nat) : Shrunk b (b.close i) := by
  unfold BSys.close
  split
  · exact ⟨fun _ _ _ => rfl, fun y hy => ⟨y, hy, rfl⟩⟩
  · rename_i hi p w e
    refine shrunk_of (Fewer.release _ _) ?_
    intro y hy
    unfold bw_close_wait Kern.close at hy
    exact ⟨y, (List.mem_filter.1 hy).1, rfl⟩
  · exact .refl b

theorem close_ts_self (b : BSys) (i : Nat) : (b.close i).ts i = none := by
  unfold BSys.close
  cases e : b.ts i with
  | none => exact e
  | some t => cases t <;> (dsimp only; rw [upd_same])
theorem close_ts_other (b : BSys) {i j : Nat} (h : j ≠ i) : (b.close i).ts j = b.ts j := by
  unfold BSys.close
  cases e : b.ts i with
  | none => rfl
  | some t => cases t <;> (dsimp only; rw [upd_other _ _ h])

theorem shrunk_force (b : BSys) (i : Nat) (f : Bool) (os : Os) : Shrunk b (b.step (.force i f os)).1 := by
  unfold BSys.step BSys.force; dsimp only
  split
  · refine ⟨fun _ _ _ => rfl, fun y hy => ?_⟩
    obtain ⟨x, hx, e1, e2, e3⟩ := (bw_force_ids b.kern os _ f).symm.mem hy
    exact ⟨x, hx, by unfold Sock.id; rw [e1, e2, e3]⟩
  · exact .refl b
theorem force_ts (b : BSys) (i : Nat) (f : Bool) (os : Os) : (b.step (.force i f os)).1.ts = b.ts := by
  unfold BSys.step BSys.force; dsimp only
  split <;> rfl

theorem bw_open_wait_cases (k : Kern) (os : Os) (pid : Nat) (h : BwH) :
    ((bw_open_wait k os pid h).2.2 = none → Fewer h (bw_open_wait k os pid h).2.1 ∧ ∀ y ∈ (bw_open_wait k os pid h).1.socks, y ∈ k.socks) ∧
    (∀ w, (bw_open_wait k os pid h).2.2 = some w → (∀ n, n ≠ w.slotno → ((bw_open_wait k os pid h).2.1.wr n).pid ≠ 0 →
        ((bw_open_wait k os pid h).2.1.wr n).pid = (h.wr n).pid) ∧
      ∀ y ∈ (bw_open_wait k os pid h).1.socks, y.sid ≠ w.sid → y ∈ k.socks) := by
  unfold bw_open_wait
  by_cases ha : os.allocOk = false
  · rw [if_pos ha]
    exact ⟨fun _ => ⟨.refl h, fun y hy => hy⟩, fun w e => (by cases e)⟩
  rw [if_neg ha]
  have hf := Fewer.prune k os h
  generalize prune_handle k os h = g at hf
  unfold bw_reserve
  cases e1 : freeSlot g with
  | none => exact ⟨fun _ => ⟨hf, fun y hy => hy⟩, fun w e => (by cases e)⟩
  | some n =>
    dsimp only
    unfold make_socket
    by_cases hb : os.bindOk = false
    · rw [if_pos hb]; exact ⟨fun _ => ⟨hf, fun y hy => hy⟩, fun w e => (by cases e)⟩
    rw [if_neg hb]
    by_cases hl : (k.lookup os.bindName).isSome = true
    · rw [if_pos hl]; exact ⟨fun _ => ⟨hf, fun y hy => hy⟩, fun w e => (by cases e)⟩
    rw [if_neg hl]
    dsimp only
    have others : ∀ m, m ≠ n → (upd (upd g.wr n { pid := (g.wr n).pid, name := os.bindName }) n
        { pid := pid, name := (upd g.wr n { pid := (g.wr n).pid, name := os.bindName } n).name } m) = g.wr m := by
      intro m hm; rw [upd_other _ _ hm, upd_other _ _ hm]
    have undo' : ∀ U : Nat → WSlot, (∀ m, m ≠ n → U m = g.wr m) → Fewer h ⟨g.seqno + 1, upd U n ⟨0, (U n).name⟩⟩ := by
      intro U hU m hm
      dsimp only at hm ⊢
      by_cases e : m = n
      · subst e; rw [upd_same] at hm; exact absurd rfl hm
      · rw [upd_other _ _ e, hU m e] at hm ⊢
        exact hf m hm
    have undo := undo' _ others
    have gone : ∀ y ∈ (Kern.close ⟨k.socks ++ [⟨k.next, os.bindName, pid, 0⟩], k.next + 1⟩ k.next).socks, y ∈ k.socks := by
      intro y hy
      unfold Kern.close at hy
      obtain ⟨h1, h2⟩ := List.mem_filter.1 hy
      rcases List.mem_append.1 h1 with h1 | h1
      · exact h1
      · simp only [List.mem_singleton] at h1; subst h1; simp at h2
    cases connect _ _ os.selfOk with
    | none => exact ⟨fun _ => ⟨undo, gone⟩, fun w e => (by cases e)⟩
    | some tgt =>
      dsimp only
      by_cases hep : os.epollOk = false
      · rw [if_pos hep]; exact ⟨fun _ => ⟨undo, gone⟩, fun w e => (by cases e)⟩
      · rw [if_neg hep]
        refine ⟨fun e => (by cases e), fun w e => ?_⟩
        cases e
        refine ⟨fun m hm h0 => ?_, fun y hy hs => ?_⟩
        · dsimp only at hm h0 ⊢
          rw [others m hm] at h0 ⊢
          exact hf m h0
        · rcases List.mem_append.1 hy with h1 | h1
          · exact h1
          · simp only [List.mem_singleton] at h1; subst h1; exact absurd rfl hs

/-- What opening a wait-mode handle does: nothing on failure; on success it adds exactly the slot and the socket that closing it removes. -/
theorem openWait_cases (b : BSys) (i hi p : Nat) (os : Os) (hts : b.ts i = none) :
    ((b.step (.openWait i hi p os)).2 = false → Shrunk b (b.step (.openWait i hi p os)).1 ∧ (b.step (.openWait i hi p os)).1.ts = b.ts) ∧
    ((b.step (.openWait i hi p os)).2 = true → ∀ b2, Shrunk (b.step (.openWait i hi p os)).1 b2 → b2.ts i = (b.step (.openWait i hi p os)).1.ts i →
      Shrunk b (b2.close i)) := by
  unfold BSys.step; dsimp only
  rw [hts]
  by_cases hp : p = 0
  · rw [if_pos (by simp [hp])]
    exact ⟨fun _ => ⟨.refl b, rfl⟩, fun h => by cases h⟩
  · rw [if_neg (by simp [hp])]
    unfold BSys.openWait
    have hc := bw_open_wait_cases b.kern os p (b.hd hi)
    generalize bw_open_wait b.kern os p (b.hd hi) = z at hc
    obtain ⟨k, h, ow⟩ := z
    dsimp only at hc
    cases ow with
    | none =>
      obtain ⟨c1, c2⟩ := hc.1 rfl
      exact ⟨fun _ => ⟨shrunk_of c1 (fun y hy => ⟨y, c2 y hy, rfl⟩), rfl⟩, fun h => by cases h⟩
    | some w =>
      obtain ⟨c1, c2⟩ := hc.2 w rfl
      refine ⟨fun h => (by cases h), fun _ b2 hs ht => ?_⟩
      dsimp only at hs ht
      rw [upd_same] at ht
      unfold BSys.close
      rw [ht]
      dsimp only
      constructor
      · intro hj n hn
        dsimp only at hn ⊢
        by_cases e : hj = hi
        · subst e
          rw [upd_same] at hn ⊢
          unfold bw_close_wait at hn ⊢
          dsimp only at hn ⊢
          by_cases en : n = w.slotno
          · subst en; exact absurd (release_pid _ _) hn
          · rw [release_other _ en] at hn ⊢
            have := hs.slots hj n hn
            dsimp only at this
            rw [upd_same] at this
            rw [this]; exact c1 n en (by rw [← this]; exact hn)
        · rw [upd_other _ _ e] at hn ⊢
          have := hs.slots hj n hn
          dsimp only at this
          rw [upd_other _ _ e] at this
          exact this
      · intro y hy
        unfold bw_close_wait Kern.close at hy
        obtain ⟨h1, h2⟩ := List.mem_filter.1 hy
        obtain ⟨x, hx, ex⟩ := hs.ids y h1
        refine ⟨x, c2 x hx ?_, ex⟩
        have : x.sid = y.sid := congrArg Prod.fst ex
        rw [this]; simpa using h2

theorem openWake_ts_step {b : BSys} {i hi p : Nat} {os : Os} {j : Nat} (h : j ≠ i) : (b.step (.openWake i hi p os)).1.ts j = b.ts j := by
  unfold BSys.step; dsimp only; split
  · rfl
  · exact openWake_ts _ _ _ _ _ h
theorem openWait_ts_step {b : BSys} {i hi p : Nat} {os : Os} {j : Nat} (h : j ≠ i) : (b.step (.openWait i hi p os)).1.ts j = b.ts j := by
  unfold BSys.step; dsimp only; split
  · rfl
  · exact openWait_ts _ _ _ _ _ h

/-- A failing `open_blockwake` leaves nothing behind. -/
theorem open_blockwake_fail {b : BSys} {k pid : Nat} {flags : Flags} {need : Bool} {u : Nat} {os : WOs} (h0 : b.ts (2 * k) = none)
    (h1 : b.ts (2 * k + 1) = none) (hf : (open_blockwake b k pid flags need u os).2 = false) :
    Shrunk b (b.runs (open_blockwake b k pid flags need u os).1) ∧ (b.runs (open_blockwake b k pid flags need u os).1).ts (2 * k) = none ∧
    (b.runs (open_blockwake b k pid flags need u os).1).ts (2 * k + 1) = none := by
  have hne : 2 * k ≠ 2 * k + 1 := by omega
  have hne' : 2 * k + 1 ≠ 2 * k := by omega
  unfold open_blockwake at hf ⊢
  by_cases hr : flags.has SHR_RDONLY = true
  · rw [if_pos hr] at hf ⊢
    dsimp only at hf ⊢
    obtain ⟨w1, w2⟩ := openWait_cases b (2 * k) 0 pid os.o1 h0
    have t1 := openWait_ts_step (b := b) (i := 2 * k) (hi := 0) (p := pid) (os := os.o1) hne'
    obtain ⟨x1, hx1⟩ : ∃ x, x = b.step (.openWait (2 * k) 0 pid os.o1) := ⟨_, rfl⟩
    rw [← hx1] at w1 w2 t1 hf ⊢
    have s2 := shrunk_openWake x1.1 (2 * k + 1) 1 pid os.o2
    have t2 := openWake_ts_step (b := x1.1) (i := 2 * k + 1) (hi := 1) (p := pid) (os := os.o2) hne
    have close_all : ∀ b2 : BSys, Shrunk x1.1 b2 → b2.ts (2 * k) = x1.1.ts (2 * k) →
        Shrunk b ((b2.close (2 * k + 1)).close (2 * k)) := by
      intro b2 hs ht
      have hs' := hs.trans (shrunk_close b2 (2 * k + 1))
      cases e : x1.2 with
      | true => exact w2 e _ hs' (by rw [close_ts_other _ hne]; exact ht)
      | false => exact ((w1 e).1.trans hs').trans (shrunk_close _ _)
    have ts_all : ∀ b2 : BSys, ((b2.close (2 * k + 1)).close (2 * k)).ts (2 * k) = none ∧ ((b2.close (2 * k + 1)).close (2 * k)).ts (2 * k + 1) = none :=
      fun b2 => ⟨close_ts_self _ _, by rw [close_ts_other _ hne']; exact close_ts_self _ _⟩
    subst hx1
    split
    · exact ⟨close_all _ s2 t2, ts_all _⟩
    · rename_i hok
      rw [if_neg hok] at hf
      split
      · exact ⟨close_all _ (s2.trans (shrunk_force _ _ _ _)) (by rw [force_ts]; exact t2), ts_all _⟩
      · rename_i hok2; rw [if_neg hok2] at hf; cases hf
  · rw [if_neg hr] at hf ⊢
    dsimp only at hf ⊢
    have s1 := shrunk_openWake b (2 * k) 0 pid os.o1
    have f1 := openWake_fail_ts (b := b) (i := 2 * k) (hi := 0) (p := pid) (os := os.o1)
    have t1 := openWake_ts_step (b := b) (i := 2 * k) (hi := 0) (p := pid) (os := os.o1) hne'
    by_cases hx : (b.step (.openWake (2 * k) 0 pid os.o1)).2 = false
    · rw [if_pos hx]
      have := f1 hx
      exact ⟨s1, (congrFun this _).trans h0, (congrFun this _).trans h1⟩
    · rw [if_neg hx] at hf ⊢
      by_cases hn : need = true
      · rw [if_pos hn] at hf ⊢
        obtain ⟨w1, _⟩ := openWait_cases (b.step (.openWake (2 * k) 0 pid os.o1)).1 (2 * k + 1) 1 pid os.o2 (t1.trans h1)
        by_cases hy : ((b.step (.openWake (2 * k) 0 pid os.o1)).1.step (.openWait (2 * k + 1) 1 pid os.o2)).2 = false
        · rw [if_pos hy]
          obtain ⟨g1, g2⟩ := w1 hy
          refine ⟨(s1.trans g1).trans (shrunk_close _ _), close_ts_self _ _, ?_⟩
          exact (close_ts_other _ hne').trans ((congrFun g2 _).trans (t1.trans h1))
        · rw [if_neg hy] at hf; cases hf
      · rw [if_neg hn] at hf; cases hf

end Shr
