import Verif.Model.Res
/-! # What a process holds: triples for the ledger -/
namespace Shr

/-- Occurrences of `x` in a list of one. -/
def one (a x : Nat) : Nat := [x].count a
theorem cnt_cons (a x : Nat) (l : List Nat) : (x :: l).count a = one a x + l.count a := by
  unfold one; rw [show x :: l = [x] ++ l from rfl, List.count_append]

/-- Equal up to order, by counting. -/
macro "counts" : tactic => `(tactic| (
  refine List.perm_iff_count.2 fun a => ?_
  simp only [List.count_append, cnt_cons, List.count_nil, List.append_nil, List.nil_append]
  try omega))

/-- Nothing has been released twice, and everything that is held has a number of its own. -/
def Led.Good (s : Led) : Prop := s.bad = false ∧ s.live.Nodup ∧ ∀ i ∈ s.live, i < s.next

/-- `x`, started by a process that holds (at least) `A`, releases nothing that it does not hold, and afterwards the process
holds `B` with `Q` in place of `A`, and something more that is lost; nothing is lost if `c`. -/
def Tr {α : Type} (c : Prop) (A : List Nat) (x : RM α) (Q : α → List Nat → Prop) : Prop :=
  ∀ (s : Led) (F : List Nat), s.Good → s.live.Perm (A ++ F) →
    (x s).2.Good ∧ ∃ B L, Q (x s).1 B ∧ (x s).2.live.Perm (B ++ (L ++ F)) ∧ (c → L = [])

namespace Tr
variable {α β : Type} {c c' : Prop} {A A' : List Nat} {Q Q' : α → List Nat → Prop}

theorem pure {a : α} (h : Q a A) : Tr c A (Pure.pure a : RM α) Q := fun _ _ hb hp => ⟨hb, A, [], h, hp, fun _ => rfl⟩

theorem bind {x : RM α} {f : α → RM β} {R : β → List Nat → Prop} (hx : Tr c A x Q) (hf : ∀ a B, Q a B → Tr c B (f a) R) :
    Tr c A (x >>= f) R := by
  intro s F hb hp
  obtain ⟨h1, B, L, h2, h3, h4⟩ := hx s F hb hp
  obtain ⟨g1, B', L', g2, g3, g4⟩ := hf _ B h2 _ _ h1 h3
  refine ⟨g1, B', L' ++ L, g2, g3.trans ?_, fun hc => by rw [g4 hc, h4 hc]; rfl⟩
  counts

theorem perm {x : RM α} (h : Tr c A' x Q) (hp : A.Perm A') : Tr c A x Q :=
  fun s F hb hs => h s F hb (hs.trans (hp.append_right F))

theorem mono {x : RM α} (h : Tr c A x Q) (hq : ∀ a B, Q a B → ∃ B', B.Perm B' ∧ Q' a B') : Tr c A x Q' := by
  intro s F hb hp
  obtain ⟨h1, B, L, h2, h3, h4⟩ := h s F hb hp
  obtain ⟨B', g1, g2⟩ := hq _ _ h2
  exact ⟨h1, B', L, g2, h3.trans (g1.append_right _), h4⟩

theorem clean {x : RM α} (h : Tr c A x Q) (hc : c' → c) : Tr c' A x Q := by
  intro s F hb hp
  obtain ⟨h1, B, L, h2, h3, h4⟩ := h s F hb hp
  exact ⟨h1, B, L, h2, h3, fun h => h4 (hc h)⟩

theorem and {x : RM α} {R : α → Prop} (h : Tr c A x Q) (hr : ∀ s, R (x s).1) : Tr c A x (fun a B => Q a B ∧ R a) := by
  intro s F hb hp
  obtain ⟨h1, B, L, h2, h3, h4⟩ := h s F hb hp
  exact ⟨h1, B, L, ⟨h2, hr s⟩, h3, h4⟩

theorem frame {x : RM α} {G : List Nat} (h : Tr c A x Q) : Tr c (A ++ G) x (fun a B => ∃ B', Q a B' ∧ B.Perm (B' ++ G)) := by
  intro s F hb hp
  obtain ⟨h1, B, L, h2, h3, h4⟩ := h s (G ++ F) hb (by simpa using hp)
  refine ⟨h1, B ++ G, L, ⟨B, h2, .refl _⟩, h3.trans ?_, h4⟩
  counts

/-- What is not mentioned any more is lost. -/
theorem lose {x : RM α} {G : List Nat} (h : Tr c A x Q) (hc : c → G = []) : Tr c (A ++ G) x Q := by
  intro s F hb hp
  obtain ⟨h1, B, L, h2, h3, h4⟩ := h s (G ++ F) hb (by simpa using hp)
  refine ⟨h1, B, L ++ G, h2, h3.trans ?_, fun h => by rw [h4 h, hc h]; rfl⟩
  counts

theorem ite {d : Prop} [Decidable d] {x y : RM α} (hx : d → Tr c A x Q) (hy : ¬ d → Tr c A y Q) : Tr c A (if d then x else y) Q := by
  split
  · exact hx ‹_›
  · exact hy ‹_›

theorem acquire {Q : Nat → List Nat → Prop} (h : ∀ i, Q i (i :: A)) : Tr c A Shr.acquire Q := by
  intro s F hb hp
  refine ⟨⟨hb.1, List.nodup_cons.2 ⟨fun hm => Nat.lt_irrefl _ (hb.2.2 _ hm), hb.2.1⟩, ?_⟩, s.next :: A, [], h _, ?_, fun _ => rfl⟩
  · intro i hi
    show i < s.next + 1
    rcases List.mem_cons.1 hi with rfl | hi
    · omega
    · have := hb.2.2 i hi; omega
  · exact hp.cons _

theorem release {i : Nat} {Q : Unit → List Nat → Prop} (hA : A.Perm (i :: A')) (h : Q () A') : Tr c A (Shr.release i) Q := by
  intro s F hb hp
  have hp' : s.live.Perm (i :: (A' ++ F)) := hp.trans (hA.append_right F)
  refine ⟨⟨?_, hb.2.1.erase i, fun j hj => hb.2.2 j (List.mem_of_mem_erase hj)⟩, A', [], h, ?_, fun _ => rfl⟩
  · have : i ∈ s.live := hp'.mem_iff.2 (by simp)
    simp [Shr.release, hb.1, this]
  · have := hp'.erase i
    rw [List.erase_cons_head] at this
    exact this

theorem releaseOpt {o : Option Nat} {Q : Unit → List Nat → Prop} (hA : A.Perm (o.toList ++ A')) (h : Q () A') : Tr c A (Shr.releaseOpt o) Q := by
  cases o with
  | none => exact (Tr.pure (Q := Q) h).perm hA
  | some i => exact .release hA h
end Tr

/-! ## lib/ux.c -/

/-- The test does not lose the directory. -/
def PidEnv.Clean (e : PidEnv) : Prop := e.alive = true → e.opendirOk = true → e.walkOk = true

theorem getInodesR_tr {A : List Nat} {e : PidEnv} (ha : e.alive = true) : Tr e.Clean A (getInodesR e) (fun _ B => B = A) := by
  unfold getInodesR
  refine .ite (fun _ => .pure rfl) fun ho => .bind (.acquire (Q := fun i B => B = i :: A) fun _ => rfl) ?_
  rintro i B rfl
  refine .ite (fun hw => ?_) fun _ => .bind (.release (Q := fun _ B => B = A) (.refl _) rfl) ?_
  · refine (Tr.lose (A := A) (G := [i]) (Q := fun _ B => B = A) (.pure rfl) fun hc => ?_).perm (A := i :: A) (by counts)
    rw [hc ha (by simpa using ho)] at hw; cases hw
  · rintro _ B rfl; exact Tr.pure (Q := fun _ B' => B' = B) rfl

theorem slurpLoopR_tr {c : Prop} {A : List Nat} : ∀ (l : List (Bool × Bool)) (buf : Option Nat),
    Tr c (buf.toList ++ A) (slurpLoopR buf l) (fun r B => B.Perm (r.1.toList ++ A))
  | [], _ => .pure (.refl _)
  | (ra, rd) :: rest, buf => by
    unfold slurpLoopR
    refine .ite (fun _ => .pure (.refl _)) fun _ => .bind (Q := fun b B => B = b :: A) ?_ ?_
    · unfold reallocR
      refine .bind (.releaseOpt (Q := fun _ B => B = A) (.refl _) rfl) ?_
      rintro _ B rfl
      exact .acquire fun _ => rfl
    · rintro b B rfl
      exact .ite (fun _ => .pure (.refl _)) fun _ => slurpLoopR_tr rest (some b)

theorem slurpR_tr {c : Prop} {A : List Nat} (e : PidEnv) : Tr c A (slurpR e) (fun r B => B.Perm (r.toList ++ A)) := by
  unfold slurpR
  refine .ite (fun _ => .pure (.refl _)) fun _ => .bind (.acquire (Q := fun i B => B = i :: A) fun _ => rfl) ?_
  rintro fd B rfl
  refine .bind (slurpLoopR_tr (A := fd :: A) _ none) ?_
  rintro ⟨buf, ok⟩ B hB
  dsimp only at hB ⊢
  refine .bind (.release (Q := fun _ B => B = buf.toList ++ A) (hB.trans (by counts)) rfl) ?_
  rintro _ B rfl
  refine .ite (fun _ => .bind (.releaseOpt (Q := fun _ B => B = A) (.refl _) rfl) ?_) fun _ => .pure (.refl _)
  rintro _ B rfl
  exact .pure (.refl _)

theorem hasPidR_tr {A : List Nat} (e : PidEnv) : Tr e.Clean A (hasPidR e) (fun _ B => B = A) := by
  unfold hasPidR
  refine .ite (fun _ => .pure rfl) fun ha => .bind (getInodesR_tr (by simpa using ha)) ?_
  rintro ok B rfl
  refine .ite (fun _ => .pure rfl) fun _ => ?_
  unfold hasNameR
  refine .bind (slurpR_tr e) ?_
  rintro buf B' hB
  cases buf with
  | none => exact (Tr.pure (Q := fun _ B' => B' = B) rfl).perm hB
  | some b =>
    refine .bind (.release (Q := fun _ B' => B' = B) hB rfl) ?_
    rintro _ B' rfl
    exact .pure rfl

/-- /proc/net/unix could be read. -/
def PidEnv.slurped (e : PidEnv) : Bool := e.openOk && (e.first :: e.rounds).all fun r => r.1 && r.2

/-- `has_pid_socket` finds that the process or its socket does not exist. -/
def PidEnv.Extinct (e : PidEnv) : Prop :=
  e.alive = false ∨ (e.opendirOk = true ∧ e.walkOk = true ∧ e.slurped = true ∧ e.answer = 0)

theorem slurpLoopR_val (l : List (Bool × Bool)) : ∀ (buf : Option Nat) (s : Led), (l.all fun r => r.1 && r.2) = true →
    (slurpLoopR buf l s).1.2 = true ∧ (buf.isSome = true ∨ l ≠ [] → (slurpLoopR buf l s).1.1.isSome = true) := by
  induction l with
  | nil => intro buf s _; exact ⟨rfl, fun h => (by simpa using h : buf.isSome = true)⟩
  | cons r l ih =>
    obtain ⟨a, b⟩ := r
    intro buf s h
    simp only [List.all_cons, Bool.and_eq_true] at h
    obtain ⟨⟨rfl, rfl⟩, h⟩ := h
    obtain ⟨h1, h2⟩ := ih (some (reallocR buf s).1) (reallocR buf s).2 h
    exact ⟨h1, fun _ => h2 (.inl rfl)⟩

theorem slurpR_val {e : PidEnv} (h : e.slurped = true) (s : Led) : (slurpR e s).1.isSome = true := by
  unfold PidEnv.slurped at h
  rw [Bool.and_eq_true] at h
  unfold slurpR
  rw [if_neg (by rw [h.1]; simp)]
  obtain ⟨h1, h2⟩ := slurpLoopR_val _ none (acquire s).2 h.2
  show ((if (slurpLoopR none (e.first :: e.rounds) (acquire s).2).1.2 = false then _ else _ : RM (Option Nat)) _).1.isSome = true
  rw [if_neg (by rw [h1]; simp)]
  exact h2 (.inr (by simp))

theorem hasPidR_val {e : PidEnv} (h : e.Extinct) (s : Led) : (hasPidR e s).1 = 0 := by
  unfold hasPidR
  by_cases ha : e.alive = false
  · rw [if_pos ha]; rfl
  · rw [if_neg ha]
    obtain ⟨h1, h2, h3, h4⟩ := h.resolve_left ha
    have key : ∀ s, (hasNameR e s).1 = 0 := by
      intro s
      have := slurpR_val h3 s
      show ((match (slurpR e s).1 with | none => _ | some b => _ : RM Int) _).1 = 0
      cases hq : (slurpR e s).1 with
      | none => rw [hq] at this; cases this
      | some b => exact h4
    show ((if (getInodesR e s).1 = false then _ else _ : RM Int) _).1 = 0
    have hg : (getInodesR e s).1 = true := by
      unfold getInodesR
      rw [if_neg (by rw [h1]; simp)]
      show ((if e.walkOk = false then _ else _ : RM Bool) _).1 = true
      rw [if_neg (by rw [h2]; simp)]
      rfl
    rw [if_neg (by rw [hg]; simp)]
    exact key _

/-! ## lib/bw.c -/

theorem pruneR_tr {A : List Nat} : ∀ es : List PidEnv, Tr (∀ e ∈ es, e.Clean) A (pruneR es) (fun _ B => B = A)
  | [] => .pure rfl
  | e :: es => by
    unfold pruneR
    refine .bind ((hasPidR_tr e).clean fun h => h e (by simp)) ?_
    rintro _ B rfl
    exact (pruneR_tr es).clean fun h x hx => h x (by simp [hx])

/-- The sockets of a list. -/
def socks (l : List (Option Nat)) : List Nat := l.flatMap Option.toList

theorem socks_cons (f : Option Nat) (l : List (Option Nat)) : socks (f :: l) = f.toList ++ socks l := rfl
theorem socks_none (n : Nat) : socks (List.replicate n none) = [] := by
  induction n with
  | zero => rfl
  | succ n ih => rw [List.replicate_succ, socks_cons, ih]; rfl

/-- The slot is free, or its socket can be connected, or its process or socket does not exist any more. -/
def SlotEnv.Clean (e : SlotEnv) : Prop := e.used = true → e.sockOk = true ∧ (e.connOk = true ∨ e.pid.Extinct)

/-- The test of the process does not lose the directory. -/
def SlotEnv.PidClean (e : SlotEnv) : Prop := e.pid.Clean

theorem openSocketR_tr {A : List Nat} {e : SlotEnv} (hu : e.used = true) :
    Tr e.PidClean A (openSocketR e) (fun r B => B.Perm (r.1.toList ++ A) ∧ (e.Clean → r.2 = true)) := by
  unfold openSocketR
  refine .ite (fun h => .pure ⟨.refl _, fun hc => by rw [(hc hu).1] at h; cases h⟩) fun _ => .bind (.acquire (Q := fun i B => B = i :: A) fun _ => rfl) ?_
  rintro fd B rfl
  refine .ite (fun _ => .pure ⟨.refl _, fun _ => rfl⟩) fun hc => .bind (.release (Q := fun _ B => B = A) (.refl _) rfl) ?_
  rintro _ B rfl
  refine .bind ((hasPidR_tr e.pid).and (R := fun sc => e.pid.Extinct → sc = 0) fun s h => hasPidR_val h s) ?_
  rintro sc B' ⟨rfl, hv⟩
  exact .pure ⟨.refl _, fun h => by rw [hv ((h hu).2.resolve_left hc)]; rfl⟩

theorem syncR_tr {A : List Nat} : ∀ (fs : List (Option Nat)) (es : List SlotEnv),
    Tr (∀ e ∈ es, e.PidClean) (socks fs ++ A) (syncR fs es)
      (fun r B => B.Perm (socks r.1 ++ A) ∧ r.1.length = fs.length ∧ ((∀ e ∈ es, e.Clean) → r.2 = true))
  | f :: fs, e :: es => by
    unfold syncR
    refine .bind (Q := fun f1 B => B.Perm (f1.toList ++ (socks fs ++ A))) ?_ ?_
    · rw [socks_cons]
      refine .ite (fun _ => .bind (.releaseOpt (Q := fun _ B => B = socks fs ++ A) (by counts) rfl) ?_) fun _ => .pure (by counts)
      rintro _ B rfl
      exact .pure (.refl _)
    · intro f1 B hB
      refine .bind (Q := fun r B => B.Perm (r.1.toList ++ (socks fs ++ A)) ∧ (e.Clean → r.2 = true)) ?_ ?_
      · refine .ite (fun h => ?_) fun _ => .pure ⟨hB, fun _ => rfl⟩
        rw [h.2] at hB
        exact ((openSocketR_tr h.1).clean fun h => h e (by simp)).perm hB
      · rintro ⟨f2, ok⟩ B ⟨hB, hok⟩
        dsimp only at hB hok ⊢
        refine .ite (fun h => .pure ⟨by rw [socks_cons]; exact hB.trans (by counts), rfl, fun hc => ?_⟩) fun _ => ?_
        · rw [hok (hc e (by simp))] at h; cases h
        · refine .bind (((syncR_tr (A := f2.toList ++ A) fs es).clean fun h x hx => h x (by simp [hx])).perm (hB.trans (by counts))) ?_
          rintro ⟨rest, ok2⟩ B ⟨hB, hl, hok2⟩
          dsimp only at hB hl hok2 ⊢
          exact .pure ⟨by rw [socks_cons]; exact hB.trans (by counts), by simp [hl], fun hc => hok2 fun x hx => hc x (by simp [hx])⟩
  | [], _ => by unfold syncR; exact .pure ⟨.refl _, rfl, fun _ => rfl⟩
  | _ :: _, [] => by unfold syncR; exact .pure ⟨.refl _, rfl, fun _ => rfl⟩

/-- What a block/wake handle holds. -/
def BwR.res (w : BwR) : List Nat :=
  w.mem :: (socks w.fds ++ ((match w.wait with | none => [] | some (l, s, p) => [l, s, p]) ++ w.drain.toList))

/-- The form of a block/wake handle: in wake mode it has no buffer for draining. -/
def BwR.Ok (w : BwR) : Prop := w.fds.length = 64 ∧ (w.wait = none → w.drain = none)

/-- The resources of a handle that may be NULL. -/
def resOpt : Option BwR → List Nat
  | none => []
  | some w => w.res
def okOpt : Option BwR → Prop
  | none => True
  | some w => w.Ok

/-- `bw_open(BW_WAKE)` loses nothing. -/
def BwEnv.CleanWake (e : BwEnv) : Prop := (∀ p ∈ e.prune, p.Clean) ∧ ∀ s ∈ e.slots, s.Clean ∧ s.pid.Clean

/-- `bw_open(BW_WAIT)` loses nothing. -/
def BwEnv.CleanWait (e : BwEnv) : Prop := ∀ p ∈ e.prune, p.Clean

theorem bwOpenWakeR_tr {A : List Nat} (e : BwEnv) :
    Tr e.CleanWake A (bwOpenWakeR e) (fun r B => B.Perm (resOpt r ++ A) ∧ okOpt r ∧ ∀ w, r = some w → w.wait = none) := by
  unfold bwOpenWakeR
  refine .ite (fun _ => .pure ⟨.refl _, trivial, (fun _ h => nomatch h)⟩) fun _ => .bind (.acquire (Q := fun i B => B = i :: A) fun _ => rfl) ?_
  rintro mem B rfl
  refine .bind ((pruneR_tr e.prune).clean fun h => h.1) ?_
  rintro _ B rfl
  refine .bind (((syncR_tr (A := mem :: A) (List.replicate 64 none) e.slots).clean fun h x hx => (h.2 x hx).2).perm (by rw [socks_none]; exact .refl _)) ?_
  rintro ⟨fds, ok⟩ B ⟨hB, hl, hok⟩
  dsimp only at hB hl hok ⊢
  refine .ite (fun h => ?_) fun _ => .pure ⟨hB.trans ?_, ⟨by rw [hl]; exact List.length_replicate, fun _ => rfl⟩, fun w hw => by cases hw; rfl⟩
  · refine (Tr.lose (A := mem :: A) (G := socks fds) (.bind (.release (Q := fun _ B => B = A) (.refl _) rfl) ?_) fun hc => ?_).perm (hB.trans (by counts))
    · rintro _ B rfl; exact .pure ⟨.refl _, trivial, (fun _ h => nomatch h)⟩
    · rw [hok fun x hx => (hc.2 x hx).1] at h; cases h
  · unfold resOpt BwR.res
    simp only [Option.toList_none]
    counts

theorem makeSocketR_tr {c : Prop} {A : List Nat} (e : BwEnv) : Tr c A (makeSocketR e) (fun r B => B.Perm (r.toList ++ A)) := by
  unfold makeSocketR
  refine .ite (fun _ => .pure (.refl _)) fun _ => .bind (.acquire (Q := fun i B => B = i :: A) fun _ => rfl) ?_
  rintro fd B rfl
  refine .ite (fun _ => .bind (.release (Q := fun _ B => B = A) (.refl _) rfl) ?_) fun _ => .pure (.refl _)
  rintro _ B rfl; exact .pure (.refl _)

theorem connectSelfR_tr {c : Prop} {A : List Nat} (e : BwEnv) : Tr c A (connectSelfR e) (fun r B => B.Perm (r.toList ++ A)) := by
  unfold connectSelfR
  refine .ite (fun _ => .pure (.refl _)) fun _ => .bind (.acquire (Q := fun i B => B = i :: A) fun _ => rfl) ?_
  rintro fd B rfl
  refine .ite (fun _ => .bind (.release (Q := fun _ B => B = A) (.refl _) rfl) ?_) fun _ => .pure (.refl _)
  rintro _ B rfl; exact .pure (.refl _)

theorem bwOpenWaitR_tr {A : List Nat} (e : BwEnv) :
    Tr e.CleanWait A (bwOpenWaitR e) (fun r B => B.Perm (resOpt r ++ A) ∧ okOpt r) := by
  unfold bwOpenWaitR
  refine .ite (fun _ => .pure ⟨.refl _, trivial⟩) fun _ => .bind (.acquire (Q := fun i B => B = i :: A) fun _ => rfl) ?_
  rintro mem B rfl
  refine .bind (pruneR_tr e.prune) ?_
  rintro _ B rfl
  extract_lets fail
  have hfail : ∀ (l s p : Option Nat) (B : List Nat), B.Perm (l.toList ++ (s.toList ++ (p.toList ++ (mem :: A)))) →
      Tr e.CleanWait B (fail l s p) (fun r B => B.Perm (resOpt r ++ A) ∧ okOpt r) := by
    intro l s p B hB
    refine .bind (.releaseOpt (Q := fun _ B => B = s.toList ++ (p.toList ++ (mem :: A))) hB rfl) ?_
    rintro _ B rfl
    refine .bind (.releaseOpt (Q := fun _ B => B = p.toList ++ (mem :: A)) (.refl _) rfl) ?_
    rintro _ B rfl
    refine .bind (.releaseOpt (Q := fun _ B => B = mem :: A) (.refl _) rfl) ?_
    rintro _ B rfl
    refine .bind (.release (Q := fun _ B => B = A) (.refl _) rfl) ?_
    rintro _ B rfl
    exact .pure ⟨.refl _, trivial⟩
  refine .ite (fun _ => hfail none none none _ (.refl _)) fun _ => .bind (makeSocketR_tr e) ?_
  rintro l B hB
  cases l with
  | none => exact hfail none none none _ hB
  | some l =>
    refine .bind (connectSelfR_tr e) ?_
    rintro s B' hB'
    cases s with
    | none => exact hfail (some l) none none _ (hB'.trans hB)
    | some s =>
      have h2 : B'.Perm (s :: l :: mem :: A) := hB'.trans (hB.cons s)
      refine .ite (fun _ => hfail (some l) (some s) none _ (h2.trans (by simp only [Option.toList]; counts))) fun _ => .bind (.acquire (Q := fun i B => B = i :: B') fun _ => rfl) ?_
      rintro p B rfl
      refine .ite (fun _ => hfail (some l) (some s) (some p) _ ((h2.cons p).trans (by simp only [Option.toList]; counts))) fun _ => ?_
      refine .pure ⟨(h2.cons p).trans ?_, List.length_replicate, (fun h => nomatch h)⟩
      unfold resOpt BwR.res
      simp only [socks_none, Option.toList]
      counts

theorem closeAllR_tr {c : Prop} {A : List Nat} : ∀ fs : List (Option Nat), Tr c (socks fs ++ A) (closeAllR fs) (fun _ B => B = A)
  | [] => .pure rfl
  | f :: fs => by
    unfold closeAllR
    refine .bind (.releaseOpt (Q := fun _ B => B = socks fs ++ A) (by rw [socks_cons]; counts) rfl) ?_
    rintro _ B rfl
    exact closeAllR_tr fs

theorem bwCloseR_tr {c : Prop} {A : List Nat} {w : BwR} (hw : w.Ok) : Tr c (w.res ++ A) (bwCloseR w) (fun _ B => B = A) := by
  unfold bwCloseR
  refine .bind ((closeAllR_tr (A := w.mem :: ((match w.wait with | none => [] | some (l, s, p) => [l, s, p]) ++ w.drain.toList ++ A)) w.fds).perm
    (by unfold BwR.res; counts)) ?_
  rintro _ B rfl
  refine .bind (Q := fun _ B => B = w.mem :: A) ?_ ?_
  · have h2 := hw.2
    cases hwt : w.wait with
    | none => rw [h2 hwt]; exact .pure rfl
    | some x =>
      obtain ⟨l, s, p⟩ := x
      dsimp only
      refine .bind (.release (Q := fun _ B => B = s :: p :: (w.drain.toList ++ (w.mem :: A))) (by counts) rfl) ?_
      rintro _ B rfl
      refine .bind (.release (Q := fun _ B => B = p :: (w.drain.toList ++ (w.mem :: A))) (.refl _) rfl) ?_
      rintro _ B rfl
      refine .bind (.release (Q := fun _ B => B = (w.drain.toList ++ (w.mem :: A))) (.refl _) rfl) ?_
      rintro _ B rfl
      exact .releaseOpt (.refl _) rfl
  · rintro _ B rfl
    exact .release (.refl _) rfl

theorem bwCloseOptR_tr {c : Prop} {A : List Nat} {w : Option BwR} (hw : okOpt w) : Tr c (resOpt w ++ A) (bwCloseOptR w) (fun _ B => B = A) := by
  cases w with
  | none => exact .pure rfl
  | some w => exact bwCloseR_tr hw

theorem wakeAllR_tr {c : Prop} {A : List Nat} : ∀ (fs : List (Option Nat)) (sends : List Bool),
    Tr c (socks fs ++ A) (wakeAllR fs sends) (fun r B => B.Perm (socks r ++ A) ∧ r.length = fs.length)
  | [], _ => by unfold wakeAllR; exact .pure ⟨.refl _, rfl⟩
  | some _ :: _, [] => by unfold wakeAllR; exact .pure ⟨.refl _, rfl⟩
  | none :: _, [] => by unfold wakeAllR; exact .pure ⟨.refl _, rfl⟩
  | some f :: fs, false :: sends => by
    unfold wakeAllR
    refine .bind (.release (Q := fun _ B => B = socks fs ++ A) (by rw [socks_cons]; exact .refl _) rfl) ?_
    rintro _ B rfl
    refine .bind (wakeAllR_tr fs sends) ?_
    rintro r B ⟨hB, hl⟩
    exact .pure ⟨hB, by simp [hl]⟩
  | some f :: fs, true :: sends => by
    unfold wakeAllR
    refine .bind ((wakeAllR_tr (A := f :: A) fs sends).perm (by rw [socks_cons]; simp only [Option.toList]; counts)) ?_
    rintro r B ⟨hB, hl⟩
    exact .pure ⟨by rw [socks_cons]; simp only [Option.toList]; exact hB.trans (by counts), by simp [hl]⟩
  | none :: fs, b :: sends => by
    unfold wakeAllR
    refine .bind (wakeAllR_tr fs sends) ?_
    rintro r B ⟨hB, hl⟩
    exact .pure ⟨hB, by simp [hl]⟩

/-- `bw_wake` loses nothing. -/
def WakeEnv.Clean (e : WakeEnv) : Prop := ∀ s ∈ e.slots, s.pid.Clean

theorem bwWakeR_tr {A : List Nat} {w : BwR} (hw : w.Ok) (e : WakeEnv) :
    Tr e.Clean (w.res ++ A) (bwWakeR w e) (fun r B => B.Perm (r.res ++ A) ∧ r.Ok) := by
  unfold bwWakeR
  refine .ite (fun _ => .pure ⟨.refl _, hw⟩) fun _ => ?_
  have key : ∀ (l : List (Option Nat)) (B : List Nat), B.Perm (socks l ++ (w.mem :: ((match w.wait with | none => [] | some (l, s, p) => [l, s, p]) ++ w.drain.toList ++ A))) →
      B.Perm (BwR.res { w with fds := l } ++ A) := by
    intro l B h
    unfold BwR.res
    exact h.trans (by dsimp only; counts)
  refine .bind ((syncR_tr (A := w.mem :: ((match w.wait with | none => [] | some (l, s, p) => [l, s, p]) ++ w.drain.toList ++ A)) w.fds e.slots).perm
    (by unfold BwR.res; counts)) ?_
  rintro ⟨fds, ok⟩ B ⟨hB, hl, _⟩
  dsimp only at hB hl ⊢
  refine .ite (fun _ => .pure ⟨key _ _ hB, by dsimp only; rw [hl]; exact hw.1, hw.2⟩) fun _ => .bind ((wakeAllR_tr fds e.sends).perm hB) ?_
  rintro r B ⟨hB, hl2⟩
  exact .pure ⟨key _ _ hB, by dsimp only; rw [hl2, hl]; exact hw.1, hw.2⟩

theorem bwForceR_tr {c : Prop} {A : List Nat} {w : BwR} (hw : w.Ok) (drains callocOk : Bool) :
    Tr c (w.res ++ A) (bwForceR w drains callocOk) (fun r B => B.Perm (r.res ++ A) ∧ r.Ok) := by
  unfold bwForceR
  refine .ite (fun h => .bind (.acquire (Q := fun i B => B = i :: (w.res ++ A)) fun _ => rfl) ?_) fun _ => .pure ⟨.refl _, hw⟩
  rintro d B rfl
  refine .pure ⟨?_, hw.1, fun hn => absurd hn h.1⟩
  unfold BwR.res
  rw [h.2.2.1]
  simp only [Option.toList]
  counts

/-! ## src/shr.c -/

/-- What a ring handle holds. -/
def ShrR.res (s : ShrR) : List Nat :=
  s.mem :: s.ringFd :: s.map :: (resOpt s.w2r ++ (resOpt s.r2w ++ (s.cbuf.toList ++ s.ciov.toList)))
def ShrR.Ok (s : ShrR) : Prop := okOpt s.w2r ∧ okOpt s.r2w

def resShr : Option ShrR → List Nat
  | none => []
  | some s => s.res
def okShr : Option ShrR → Prop
  | none => True
  | some s => s.Ok

theorem initR_tr {c : Prop} {A : List Nat} (a b d e f g h : Bool) : Tr c A (initR a b d e f g h) (fun _ B => B = A) := by
  unfold initR
  refine .ite (fun _ => .pure rfl) fun _ => .ite (fun _ => .pure rfl) fun _ => .ite (fun _ => .pure rfl) fun _ => .ite (fun _ => .pure rfl) fun _ => ?_
  refine .bind (.acquire (Q := fun i B => B = i :: A) fun _ => rfl) ?_
  rintro fd B rfl
  refine .ite (fun _ => .bind (.release (Q := fun _ B => B = A) (.refl _) rfl) ?_) fun _ => ?_
  · rintro _ B rfl; exact Tr.pure (Q := fun _ B' => B' = B) rfl
  · refine .bind (.acquire (Q := fun i B => B = i :: fd :: A) fun _ => rfl) ?_
    rintro m B rfl
    refine .bind (.release (Q := fun _ B => B = m :: A) (by counts) rfl) ?_
    rintro _ B rfl
    refine .bind (.release (Q := fun _ B => B = A) (.refl _) rfl) ?_
    rintro _ B rfl
    exact Tr.pure (Q := fun _ B' => B' = B) rfl

theorem blockwakeRdR_tr {A : List Nat} (e : OpenREnv) :
    Tr (e.rdWait.CleanWait ∧ e.rdWake.CleanWake) A (blockwakeRdR e)
      (fun r B => B.Perm (resOpt r.1 ++ (resOpt r.2.1 ++ A)) ∧ okOpt r.1 ∧ okOpt r.2.1) := by
  unfold blockwakeRdR
  refine .bind ((bwOpenWaitR_tr e.rdWait).clean fun h => h.1) ?_
  rintro w2r B ⟨hB, hw⟩
  refine .bind ((bwOpenWakeR_tr e.rdWake).clean fun h => h.2) ?_
  rintro r2w B' ⟨hB', hr, _⟩
  have hp : B'.Perm (resOpt w2r ++ (resOpt r2w ++ A)) := (hB'.trans (hB.append_left _)).trans (by counts)
  cases w2r with
  | none => exact .pure ⟨hp, trivial, hr⟩
  | some w =>
    cases r2w with
    | none => exact .pure ⟨hp, hw, trivial⟩
    | some r =>
      refine .bind ((bwForceR_tr hw e.drains e.drainCallocOk).perm hp) ?_
      rintro w B ⟨hB, hw⟩
      exact .pure ⟨hB, hw, hr⟩

theorem blockwakeWrR_tr {A : List Nat} (flags gflags : Flags) (e : OpenREnv) {r2w : Option BwR} (hr : okOpt r2w) :
    Tr (e.wrWake.CleanWake ∧ e.wrWait.CleanWait ∧ r2w = none) (resOpt r2w ++ A) (blockwakeWrR flags gflags e r2w)
      (fun r B => B.Perm (resOpt r.1 ++ (resOpt r.2.1 ++ A)) ∧ okOpt r.1 ∧ okOpt r.2.1) := by
  unfold blockwakeWrR
  refine .bind ((bwOpenWakeR_tr e.wrWake).clean fun h => h.1) ?_
  rintro w2r B ⟨hB, hw, _⟩
  cases w2r with
  | none => exact .pure ⟨hB, trivial, hr⟩
  | some w =>
    refine .ite (fun _ => ?_) fun _ => .pure ⟨hB, hw, hr⟩
    refine (Tr.lose (A := resOpt (some w) ++ A) (G := resOpt r2w) (.bind ((bwOpenWaitR_tr e.wrWait).clean fun h => h.2.1) ?_) ?_).perm (hB.trans (by counts))
    · rintro r B' ⟨hB', hr'⟩
      exact .pure ⟨hB'.trans (by counts), hw, hr'⟩
    · rintro ⟨_, _, rfl⟩; rfl

/-- `shr_open` loses nothing: it is not for reading and for writing at the same time, none of the wake-up handles loses something, and nothing
fails after they were opened. -/
def OpenREnv.Clean (flags gflags : Flags) (e : OpenREnv) : Prop :=
  ¬ (flags.has SHR_RDONLY = true ∧ flags.has SHR_WRONLY = true) ∧
  (flags.has SHR_RDONLY = true → e.rdWait.CleanWait ∧ e.rdWake.CleanWake) ∧
  (flags.has SHR_WRONLY = true → e.wrWake.CleanWake ∧ e.wrWait.CleanWait) ∧
  (flags.has SHR_WRONLY = true → flags.has SHR_BUFFERED = true → e.bufOk = true ∧ e.iovOk = true) ∧
  (gflags.has SHR_SYNC = true → e.syncOk = true)

theorem blockwakeR_tr {A : List Nat} (flags gflags : Flags) (e : OpenREnv) :
    Tr (e.Clean flags gflags) A (blockwakeR flags gflags e)
      (fun r B => match r with
        | none => B.Perm A
        | some (w, r) => B.Perm (resOpt w ++ (resOpt r ++ A)) ∧ okOpt w ∧ okOpt r) := by
  unfold blockwakeR
  refine .bind (Q := fun r B => (B.Perm (resOpt r.1 ++ (resOpt r.2.1 ++ A)) ∧ okOpt r.1 ∧ okOpt r.2.1) ∧
      (flags.has SHR_RDONLY = false → r.1 = none ∧ r.2.1 = none)) ?_ ?_
  · refine .ite (fun h => ?_) fun _ => .pure ⟨⟨.refl _, trivial, trivial⟩, fun _ => ⟨rfl, rfl⟩⟩
    exact ((blockwakeRdR_tr e).clean fun hc => hc.2.1 h).mono fun a B hB => ⟨B, .refl _, hB, fun hn => by rw [h] at hn; cases hn⟩
  · rintro ⟨w2r, r2w, ok⟩ B ⟨⟨hB, hw, hr⟩, hn⟩
    dsimp only at hB hw hr hn ⊢
    refine .bind (Q := fun r B => B.Perm (resOpt r.1 ++ (resOpt r.2.1 ++ A)) ∧ okOpt r.1 ∧ okOpt r.2.1) ?_ ?_
    · refine .ite (fun h => ?_) fun _ => .pure ⟨hB, hw, hr⟩
      refine (Tr.lose (A := resOpt r2w ++ A) (G := resOpt w2r) ((blockwakeWrR_tr flags gflags e hr).clean ?_) ?_).perm (hB.trans (by counts))
      · intro hc
        refine ⟨(hc.2.2.1 h.2).1, (hc.2.2.1 h.2).2, (hn ?_).2⟩
        cases hf : flags.has SHR_RDONLY with
        | false => rfl
        | true => exact absurd ⟨hf, h.2⟩ hc.1
      · intro hc
        rw [(hn ?_).1]; rfl
        cases hf : flags.has SHR_RDONLY with
        | false => rfl
        | true => exact absurd ⟨hf, h.2⟩ hc.1
    · rintro ⟨w2r, r2w, ok⟩ B ⟨hB, hw, hr⟩
      dsimp only at hB hw hr ⊢
      refine .ite (fun _ => ?_) fun _ => .pure ⟨hB, hw, hr⟩
      refine .bind ((bwCloseOptR_tr (A := resOpt w2r ++ A) hr).perm (hB.trans (by counts))) ?_
      rintro _ B rfl
      refine .bind (bwCloseOptR_tr hw) ?_
      rintro _ B rfl
      exact .pure (.refl _)

theorem cacheR_tr {c : Prop} {A : List Nat} (flags : Flags) (e : OpenREnv) :
    Tr c A (cacheR flags e)
      (fun r B => (match r with
        | none => B.Perm A
        | some (b, v) => B.Perm (b.toList ++ (v.toList ++ A))) ∧
        ((flags.has SHR_WRONLY = true → flags.has SHR_BUFFERED = true → e.bufOk = true ∧ e.iovOk = true) → r.isSome = true)) := by
  unfold cacheR
  refine .ite (fun _ => .pure ⟨.refl _, fun _ => rfl⟩) fun hf => ?_
  have hf' : flags.has SHR_WRONLY = true ∧ flags.has SHR_BUFFERED = true := by
    revert hf; cases flags.has SHR_WRONLY <;> cases flags.has SHR_BUFFERED <;> simp
  refine .ite (fun hb => .pure ⟨.refl _, fun hc => ?_⟩) fun _ => ?_
  · rw [(hc hf'.1 hf'.2).1] at hb; cases hb
  refine .bind (.acquire (Q := fun i B => B = i :: A) fun _ => rfl) ?_
  rintro b B rfl
  refine .ite (fun hb => .bind (.release (Q := fun _ B => B = A) (.refl _) rfl) ?_) fun _ => .bind (.acquire (Q := fun i B => B = i :: b :: A) fun _ => rfl) ?_
  · rintro _ B rfl
    refine .pure ⟨.refl _, fun hc => ?_⟩
    rw [(hc hf'.1 hf'.2).2] at hb; cases hb
  · rintro v B rfl
    exact .pure ⟨by simp only [Option.toList]; counts, fun _ => rfl⟩

theorem openR_tr {A : List Nat} (flags gflags : Flags) (e : OpenREnv) :
    Tr (e.Clean flags gflags) A (openR flags gflags e) (fun r B => B.Perm (resShr r ++ A) ∧ okShr r) := by
  unfold openR
  refine .ite (fun _ => .pure ⟨.refl _, trivial⟩) fun _ => .ite (fun _ => .pure ⟨.refl _, trivial⟩) fun _ => ?_
  refine .bind (.acquire (Q := fun i B => B = i :: A) fun _ => rfl) ?_
  rintro mem B rfl
  refine .ite (fun _ => .bind (.release (Q := fun _ B => B = A) (.refl _) rfl) ?_) fun _ => ?_
  · rintro _ B rfl; exact .pure ⟨.refl _, trivial⟩
  refine .bind (.acquire (Q := fun i B => B = i :: mem :: A) fun _ => rfl) ?_
  rintro fd B rfl
  refine .ite (fun _ => .bind (.release (Q := fun _ B => B = mem :: A) (.refl _) rfl) ?_) fun _ => ?_
  · rintro _ B rfl
    refine .bind (.release (Q := fun _ B => B = A) (.refl _) rfl) ?_
    rintro _ B rfl; exact .pure ⟨.refl _, trivial⟩
  refine .bind (.acquire (Q := fun i B => B = i :: fd :: mem :: A) fun _ => rfl) ?_
  rintro map B rfl
  extract_lets fail
  have hfail : ∀ B : List Nat, B.Perm (map :: fd :: mem :: A) → Tr (e.Clean flags gflags) B fail (fun r B => B.Perm (resShr r ++ A) ∧ okShr r) := by
    intro B hB
    refine .bind (.release (Q := fun _ B => B = map :: mem :: A) (hB.trans (by counts)) rfl) ?_
    rintro _ B rfl
    refine .bind (.release (Q := fun _ B => B = mem :: A) (.refl _) rfl) ?_
    rintro _ B rfl
    refine .bind (.release (Q := fun _ B => B = A) (.refl _) rfl) ?_
    rintro _ B rfl
    exact .pure ⟨.refl _, trivial⟩
  refine .ite (fun _ => hfail _ (.refl _)) fun _ => .bind (blockwakeR_tr flags gflags e) ?_
  rintro (_ | ⟨w2r, r2w⟩) B hB
  · exact hfail _ hB
  obtain ⟨hB, hw, hr⟩ := hB
  refine .bind (cacheR_tr flags e) ?_
  rintro (_ | ⟨b, v⟩) B' ⟨hB', hc'⟩
  · refine (Tr.lose (A := map :: fd :: mem :: A) (G := resOpt w2r ++ resOpt r2w) (hfail _ (.refl _)) ?_).perm ((hB'.trans hB).trans (by counts))
    intro hc
    exact absurd (hc' hc.2.2.2.1) (by simp)
  · dsimp only at hB' hc' ⊢
    refine .ite (fun hs => ?_) fun _ => .pure ⟨?_, hw, hr⟩
    · refine (Tr.lose (A := map :: fd :: mem :: A) (G := b.toList ++ (v.toList ++ (resOpt w2r ++ resOpt r2w))) (hfail _ (.refl _)) ?_).perm
        ((hB'.trans ((hB.append_left _).append_left _)).trans (by counts))
      intro hc
      have := hc.2.2.2.2 hs.1
      rw [hs.2] at this; cases this
    · refine (hB'.trans ((hB.append_left _).append_left _)).trans ?_
      unfold resShr ShrR.res
      dsimp only
      counts

theorem wakeOptR_tr {A : List Nat} {w : Option BwR} (hw : okOpt w) (e : WakeEnv) :
    Tr e.Clean (resOpt w ++ A) (wakeOptR w e) (fun r B => B.Perm (resOpt r ++ A) ∧ okOpt r) := by
  cases w with
  | none => exact .pure ⟨.refl _, trivial⟩
  | some w =>
    refine .bind (bwWakeR_tr hw e) ?_
    rintro r B ⟨hB, hr⟩
    exact .pure ⟨hB, hr⟩

theorem readR_tr {A : List Nat} {s : ShrR} (hs : s.Ok) (wake : Option WakeEnv) (force : Option (Bool × Bool)) :
    Tr (∀ e, wake = some e → e.Clean) (s.res ++ A) (readR s wake force) (fun r B => B.Perm (r.res ++ A) ∧ r.Ok) := by
  unfold readR
  refine .bind (Q := fun r B => B.Perm (r.res ++ A) ∧ r.Ok) ?_ ?_
  · cases wake with
    | none => exact .pure ⟨.refl _, hs⟩
    | some e =>
      refine .bind (((wakeOptR_tr (A := s.mem :: s.ringFd :: s.map :: (resOpt s.w2r ++ (s.cbuf.toList ++ (s.ciov.toList ++ A)))) hs.2 e).clean fun h => h e rfl).perm
        (by unfold ShrR.res; counts)) ?_
      rintro r B ⟨hB, hr⟩
      refine .pure ⟨hB.trans ?_, hs.1, hr⟩
      unfold ShrR.res; dsimp only; counts
  · rintro s B ⟨hB, hs⟩
    cases force with
    | none => exact .pure ⟨hB, hs⟩
    | some f =>
      obtain ⟨dr, co⟩ := f
      cases hw : s.w2r with
      | none => exact .pure ⟨hB, hs⟩
      | some w =>
        have h1 := hs.1
        rw [hw] at h1
        refine .bind ((bwForceR_tr (A := s.mem :: s.ringFd :: s.map :: (resOpt s.r2w ++ (s.cbuf.toList ++ (s.ciov.toList ++ A)))) h1 dr co).perm
          (hB.trans (by unfold ShrR.res; rw [hw]; unfold resOpt; counts))) ?_
        rintro r B ⟨hB, hr⟩
        refine .pure ⟨hB.trans ?_, hr, hs.2⟩
        unfold ShrR.res; dsimp only [resOpt]; counts

theorem writeR_tr {A : List Nat} : ∀ (es : List WakeEnv) {s : ShrR}, s.Ok →
    Tr (∀ e ∈ es, e.Clean) (s.res ++ A) (writeR s es) (fun r B => B.Perm (r.res ++ A) ∧ r.Ok)
  | [], _, hs => .pure ⟨.refl _, hs⟩
  | e :: es, s, hs => by
    unfold writeR
    refine .bind (((wakeOptR_tr (A := s.mem :: s.ringFd :: s.map :: (resOpt s.r2w ++ (s.cbuf.toList ++ (s.ciov.toList ++ A)))) hs.1 e).clean fun h => h e (by simp)).perm
      (by unfold ShrR.res; counts)) ?_
    rintro r B ⟨hB, hr⟩
    refine ((writeR_tr es (s := { s with w2r := r }) ⟨hr, hs.2⟩).clean fun h x hx => h x (by simp [hx])).perm (hB.trans ?_)
    unfold ShrR.res; dsimp only; counts

theorem flushR_tr {A : List Nat} {s : ShrR} (hs : s.Ok) (wait cached lockOk : Bool) (b : BwEnv) (es : List WakeEnv) :
    Tr (b.CleanWait ∧ ∀ e ∈ es, e.Clean) (s.res ++ A) (flushR s wait cached lockOk b es) (fun r B => B.Perm (r.res ++ A) ∧ r.Ok) := by
  unfold flushR
  refine .ite (fun _ => .pure ⟨.refl _, hs⟩) fun _ => .ite (fun h => .ite (fun _ => .pure ⟨.refl _, hs⟩) fun _ => ?_) fun _ => (writeR_tr es hs).clean fun h => h.2
  refine .bind ((bwOpenWaitR_tr b).clean fun h => h.1) ?_
  rintro (_ | w) B ⟨hB, hw⟩
  · exact .pure ⟨hB, hs⟩
  · refine ((writeR_tr es (s := { s with r2w := some w }) ⟨hs.1, hw⟩).clean fun h => h.2).perm (hB.trans ?_)
    unfold ShrR.res
    rw [h.2.2]
    dsimp only [resOpt]; counts

theorem closeR_tr {A : List Nat} {s : ShrR} (hs : s.Ok) (cached lockOk : Bool) (es : List WakeEnv) :
    Tr (lockOk = true ∧ ∀ e ∈ es, e.Clean) (s.res ++ A) (closeR s cached lockOk es) (fun _ B => B = A) := by
  unfold closeR
  refine .bind ((flushR_tr hs false cached true {} es).clean fun h => ⟨(fun p hp => by cases hp), h.2⟩) ?_
  rintro s B ⟨hB, hs⟩
  refine .bind (Q := fun _ B => B = s.cbuf.toList ++ (s.ciov.toList ++ (s.map :: s.ringFd :: s.mem :: A))) ?_ ?_
  · refine .ite (fun _ => ?_) fun hl => ?_
    · refine .bind ((bwCloseOptR_tr (A := resOpt s.r2w ++ (s.cbuf.toList ++ (s.ciov.toList ++ (s.map :: s.ringFd :: s.mem :: A)))) hs.1).perm
        (hB.trans (by unfold ShrR.res; counts))) ?_
      rintro _ B rfl
      exact bwCloseOptR_tr hs.2
    · refine (Tr.lose (A := s.cbuf.toList ++ (s.ciov.toList ++ (s.map :: s.ringFd :: s.mem :: A))) (G := resOpt s.w2r ++ resOpt s.r2w)
        (Tr.pure (a := ()) (Q := fun _ B => B = s.cbuf.toList ++ (s.ciov.toList ++ (s.map :: s.ringFd :: s.mem :: A))) rfl) ?_).perm
        (hB.trans (by unfold ShrR.res; counts))
      rintro ⟨h, _⟩; exact absurd h hl
  · rintro _ B rfl
    refine .bind (.releaseOpt (Q := fun _ B => B = s.ciov.toList ++ (s.map :: s.ringFd :: s.mem :: A)) (.refl _) rfl) ?_
    rintro _ B rfl
    refine .bind (.releaseOpt (Q := fun _ B => B = s.map :: s.ringFd :: s.mem :: A) (.refl _) rfl) ?_
    rintro _ B rfl
    refine .bind (.release (Q := fun _ B => B = s.ringFd :: s.mem :: A) (.refl _) rfl) ?_
    rintro _ B rfl
    refine .bind (.release (Q := fun _ B => B = s.mem :: A) (.refl _) rfl) ?_
    rintro _ B rfl
    exact .release (.refl _) rfl

/-! ## A process -/

/-- What the handles below `n` hold. -/
def heldBy (hs : Nat → Option ShrR) (n : Nat) : List Nat := (List.range n).flatMap fun k => resShr (hs k)

theorem heldBy_succ (hs : Nat → Option ShrR) (n : Nat) : heldBy hs (n + 1) = heldBy hs n ++ resShr (hs n) := by
  unfold heldBy; rw [List.range_succ, List.flatMap_append]; simp

theorem heldBy_congr {f g : Nat → Option ShrR} (n : Nat) (h : ∀ j, j < n → f j = g j) : heldBy f n = heldBy g n := by
  induction n with
  | zero => rfl
  | succ n ih => rw [heldBy_succ, heldBy_succ, ih fun j hj => h j (by omega), h n (by omega)]

theorem heldBy_split (f : Nat → Option ShrR) (k : Nat) : ∀ n, k < n →
    ∃ rest, ∀ g : Nat → Option ShrR, (∀ j, j ≠ k → g j = f j) → (heldBy g n).Perm (resShr (g k) ++ rest) := by
  intro n
  induction n with
  | zero => intro h; omega
  | succ n ih =>
    intro h
    by_cases hk : k = n
    · subst hk
      refine ⟨heldBy f k, fun g hg => ?_⟩
      rw [heldBy_succ, heldBy_congr k fun j hj => hg j (by omega)]
      counts
    · obtain ⟨rest, hr⟩ := ih (by omega)
      refine ⟨rest ++ resShr (f n), fun g hg => ?_⟩
      rw [heldBy_succ, hg n (fun h => hk h.symm)]
      refine ((hr g hg).append_right _).trans ?_
      counts

theorem heldBy_grow {hs : Nat → Option ShrR} {n : Nat} (h : ∀ k, n ≤ k → hs k = none) : ∀ m, n ≤ m → heldBy hs m = heldBy hs n := by
  intro m hm
  induction m with
  | zero => have : n = 0 := by omega
            subst this; rfl
  | succ m ih =>
    by_cases hn : n = m + 1
    · subst hn; rfl
    · rw [heldBy_succ, ih (by omega), h m (by omega)]; simp [resShr]

/-- The process holds what its open handles hold, what it was given, and `L`, which was lost. -/
structure PRes.Inv (p : PRes) (L : List Nat) : Prop where
  good : p.led.Good
  ok : ∀ k, okShr (p.hs k)
  held : ∃ n, (∀ k, n ≤ k → p.hs k = none) ∧ p.led.live.Perm (heldBy p.hs n ++ (p.given ++ L))

theorem PRes.Inv.start : PRes.Inv {} [] :=
  ⟨⟨rfl, List.nodup_nil, fun _ h => nomatch h⟩, fun _ => trivial, 0, fun _ _ => rfl, .refl _⟩

/-- Take the handle `k` out, do something with what it holds, and put the result back. -/
theorem PRes.Inv.put {p : PRes} {L : List Nat} (h : p.Inv L) (k : Nat) {c : Prop} {α : Type} {x : RM α} (val : α → Option ShrR)
    (tr : Tr c (resShr (p.hs k)) x (fun a B => B.Perm (resShr (val a)) ∧ okShr (val a))) :
    ∃ L', PRes.Inv { p with led := (x p.led).2, hs := fun j => if j = k then val (x p.led).1 else p.hs j } L' ∧ (c → L = [] → L' = []) := by
  obtain ⟨n, hn, hp⟩ := h.held
  have hn' : ∀ j, n + k + 1 ≤ j → p.hs j = none := fun j hj => hn j (by omega)
  obtain ⟨rest, hr⟩ := heldBy_split p.hs k (n + k + 1) (by omega)
  have h0 := hr p.hs fun _ _ => rfl
  rw [heldBy_grow hn _ (by omega)] at h0
  obtain ⟨t1, B, L1, ⟨t2, t3⟩, t4, t5⟩ := tr p.led (rest ++ (p.given ++ L)) h.good ((hp.trans (h0.append_right _)).trans (by counts))
  refine ⟨L1 ++ L, ⟨t1, fun j => ?_, n + k + 1, fun j hj => ?_, ?_⟩, fun hc hL => by rw [t5 hc, hL]; rfl⟩
  · dsimp only; split
    · exact t3
    · exact h.ok j
  · dsimp only; rw [if_neg (by omega)]; exact hn' j hj
  · refine t4.trans ?_
    have := hr (fun j => if j = k then val (x p.led).1 else p.hs j) fun j hj => if_neg hj
    rw [if_pos rfl] at this
    refine .trans ?_ (this.symm.append_right _)
    refine (t2.append_right _).trans ?_
    counts

/-- The call loses nothing. -/
def ROp.Clean : ROp → Prop
  | .open _ flags gflags e => e.Clean flags gflags
  | .read _ wake _ => ∀ e, wake = some e → e.Clean
  | .write _ wakes => ∀ e ∈ wakes, e.Clean
  | .flush _ _ _ _ b wakes => b.CleanWait ∧ ∀ e ∈ wakes, e.Clean
  | .close _ _ lockOk wakes => lockOk = true ∧ ∀ e ∈ wakes, e.Clean
  | _ => True

theorem PRes.Inv.step {p : PRes} {L : List Nat} (h : p.Inv L) (op : ROp) :
    ∃ L', (p.step op).Inv L' ∧ (op.Clean → L = [] → L' = []) := by
  have same : ∀ k (s : ShrR), p.hs k = some s → ∀ {c : Prop} {x : RM ShrR},
      Tr c (s.res ++ []) x (fun r B => B.Perm (r.res ++ []) ∧ r.Ok) →
      ∃ L', PRes.Inv { p with led := (x p.led).2, hs := fun j => if j = k then some (x p.led).1 else p.hs j } L' ∧ (c → L = [] → L' = []) := by
    intro k s hs c x hx
    refine h.put k some ?_
    rw [hs]
    exact (hx.mono fun a B hB => ⟨B, .refl _, (by simpa using hB.1 : B.Perm a.res), hB.2⟩).perm (by simp [resShr])
  have okAt : ∀ k (s : ShrR), p.hs k = some s → s.Ok := fun k s hs => by have := h.ok k; rw [hs] at this; exact this
  cases op with
  | init a b d e f g i =>
    obtain ⟨n, hn, hp⟩ := h.held
    obtain ⟨t1, B, L1, rfl, t4, t5⟩ := initR_tr (c := True) (A := []) a b d e f g i p.led _ h.good hp
    rw [t5 trivial] at t4
    exact ⟨L, ⟨t1, h.ok, n, hn, t4⟩, fun _ h => h⟩
  | «open» k flags gflags e =>
    show ∃ L', PRes.Inv (match p.hs k with | some _ => _ | none => _) L' ∧ _
    cases hs : p.hs k with
    | some s => exact ⟨L, h, fun _ h => h⟩
    | none =>
      refine h.put k id ?_
      rw [hs]
      exact (openR_tr (A := []) flags gflags e).mono fun a B hB => ⟨B, .refl _, by simpa using hB.1, hB.2⟩
  | read k w f =>
    show ∃ L', PRes.Inv (match p.hs k with | none => _ | some s => _) L' ∧ _
    cases hs : p.hs k with
    | none => exact ⟨L, h, fun _ h => h⟩
    | some s => exact same k s hs (readR_tr (okAt k s hs) w f)
  | write k ws =>
    show ∃ L', PRes.Inv (match p.hs k with | none => _ | some s => _) L' ∧ _
    cases hs : p.hs k with
    | none => exact ⟨L, h, fun _ h => h⟩
    | some s => exact same k s hs (writeR_tr ws (okAt k s hs))
  | flush k w c l b ws =>
    show ∃ L', PRes.Inv (match p.hs k with | none => _ | some s => _) L' ∧ _
    cases hs : p.hs k with
    | none => exact ⟨L, h, fun _ h => h⟩
    | some s => exact same k s hs (flushR_tr (okAt k s hs) w c l b ws)
  | appdata k m =>
    show ∃ L', PRes.Inv (match p.hs k with | none => _ | some _ => _) L' ∧ _
    cases p.hs k with
    | none => exact ⟨L, h, fun _ h => h⟩
    | some s =>
      dsimp only
      split
      · obtain ⟨n, hn, hp⟩ := h.held
        obtain ⟨t1, _⟩ := Tr.acquire (c := True) (A := []) (Q := fun _ _ => True) (fun _ => trivial) p.led _ h.good hp
        refine ⟨L, ⟨t1, h.ok, n, hn, ?_⟩, fun _ h => h⟩
        exact (hp.cons p.led.next).trans (by dsimp only [acquire]; counts)
      · exact ⟨L, h, fun _ h => h⟩
  | close k c l ws =>
    show ∃ L', PRes.Inv (match p.hs k with | none => _ | some s => _) L' ∧ _
    cases hs : p.hs k with
    | none => exact ⟨L, h, fun _ h => h⟩
    | some s =>
      refine h.put k (fun _ => none) ?_
      rw [hs]
      refine ((closeR_tr (A := []) (okAt k s hs) c l ws).mono ?_).perm (by simp [resShr])
      rintro _ B rfl
      exact ⟨[], .refl _, .refl _, trivial⟩
  | other k => exact ⟨L, h, fun _ h => h⟩

theorem PRes.Inv.run : ∀ (ops : List ROp) {p : PRes} {L : List Nat}, p.Inv L →
    ∃ L', (p.run ops).Inv L' ∧ ((∀ op ∈ ops, op.Clean) → L = [] → L' = [])
  | [], _, L, h => ⟨L, h, fun _ h => h⟩
  | op :: ops, p, L, h => by
    obtain ⟨L1, h1, g1⟩ := h.step op
    obtain ⟨L2, h2, g2⟩ := PRes.Inv.run ops h1
    exact ⟨L2, h2, fun hc hL => g2 (fun o ho => hc o (by simp [ho])) (g1 (hc op (by simp)) hL)⟩

end Shr
