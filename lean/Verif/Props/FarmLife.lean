import Verif.Proof.FarmLife
import Verif.Proof.Demo
/-!
# A farm ring whose users are killed inside calls (C96)
-/
namespace Shr

/-- The lives of a farm ring, with what the callers saw: calls that return, and callers killed inside a call.  A caller is not killed
right after a store that moves the position of the eldest message (`CalmAt`): between the two or three stores of that update
the ring contradicts itself. -/
inductive FarmLife (a : InitArgs) : List FarmEv → Sys → Prop where
  | new : FarmLife a [] (Sys.init a)
  | call {evs : List FarmEv} {s s' : Sys} {op : Op} {o : Out} : FarmLife a evs s → op.WF a.appsize → s.step op = .ok (s', o) →
      FarmLife a (evs ++ [.call op o]) s'
  | death {evs : List FarmEv} {s : Sys} {op : Op} {j : Nat} {p : Ring} : FarmLife a evs s → op.WF a.appsize → CalmAt s op j p →
      FarmLife a (evs ++ [.death op]) (s.killed op p)

theorem shows_init {a : InitArgs} (ha : a.WF) (hf : a.flags.has SHR_FARM = true) : Shows a (Sys.init a) (Spec.init a) := by
  have hrel := init_rel a ha
  have hmp := a.mmpos ha
  have hmm := ha.mm
  have hsz := ha.sz
  have hap := ha.app
  have hpos := ha.pos
  have hM : a.max_msgs ≤ SSIZE_MAX := by
    unfold SIZEOF_MSG at hmm
    rw [W_val] at hmm; rw [SSIZE_MAX_val]; omega
  have hW := W_val
  have hlog : (Spec.init a).log = [] := rfl
  refine ⟨rfl, rfl, rfl, ?_, rfl, rfl, fun _ => trivial⟩
  rw [hlog]
  refine ⟨⟨fun _ => 0, 0, ⟨hpos, hsz, hmp, hM, by simp [Sys.init, initRing], ?_, by simp [Sys.init, initRing], Nat.le_refl _, Nat.zero_le _, ?_, ?_, ?_, ?_, ?_⟩⟩,
    ⟨?_, ?_, ?_, ?_, ?_, ?_⟩, rfl, rfl, ?_, rfl, rfl, ?_, by simp [W], hmp⟩
  · show (List.replicate (a.mv_bytes / SIZEOF_MSG) _).length = a.max_msgs
    unfold InitArgs.mv_bytes wmul
    rw [Nat.mod_eq_of_lt hmm]
    simp [SIZEOF_MSG]
  · intro j b _ h; simp at h
  · intro j b _ h; simp at h
  · intro j b _ h; simp at h
  · intro j _ h; simp at h
  · intro j k _ _ h; simp at h
  · simp [Sys.init, initRing, W]
  · simp [Sys.init, initRing, W]
  · simp [Sys.init, initRing, W]
  · simp [Sys.init, initRing, W]
  · simp [Sys.init, initRing]
  · show (if a.flags.has SHR_APPDATA_1 then a.app else []).length = a.appsize
    unfold InitArgs.appsize; split <;> rfl
  · show a.gflags.has SHR_FARM = true
    rw [gflags_farm]; exact hf
  · show (0 : Nat) = 0 % _
    simp

theorem FarmLife.shows {a : InitArgs} {evs : List FarmEv} {s : Sys} (h : FarmLife a evs s) (ha : a.WF) (hf : a.flags.has SHR_FARM = true)
    (hn : 2 * a.max_msgs * evs.length < W) : ∃ sp, FarmRun a evs sp ∧ Shows a s sp ∧ sp.log.length ≤ 2 * a.max_msgs * evs.length := by
  induction h with
  | new => exact ⟨_, .new, shows_init ha hf, Nat.zero_le _⟩
  | @call evs s s' op o h hw hs ih =>
    rw [List.length_append, Nat.mul_add] at hn
    simp only [List.length_cons, List.length_nil, Nat.zero_add, Nat.mul_one] at hn
    obtain ⟨sp, h1, h2, h3⟩ := ih (by omega)
    have hm := h2.maxm
    obtain ⟨sp', h4, h5, h6⟩ := h2.step hw (by rw [hm]; omega) hs
    refine ⟨sp', .call h1 h4, h5, ?_⟩
    rw [List.length_append, Nat.mul_add]
    simp only [List.length_cons, List.length_nil, Nat.zero_add, Nat.mul_one]
    rw [hm] at h6; omega
  | @death evs s op j p h hw hs ih =>
    rw [List.length_append, Nat.mul_add] at hn
    simp only [List.length_cons, List.length_nil, Nat.zero_add, Nat.mul_one] at hn
    obtain ⟨sp, h1, h2, h3⟩ := ih (by omega)
    have hm := h2.maxm
    obtain ⟨sp', h4, h5, h6⟩ := h2.death hw (by rw [hm]; omega) hs
    refine ⟨sp', .death h1 h4, h5, ?_⟩
    rw [List.length_append, Nat.mul_add]
    simp only [List.length_cons, List.length_nil, Nat.zero_add, Nat.mul_one]
    rw [hm] at h6; omega

theorem FarmR.present {N K : Nat} {r : Ring} {L : List Msg} {g : Nat} (h : FarmR N K r L g) : r.presentMsgs = L.drop g := by
  obtain ⟨O, E, hg⟩ := h.geo
  have hmm := hg.mmpos
  apply List.ext_getElem?
  intro j
  unfold Ring.presentMsgs Ring.msgsFrom
  rw [List.getElem?_map, List.getElem?_drop]
  by_cases hj : j < r.mp
  · rw [List.getElem?_range hj]
    have hmp := h.mp
    have hlt : g + j < L.length := by omega
    obtain ⟨b, hb⟩ : ∃ b, L[g + j]? = some b := ⟨L[g + j], List.getElem?_eq_getElem hlt⟩
    rw [hb]
    obtain ⟨h1, h2⟩ := hg.held _ _ (by omega) hb
    have e1 : (r.e + j) % r.mm = (g + j) % r.mm := by rw [h.e, Nat.mod_add_mod]
    simp only [Option.map_some, Option.some.injEq, e1]
    rw [List.getD_eq_getElem?_getD, h1]
    dsimp only [Option.getD_some]
    unfold Ring.msgAt
    apply List.ext_getElem?
    intro t
    rw [List.getElem?_map]
    dsimp only
    by_cases ht : t < b.length
    · rw [List.getElem?_range ht]
      obtain ⟨x, hx⟩ : ∃ x, b[t]? = some x := ⟨b[t], List.getElem?_eq_getElem ht⟩
      rw [hx]
      simp only [Option.map_some, Option.some.injEq]
      rw [Nat.mod_add_mod, List.getD_eq_getElem?_getD, h2 t x hx]
      rfl
    · rw [List.getElem?_eq_none (by simp; omega), List.getElem?_eq_none (by omega)]; rfl
  · have hmp := h.mp
    have hgl := h.gle
    rw [List.getElem?_eq_none (by simp; omega), List.getElem?_eq_none (by omega)]; rfl

/-! ## The log, seen by the readers -/

theorem Pieces.more {L : List Msg} : ∀ {rs : List (List Msg)} {p q miss : Nat}, Pieces L p rs q miss → ∀ d, Pieces L p rs (q + d) (miss + d) := by
  intro rs
  induction rs with
  | nil => intro p q miss h d; unfold Pieces at h ⊢; omega
  | cons r rs ih =>
    intro p q miss h d
    unfold Pieces at h ⊢
    obtain ⟨g, hg, hr, h⟩ := h
    refine ⟨g, by omega, hr, ?_⟩
    have := ih h d
    rw [show miss + d - g = miss - g + d by omega]; exact this

theorem Pieces.snoc {L : List Msg} : ∀ {rs : List (List Msg)} {p q miss : Nat}, Pieces L p rs q miss → ∀ r : List Msg, r = (L.drop q).take r.length →
    Pieces L p (rs ++ [r]) (q + r.length) miss := by
  intro rs
  induction rs with
  | nil =>
    intro p q miss h r hr
    unfold Pieces at h
    exact ⟨miss, Nat.le_refl _, by rw [h]; exact hr, by unfold Pieces; omega⟩
  | cons r0 rs ih =>
    intro p q miss h r hr
    unfold Pieces at h
    obtain ⟨g, hg, hr0, h⟩ := h
    exact ⟨g, hg, hr0, ih h r hr⟩

theorem piece_append {L X r : List Msg} {p : Nat} (h : r = (L.drop p).take r.length) : r = ((L ++ X).drop p).take r.length := by
  have hl := congrArg List.length h
  rw [List.length_take, List.length_drop] at hl
  by_cases hp : p ≤ L.length
  · rw [List.drop_append_of_le_length hp, List.take_append_of_le_length (by rw [List.length_drop]; omega)]
    exact h
  · have : r.length = 0 := by omega
    rw [this]; simp [List.eq_nil_of_length_eq_zero this]

theorem Pieces.append {L X : List Msg} : ∀ {rs : List (List Msg)} {p q miss : Nat}, Pieces L p rs q miss → Pieces (L ++ X) p rs q miss := by
  intro rs
  induction rs with
  | nil => intro p q miss h; exact h
  | cons r rs ih =>
    intro p q miss h
    unfold Pieces at h ⊢
    obtain ⟨g, hg, hr, h⟩ := h
    exact ⟨g, hg, piece_append hr, ih h⟩

/-- What a handle has been given. -/
def HasRead (evs : List FarmEv) (sp : Spec) (k : Nat) : Prop :=
  match sp.hs k with
  | .never => readsOf k evs = []
  | .live sh => sh.pos ≤ sp.log.length ∧ ∃ p miss, Pieces sp.log p (readsOf k evs) sh.pos miss ∧ (NoReset k evs → sh.missed = miss)
  | .gone _ => ∃ p q miss, q ≤ sp.log.length ∧ Pieces sp.log p (readsOf k evs) q miss

theorem readsOf_snoc (k : Nat) (evs : List FarmEv) (e : FarmEv) : readsOf k (evs ++ [e]) = readsOf k evs ++ readsOf k [e] := by
  unfold readsOf; rw [List.filterMap_append]

theorem readsOf_other {k : Nat} {op : Op} {o : Out} (h : op.handle ≠ k ∨ o.msgs = [] ∨ ∀ j buf niov env, op ≠ .readv j buf niov env) :
    readsOf k [.call op o] = [] := by
  unfold readsOf
  cases op with
  | readv j buf niov env =>
    rcases h with h | h | h
    · have : ¬ (j = k ∧ o.msgs ≠ []) := fun hc => h hc.1
      simp [this]
    · simp [h]
    · exact absurd rfl (h _ _ _ _)
  | _ => rfl

theorem NoReset.left {k : Nat} {evs : List FarmEv} {e : FarmEv} (h : NoReset k (evs ++ [e])) : NoReset k evs :=
  fun o hm => h o (List.mem_append_left _ hm)

/-- The entry of the handle is the same and the log has grown. -/
theorem HasRead.keep {evs : List FarmEv} {sp sp' : Spec} {k : Nat} {X : List Msg} {e : FarmEv} (h : HasRead evs sp k) (hl : sp'.log = sp.log ++ X)
    (hk : sp'.hs k = sp.hs k) (hr : readsOf k [e] = []) : HasRead (evs ++ [e]) sp' k := by
  unfold HasRead at h ⊢
  rw [hk, readsOf_snoc, hr, List.append_nil]
  cases e2 : sp.hs k with
  | never => rw [e2] at h; exact h
  | live sh =>
    rw [e2] at h
    obtain ⟨h1, p, miss, h2, h3⟩ := h
    exact ⟨by rw [hl, List.length_append]; omega, p, miss, by rw [hl]; exact h2.append, fun hn => h3 hn.left⟩
  | gone l =>
    rw [e2] at h
    obtain ⟨p, q, miss, h1, h2⟩ := h
    exact ⟨p, q, miss, by rw [hl, List.length_append]; omega, by rw [hl]; exact h2.append⟩

/-- The handle is live before and after, at the same place. -/
theorem HasRead.stay {evs : List FarmEv} {sp sp' : Spec} {k : Nat} {X : List Msg} {e : FarmEv} {sh sh' : SHandle} (h : HasRead evs sp k)
    (hl : sp'.log = sp.log ++ X) (hk : sp.hs k = .live sh) (hk' : sp'.hs k = .live sh') (hr : readsOf k [e] = []) (hp : sh'.pos = sh.pos)
    (hm : NoReset k (evs ++ [e]) → sh'.missed = sh.missed) : HasRead (evs ++ [e]) sp' k := by
  unfold HasRead at h ⊢
  rw [hk', readsOf_snoc, hr, List.append_nil]
  rw [hk] at h
  obtain ⟨h1, p, miss, h2, h3⟩ := h
  refine ⟨by rw [hl, List.length_append]; omega, p, miss, by rw [hl, hp]; exact h2.append, fun hn => ?_⟩
  rw [hm hn]; exact h3 hn.left

theorem HasRead.leave {evs : List FarmEv} {sp sp' : Spec} {k : Nat} {X : List Msg} {e : FarmEv} {l : List Msg} (h : HasRead evs sp k)
    (hl : sp'.log = sp.log ++ X) (hk' : sp'.hs k = .gone l) (hr : readsOf k [e] = []) : HasRead (evs ++ [e]) sp' k := by
  unfold HasRead at h ⊢
  rw [hk', readsOf_snoc, hr, List.append_nil]
  cases e2 : sp.hs k with
  | never => rw [e2] at h; dsimp only at h; rw [h]; exact ⟨0, 0, 0, Nat.zero_le _, rfl⟩
  | live sh =>
    rw [e2] at h
    obtain ⟨h1, p, miss, h2, _⟩ := h
    exact ⟨p, sh.pos, miss, by rw [hl, List.length_append]; omega, by rw [hl]; exact h2.append⟩
  | gone l =>
    rw [e2] at h
    obtain ⟨p, q, miss, h1, h2⟩ := h
    exact ⟨p, q, miss, by rw [hl, List.length_append]; omega, by rw [hl]; exact h2.append⟩

/-- A read gives a piece of the log. -/
theorem readv_piece {sp : Spec} (hf : sp.farm = true) (hb : sp.base ≤ sp.log.length) (sh : SHandle) (hp : sh.pos ≤ sp.log.length) (buf : List Byte) (niov : Nat)
    (env : Env) : ∃ d, (sp.readv sh buf niov env).2.2.msgs = (sp.log.drop (sh.pos + d)).take (sp.readv sh buf niov env).2.2.msgs.length ∧
      (sp.readv sh buf niov env).2.1.pos = sh.pos + d + (sp.readv sh buf niov env).2.2.msgs.length ∧
      (sp.readv sh buf niov env).2.1.missed = sh.missed + d ∧ (sp.readv sh buf niov env).2.1.pos ≤ sp.log.length := by
  unfold Spec.readv
  by_cases h0 : buf.length = 0 ∨ niov = 0 ∨ env.lockOk = false
  · rw [if_pos h0]; exact ⟨0, by simp [Out.msgs], by simp [Out.msgs], rfl, hp⟩
  rw [if_neg h0]
  have hcu : sp.catchUp sh = { sh with pos := max sh.pos sp.base, missed := sh.missed + (sp.base - sh.pos) } := by unfold Spec.catchUp; rw [if_pos hf]
  have hrd : sp.readable sh = sp.log.drop (max sh.pos sp.base) := by unfold Spec.readable; rw [if_pos hf]
  have hmax : max sh.pos sp.base = sh.pos + (sp.base - sh.pos) := by omega
  dsimp only
  by_cases hU : sp.readable sh = []
  · rw [if_pos hU, hcu]
    refine ⟨sp.base - sh.pos, ?_⟩
    have : max sh.pos sp.base ≤ sp.log.length := by omega
    split
    · exact ⟨by simp [Out.msgs], by simp [Out.msgs]; omega, rfl, this⟩
    · split
      · exact ⟨by simp [Out.msgs], by simp [Out.msgs]; omega, rfl, this⟩
      · exact ⟨by simp [Out.msgs], by simp [Out.msgs]; omega, rfl, this⟩
  · rw [if_neg hU, hcu, hrd]; simp only [if_pos hf]
    have hbytes := takeCount_bytes (sp.log.drop (max sh.pos sp.base)) (min buf.length SSIZE_MAX) niov
    have hcnt := takeCount_le_length (sp.log.drop (max sh.pos sp.base)) (min buf.length SSIZE_MAX) niov
    generalize takeCount (sp.log.drop (max sh.pos sp.base)) (min buf.length SSIZE_MAX) niov = t at hbytes hcnt ⊢
    rw [hmax] at hbytes hcnt ⊢
    rw [List.length_drop] at hcnt
    generalize hV : (sp.log.drop (sh.pos + (sp.base - sh.pos))).take t = V at hbytes ⊢
    have hVl : V.length = t := by rw [← hV, List.length_take, List.length_drop]; omega
    have hm : ∀ rc, (Out.read rc (layout 0 V) (put buf 0 V.flatten)).msgs = V := fun rc => by
      unfold Out.msgs
      exact slices_layout V buf 0 (by omega)
    rw [hm, hVl]
    exact ⟨sp.base - sh.pos, hV.symm, rfl, rfl, by omega⟩

/-- Facts every history of the specification has. -/
structure RunFacts (a : InitArgs) (evs : List FarmEv) (sp : Spec) : Prop where
  gf : sp.gflags = a.gflags
  base : sp.base ≤ sp.log.length
  given : ∀ k, HasRead evs sp k

theorem spec_step_other {sp : Spec} {op : Op} {j : Nat} (h : j ≠ op.handle) (hr : (∃ k f e, op = .open k f e) ∨ (∃ k b n e, op = .readv k b n e) ∨ ∃ k r, op = .farmStat k r) :
    (sp.step op).1.hs j = sp.hs j := by
  rcases hr with ⟨k, f, e, rfl⟩ | ⟨k, b, n, e, rfl⟩ | ⟨k, r, rfl⟩
  · unfold Spec.step; dsimp only
    split
    · split
      · rfl
      · split
        · rfl
        · exact upd_other _ _ h
    · rfl
  · unfold Spec.step; dsimp only
    split
    · split
      · rfl
      · exact upd_other _ _ h
    · rfl
  · unfold Spec.step; dsimp only
    split
    · split
      · rfl
      · exact upd_other _ _ h
    · rfl

theorem RunFacts.call {a : InitArgs} (hf : a.flags.has SHR_FARM = true) {evs : List FarmEv} {sp sp' : Spec} {op : Op} {o : Out} (h : RunFacts a evs sp)
    (hc : FarmCall sp op o sp') : RunFacts a (evs ++ [.call op o]) sp' := by
  obtain ⟨hgf, hb, hgv⟩ := h
  have hfarm : sp.farm = true := by unfold Spec.farm; rw [hgf, gflags_farm]; exact hf
  have nor : ∀ k, (∀ j buf niov env, op ≠ .readv j buf niov env) → readsOf k [.call op o] = [] := fun k h => readsOf_other (.inr (.inr h))
  have quiet : Grows sp sp' [] ∧ sp'.base = sp.base ∧ sp'.hs = sp.hs → (∀ k, readsOf k [.call op o] = []) → RunFacts a (evs ++ [.call op o]) sp' := by
    rintro ⟨h1, h2, h3⟩ h4
    exact ⟨by rw [h1.gf, hgf], by rw [h1.log, h2]; simpa using hb, fun k => (hgv k).keep h1.log (by rw [h3]) (h4 k)⟩
  cases op with
  | writev k iov e1 e2 =>
    have nr : ∀ k', readsOf k' [.call (.writev k iov e1 e2) o] = [] := fun k' => nor k' (fun _ _ _ _ h => nomatch h)
    unfold FarmCall at hc
    dsimp only at hc
    split at hc
    · rename_i sh hk
      split at hc
      · exact quiet hc.2 nr
      · obtain ⟨X, pend, h1, h2, h3⟩ := hc
        refine ⟨by rw [h1.gf, hgf], ?_, fun k' => ?_⟩
        · rw [h1.log]
          by_cases hx : X = []
          · rw [h2.idle hx, hx, List.append_nil]; exact hb
          · have := h2.newest hx; omega
        · by_cases e : k' = k
          · subst e
            have hk' := congrFun h3 k'; rw [upd_same] at hk'
            exact (hgv k').stay h1.log hk hk' (nr _) rfl (fun _ => rfl)
          · exact (hgv k').keep h1.log (by rw [h3, upd_other _ _ e]) (nr _)
    · exact quiet hc.2 nr
  | flush k wait env =>
    have nr : ∀ k', readsOf k' [.call (.flush k wait env) o] = [] := fun k' => nor k' (fun _ _ _ _ h => nomatch h)
    unfold FarmCall at hc
    dsimp only at hc
    split at hc
    · rename_i sh hk
      split at hc
      · exact quiet hc.2 nr
      · obtain ⟨X, pend, c, h1, h2, h3⟩ := hc
        refine ⟨by rw [h1.gf, hgf], by rw [h1.log, List.length_append]; have := h2.bound; omega, fun k' => ?_⟩
        by_cases e : k' = k
        · subst e
          have hk' := congrFun h3 k'; rw [upd_same] at hk'
          exact (hgv k').stay h1.log hk hk' (nr _) rfl (fun _ => rfl)
        · exact (hgv k').keep h1.log (by rw [h3, upd_other _ _ e]) (nr _)
    · exact quiet hc.2 nr
  | close k env =>
    have nr : ∀ k', readsOf k' [.call (.close k env) o] = [] := fun k' => nor k' (fun _ _ _ _ h => nomatch h)
    unfold FarmCall at hc
    dsimp only at hc
    split at hc
    · rename_i sh hk
      obtain ⟨X, pend, w, h1, h2, h3⟩ := hc
      refine ⟨by rw [h1.gf, hgf], by rw [h1.log, List.length_append]; have := h2.bound; omega, fun k' => ?_⟩
      rcases h3 with ⟨_, h3⟩ | ⟨_, _, h3⟩
      · by_cases e : k' = k
        · subst e
          exact (hgv k').leave h1.log (by rw [h3, upd_same]) (nr _)
        · exact (hgv k').keep h1.log (by rw [h3, upd_other _ _ e]) (nr _)
      · exact (hgv k').keep h1.log (by rw [h3]) (nr _)
    · exact quiet hc.2 nr
  | stat k reset env => exact quiet hc.1 (fun k' => nor k' (fun _ _ _ _ h => nomatch h))
  | appdata k get set sz env => exact quiet hc.1 (fun k' => nor k' (fun _ _ _ _ h => nomatch h))
  | «open» k flags env =>
    have nr : ∀ k', readsOf k' [.call (.open k flags env) o] = [] := fun k' => nor k' (fun _ _ _ _ h => nomatch h)
    obtain ⟨h1, h2, h3, h4⟩ := hc
    refine ⟨by rw [h1.gf, hgf], by rw [h1.log, h2]; simpa using hb, fun k' => ?_⟩
    by_cases e : k' = k
    · subst e
      have same : sp'.hs k' = sp.hs k' → HasRead (evs ++ [.call (.open k' flags env) o]) sp' k' := fun e' => (hgv k').keep h1.log e' (nr _)
      unfold Spec.step at h4
      dsimp only at h4
      cases e2 : sp.hs k' with
      | never =>
        rw [e2] at h4
        dsimp only at h4
        split at h4
        · exact same (by rw [h4])
        · cases e3 : sp.openH flags env with
          | none => rw [e3] at h4; exact same (by rw [h4])
          | some sh =>
            rw [e3] at h4
            have hg := hgv k'
            unfold HasRead at hg ⊢
            rw [h4]
            dsimp only
            rw [upd_same, readsOf_snoc, nr, List.append_nil]
            rw [e2] at hg
            dsimp only at hg ⊢
            rw [hg]
            have hsh : sh.pos = sp.base ∧ sh.missed = 0 := by
              unfold Spec.openH at e3
              dsimp only at e3
              split at e3
              · cases e3
              · cases e3; exact ⟨rfl, rfl⟩
            refine ⟨by rw [h1.log, hsh.1]; simpa using hb, sp.base, 0, ?_, fun _ => hsh.2⟩
            rw [hsh.1]; rfl
      | live sh => rw [e2] at h4; exact same (by rw [h4])
      | gone l => rw [e2] at h4; exact same (by rw [h4])
    · exact (hgv k').keep h1.log (by rw [h4]; exact spec_step_other e (.inl ⟨_, _, _, rfl⟩)) (nr _)
  | readv k buf niov env =>
    obtain ⟨h1, h2, h3, h4⟩ := hc
    refine ⟨by rw [h1.gf, hgf], by rw [h1.log, h2]; simpa using hb, fun k' => ?_⟩
    have hlog : sp'.log = sp.log := by rw [h1.log, List.append_nil]
    by_cases e : k' = k
    · subst e
      unfold Spec.step at h3 h4
      dsimp only at h3 h4
      cases e2 : sp.hs k' with
      | never =>
        rw [e2] at h3 h4
        exact (hgv k').keep h1.log (by rw [h4]) (readsOf_other (.inr (.inl (by rw [h3]; rfl))))
      | gone l =>
        rw [e2] at h3 h4
        exact (hgv k').keep h1.log (by rw [h4]) (readsOf_other (.inr (.inl (by rw [h3]; rfl))))
      | live sh =>
        rw [e2] at h3 h4
        dsimp only at h3 h4
        split at h4
        · rename_i hr
          rw [if_pos hr] at h3
          exact (hgv k').keep h1.log (by rw [h4]) (readsOf_other (.inr (.inl (by rw [h3]; rfl))))
        · rename_i hr
          rw [if_neg hr] at h3
          dsimp only at h3 h4
          have hg := hgv k'
          unfold HasRead at hg ⊢
          rw [h4, upd_same, readsOf_snoc, hlog]
          rw [e2] at hg
          dsimp only at hg ⊢
          obtain ⟨g1, p, miss, g2, g3⟩ := hg
          obtain ⟨d, r1, r2, r3, r4⟩ := readv_piece hfarm hb sh g1 buf niov env
          rw [← h3] at r1 r2
          refine ⟨r4, p, miss + d, ?_, fun hn => by rw [r3, g3 hn.left]⟩
          have g4 := g2.more d
          rw [r2]
          by_cases hm : o.msgs = []
          · rw [readsOf_other (.inr (.inl hm)), hm, List.append_nil]; exact g4
          · have : readsOf k' [.call (.readv k' buf niov env) o] = [o.msgs] := by simp [readsOf, hm]
            rw [this]
            exact g4.snoc _ r1
    · exact (hgv k').keep h1.log (by rw [h4]; exact spec_step_other e (.inr (.inl ⟨_, _, _, _, rfl⟩))) (readsOf_other (.inl (fun e' => e e'.symm)))
  | farmStat k reset =>
    have nr : ∀ k', readsOf k' [.call (.farmStat k reset) o] = [] := fun k' => nor k' (fun _ _ _ _ h => nomatch h)
    obtain ⟨h1, h2, h3, h4⟩ := hc
    refine ⟨by rw [h1.gf, hgf], by rw [h1.log, h2]; simpa using hb, fun k' => ?_⟩
    by_cases e : k' = k
    · subst e
      have same : sp'.hs k' = sp.hs k' → HasRead (evs ++ [.call (.farmStat k' reset) o]) sp' k' := fun e' => (hgv k').keep h1.log e' (nr _)
      unfold Spec.step at h4
      dsimp only at h4
      cases e2 : sp.hs k' with
      | live sh =>
        rw [e2] at h4
        dsimp only at h4
        split at h4
        · exact same (by rw [h4])
        · cases reset with
          | false => exact same (by rw [h4]; dsimp only; rw [upd_same, e2]; rfl)
          | true =>
            have hk' := congrFun h4 k'
            dsimp only at hk'
            rw [upd_same, if_pos rfl] at hk'
            refine (hgv k').stay h1.log e2 hk' (nr _) rfl (fun hn => ?_)
            exact absurd (List.mem_append_right _ (List.mem_singleton.mpr rfl)) (hn o)
      | never => rw [e2] at h4; exact same (by rw [h4])
      | gone l => rw [e2] at h4; exact same (by rw [h4])
    · exact (hgv k').keep h1.log (by rw [h4]; exact spec_step_other e (.inr (.inr ⟨_, _, rfl⟩))) (nr _)

theorem FarmRun.facts {a : InitArgs} (hf : a.flags.has SHR_FARM = true) {evs : List FarmEv} {sp : Spec} (h : FarmRun a evs sp) : RunFacts a evs sp := by
  induction h with
  | new => exact ⟨rfl, Nat.le_refl _, fun k => rfl⟩
  | call _ hc ih => exact ih.call hf hc
  | @death evs sp sp' op _ hd ih =>
    obtain ⟨X, hX, h1, h2, h3, l, h4⟩ := hd
    have nr : ∀ k', readsOf k' [.death op] = [] := fun _ => rfl
    refine ⟨by rw [h1.gf, ih.gf], h3, fun k => ?_⟩
    by_cases e : k = op.handle
    · subst e
      exact (ih.given _).leave h1.log (by rw [h4, upd_same]) (nr _)
    · exact (ih.given _).keep h1.log (by rw [h4, upd_other _ _ e]) (nr _)

/-! ## Nothing is invented -/

structure Honest (evs : List FarmEv) (sp : Spec) : Prop where
  log : ∀ m ∈ sp.log, Offered evs m
  pend : ∀ k sh, sp.hs k = .live sh → ∀ m ∈ sh.pend, Offered evs m

theorem Offered.left {evs : List FarmEv} {m : Msg} (h : Offered evs m) (e : FarmEv) : Offered (evs ++ [e]) m := by
  obtain ⟨k, iov, e1, e2, h1, h2⟩ := h
  refine ⟨k, iov, e1, e2, h1, ?_⟩
  rcases h2 with ⟨o, h2⟩ | h2
  · exact .inl ⟨o, List.mem_append_left _ h2⟩
  · exact .inr (List.mem_append_left _ h2)

theorem Wrote.from {sp : Spec} {sh : SHandle} {iov : List Msg} {o : Out} {X pend : List Msg} {b : Nat} (h : Wrote sp sh iov o X pend b) :
    ∀ m, (m ∈ X ∨ m ∈ pend) → m ∈ sh.pend ∨ m ∈ iov := by
  intro m hm
  by_cases hrc : ∃ rc, o = .wrote rc ∧ 0 < rc
  · obtain ⟨rc, e, hp⟩ := hrc
    have := (h.done rc e hp).2
    rw [← List.mem_append, ← this, List.mem_append]; exact hm
  · have : ∀ rc, o = .wrote rc → rc ≤ 0 := fun rc e => by
      rcases Int.lt_or_le 0 rc with hp | hp
      · exact absurd ⟨rc, e, hp⟩ hrc
      · exact hp
    rcases h.undone this with ⟨rfl, rfl⟩ | ⟨rfl, rfl | rfl⟩ | ⟨rfl, rfl⟩ <;> simp_all

theorem Flushed.from {sp : Spec} {sh : SHandle} {o : Out} {X pend : List Msg} {b : Nat} (h : Flushed sp sh o X pend b) :
    ∀ m, (m ∈ X ∨ m ∈ pend) → m ∈ sh.pend := by
  intro m hm
  by_cases hrc : ∃ rc, o = .wrote rc ∧ 0 < rc
  · obtain ⟨rc, e, hp⟩ := hrc
    obtain ⟨_, rfl, rfl⟩ := h.done rc e hp
    simpa using hm
  · have : ∀ rc, o = .wrote rc → rc ≤ 0 := fun rc e => by
      rcases Int.lt_or_le 0 rc with hp | hp
      · exact absurd ⟨rc, e, hp⟩ hrc
      · exact hp
    rcases h.undone this with ⟨rfl | rfl, rfl⟩ <;> simp_all

theorem Honest.next {evs : List FarmEv} {sp sp' : Spec} {X : List Msg} {e : FarmEv} (h : Honest evs sp) (hg : Grows sp sp' X)
    (hX : ∀ m ∈ X, Offered (evs ++ [e]) m) (hp : ∀ k sh', sp'.hs k = .live sh' → (∃ sh, sp.hs k = .live sh ∧ sh'.pend = sh.pend) ∨ ∀ m ∈ sh'.pend, Offered (evs ++ [e]) m) :
    Honest (evs ++ [e]) sp' := by
  refine ⟨fun m hm => ?_, fun k sh' hk m hm => ?_⟩
  · rw [hg.log, List.mem_append] at hm
    rcases hm with hm | hm
    · exact (h.log m hm).left e
    · exact hX m hm
  · rcases hp k sh' hk with ⟨sh, h1, h2⟩ | h1
    · exact (h.pend k sh h1 m (h2 ▸ hm)).left e
    · exact h1 m hm

theorem Honest.call {evs : List FarmEv} {sp sp' : Spec} {op : Op} {o : Out} (h : Honest evs sp) (hc : FarmCall sp op o sp') :
    Honest (evs ++ [.call op o]) sp' := by
  have quiet : Grows sp sp' [] ∧ sp'.base = sp.base ∧ sp'.hs = sp.hs → Honest (evs ++ [.call op o]) sp' := by
    rintro ⟨h1, _, h3⟩
    exact h.next h1 (fun m hm => by simp at hm) (fun k sh' hk => .inl ⟨sh', by rw [← h3]; exact hk, rfl⟩)
  -- only the entry of handle `k` changes
  have one : ∀ (X : List Msg) (k : Nat) (v : Life SHandle (List Msg)), Grows sp sp' X → sp'.hs = upd sp.hs k v → (∀ m ∈ X, Offered (evs ++ [.call op o]) m) →
      (∀ sh', v = .live sh' → (∃ sh, sp.hs k = .live sh ∧ sh'.pend = sh.pend) ∨ ∀ m ∈ sh'.pend, Offered (evs ++ [.call op o]) m) → Honest (evs ++ [.call op o]) sp' := by
    intro X k v hg hh hX hv
    refine h.next hg hX (fun k' sh' hk => ?_)
    rw [hh] at hk
    by_cases e : k' = k
    · subst e; rw [upd_same] at hk; exact hv sh' hk
    · rw [upd_other _ _ e] at hk; exact .inl ⟨sh', hk, rfl⟩
  cases op with
  | writev k iov e1 e2 =>
    unfold FarmCall at hc
    dsimp only at hc
    split at hc
    · rename_i sh hk
      split at hc
      · exact quiet hc.2
      · obtain ⟨X, pend, h1, h2, h3⟩ := hc
        have src : ∀ m, (m ∈ X ∨ m ∈ pend) → Offered (evs ++ [.call (.writev k iov e1 e2) o]) m := fun m hm => by
          rcases h2.from m hm with hm | hm
          · exact (h.pend k sh hk m hm).left _
          · exact ⟨k, iov, e1, e2, hm, .inl ⟨o, List.mem_append_right _ (List.mem_singleton.mpr rfl)⟩⟩
        exact one X k _ h1 h3 (fun m hm => src m (.inl hm)) (fun sh' e => by cases e; exact .inr fun m hm => src m (.inr hm))
    · exact quiet hc.2
  | flush k wait env =>
    unfold FarmCall at hc
    dsimp only at hc
    split at hc
    · rename_i sh hk
      split at hc
      · exact quiet hc.2
      · obtain ⟨X, pend, c, h1, h2, h3⟩ := hc
        have src : ∀ m, (m ∈ X ∨ m ∈ pend) → Offered (evs ++ [.call (.flush k wait env) o]) m := fun m hm =>
          (h.pend k sh hk m (h2.from m hm)).left _
        exact one X k _ h1 h3 (fun m hm => src m (.inl hm)) (fun sh' e => by cases e; exact .inr fun m hm => src m (.inr hm))
    · exact quiet hc.2
  | close k env =>
    unfold FarmCall at hc
    dsimp only at hc
    split at hc
    · rename_i sh hk
      obtain ⟨X, pend, w, h1, h2, h3⟩ := hc
      have src : ∀ m, (m ∈ X ∨ m ∈ pend) → Offered (evs ++ [.call (.close k env) o]) m := fun m hm =>
        (h.pend k sh hk m (h2.from m hm)).left _
      rcases h3 with ⟨_, h3⟩ | ⟨_, _, h3⟩
      · exact one X k _ h1 h3 (fun m hm => src m (.inl hm)) (fun sh' e => nomatch e)
      · exact h.next h1 (fun m hm => src m (.inl hm)) (fun k sh' hk => .inl ⟨sh', by rw [← h3]; exact hk, rfl⟩)
    · exact quiet hc.2
  | stat k reset env => exact quiet hc.1
  | appdata k get set sz env => exact quiet hc.1
  | «open» k flags env =>
    obtain ⟨h1, h2, h3, h4⟩ := hc
    unfold Spec.step at h4
    dsimp only at h4
    split at h4
    · split at h4
      · exact quiet ⟨h1, h2, h4⟩
      · cases e3 : sp.openH flags env with
        | none => rw [e3] at h4; exact quiet ⟨h1, h2, h4⟩
        | some sh =>
          rw [e3] at h4
          refine one [] k _ h1 h4 (fun m hm => by simp at hm) (fun sh' e => ?_)
          cases e
          right
          unfold Spec.openH at e3
          dsimp only at e3
          split at e3
          · cases e3
          · cases e3; intro m hm; simp at hm
    · exact quiet ⟨h1, h2, h4⟩
  | readv k buf niov env =>
    obtain ⟨h1, h2, h3, h4⟩ := hc
    unfold Spec.step at h4
    dsimp only at h4
    split at h4
    · rename_i sh hk
      split at h4
      · exact quiet ⟨h1, h2, h4⟩
      · refine one [] k _ h1 h4 (fun m hm => by simp at hm) (fun sh' e => .inl ⟨sh, hk, ?_⟩)
        cases e
        have hcu : (sp.catchUp sh).pend = sh.pend := by unfold Spec.catchUp; split <;> rfl
        unfold Spec.readv
        split
        · rfl
        · dsimp only
          split
          · split
            · exact hcu
            · split <;> exact hcu
          · dsimp only; split <;> exact hcu
    · exact quiet ⟨h1, h2, h4⟩
  | farmStat k reset =>
    obtain ⟨h1, h2, h3, h4⟩ := hc
    unfold Spec.step at h4
    dsimp only at h4
    split at h4
    · rename_i sh hk
      split at h4
      · exact quiet ⟨h1, h2, h4⟩
      · refine one [] k _ h1 h4 (fun m hm => by simp at hm) (fun sh' e => .inl ⟨sh, hk, ?_⟩)
        cases e
        split <;> rfl
    · exact quiet ⟨h1, h2, h4⟩

theorem FarmRun.honest {a : InitArgs} {evs : List FarmEv} {sp : Spec} (h : FarmRun a evs sp) : Honest evs sp := by
  induction h with
  | new => exact ⟨fun m hm => by simp [Spec.log, Spec.init] at hm, fun k sh hk => nomatch hk⟩
  | call _ hc ih => exact ih.call hc
  | @death evs sp sp' op _ hd ih =>
    obtain ⟨X, hX, h1, h2, h3, l, h4⟩ := hd
    refine ih.next h1 (fun m hm => ?_) (fun k sh' hk => ?_)
    · unfold leftBy at hX
      split at hX
      · rename_i k iov e1 e2 sh hk
        have pen : ∀ m ∈ sh.pend, Offered (evs ++ [.death (.writev k iov e1 e2)]) m := fun m hm => (ih.pend _ sh hk m hm).left _
        have off : ∀ m ∈ iov, Offered (evs ++ [.death (.writev k iov e1 e2)]) m := fun m hm =>
          ⟨k, iov, e1, e2, hm, .inr (List.mem_append_right _ (List.mem_singleton.mpr rfl))⟩
        simp only [List.mem_cons, List.not_mem_nil, or_false] at hX
        rcases hX with rfl | rfl | rfl
        · simp at hm
        · exact pen m hm
        · rcases List.mem_append.mp hm with hm | hm
          · exact pen m hm
          · exact off m hm
      · rename_i sh hk
        simp only [List.mem_cons, List.not_mem_nil, or_false] at hX
        rcases hX with rfl | rfl
        · simp at hm
        · exact (ih.pend _ _ hk m hm).left _
      · rename_i sh hk
        simp only [List.mem_cons, List.not_mem_nil, or_false] at hX
        rcases hX with rfl | rfl
        · simp at hm
        · exact (ih.pend _ _ hk m hm).left _
      · rw [List.mem_singleton.mp hX] at hm; simp at hm
    · rw [h4] at hk
      by_cases e : k = op.handle
      · subst e; rw [upd_same] at hk; cases hk
      · rw [upd_other _ _ e] at hk; exact .inl ⟨sh', hk, rfl⟩

/-! ## C96 -/

section
variable {a : InitArgs} {evs : List FarmEv} {s : Sys}

/-- Every life of a farm ring is a history of the append-only log (`Spec/FarmLog.lean`), with the results the callers saw; the ring holds the messages of
the log that are not gone. -/
theorem C96_one_log (ha : a.WF) (hf : a.flags.has SHR_FARM = true) (h : FarmLife a evs s) (hn : 2 * a.max_msgs * evs.length < W) :
    ∃ sp, FarmRun a evs sp ∧ sp.base ≤ sp.log.length ∧ s.ring.presentMsgs = sp.log.drop sp.base := by
  obtain ⟨sp, h1, h2, _⟩ := h.shows ha hf hn
  exact ⟨sp, h1, h2.ring.gle, h2.ring.present⟩

/-- All readers read the same list: what the reads on a handle returned are pieces of it, in order and disjoint; every message of it was passed to
`shr_writev`.  Messages left out between the pieces are counted: `shr_farm_stat` returns their number. -/
theorem C96_reads_are_pieces (ha : a.WF) (hf : a.flags.has SHR_FARM = true) (h : FarmLife a evs s) (hn : 2 * a.max_msgs * evs.length < W) :
    ∃ log : List Msg, s.ring.presentMsgs <:+ log ∧ (∀ m ∈ log, Offered evs m) ∧
      ∀ k, ∃ p q miss, q ≤ log.length ∧ Pieces log p (readsOf k evs) q miss ∧
        (NoReset k evs → ∀ reset s' n, s.step (.farmStat k reset) = .ok (s', .farm n) → n = miss % W) := by
  obtain ⟨sp, h1, h2, _⟩ := h.shows ha hf hn
  have hg := h1.facts hf
  refine ⟨sp.log, by rw [h2.ring.present]; exact List.drop_suffix _ _, h1.honest.log, fun k => ?_⟩
  have := hg.given k
  have hl := h2.hs k
  have fs : ∀ {reset s' n}, s.step (.farmStat k reset) = .ok (s', .farm n) → ∃ hd, s.hs k = .live hd ∧ n = hd.cur.md := by
    intro reset s' n e
    unfold Sys.step at e
    dsimp only at e
    cases e2 : s.hs k with
    | live hd =>
      rw [e2] at e
      dsimp only at e
      split at e
      · cases e
      · cases e3 : exec (shr_farm_stat hd reset) s.ring with
        | error f => rw [e3] at e; cases e
        | ok v =>
          obtain ⟨⟨h', n'⟩, r'⟩ := v
          rename_i hrd
          obtain ⟨_, e4⟩ := (shr_farm_stat_ok (by simpa using hrd) reset s.ring).ret e3
          cases e4
          rw [e3] at e
          cases e
          exact ⟨hd, rfl, rfl⟩
    | _ => rw [e2] at e; cases e
  unfold HasRead at this
  cases e : sp.hs k with
  | never =>
    rw [e] at this hl
    dsimp only at this
    rw [this]
    refine ⟨0, 0, 0, Nat.zero_le _, rfl, fun _ reset s' n hs => ?_⟩
    obtain ⟨hd, hk, _⟩ := fs hs
    rw [hk] at hl; exact hl.elim
  | live sh =>
    rw [e] at this hl
    obtain ⟨g1, p, miss, g2, g3⟩ := this
    refine ⟨p, sh.pos, miss, g1, g2, fun hr reset s' n hs => ?_⟩
    obtain ⟨hd, hk, e⟩ := fs hs
    rw [hk] at hl
    rw [e, hl.cur.2, g3 hr]
  | gone l =>
    rw [e] at this hl
    obtain ⟨p, q, miss, g1, g2⟩ := this
    refine ⟨p, q, miss, g1, g2, fun _ reset s' n hs => ?_⟩
    obtain ⟨hd, hk, _⟩ := fs hs
    rw [hk] at hl; exact hl.elim

/-- A write that reports success has put what was held back and its own messages into the ring, or holds the rest back; its own, if it holds nothing
back, are all in the ring, the newest there. -/
theorem C96_write_is_present (ha : a.WF) (hf : a.flags.has SHR_FARM = true) (h : FarmLife a evs s) (hn : 2 * a.max_msgs * (evs.length + 1) < W)
    {k : Nat} {iov : List Msg} {e1 e2 : Env} {s' : Sys} {rc : Int} (hw : WriteWF iov) (hs : s.step (.writev k iov e1 e2) = .ok (s', .wrote rc)) (hrc : 0 < rc) :
    rc = (bytesOf iov : Int) ∧ (s'.cached k = [] → iov <:+ s'.ring.presentMsgs) := by
  rw [Nat.mul_add, Nat.mul_one] at hn
  obtain ⟨sp, h1, h2, h3⟩ := h.shows ha hf (by omega)
  obtain ⟨sp', h4, h5, _⟩ := h2.step (op := .writev k iov e1 e2) hw (by rw [h2.maxm]; omega) hs
  unfold FarmCall at h4
  dsimp only at h4
  split at h4
  · rename_i sh hk
    split at h4
    · cases h4.1
    · obtain ⟨X, pend, g1, g2, g3⟩ := h4
      obtain ⟨r1, r2⟩ := g2.done rc rfl hrc
      refine ⟨r1, fun hc => ?_⟩
      have hl := h5.hs k
      rw [g3, upd_same] at hl
      have hp : pend = [] := by
        cases e : s'.hs k with
        | live hd =>
          rw [e] at hl
          have := hl.cache.msgs
          unfold Sys.cached at hc
          rw [e] at hc
          rw [← hc]; exact this.symm
        | never => rw [e] at hl; exact hl.elim
        | gone u => rw [e] at hl; exact hl.elim
      rw [hp, List.append_nil] at r2
      rw [h5.ring.present, g1.log, r2, ← List.append_assoc, List.drop_append_of_le_length (by rw [List.length_append]; exact g2.bound)]
      exact List.suffix_append _ _
  · cases h4.1

/-- Whatever happened, the next call does nothing undefined. -/
theorem C96_no_undefined_behaviour (ha : a.WF) (hf : a.flags.has SHR_FARM = true) (h : FarmLife a evs s) (hn : 2 * a.max_msgs * (evs.length + 1) < W)
    {op : Op} (hw : op.WF a.appsize) : s.step op ≠ .error .ub := by
  rw [Nat.mul_add, Nat.mul_one] at hn
  obtain ⟨sp, h1, h2, h3⟩ := h.shows ha hf (by omega)
  exact h2.noUB hw (by rw [h2.maxm]; omega)

/-- Opening, reading, looking at the counters and the app data work whatever happened to the writers: no assertion fails. -/
theorem C96_readers_complete (ha : a.WF) (hf : a.flags.has SHR_FARM = true) (h : FarmLife a evs s) (hn : 2 * a.max_msgs * evs.length < W)
    {op : Op} (hw : op.WF a.appsize) (hr : op.looks = true) : ∃ s' o, s.step op = .ok (s', o) := by
  obtain ⟨sp, h1, h2, _⟩ := h.shows ha hf hn
  exact h2.total hw hr
end

/-! ## Cases

A farm ring of ten bytes and three slots; 0 and 3 write, 1 reads; 0 has written two messages and is killed while it writes two more. -/

def flOps : List Op := [opn 0 (SHR_WRONLY ||| SHR_NONBLOCK), opn 1 (SHR_RDONLY ||| SHR_NONBLOCK), opn 3 (SHR_WRONLY ||| SHR_NONBLOCK),
  wr 0 [[1, 2, 3], [4, 5, 6, 7]]]

def flOp : Op := wr 0 [[8, 9, 10, 11], [12]]

/-- The ring when the caller of `flOp` is killed after `j` stores. -/
def flPt (j : Nat) : Ring := ((final demoF flOps).points flOp).getD j (initRing demoF)

theorem FarmLife.run {a : InitArgs} : ∀ {ops : List Op} {evs : List FarmEv} {s s' : Sys} {outs : List Out}, FarmLife a evs s → (∀ op ∈ ops, op.WF a.appsize) →
    s.run ops = .ok (s', outs) → FarmLife a (evs ++ (ops.zip outs).map fun x => .call x.1 x.2) s' := by
  intro ops
  induction ops with
  | nil => intro evs s s' outs h _ hr; cases hr; simpa using h
  | cons op ops ih =>
    intro evs s s' outs h hw hr
    obtain ⟨s1, o, os, f1, f2, f3⟩ := sys_run_cons_ok hr
    subst f3
    have := ih (h.call (hw op (by simp)) f1) (fun op' ho => hw op' (by simp [ho])) f2
    simpa using this

def calmB (s : Sys) (op : Op) (j : Nat) : Bool :=
  match (s.points op)[j]? with
  | none => false
  | some p => match j with
    | 0 => true
    | i + 1 => match (s.points op)[i]? with
      | none => true
      | some q => q.e == p.e && q.q == p.q

theorem calmAt_of {s : Sys} {op : Op} {j : Nat} {d : Ring} (h : calmB s op j = true) : CalmAt s op j ((s.points op).getD j d) := by
  unfold calmB at h
  cases e : (s.points op)[j]? with
  | none => rw [e] at h; cases h
  | some p =>
    rw [e] at h
    rw [List.getD_eq_getElem?_getD, e]
    refine ⟨e, fun i q hi hq => ?_⟩
    subst hi
    dsimp only at h
    rw [hq] at h
    simpa using h

/-- The ring after the death of 0 in the middle of copying its messages. -/
theorem fl_life : ∃ evs, FarmLife demoF evs ((final demoF flOps).killed flOp (flPt 15)) ∧ evs.length = 5 := by
  have v : Valid demoF flOps := valid_of (by decide +kernel)
  have h := FarmLife.death ((FarmLife.new (a := demoF)).run v.wf v.runs) (op := flOp) (j := 15) (by unfold flOp wr Op.WF; decide)
    (calmAt_of (d := initRing demoF) (by decide +kernel))
  refine ⟨_, h, ?_⟩
  have : (outsOf demoF flOps).length = 4 := by decide +kernel
  have h4 : flOps.length = 4 := rfl
  simp [this, h4]

/-- The reader goes on: it has missed one message and gets the other one. -/
example : ∃ evs s', FarmLife demoF evs ((final demoF flOps).killed flOp (flPt 15)) ∧
    ((final demoF flOps).killed flOp (flPt 15)).run [rd 1 20 5, .farmStat 1 false] =
      .ok (s', [.read 4 [(0, 4)] ([4, 5, 6, 7] ++ List.replicate 16 0), .farm 1]) := by
  obtain ⟨evs, h, _⟩ := fl_life
  obtain ⟨s', e⟩ := of_outcome (x := ((final demoF flOps).killed flOp (flPt 15)).run [rd 1 20 5, .farmStat 1 false])
    (o := [.read 4 [(0, 4)] ([4, 5, 6, 7] ++ List.replicate 16 0), .farm 1]) (by decide +kernel)
  exact ⟨evs, s', h, e⟩

/-- The theorems apply to it. -/
example : ∃ log : List Msg, ((final demoF flOps).killed flOp (flPt 15)).ring.presentMsgs <:+ log ∧
    ((final demoF flOps).killed flOp (flPt 15)).ring.presentMsgs = [[4, 5, 6, 7]] := by
  obtain ⟨evs, h, hl⟩ := fl_life
  have v : Valid demoF flOps := valid_of (by decide +kernel)
  obtain ⟨log, h1, _⟩ := C96_reads_are_pieces v.init (by decide) h (by rw [hl]; decide +kernel)
  exact ⟨log, h1, by decide +kernel⟩

/-- Did the calls end in a failed assertion? -/
def aborted (x : Except Fault (Sys × List Out)) : Bool :=
  match x with
  | .error .abort => true
  | _ => false

/-- But the other writer cannot go on for long: the bytes of the dead writer's messages belong to no message, and after three more writes an assertion of the
library fails. -/
theorem C96_writers_may_abort : ∃ evs s, FarmLife demoF evs s ∧ aborted (s.run [wr 3 [[21, 22]], wr 3 [[23]], wr 3 [[24]]]) = true := by
  obtain ⟨evs, h, _⟩ := fl_life
  exact ⟨evs, _, h, by decide +kernel⟩

/-- If the dead writer had just moved the position of the eldest message, the readers get messages in the wrong order, or messages nobody has written. -/
theorem C96_torn_eldest_misleads : ∃ s : Sys, ∃ p ∈ s.points flOp, ∃ p' ∈ s.points flOp,
    (outcome ((s.killed flOp p).run [wr 3 [[21, 22]], wr 3 [[23]], wr 3 [[24]], rd 1 4 5])).map delivered = some [[24], [21, 22], [23]] ∧
    (outcome ((s.killed flOp p').run [rd 1 20 5])).map delivered = some [[4, 5, 6, 7], []] := by
  refine ⟨final demoF flOps, flPt 6, crash_getD_mem (by decide +kernel), flPt 7, crash_getD_mem (by decide +kernel), by decide +kernel, by decide +kernel⟩

end Shr
