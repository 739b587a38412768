import Verif.Proof.Observe
import Verif.Proof.Live
import Verif.Proof.Demo
import Verif.Props.Poison
/-!
# C102: whose turn it is

A call that waits gets nothing by having waited: it goes on at the first attempt that finds what it needs (room, or a
message), whoever came first.  So others may overtake it without limit, even if it tries again after each of their calls.
-/
namespace Shr

/-! ## The reference queue with a few handles on it -/

/-- A ring that neither drops nor is a farm, in a state with the unread messages `q`; `fl`: the flags of the open handles. -/
structure Parked (cap maxm : Nat) (sp : Spec) (fl : Nat → Option Flags) (q : List Msg) : Prop where
  cap : sp.cap = cap
  maxm : sp.maxm = maxm
  farm : sp.farm = false
  drop : sp.drop = false
  le : sp.first ≤ sp.log.length
  unread : sp.unread = q
  hs : ∀ k, match fl k with
    | some f => ∃ h, sp.hs k = .live h ∧ h.flags = f
    | none => sp.hs k = .never

namespace Parked
variable {cap maxm : Nat} {sp : Spec} {fl : Nat → Option Flags} {q : List Msg}

theorem live (p : Parked cap maxm sp fl q) {k : Nat} {f : Flags} (h : fl k = some f) :
    ∃ h, sp.hs k = .live h ∧ h.flags = f := by
  have := p.hs k
  rw [h] at this
  exact this

theorem upd {sp' : Spec} {q' : List Msg} (p : Parked cap maxm sp fl q) {k : Nat} {f : Flags} (hf : fl k = some f)
    {h : SHandle} (hh : h.flags = f) (h1 : sp'.cap = sp.cap) (h2 : sp'.maxm = sp.maxm) (h3 : sp'.gflags = sp.gflags)
    (h4 : sp'.hs = Shr.upd sp.hs k (.live h)) (h5 : sp'.first ≤ sp'.log.length) (h6 : sp'.unread = q') :
    Parked cap maxm sp' fl q' := by
  refine ⟨h1.trans p.cap, h2.trans p.maxm, ?_, ?_, h5, h6, ?_⟩
  · have := p.farm; unfold Spec.farm at this ⊢; rw [h3]; exact this
  · have := p.drop; unfold Spec.drop at this ⊢; rw [h3]; exact this
  · intro j
    rw [h4]
    by_cases e : j = k
    · subst e
      rw [hf, upd_same]
      exact ⟨h, rfl, hh⟩
    · rw [upd_other _ _ e]
      exact p.hs j

theorem init {a : InitArgs} (hd : a.flags.has SHR_DROP = false) (hf : a.flags.has SHR_FARM = false) :
    Parked a.dataSz a.max_msgs (Spec.init a) (fun _ => none) [] :=
  ⟨rfl, rfl, by unfold Spec.farm; exact (gflags_farm a).trans hf, by
    unfold Spec.drop; rw [show (Spec.init a).gflags = a.gflags from rfl, gflags_drop, hd, hf]; rfl, Nat.le_refl _, rfl, fun _ => rfl⟩

theorem «open» (p : Parked cap maxm sp fl q) {k : Nat} {f : Flags} (hk : fl k = none) (hv : validate_flags f = true) :
    ∃ sp', sp.step (opn k f) = (sp', .opened true) ∧ Parked cap maxm sp' (Shr.upd fl k (some f)) q := by
  have h0 := p.hs k
  rw [hk] at h0
  unfold opn
  simp only [Spec.step, h0, hv, Bool.true_eq_false, if_false]
  unfold Spec.openH
  simp only [Bool.true_eq_false, and_false, or_false, if_false]
  refine ⟨_, rfl, p.cap, p.maxm, p.farm, p.drop, p.le, p.unread, ?_⟩
  intro j
  by_cases e : j = k
  · subst e
    dsimp only
    rw [upd_same, upd_same]
    exact ⟨_, rfl, rfl⟩
  · dsimp only
    rw [upd_other _ _ e, upd_other _ _ e]
    exact p.hs j

theorem write (p : Parked cap maxm sp fl q) {k : Nat} (hk : fl k = some SHR_WRONLY) {new : List Msg}
    (hl : Legal cap maxm new) (hfit : Fits cap maxm q new) :
    ∃ sp', sp.step (wr k new) = (sp', .wrote (bytesOf new : Int)) ∧ Parked cap maxm sp' fl (q ++ new) := by
  obtain ⟨h, h0, hfl⟩ := p.live hk
  unfold wr
  have e1 : Flags.has SHR_WRONLY SHR_WRONLY = true := by decide
  have e2 : Flags.has SHR_WRONLY SHR_BUFFERED = false := by decide
  have hl' : Legal sp.cap sp.maxm new := by rw [p.cap, p.maxm]; exact hl
  have hf' : Fits sp.cap sp.maxm sp.unread new := by rw [p.cap, p.maxm, p.unread]; exact hfit
  simp only [Spec.step, h0, Spec.writev, hfl, e1, e2, Bool.true_eq_false, if_false, if_true, hl', not_true_eq_false,
    Spec.tryWrite, hf', true_or, and_false]
  refine ⟨_, rfl, p.upd hk hfl rfl rfl rfl rfl ?_ ?_⟩
  · have : (sp.commit k new true).first ≤ (sp.commit k new true).log.length := by
      have h1 : (sp.commit k new true).first = sp.first + evictCount sp.cap sp.maxm new sp.unread := rfl
      have h2 : (sp.commit k new true).log = sp.log ++ new := by
        unfold Spec.log Spec.commit
        simp [Function.comp_def]
      rw [h1, h2, evictCount_zero_of_fits hf', List.length_append]
      have := p.le
      omega
    exact this
  · have h1 := commit_unread sp k new true p.le
    rw [evictCount_zero_of_fits hf', List.drop_zero, p.unread] at h1
    exact h1

theorem write_waits (p : Parked cap maxm sp fl q) {k : Nat} (hk : fl k = some SHR_WRONLY) {new : List Msg}
    (hl : Legal cap maxm new) (hfit : ¬ Fits cap maxm q new) :
    ∃ sp', sp.step (wr k new) = (sp', .blocked) ∧ Parked cap maxm sp' fl q := by
  obtain ⟨h, h0, hfl⟩ := p.live hk
  unfold wr
  have e1 : Flags.has SHR_WRONLY SHR_WRONLY = true := by decide
  have e2 : Flags.has SHR_WRONLY SHR_BUFFERED = false := by decide
  have e3 : Flags.has SHR_WRONLY SHR_NONBLOCK = false := by decide
  have hl' : Legal sp.cap sp.maxm new := by rw [p.cap, p.maxm]; exact hl
  have hf' : ¬ Fits sp.cap sp.maxm sp.unread new := by rw [p.cap, p.maxm, p.unread]; exact hfit
  simp only [Spec.step, h0, Spec.writev, hfl, e1, e2, e3, Bool.true_eq_false, Bool.false_eq_true, if_false, if_true, hl',
    not_true_eq_false, Spec.tryWrite, hf', p.drop, or_self]
  exact ⟨_, rfl, p.upd hk hfl rfl rfl rfl rfl p.le p.unread⟩

theorem read (p : Parked cap maxm sp fl q) {k : Nat} (hk : fl k = some SHR_RDONLY) {m : Msg} {q' : List Msg}
    (hq : q = m :: q') {len : Nat} (h1 : m.length ≤ len) (h2 : 0 < len) (h3 : m.length ≤ SSIZE_MAX) :
    ∃ sp', sp.step (rd k len 1) = (sp', .read (m.length : Int) [(0, m.length)] (m ++ List.replicate (len - m.length) 0)) ∧
      Parked cap maxm sp' fl q' := by
  obtain ⟨h, h0, hfl⟩ := p.live hk
  unfold rd
  have e1 : Flags.has SHR_RDONLY SHR_RDONLY = true := by decide
  have hu : sp.readable h = m :: q' := by
    unfold Spec.readable
    rw [p.farm, if_neg (by decide), p.unread, hq]
  have ht : takeCount (m :: q') (min len SSIZE_MAX) 1 = 1 := by
    have : m.length ≤ min len SSIZE_MAX := by omega
    unfold takeCount
    rw [if_pos this]
    cases q' <;> rfl
  have hc : sp.catchUp h = h := by unfold Spec.catchUp; rw [p.farm]; rfl
  have hlen : 0 < sp.log.length - sp.first := by
    have h4 := congrArg List.length p.unread
    unfold Spec.unread at h4
    rw [List.length_drop, hq, List.length_cons] at h4
    omega
  simp only [Spec.step, h0, hfl, e1, Bool.true_eq_false, if_false, Spec.readv, List.length_replicate,
    Nat.pos_iff_ne_zero.mp h2, Nat.one_ne_zero, or_self, hu, hc, ht, reduceCtorEq, p.farm, Bool.false_eq_true,
    List.take_succ_cons, List.take_zero]
  refine ⟨_, Prod.ext rfl ?_, p.upd hk hfl rfl rfl rfl rfl ?_ ?_⟩
  · show Out.read _ _ _ = Out.read _ _ _
    unfold bytesOf layout layout put
    simp
  · show sp.first + 1 ≤ sp.log.length
    omega
  · show sp.log.drop (sp.first + 1) = q'
    have h4 := p.unread
    unfold Spec.unread at h4
    rw [← List.drop_drop, h4, hq]
    rfl

theorem read_waits (p : Parked cap maxm sp fl []) {k : Nat} (hk : fl k = some SHR_RDONLY) {len : Nat} (h2 : 0 < len) :
    ∃ sp', sp.step (rd k len 1) = (sp', .blocked) ∧ Parked cap maxm sp' fl [] := by
  obtain ⟨h, h0, hfl⟩ := p.live hk
  unfold rd
  have e1 : Flags.has SHR_RDONLY SHR_RDONLY = true := by decide
  have e2 : Flags.has SHR_RDONLY SHR_NONBLOCK = false := by decide
  have hu : sp.readable h = [] := by
    unfold Spec.readable
    rw [p.farm, if_neg (by decide), p.unread]
  have hc : sp.catchUp h = h := by unfold Spec.catchUp; rw [p.farm]; rfl
  simp only [Spec.step, h0, hfl, e1, e2, Bool.true_eq_false, Bool.false_eq_true, if_false, if_true, Spec.readv,
    List.length_replicate, Nat.pos_iff_ne_zero.mp h2, Nat.one_ne_zero, or_self, hu, hc]
  exact ⟨_, rfl, p.upd hk hfl rfl rfl rfl rfl p.le p.unread⟩

end Parked

theorem spec_run_cons {sp sp1 : Spec} {op : Op} {o : Out} {ops : List Op} (h : sp.step op = (sp1, o)) :
    sp.run (op :: ops) = ((sp1.run ops).1, o :: (sp1.run ops).2) := by
  show (((sp.step op).1.run ops).1, (sp.step op).2 :: ((sp.step op).1.run ops).2) = _
  rw [h]

theorem spec_run_app : ∀ (xs ys : List Op) (sp : Spec),
    sp.run (xs ++ ys) = (((sp.run xs).1.run ys).1, (sp.run xs).2 ++ ((sp.run xs).1.run ys).2)
  | [], _, _ => rfl
  | x :: xs, ys, sp => by
    rw [List.cons_append, spec_run_cons (o := (sp.step x).2) (sp1 := (sp.step x).1) rfl, spec_run_app xs ys,
      spec_run_cons (ops := xs) (o := (sp.step x).2) (sp1 := (sp.step x).1) rfl]
    rfl

/-! ## Writers -/

/-- Handles 0 and 1 write, 2 reads; 1 puts in two messages, then 0 wants to put in `big`. -/
def takenTwice (small : Msg) (big : List Msg) : List Op :=
  [opn 0 SHR_WRONLY, opn 1 SHR_WRONLY, opn 2 SHR_RDONLY, wr 1 [small], wr 1 [small], wr 0 big]

/-- `n` rounds: a message is read, 0 tries again, 1 writes another message, 0 tries again. -/
def rounds (small : Msg) (big : List Msg) : Nat → List Op
  | 0 => []
  | n + 1 => [rd 2 small.length 1, wr 0 big, wr 1 [small], wr 0 big] ++ rounds small big n

/-- What these calls return if handle 0 never gets in. -/
def roundsOut (small : Msg) : Nat → List Out
  | 0 => []
  | n + 1 => [.read small.length [(0, small.length)] small, .blocked, .wrote small.length, .blocked] ++ roundsOut small n

/-- Two messages are read, then handle 0 tries once more. -/
def drained (small : Msg) (big : List Msg) : List Op := [rd 2 small.length 1, rd 2 small.length 1, wr 0 big]

/-- The flags of the three handles. -/
def turnFl : Nat → Option Flags :=
  upd (upd (upd (fun _ => none) 0 (some SHR_WRONLY)) 1 (some SHR_WRONLY)) 2 (some SHR_RDONLY)

theorem put_full (m : Msg) : m ++ List.replicate (m.length - m.length) 0 = m := by
  rw [Nat.sub_self]; exact List.append_nil m

section
variable {a : InitArgs} {small : Msg} {big : List Msg}

theorem rounds_spec (h0 : small ≠ []) (hl : Legal a.dataSz a.max_msgs big) (hl1 : Legal a.dataSz a.max_msgs [small])
    (hsz : small.length ≤ SSIZE_MAX) (h2 : Fits a.dataSz a.max_msgs [small] [small])
    (hbig : ¬ Fits a.dataSz a.max_msgs [small] big) : ∀ (n : Nat) {sp : Spec},
    Parked a.dataSz a.max_msgs sp turnFl [small, small] →
    ∃ sp', sp.run (rounds small big n) = (sp', roundsOut small n) ∧
      Parked a.dataSz a.max_msgs sp' turnFl [small, small]
  | 0, sp, p => ⟨sp, rfl, p⟩
  | n + 1, sp, p => by
    have hpos : 0 < small.length := List.length_pos_iff.mpr h0
    have hbig2 : ¬ Fits a.dataSz a.max_msgs [small, small] big := by
      intro h
      refine hbig ⟨?_, ?_⟩
      · have h3 := h.1
        have : bytesOf [small] ≤ bytesOf [small, small] := by unfold bytesOf; simp
        omega
      · have h3 := h.2
        simp only [List.length_cons, List.length_nil] at h3 ⊢
        omega
    obtain ⟨s1, e1, p1⟩ := p.read (k := 2) rfl rfl (Nat.le_refl _) hpos hsz
    obtain ⟨s2, e2, p2⟩ := p1.write_waits (k := 0) rfl hl hbig
    obtain ⟨s3, e3, p3⟩ := p2.write (k := 1) rfl hl1 h2
    obtain ⟨s4, e4, p4⟩ := p3.write_waits (k := 0) rfl hl hbig2
    obtain ⟨s5, e5, p5⟩ := rounds_spec h0 hl hl1 hsz h2 hbig n p4
    refine ⟨s5, ?_, p5⟩
    unfold rounds roundsOut
    simp only [List.cons_append, List.nil_append]
    rw [spec_run_cons e1, spec_run_cons e2, spec_run_cons e3, spec_run_cons e4, e5, put_full]
    rw [show bytesOf [small] = small.length by unfold bytesOf; simp]

/-- The conditions of `C102_overtaken`: the ring neither drops nor is a farm, there is room for two of the small messages,
the other write is legal, and does not fit beside one of them. -/
structure Overtakable (a : InitArgs) (small : Msg) (big : List Msg) : Prop where
  init : a.WF
  drop : a.flags.has SHR_DROP = false
  farm : a.flags.has SHR_FARM = false
  pos : small ≠ []
  two : 2 * small.length ≤ a.dataSz ∧ 2 ≤ a.max_msgs
  legal : Legal a.dataSz a.max_msgs big
  big : a.dataSz < small.length + bytesOf big ∨ a.max_msgs < 1 + big.length

theorem rounds_ops (n : Nat) : ∀ op ∈ rounds small big n,
    op = rd 2 small.length 1 ∨ op = wr 0 big ∨ op = wr 1 [small] := by
  induction n with
  | zero => intro op h; cases h
  | succ n ih =>
    intro op h
    unfold rounds at h
    rw [List.mem_append] at h
    rcases h with h | h
    · simp only [List.mem_cons, List.not_mem_nil, or_false] at h
      rcases h with h | h | h | h <;> simp [h]
    · exact ih op h

/-- The history is one that a program may produce. -/
theorem Overtakable.valid (h : Overtakable a small big) (n : Nat) :
    Valid a (takenTwice small big ++ rounds small big n ++ drained small big) := by
  have hsz := h.init.sz
  have hssz : small.length ≤ SSIZE_MAX := by have := h.two.1; omega
  have hb : ∀ b ∈ big, b.length ≤ SSIZE_MAX := by
    intro b hb
    have h1 := h.legal.2.2.1
    have := mem_le_bytesOf hb
    omega
  have wbig : (wr 0 big).WF a.appsize := ⟨hb, .inr h.legal.2.1⟩
  have wsmall : (wr 1 [small]).WF a.appsize :=
    ⟨by intro b hb; rw [List.mem_singleton.mp hb]; exact hssz, .inr (by intro b hb; rw [List.mem_singleton.mp hb]; exact h.pos)⟩
  have wrd : (rd 2 small.length 1).WF a.appsize := by
    show (List.replicate _ _).length < W
    rw [List.length_replicate]
    unfold SSIZE_MAX at hssz
    unfold W
    omega
  refine ⟨h.init, ?_, fun hf => absurd hf (by rw [h.farm]; decide)⟩
  intro op hop
  rw [List.mem_append, List.mem_append] at hop
  rcases hop with (hop | hop) | hop
  · unfold takenTwice at hop
    simp only [List.mem_cons, List.not_mem_nil, or_false] at hop
    rcases hop with rfl | rfl | rfl | rfl | rfl | rfl
    · exact (by decide : (Flags.has SHR_WRONLY SHR_RDONLY && Flags.has SHR_WRONLY SHR_WRONLY) = false)
    · exact (by decide : (Flags.has SHR_WRONLY SHR_RDONLY && Flags.has SHR_WRONLY SHR_WRONLY) = false)
    · exact (by decide : (Flags.has SHR_RDONLY SHR_RDONLY && Flags.has SHR_RDONLY SHR_WRONLY) = false)
    · exact wsmall
    · exact wsmall
    · exact wbig
  · rcases rounds_ops n op hop with rfl | rfl | rfl
    · exact wrd
    · exact wbig
    · exact wsmall
  · unfold drained at hop
    simp only [List.mem_cons, List.not_mem_nil, or_false] at hop
    rcases hop with rfl | rfl | rfl
    · exact wrd
    · exact wrd
    · exact wbig

/-- **C102** (writers).  Take any ring that neither drops nor is a farm, any message of which two fit in, and any legal write
that does not fit beside one of them.  Handle 0 waits with that write; handle 1 goes on writing the message and handle 2
reading it.  For every `n` there is an execution in which `n` later writes get in, `n` reads free room, and the write
that was there first tries again after each of these calls and does not get in.  Only when both messages are read before
handle 1 writes another does it get in. -/
theorem C102_overtaken (h : Overtakable a small big) (n : Nat) :
    ∃ s, (Sys.init a).run (takenTwice small big ++ rounds small big n ++ drained small big) = .ok (s,
      [.opened true, .opened true, .opened true, .wrote small.length, .wrote small.length, .blocked] ++
      roundsOut small n ++
      [.read small.length [(0, small.length)] small, .read small.length [(0, small.length)] small, .wrote (bytesOf big)]) := by
  have v := h.valid n
  obtain ⟨s, e, _⟩ := v.reach
  refine ⟨s, e.trans (congrArg (fun o => Except.ok (s, o)) ?_)⟩
  have hpos : 0 < small.length := List.length_pos_iff.mpr h.pos
  have hsz := h.init.sz
  have hssz : small.length ≤ SSIZE_MAX := by have := h.two.1; omega
  have hb1 : bytesOf [small] = small.length := by unfold bytesOf; simp
  have hb2 : bytesOf [small, small] = 2 * small.length := by unfold bytesOf; simp; omega
  have hl1 : Legal a.dataSz a.max_msgs [small] :=
    ⟨by simp, by intro b hb; rw [List.mem_singleton.mp hb]; exact h.pos, by rw [hb1]; have := h.two.1; omega,
      by have := h.two.2; simp only [List.length_singleton]; omega⟩
  have h2 : Fits a.dataSz a.max_msgs [small] [small] :=
    ⟨by rw [hb1]; have := h.two.1; omega, by have := h.two.2; simp only [List.length_singleton]; omega⟩
  have h1 : Fits a.dataSz a.max_msgs [] [small] :=
    ⟨by rw [hb1]; have := h.two.1; show 0 + _ ≤ _; omega, by have := h.two.2; simp only [List.length_singleton, List.length_nil]; omega⟩
  have hbig : ¬ Fits a.dataSz a.max_msgs [small] big := by
    intro hf
    have h3 := hf.1
    have h4 := hf.2
    rw [hb1] at h3
    rw [List.length_singleton] at h4
    rcases h.big with h5 | h5 <;> omega
  have hbig2 : ¬ Fits a.dataSz a.max_msgs [small, small] big := by
    intro hf
    have h3 := hf.1
    have h4 := hf.2
    rw [hb2] at h3
    simp only [List.length_cons, List.length_nil] at h4
    rcases h.big with h5 | h5 <;> omega
  have hbig0 : Fits a.dataSz a.max_msgs [] big := by
    refine ⟨?_, ?_⟩
    · show 0 + _ ≤ _
      have := h.legal.2.2.1
      omega
    · rw [List.length_nil]
      have := h.legal.2.2.2
      omega
  have p0 := Parked.init h.drop h.farm
  obtain ⟨s1, e1, p1⟩ := p0.«open» (k := 0) (f := SHR_WRONLY) rfl (by decide)
  obtain ⟨s2, e2, p2⟩ := p1.«open» (k := 1) (f := SHR_WRONLY) rfl (by decide)
  obtain ⟨s3, e3, p3⟩ := p2.«open» (k := 2) (f := SHR_RDONLY) rfl (by decide)
  change Parked _ _ s3 turnFl [] at p3
  obtain ⟨s4, e4, p4⟩ := p3.write (k := 1) rfl hl1 h1
  obtain ⟨s5, e5, p5⟩ := p4.write (k := 1) rfl hl1 h2
  obtain ⟨s6, e6, p6⟩ := p5.write_waits (k := 0) rfl h.legal hbig2
  obtain ⟨s7, e7, p7⟩ := rounds_spec h.pos h.legal hl1 hssz h2 hbig n p6
  obtain ⟨s8, e8, p8⟩ := p7.read (k := 2) rfl rfl (Nat.le_refl _) hpos hssz
  obtain ⟨s9, e9, p9⟩ := p8.read (k := 2) rfl rfl (Nat.le_refl _) hpos hssz
  obtain ⟨s10, e10, _⟩ := p9.write (k := 0) rfl h.legal hbig0
  have d1 : (Spec.init a).run (takenTwice small big) =
      (s6, [.opened true, .opened true, .opened true, .wrote small.length, .wrote small.length, .blocked]) := by
    unfold takenTwice
    rw [spec_run_cons e1, spec_run_cons e2, spec_run_cons e3, spec_run_cons e4, spec_run_cons e5, spec_run_cons e6, hb1]
    rfl
  rw [spec_run_app, spec_run_app, d1]
  dsimp only
  rw [e7]
  dsimp only
  unfold drained
  rw [spec_run_cons e8, spec_run_cons e9, spec_run_cons e10, put_full]
  rfl

end

/-! ## Readers -/

/-- Handle 0 writes, 1 and 2 read; 1 finds nothing. -/
def emptyHanded (len : Nat) : List Op := [opn 0 SHR_WRONLY, opn 1 SHR_RDONLY, opn 2 SHR_RDONLY, rd 1 len 1]

/-- `n` rounds: a message is written, handle 2 takes it, 1 tries again. -/
def takes (m : Msg) (len : Nat) : Nat → List Op
  | 0 => []
  | n + 1 => [wr 0 [m], rd 2 len 1, rd 1 len 1] ++ takes m len n

/-- What these calls return if handle 1 never gets a message. -/
def takesOut (m : Msg) (len : Nat) : Nat → List Out
  | 0 => []
  | n + 1 => [.wrote m.length, .read m.length [(0, m.length)] (m ++ List.replicate (len - m.length) 0), .blocked] ++ takesOut m len n

def takeFl : Nat → Option Flags :=
  upd (upd (upd (fun _ => none) 0 (some SHR_WRONLY)) 1 (some SHR_RDONLY)) 2 (some SHR_RDONLY)

theorem takes_spec {a : InitArgs} {m : Msg} {len : Nat} (h0 : m ≠ []) (hl : Legal a.dataSz a.max_msgs [m])
    (hsz : m.length ≤ SSIZE_MAX) (hlen : m.length ≤ len) : ∀ (n : Nat) {sp : Spec},
    Parked a.dataSz a.max_msgs sp takeFl [] →
    ∃ sp', sp.run (takes m len n) = (sp', takesOut m len n) ∧ Parked a.dataSz a.max_msgs sp' takeFl []
  | 0, sp, p => ⟨sp, rfl, p⟩
  | n + 1, sp, p => by
    have hpos : 0 < len := Nat.lt_of_lt_of_le (List.length_pos_iff.mpr h0) hlen
    have hf : Fits a.dataSz a.max_msgs [] [m] := by
      refine ⟨?_, ?_⟩
      · show 0 + _ ≤ _
        have := hl.2.2.1
        omega
      · have := hl.2.2.2
        simp only [List.length_nil] at this ⊢
        omega
    obtain ⟨s1, e1, p1⟩ := p.write (k := 0) rfl hl hf
    obtain ⟨s2, e2, p2⟩ := p1.read (k := 2) rfl rfl hlen hpos hsz
    obtain ⟨s3, e3, p3⟩ := p2.read_waits (k := 1) rfl hpos
    obtain ⟨s4, e4, p4⟩ := takes_spec h0 hl hsz hlen n p3
    refine ⟨s4, ?_, p4⟩
    unfold takes takesOut
    simp only [List.cons_append, List.nil_append]
    rw [spec_run_cons e1, spec_run_cons e2, spec_run_cons e3, e4]
    rw [show bytesOf [m] = m.length by unfold bytesOf; simp]

/-- **C102** (readers).  On a ring that is not a farm two readers share the messages, in no particular way: for every `n` there
is an execution in which a reader that was there first and tries again after every message gets none of `n` messages,
because the other one takes each of them. -/
theorem C102_reader_overtaken {a : InitArgs} (ha : a.WF) (hd : a.flags.has SHR_DROP = false) (hfm : a.flags.has SHR_FARM = false)
    {m : Msg} (h0 : m ≠ []) (hm : m.length ≤ a.dataSz) {len : Nat} (hlen : m.length ≤ len) (hW : len < W) (n : Nat) :
    ∃ s, (Sys.init a).run (emptyHanded len ++ takes m len n) = .ok (s,
      [.opened true, .opened true, .opened true, .blocked] ++ takesOut m len n) := by
  have hsz := ha.sz
  have hssz : m.length ≤ SSIZE_MAX := by omega
  have hmm := InitArgs.mmpos a ha
  have hb1 : bytesOf [m] = m.length := by unfold bytesOf; simp
  have hl : Legal a.dataSz a.max_msgs [m] :=
    ⟨by simp, by intro b hb; rw [List.mem_singleton.mp hb]; exact h0, by rw [hb1]; exact hm,
      by simp only [List.length_singleton]; omega⟩
  have wrd : ∀ k, (rd k len 1).WF a.appsize := by
    intro k
    show (List.replicate _ _).length < W
    rw [List.length_replicate]
    exact hW
  have wsmall : (wr 0 [m]).WF a.appsize :=
    ⟨by intro b hb; rw [List.mem_singleton.mp hb]; exact hssz, .inr (by intro b hb; rw [List.mem_singleton.mp hb]; exact h0)⟩
  have hops : ∀ n, ∀ op ∈ takes m len n, op.WF a.appsize := by
    intro n
    induction n with
    | zero => intro op h; cases h
    | succ n ih =>
      intro op h
      unfold takes at h
      rw [List.mem_append] at h
      rcases h with h | h
      · simp only [List.mem_cons, List.not_mem_nil, or_false] at h
        rcases h with rfl | rfl | rfl
        · exact wsmall
        · exact wrd 2
        · exact wrd 1
      · exact ih op h
  have v : Valid a (emptyHanded len ++ takes m len n) := by
    refine ⟨ha, ?_, fun hf => absurd hf (by rw [hfm]; decide)⟩
    intro op hop
    rw [List.mem_append] at hop
    rcases hop with hop | hop
    · unfold emptyHanded at hop
      simp only [List.mem_cons, List.not_mem_nil, or_false] at hop
      rcases hop with rfl | rfl | rfl | rfl
      · exact (by decide : (Flags.has SHR_WRONLY SHR_RDONLY && Flags.has SHR_WRONLY SHR_WRONLY) = false)
      · exact (by decide : (Flags.has SHR_RDONLY SHR_RDONLY && Flags.has SHR_RDONLY SHR_WRONLY) = false)
      · exact (by decide : (Flags.has SHR_RDONLY SHR_RDONLY && Flags.has SHR_RDONLY SHR_WRONLY) = false)
      · exact wrd 1
    · exact hops n op hop
  obtain ⟨s, e, _⟩ := v.reach
  refine ⟨s, e.trans (congrArg (fun o => Except.ok (s, o)) ?_)⟩
  have p0 := Parked.init hd hfm
  obtain ⟨s1, e1, p1⟩ := p0.«open» (k := 0) (f := SHR_WRONLY) rfl (by decide)
  obtain ⟨s2, e2, p2⟩ := p1.«open» (k := 1) (f := SHR_RDONLY) rfl (by decide)
  obtain ⟨s3, e3, p3⟩ := p2.«open» (k := 2) (f := SHR_RDONLY) rfl (by decide)
  change Parked _ _ s3 takeFl [] at p3
  obtain ⟨s4, e4, p4⟩ := p3.read_waits (k := 1) rfl (Nat.lt_of_lt_of_le (List.length_pos_iff.mpr h0) hlen)
  obtain ⟨s5, e5, _⟩ := takes_spec h0 hl hssz hlen n p4
  have d1 : (Spec.init a).run (emptyHanded len) = (s4, [.opened true, .opened true, .opened true, .blocked]) := by
    unfold emptyHanded
    rw [spec_run_cons e1, spec_run_cons e2, spec_run_cons e3, spec_run_cons e4]
    rfl
  rw [spec_run_app, d1]
  dsimp only
  rw [e5]

/-- A ring of 4 bytes and 3 messages; messages of one byte, and a write of 4. -/
example : Overtakable { dataSz := 4, maxMsgs := 3, flags := SHR_MAXMSGS_2 } [7] [[1, 2, 3, 4]] where
  init := ⟨by decide, by decide, by decide, by decide⟩
  drop := by decide
  farm := by decide
  pos := by decide
  two := by decide
  legal := by decide
  big := .inl (by decide)

/-- The room may be missing in the message vector instead. -/
example : Overtakable { dataSz := 400, maxMsgs := 3, flags := SHR_MAXMSGS_2 } [7] [[1], [2], [3]] where
  init := ⟨by decide, by decide, by decide, by decide⟩
  drop := by decide
  farm := by decide
  pos := by decide
  two := by decide
  legal := by decide
  big := .inr (by decide)

end Shr
