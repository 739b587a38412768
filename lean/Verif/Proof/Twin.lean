import Verif.Proof.Consistent
/-! # On a ring that is not a farm only the unread messages matter -/
namespace Shr

/-- The result of a call without the counters of the statistics period. -/
def Out.noCounters : Out → Out
  | .stat rc (some st) => .stat rc (some { st with start := (0, 0), bw := 0, br := 0, mw := 0, mr := 0, md := 0, bd := 0 })
  | o => o

/-- Handles that differ at most in the farm position. -/
def SHandle.clean (h : SHandle) : SHandle := { h with pos := 0 }

def cleanLife : Life SHandle (List Msg) → Life SHandle (List Msg)
  | .live h => .live h.clean
  | x => x

/-- Two rings, not farms, with the same unread messages. -/
structure AlikeR (sp sq : Spec) : Prop where
  cap : sp.cap = sq.cap
  maxm : sp.maxm = sq.maxm
  gf : sp.gflags = sq.gflags
  nf : sp.farm = false
  app : sp.app = sq.app
  unread : sp.unread = sq.unread
  f1 : sp.first ≤ sp.log.length
  f2 : sq.first ≤ sq.log.length

/-- Moreover all handles but `c` are alike. -/
structure Alike (c : Nat) (sp sq : Spec) : Prop extends AlikeR sp sq where
  hs : ∀ k, k ≠ c → cleanLife (sp.hs k) = cleanLife (sq.hs k)

theorem AlikeR.drop {sp sq : Spec} (h : AlikeR sp sq) : sp.drop = sq.drop := by unfold Spec.drop; rw [h.gf]
theorem AlikeR.nf' {sp sq : Spec} (h : AlikeR sp sq) : sq.farm = false := by unfold Spec.farm; rw [← h.gf]; exact h.nf

theorem AlikeR.commit {sp sq : Spec} (h : AlikeR sp sq) (who : Nat) (new : List Msg) (c : Bool) :
    AlikeR (sp.commit who new c) (sq.commit who new c) ∧ (sp.st = sq.st → (sp.commit who new c).st = (sq.commit who new c).st) := by
  refine ⟨⟨h.cap, h.maxm, h.gf, h.nf, h.app, ?_, ?_, ?_⟩, ?_⟩
  · rw [commit_unread _ _ _ _ h.f1, commit_unread _ _ _ _ h.f2, h.cap, h.maxm, h.unread]
  · rw [commit_log]
    have := evictCount_le_length sp.cap sp.maxm new sp.unread
    have h1 := h.f1
    show sp.first + evictCount sp.cap sp.maxm new sp.unread ≤ _
    unfold Spec.unread at *; rw [List.length_drop] at this; rw [List.length_append]; omega
  · rw [commit_log]
    have := evictCount_le_length sq.cap sq.maxm new sq.unread
    have h1 := h.f2
    show sq.first + evictCount sq.cap sq.maxm new sq.unread ≤ _
    unfold Spec.unread at *; rw [List.length_drop] at this; rw [List.length_append]; omega
  · intro e
    unfold Spec.commit
    dsimp only
    rw [h.cap, h.maxm, h.unread, e]

theorem AlikeR.tryWrite {sp sq : Spec} (h : AlikeR sp sq) (who : Nat) (nb : Bool) (new : List Msg) (env : Env) :
    (sp.tryWrite who nb new env).2 = (sq.tryWrite who nb new env).2 ∧
    AlikeR (sp.tryWrite who nb new env).1 (sq.tryWrite who nb new env).1 ∧
    (sp.st = sq.st → (sp.tryWrite who nb new env).1.st = (sq.tryWrite who nb new env).1.st) := by
  unfold Spec.tryWrite
  rw [h.cap, h.maxm, h.unread, h.drop, h.gf]
  by_cases h1 : env.lockOk = false
  · rw [if_pos h1, if_pos h1]; exact ⟨rfl, h, id⟩
  rw [if_neg h1, if_neg h1]
  by_cases h2 : Fits sq.cap sq.maxm sq.unread new ∨ sq.drop = true
  · rw [if_pos h2, if_pos h2]; exact ⟨rfl, h.commit who new _⟩
  rw [if_neg h2, if_neg h2]
  by_cases h3 : nb = true
  · rw [if_pos h3, if_pos h3]; exact ⟨rfl, h, id⟩
  rw [if_neg h3, if_neg h3]
  cases env.waitRc with
  | none => exact ⟨rfl, h, id⟩
  | some sc => exact ⟨rfl, h, id⟩

/-- `writev` does not look at the farm position and keeps it. -/
theorem AlikeR.writev {sp sq : Spec} (h : AlikeR sp sq) (k : Nat) {a b : SHandle} (hab : a.clean = b.clean) (new : List Msg) (envF env : Env) :
    (sp.writev k a new envF env).2.2 = (sq.writev k b new envF env).2.2 ∧
    (sp.writev k a new envF env).2.1.clean = (sq.writev k b new envF env).2.1.clean ∧
    AlikeR (sp.writev k a new envF env).1 (sq.writev k b new envF env).1 ∧
    (sp.st = sq.st → (sp.writev k a new envF env).1.st = (sq.writev k b new envF env).1.st) := by
  obtain ⟨fl, pa, mi, pe, cs, cv, cw⟩ := a
  obtain ⟨fl', pb, mi', pe', cs', cv', cw'⟩ := b
  simp only [SHandle.clean, SHandle.mk.injEq, true_and] at hab
  obtain ⟨rfl, rfl, rfl, rfl, rfl, rfl⟩ := hab
  unfold Spec.writev
  rw [h.cap, h.maxm]
  dsimp only
  by_cases h1 : ¬ Legal sq.cap sq.maxm new
  · rw [if_pos h1, if_pos h1]; exact ⟨rfl, rfl, h, id⟩
  rw [if_neg h1, if_neg h1]
  by_cases h2 : fl.has SHR_BUFFERED = false
  · rw [if_pos h2, if_pos h2]
    obtain ⟨x1, x2, x3⟩ := h.tryWrite k (fl.has SHR_NONBLOCK) new env
    exact ⟨x1, rfl, x2, x3⟩
  rw [if_neg h2, if_neg h2]
  have hcf : ∀ p q : Nat, Spec.cacheFits ⟨fl, p, mi, pe, cs, cv, cw⟩ new ↔ Spec.cacheFits ⟨fl, q, mi, pe, cs, cv, cw⟩ new :=
    fun _ _ => Iff.rfl
  have hcf' : ∀ p q : Nat, Spec.cacheFits ⟨fl, p, mi, [], cs, cv, cw⟩ new ↔ Spec.cacheFits ⟨fl, q, mi, [], cs, cv, cw⟩ new :=
    fun _ _ => Iff.rfl
  by_cases h3 : Spec.cacheFits ⟨fl, pa, mi, pe, cs, cv, cw⟩ new
  · rw [if_pos h3, if_pos ((hcf _ _).mp h3)]; exact ⟨rfl, rfl, h, id⟩
  rw [if_neg h3, if_neg (fun x => h3 ((hcf _ _).mpr x))]
  by_cases h4 : pe = []
  · rw [if_pos h4, if_pos h4]
    obtain ⟨x1, x2, x3⟩ := h.tryWrite k (fl.has SHR_NONBLOCK) new env
    exact ⟨x1, rfl, x2, x3⟩
  rw [if_neg h4, if_neg h4]
  obtain ⟨x1, x2, x3⟩ := h.tryWrite k (fl.has SHR_NONBLOCK) pe envF
  generalize sp.tryWrite k (fl.has SHR_NONBLOCK) pe envF = X at *
  generalize sq.tryWrite k (fl.has SHR_NONBLOCK) pe envF = Y at *
  obtain ⟨X1, X2⟩ := X
  obtain ⟨Y1, Y2⟩ := Y
  dsimp only at x1 x2 x3 ⊢
  subst x1
  cases X2 with
  | wait => exact ⟨rfl, rfl, x2, x3⟩
  | ret rc =>
    dsimp only
    by_cases h5 : rc ≤ 0
    · rw [if_pos h5, if_pos h5]; exact ⟨rfl, rfl, x2, x3⟩
    rw [if_neg h5, if_neg h5]
    by_cases h6 : Spec.cacheFits ⟨fl, pa, mi, [], cs, cv, cw⟩ new
    · rw [if_pos h6, if_pos ((hcf' _ _).mp h6)]; exact ⟨rfl, rfl, x2, x3⟩
    rw [if_neg h6, if_neg (fun x => h6 ((hcf' _ _).mpr x))]
    obtain ⟨y1, y2, y3⟩ := x2.tryWrite k (fl.has SHR_NONBLOCK) new env
    exact ⟨y1, rfl, y2, fun e => y3 (x3 e)⟩

theorem AlikeR.readv {sp sq : Spec} (h : AlikeR sp sq) {a b : SHandle} (hab : a.clean = b.clean) (buf : List Byte) (niov : Nat) (env : Env) :
    (sp.readv a buf niov env).2.2 = (sq.readv b buf niov env).2.2 ∧
    (sp.readv a buf niov env).2.1.clean = (sq.readv b buf niov env).2.1.clean ∧
    AlikeR (sp.readv a buf niov env).1 (sq.readv b buf niov env).1 ∧
    (sp.st = sq.st → (sp.readv a buf niov env).1.st = (sq.readv b buf niov env).1.st) := by
  obtain ⟨fl, pa, mi, pe, cs, cv, cw⟩ := a
  obtain ⟨fl', pb, mi', pe', cs', cv', cw'⟩ := b
  simp only [SHandle.clean, SHandle.mk.injEq, true_and] at hab
  obtain ⟨rfl, rfl, rfl, rfl, rfl, rfl⟩ := hab
  unfold Spec.readv Spec.readable Spec.catchUp
  simp only [h.nf, h.nf', Bool.false_eq_true, if_false, h.unread]
  by_cases h1 : buf.length = 0 ∨ niov = 0 ∨ env.lockOk = false
  · rw [if_pos h1, if_pos h1]; exact ⟨rfl, rfl, h, id⟩
  rw [if_neg h1, if_neg h1]
  by_cases h2 : sq.unread = []
  · rw [if_pos h2, if_pos h2]
    by_cases h3 : fl.has SHR_NONBLOCK = true
    · rw [if_pos h3, if_pos h3]; exact ⟨rfl, rfl, h, id⟩
    rw [if_neg h3, if_neg h3]
    cases env.waitRc with
    | none => exact ⟨rfl, rfl, h, id⟩
    | some sc => exact ⟨rfl, rfl, h, id⟩
  rw [if_neg h2, if_neg h2]
  generalize ht : takeCount sq.unread (min buf.length SSIZE_MAX) niov = t
  have hle : t ≤ sq.unread.length := by rw [← ht]; exact takeCount_le_length _ _ _
  have hle' : t ≤ sp.unread.length := by rw [h.unread]; exact hle
  refine ⟨rfl, rfl, ⟨h.cap, h.maxm, h.gf, h.nf, h.app, ?_, ?_, ?_⟩, ?_⟩
  · show sp.log.drop (sp.first + t) = sq.log.drop (sq.first + t)
    rw [← List.drop_drop, ← List.drop_drop]
    have := h.unread
    unfold Spec.unread at this
    rw [this]
  · show sp.first + t ≤ sp.log.length
    have := h.f1
    unfold Spec.unread at hle'; rw [List.length_drop] at hle'; omega
  · show sq.first + t ≤ sq.log.length
    have := h.f2
    unfold Spec.unread at hle; rw [List.length_drop] at hle; omega
  · intro e; dsimp only; rw [e]

theorem AlikeR.flush {sp sq : Spec} (h : AlikeR sp sq) (k : Nat) {a b : SHandle} (hab : a.clean = b.clean) (wait : Bool) (env : Env) :
    (sp.flush k a wait env).2.2 = (sq.flush k b wait env).2.2 ∧
    (sp.flush k a wait env).2.1.clean = (sq.flush k b wait env).2.1.clean ∧
    AlikeR (sp.flush k a wait env).1 (sq.flush k b wait env).1 ∧
    (sp.st = sq.st → (sp.flush k a wait env).1.st = (sq.flush k b wait env).1.st) := by
  obtain ⟨fl, pa, mi, pe, cs, cv, cw⟩ := a
  obtain ⟨fl', pb, mi', pe', cs', cv', cw'⟩ := b
  simp only [SHandle.clean, SHandle.mk.injEq, true_and] at hab
  obtain ⟨rfl, rfl, rfl, rfl, rfl, rfl⟩ := hab
  unfold Spec.flush
  dsimp only
  by_cases h1 : pe = []
  · rw [if_pos h1, if_pos h1]; exact ⟨rfl, rfl, h, id⟩
  rw [if_neg h1, if_neg h1]
  by_cases h2 : (fl.has SHR_NONBLOCK && wait) = true ∧ cw = false ∧ (env.lockOk = false ∨ env.bwOpenOk = false)
  · rw [if_pos h2, if_pos h2]; exact ⟨rfl, rfl, h, id⟩
  rw [if_neg h2, if_neg h2]
  obtain ⟨x1, x2, x3⟩ := h.tryWrite k (fl.has SHR_NONBLOCK && !wait) pe env
  generalize sp.tryWrite k (fl.has SHR_NONBLOCK && !wait) pe env = X at *
  generalize sq.tryWrite k (fl.has SHR_NONBLOCK && !wait) pe env = Y at *
  obtain ⟨X1, X2⟩ := X
  obtain ⟨Y1, Y2⟩ := Y
  dsimp only at x1 x2 x3 ⊢
  subst x1
  refine ⟨rfl, ?_, x2, x3⟩
  cases X2 with
  | wait => rfl
  | ret rc =>
    dsimp only
    by_cases h5 : rc > 0
    · rw [if_pos h5, if_pos h5]; rfl
    · rw [if_neg h5, if_neg h5]; rfl

theorem AlikeR.appdata {sp sq : Spec} (h : AlikeR sp sq) (get : GetArg) (set : Option (List Byte)) (sz : Nat) (env : Env) :
    (sp.appdata get set sz env).2 = (sq.appdata get set sz env).2 ∧
    AlikeR (sp.appdata get set sz env).1 (sq.appdata get set sz env).1 ∧
    (sp.st = sq.st → (sp.appdata get set sz env).1.st = (sq.appdata get set sz env).1.st) ∧
    (sp.appdata get set sz env).1.hs = sp.hs ∧ (sq.appdata get set sz env).1.hs = sq.hs := by
  have put : ∀ c, AlikeR { sp with gflags := sq.gflags, app := c } { sq with app := c } := fun c =>
    ⟨h.cap, h.maxm, rfl, h.nf', rfl, h.unread, h.f1, h.f2⟩
  unfold Spec.appdata
  rw [h.app, h.gf]
  dsimp only
  by_cases h1 : env.lockOk = false ∨ sq.app.length = 0
  · rw [if_pos h1, if_pos h1]; exact ⟨rfl, h, id, rfl, rfl⟩
  rw [if_neg h1, if_neg h1]
  cases get with
  | null =>
    cases set with
    | none => exact ⟨rfl, h, id, rfl, rfl⟩
    | some b =>
      dsimp only
      by_cases h2 : sz ≠ sq.app.length
      · rw [if_pos h2, if_pos h2]; exact ⟨rfl, h, id, rfl, rfl⟩
      · rw [if_neg h2, if_neg h2]; exact ⟨rfl, put _, id, rfl, rfl⟩
  | alloc =>
    cases set with
    | none =>
      dsimp only
      by_cases h2 : env.mallocOk = false
      · rw [if_pos h2, if_pos h2]; exact ⟨rfl, h, id, rfl, rfl⟩
      · rw [if_neg h2, if_neg h2]; exact ⟨rfl, h, id, rfl, rfl⟩
    | some b => exact ⟨rfl, h, id, rfl, rfl⟩
  | into c =>
    cases set with
    | none =>
      dsimp only
      by_cases h2 : sz < sq.app.length
      · rw [if_pos h2, if_pos h2]; exact ⟨rfl, h, id, rfl, rfl⟩
      · rw [if_neg h2, if_neg h2]; exact ⟨rfl, h, id, rfl, rfl⟩
    | some b =>
      dsimp only
      by_cases h2 : sz ≠ sq.app.length
      · rw [if_pos h2, if_pos h2]; exact ⟨rfl, h, id, rfl, rfl⟩
      · rw [if_neg h2, if_neg h2]; exact ⟨rfl, put _, id, rfl, rfl⟩

theorem clean_fields {a b : SHandle} (h : a.clean = b.clean) :
    a.flags = b.flags ∧ a.missed = b.missed ∧ a.pend = b.pend ∧ a.csz = b.csz := by
  unfold SHandle.clean at h
  injection h with h1 h2 h3 h4 h5
  exact ⟨h1, h3, h4, h5⟩

theorem AlikeR.openH {sp sq : Spec} (h : AlikeR sp sq) (flags : Flags) (env : Env) :
    (sp.openH flags env).map SHandle.clean = (sq.openH flags env).map SHandle.clean := by
  unfold Spec.openH
  rw [h.gf, h.cap, h.maxm, h.drop]
  dsimp only
  split <;> rfl

theorem Alike.upd {c : Nat} {sp sq : Spec} (h : Alike c sp sq) {sp' sq' : Spec} (h' : AlikeR sp' sq') (k : Nat) {x y : Life SHandle (List Msg)}
    (hxy : cleanLife x = cleanLife y) : Alike c { sp' with hs := upd sp.hs k x } { sq' with hs := Shr.upd sq.hs k y } := by
  refine ⟨⟨h'.cap, h'.maxm, h'.gf, h'.nf, h'.app, h'.unread, h'.f1, h'.f2⟩, ?_⟩
  intro j hj
  show cleanLife (Shr.upd sp.hs k x j) = cleanLife (Shr.upd sq.hs k y j)
  unfold Shr.upd
  split
  · exact hxy
  · exact h.hs j hj

theorem Alike.ring {c : Nat} {sp sq : Spec} (h : Alike c sp sq) {sp' sq' : Spec} (h' : AlikeR sp' sq') (e1 : sp'.hs = sp.hs) (e2 : sq'.hs = sq.hs) :
    Alike c sp' sq' := ⟨h', by rw [e1, e2]; exact h.hs⟩

/-- One call gives the same result (the counters aside) on two alike rings, which stay alike. -/
theorem Alike.step {c : Nat} {sp sq : Spec} (h : Alike c sp sq) (op : Op) (hne : op.handle ≠ c) :
    (sp.step op).2.noCounters = (sq.step op).2.noCounters ∧ Alike c (sp.step op).1 (sq.step op).1 ∧
    (sp.st = sq.st → (sp.step op).2 = (sq.step op).2 ∧ (sp.step op).1.st = (sq.step op).1.st) := by
  have hk := h.hs op.handle hne
  have misuse : (sp.step op) = (sp, .misuse) → (sq.step op) = (sq, .misuse) →
      (sp.step op).2.noCounters = (sq.step op).2.noCounters ∧ Alike c (sp.step op).1 (sq.step op).1 ∧
      (sp.st = sq.st → (sp.step op).2 = (sq.step op).2 ∧ (sp.step op).1.st = (sq.step op).1.st) := by
    intro e1 e2; rw [e1, e2]; exact ⟨rfl, h, fun e => ⟨rfl, e⟩⟩
  cases op with
  | «open» k flags env =>
    change cleanLife (sp.hs k) = cleanLife (sq.hs k) at hk
    cases e1 : sp.hs k with
    | never =>
      cases e2 : sq.hs k with
      | never =>
        unfold Spec.step
        dsimp only
        rw [e1, e2]
        dsimp only
        by_cases h1 : validate_flags flags = false
        · rw [if_pos h1, if_pos h1]; exact ⟨rfl, h, fun e => ⟨rfl, e⟩⟩
        rw [if_neg h1, if_neg h1]
        have ho := h.toAlikeR.openH flags env
        cases o1 : sp.openH flags env with
        | none =>
          cases o2 : sq.openH flags env with
          | none => exact ⟨rfl, h, fun e => ⟨rfl, e⟩⟩
          | some y => rw [o1, o2] at ho; cases ho
        | some x =>
          cases o2 : sq.openH flags env with
          | none => rw [o1, o2] at ho; cases ho
          | some y =>
            rw [o1, o2] at ho
            exact ⟨rfl, h.upd h.toAlikeR k (by simpa [cleanLife] using ho), fun e => ⟨rfl, e⟩⟩
      | live b => rw [e1, e2] at hk; cases hk
      | gone b => rw [e1, e2] at hk; cases hk
    | live a =>
      cases e2 : sq.hs k with
      | never => rw [e1, e2] at hk; cases hk
      | live b => exact misuse (by unfold Spec.step; dsimp only; rw [e1]) (by unfold Spec.step; dsimp only; rw [e2])
      | gone b => rw [e1, e2] at hk; cases hk
    | gone a =>
      cases e2 : sq.hs k with
      | never => rw [e1, e2] at hk; cases hk
      | live b => rw [e1, e2] at hk; cases hk
      | gone b => exact misuse (by unfold Spec.step; dsimp only; rw [e1]) (by unfold Spec.step; dsimp only; rw [e2])
  | writev k iov envF env =>
    change cleanLife (sp.hs k) = cleanLife (sq.hs k) at hk
    cases e1 : sp.hs k with
    | live a =>
      cases e2 : sq.hs k with
      | live b =>
        rw [e1, e2] at hk
        have hab : a.clean = b.clean := by simpa [cleanLife] using hk
        have hfl : a.flags = b.flags := (clean_fields hab).1
        unfold Spec.step
        dsimp only
        rw [e1, e2]
        dsimp only
        by_cases h1 : b.flags.has SHR_WRONLY = false
        · rw [hfl, if_pos h1, if_pos h1]; exact ⟨rfl, h, fun e => ⟨rfl, e⟩⟩
        rw [hfl, if_neg h1, if_neg h1]
        obtain ⟨x1, x2, x3, x4⟩ := h.toAlikeR.writev k hab iov envF env
        refine ⟨by rw [x1], h.upd x3 k (by simp [cleanLife, x2]), fun e => ⟨by rw [x1], x4 e⟩⟩
      | never => rw [e1, e2] at hk; cases hk
      | gone b => rw [e1, e2] at hk; cases hk
    | never =>
      cases e2 : sq.hs k with
      | never => exact misuse (by unfold Spec.step; dsimp only; rw [e1]) (by unfold Spec.step; dsimp only; rw [e2])
      | live b => rw [e1, e2] at hk; cases hk
      | gone b => rw [e1, e2] at hk; cases hk
    | gone a =>
      cases e2 : sq.hs k with
      | never => rw [e1, e2] at hk; cases hk
      | live b => rw [e1, e2] at hk; cases hk
      | gone b => exact misuse (by unfold Spec.step; dsimp only; rw [e1]) (by unfold Spec.step; dsimp only; rw [e2])
  | readv k buf niov env =>
    change cleanLife (sp.hs k) = cleanLife (sq.hs k) at hk
    cases e1 : sp.hs k with
    | live a =>
      cases e2 : sq.hs k with
      | live b =>
        rw [e1, e2] at hk
        have hab : a.clean = b.clean := by simpa [cleanLife] using hk
        have hfl : a.flags = b.flags := (clean_fields hab).1
        unfold Spec.step
        dsimp only
        rw [e1, e2]
        dsimp only
        by_cases h1 : b.flags.has SHR_RDONLY = false
        · rw [hfl, if_pos h1, if_pos h1]; exact ⟨rfl, h, fun e => ⟨rfl, e⟩⟩
        rw [hfl, if_neg h1, if_neg h1]
        obtain ⟨x1, x2, x3, x4⟩ := h.toAlikeR.readv hab buf niov env
        refine ⟨by rw [x1], h.upd x3 k (by simp [cleanLife, x2]), fun e => ⟨by rw [x1], x4 e⟩⟩
      | never => rw [e1, e2] at hk; cases hk
      | gone b => rw [e1, e2] at hk; cases hk
    | never =>
      cases e2 : sq.hs k with
      | never => exact misuse (by unfold Spec.step; dsimp only; rw [e1]) (by unfold Spec.step; dsimp only; rw [e2])
      | live b => rw [e1, e2] at hk; cases hk
      | gone b => rw [e1, e2] at hk; cases hk
    | gone a =>
      cases e2 : sq.hs k with
      | never => rw [e1, e2] at hk; cases hk
      | live b => rw [e1, e2] at hk; cases hk
      | gone b => exact misuse (by unfold Spec.step; dsimp only; rw [e1]) (by unfold Spec.step; dsimp only; rw [e2])
  | flush k wait env =>
    change cleanLife (sp.hs k) = cleanLife (sq.hs k) at hk
    cases e1 : sp.hs k with
    | live a =>
      cases e2 : sq.hs k with
      | live b =>
        rw [e1, e2] at hk
        have hab : a.clean = b.clean := by simpa [cleanLife] using hk
        have hfl : a.flags = b.flags := (clean_fields hab).1
        unfold Spec.step
        dsimp only
        rw [e1, e2]
        dsimp only
        by_cases h1 : b.flags.has SHR_WRONLY = false
        · rw [hfl, if_pos h1, if_pos h1]; exact ⟨rfl, h, fun e => ⟨rfl, e⟩⟩
        rw [hfl, if_neg h1, if_neg h1]
        obtain ⟨x1, x2, x3, x4⟩ := h.toAlikeR.flush k hab wait env
        refine ⟨by rw [x1], h.upd x3 k (by simp [cleanLife, x2]), fun e => ⟨by rw [x1], x4 e⟩⟩
      | never => rw [e1, e2] at hk; cases hk
      | gone b => rw [e1, e2] at hk; cases hk
    | never =>
      cases e2 : sq.hs k with
      | never => exact misuse (by unfold Spec.step; dsimp only; rw [e1]) (by unfold Spec.step; dsimp only; rw [e2])
      | live b => rw [e1, e2] at hk; cases hk
      | gone b => rw [e1, e2] at hk; cases hk
    | gone a =>
      cases e2 : sq.hs k with
      | never => rw [e1, e2] at hk; cases hk
      | live b => rw [e1, e2] at hk; cases hk
      | gone b => exact misuse (by unfold Spec.step; dsimp only; rw [e1]) (by unfold Spec.step; dsimp only; rw [e2])
  | close k env =>
    change cleanLife (sp.hs k) = cleanLife (sq.hs k) at hk
    cases e1 : sp.hs k with
    | live a =>
      cases e2 : sq.hs k with
      | live b =>
        rw [e1, e2] at hk
        have hab : a.clean = b.clean := by simpa [cleanLife] using hk
        have hsp := flush_hs sp k a false env
        have hsq := flush_hs sq k b false env
        obtain ⟨x1, x2, x3, x4⟩ := h.toAlikeR.flush k hab false env
        unfold Spec.step
        dsimp only
        rw [e1, e2]
        dsimp only
        have hpe := (clean_fields x2).2.2.1
        generalize sp.flush k a false env = X at *
        generalize sq.flush k b false env = Y at *
        obtain ⟨X1, X2, X3⟩ := X
        obtain ⟨Y1, Y2, Y3⟩ := Y
        dsimp only at x1 x2 x3 x4 hpe hsp hsq ⊢
        subst x1
        cases X3 with
        | wait => exact ⟨rfl, h.ring x3 hsp hsq, fun e => ⟨rfl, x4 e⟩⟩
        | ret rc => exact ⟨rfl, h.upd x3 k (by simp only [cleanLife]; rw [show X2.pend = Y2.pend from hpe]), fun e => ⟨rfl, x4 e⟩⟩
      | never => rw [e1, e2] at hk; cases hk
      | gone b => rw [e1, e2] at hk; cases hk
    | never =>
      cases e2 : sq.hs k with
      | never => exact misuse (by unfold Spec.step; dsimp only; rw [e1]) (by unfold Spec.step; dsimp only; rw [e2])
      | live b => rw [e1, e2] at hk; cases hk
      | gone b => rw [e1, e2] at hk; cases hk
    | gone a =>
      cases e2 : sq.hs k with
      | never => rw [e1, e2] at hk; cases hk
      | live b => rw [e1, e2] at hk; cases hk
      | gone b => exact misuse (by unfold Spec.step; dsimp only; rw [e1]) (by unfold Spec.step; dsimp only; rw [e2])
  | stat k reset env =>
    change cleanLife (sp.hs k) = cleanLife (sq.hs k) at hk
    cases e1 : sp.hs k with
    | live a =>
      cases e2 : sq.hs k with
      | live b =>
        rw [e1, e2] at hk
        have hab : a.clean = b.clean := by simpa [cleanLife] using hk
        have hc : a.csz = b.csz := (clean_fields hab).2.2.2
        have hp : a.pend = b.pend := (clean_fields hab).2.2.1
        unfold Spec.step
        dsimp only
        rw [e1, e2]
        dsimp only
        by_cases h1 : env.lockOk = false
        · rw [if_pos h1, if_pos h1]; exact ⟨rfl, h, fun e => ⟨rfl, e⟩⟩
        rw [if_neg h1, if_neg h1, h.gf]
        refine ⟨?_, ?_, fun e => ⟨?_, ?_⟩⟩
        · simp only [Out.noCounters, Spec.statOf, h.cap, h.maxm, h.unread, h.gf, hc, hp]
        · cases reset with
          | none => exact h
          | some t => exact h.ring ⟨h.cap, h.maxm, rfl, h.toAlikeR.nf', h.app, h.unread, h.f1, h.f2⟩ rfl rfl
        · simp only [Spec.statOf, h.cap, h.maxm, h.unread, h.gf, hc, hp, e]
        · cases reset with
          | none => exact e
          | some t => rfl
      | never => rw [e1, e2] at hk; cases hk
      | gone b => rw [e1, e2] at hk; cases hk
    | never =>
      cases e2 : sq.hs k with
      | never => exact misuse (by unfold Spec.step; dsimp only; rw [e1]) (by unfold Spec.step; dsimp only; rw [e2])
      | live b => rw [e1, e2] at hk; cases hk
      | gone b => rw [e1, e2] at hk; cases hk
    | gone a =>
      cases e2 : sq.hs k with
      | never => rw [e1, e2] at hk; cases hk
      | live b => rw [e1, e2] at hk; cases hk
      | gone b => exact misuse (by unfold Spec.step; dsimp only; rw [e1]) (by unfold Spec.step; dsimp only; rw [e2])
  | farmStat k reset =>
    change cleanLife (sp.hs k) = cleanLife (sq.hs k) at hk
    cases e1 : sp.hs k with
    | live a =>
      cases e2 : sq.hs k with
      | live b =>
        rw [e1, e2] at hk
        have hab : a.clean = b.clean := by simpa [cleanLife] using hk
        have hfl : a.flags = b.flags := (clean_fields hab).1
        have hms : a.missed = b.missed := (clean_fields hab).2.1
        unfold Spec.step
        dsimp only
        rw [e1, e2]
        dsimp only
        by_cases h1 : b.flags.has SHR_RDONLY = false
        · rw [hfl, if_pos h1, if_pos h1]; exact ⟨rfl, h, fun e => ⟨rfl, e⟩⟩
        rw [hfl, if_neg h1, if_neg h1]
        refine ⟨by rw [hms], h.upd h.toAlikeR k ?_, fun e => ⟨by rw [hms], e⟩⟩
        cases reset with
        | false => simpa [cleanLife] using hab
        | true =>
          obtain ⟨fl, pa, mi, pe, cs, cv, cw⟩ := a
          obtain ⟨fl', pb, mi', pe', cs', cv', cw'⟩ := b
          simp only [SHandle.clean, SHandle.mk.injEq, true_and] at hab
          obtain ⟨rfl, rfl, rfl, rfl, rfl, rfl⟩ := hab
          rfl
      | never => rw [e1, e2] at hk; cases hk
      | gone b => rw [e1, e2] at hk; cases hk
    | never =>
      cases e2 : sq.hs k with
      | never => exact misuse (by unfold Spec.step; dsimp only; rw [e1]) (by unfold Spec.step; dsimp only; rw [e2])
      | live b => rw [e1, e2] at hk; cases hk
      | gone b => rw [e1, e2] at hk; cases hk
    | gone a =>
      cases e2 : sq.hs k with
      | never => rw [e1, e2] at hk; cases hk
      | live b => rw [e1, e2] at hk; cases hk
      | gone b => exact misuse (by unfold Spec.step; dsimp only; rw [e1]) (by unfold Spec.step; dsimp only; rw [e2])
  | appdata k get set sz env =>
    change cleanLife (sp.hs k) = cleanLife (sq.hs k) at hk
    cases e1 : sp.hs k with
    | live a =>
      cases e2 : sq.hs k with
      | live b =>
        unfold Spec.step
        dsimp only
        rw [e1, e2]
        dsimp only
        obtain ⟨x1, x2, x3, x4, x5⟩ := h.toAlikeR.appdata get set sz env
        exact ⟨by rw [x1], h.ring x2 x4 x5, fun e => ⟨by rw [x1], x3 e⟩⟩
      | never => rw [e1, e2] at hk; cases hk
      | gone b => rw [e1, e2] at hk; cases hk
    | never =>
      cases e2 : sq.hs k with
      | never => exact misuse (by unfold Spec.step; dsimp only; rw [e1]) (by unfold Spec.step; dsimp only; rw [e2])
      | live b => rw [e1, e2] at hk; cases hk
      | gone b => rw [e1, e2] at hk; cases hk
    | gone a =>
      cases e2 : sq.hs k with
      | never => rw [e1, e2] at hk; cases hk
      | live b => rw [e1, e2] at hk; cases hk
      | gone b => exact misuse (by unfold Spec.step; dsimp only; rw [e1]) (by unfold Spec.step; dsimp only; rw [e2])

theorem Alike.run {c : Nat} : ∀ (ops : List Op) {sp sq : Spec}, Alike c sp sq → (∀ op ∈ ops, op.handle ≠ c) →
    (sp.run ops).2.map Out.noCounters = (sq.run ops).2.map Out.noCounters ∧ Alike c (sp.run ops).1 (sq.run ops).1 ∧
    (sp.st = sq.st → (sp.run ops).2 = (sq.run ops).2) := by
  intro ops
  induction ops with
  | nil => intro sp sq h _; exact ⟨rfl, h, fun _ => rfl⟩
  | cons op ops ih =>
    intro sp sq h hne
    obtain ⟨x1, x2, x3⟩ := h.step op (hne op (by simp))
    obtain ⟨y1, y2, y3⟩ := ih x2 (fun o ho => hne o (by simp [ho]))
    unfold Spec.run
    refine ⟨?_, y2, fun e => ?_⟩
    · simp only [List.map_cons]; rw [x1, y1]
    · obtain ⟨e1, e2⟩ := x3 e
      dsimp only
      rw [e1, y3 e2]

end Shr
