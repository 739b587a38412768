import Verif.Proof.Live
/-! # Progress of waiting calls: the steps that keep going, and a measure that they decrease -/
namespace Shr

/-! ## Specification -/

/-- The steps of processes that keep going: a waiting call takes a wake-up; a call that was woken tries again and gets the lock; a reader calls
`shr_readv` with a buffer as large as the ring and gets the lock — a blocking reader at any time, a non-blocking one when its selectable
descriptor is readable. -/
def Eager (w : WSys) : WOp → Prop
  | .wakeup _ _ => True
  | .resume _ env _ => env.lockOk = true
  | .call (.readv k buf niov env) _ => env.lockOk = true ∧ w.sys.ring.n ≤ buf.length ∧ 0 < niov ∧
      ∃ hd, w.sys.hs k = .live hd ∧ hd.flags.has SHR_RDONLY = true ∧ (hd.flags.has SHR_NONBLOCK = false ∨ 1 ≤ w.b.pending (2 * k))
  | _ => False

/-- A clean step of a process that keeps going, in which no block/wake call selected by `S` fails. -/
structure EStep (a : InitArgs) (pid : Nat → Nat) (S : BOp → Bool) (hist : List Op) (w : WSys) (x : WOp) (w' : WSys) (o : Out) (ops : List BOp) : Prop where
  step : AStep a pid hist w x w' o ops
  clean : w.b.CleanRun ops
  ok : w.b.Succeed S ops
  eager : Eager w x

/-! ## Two kinds of steps -/

structure Woken (w w' : WSys) (k : Nat) (op : Op) (os : Os) (o : Out) (ops : List BOp) : Prop where
  was : w.blk k = some (op, false)
  pend : 1 ≤ w.b.pending op.waitsOn
  rdy : (w.b.step (.ready op.waitsOn os)).2 = true
  now : w' = { w with b := w.b.runs [.ready op.waitsOn os], blk := upd w.blk k (some (op, true)) }
  out : o = .blocked
  ops : ops = [.ready op.waitsOn os]

theorem eager_cases {a : InitArgs} {pid : Nat → Nat} {S : BOp → Bool} {hist : List Op} {w w' : WSys} {x : WOp} {o : Out} {ops : List BOp}
    (h : AReach a pid hist w) (hf : w.sys.ring.gflags.has SHR_FARM = false) (hs : EStep a pid S hist w x w' o ops) :
    (∃ k op os, x = .wakeup k os ∧ Woken w w' k op os o ops) ∨
    (∃ k op, Tried w w' k op o ops ∧ (∃ hd, w.sys.hs k = .live hd) ∧
      ((∃ op0 env os, x = .resume k env os ∧ w.blk k = some (op0, true) ∧ op = op0.withEnv env ∧ env.lockOk = true) ∨
       (∃ os, x = .call op os ∧ w.blk k = none ∧ op.bigRead w.sys.ring.n = true ∧ op.writes = false ∧ ∃ hd, w.sys.hs k = .live hd ∧
          hd.flags.has SHR_RDONLY = true ∧ (hd.flags.has SHR_NONBLOCK = false ∨ 1 ≤ w.b.pending (2 * k))))) := by
  obtain ⟨sp, hrep⟩ := h.state
  have hfm : sp.farm = false := by unfold Spec.farm; rw [← hrep.inv.rel.ring.gf]; exact hf
  obtain ⟨⟨hwf, hfarm, hst⟩, _, _, he⟩ := hs
  cases hst with
  | call hca hat =>
    rename_i op os
    right
    cases op with
    | readv k buf niov env =>
      obtain ⟨hl, hn, hi, hd, e1, e2, e3⟩ := he
      obtain ⟨sh, g1, g2⟩ := hrep.inv.rel.live e1
      have ht := tried hrep hfm (hwf _ _ rfl) (sh := sh) g1 (.inr ⟨⟨_, _, _, _, rfl⟩, by rw [← g2.flags]; exact e2⟩) hl hat
      refine ⟨k, _, ht, ⟨hd, e1⟩, .inr ⟨os, rfl, hca.1, ?_, rfl, hd, e1, e2, e3⟩⟩
      simp [Op.bigRead, hn, hi]
    | _ => exact he.elim
  | wakeup hb h1 h2 => exact .inl ⟨_, _, _, rfl, hb, h1, h2, rfl, rfl, rfl⟩
  | resume hb hat =>
    rename_i k op env os
    right
    obtain ⟨e1, e2, sh, e3, e4⟩ := hrep.inv.blk k op true hb
    have hdir := h.waiting.at hrep.inv.rel hb e3
    have hor : op.writes = true ∨ ∃ k buf niov env, op = .readv k buf niov env := by
      rcases e4 with ⟨h, _⟩ | ⟨h, _⟩
      · exact .inr h
      · exact .inl h
    have ht := tried hrep hfm (withEnv_wf.2 e2) (sh := sh) (by rw [withEnv_handle, e1]; exact e3) (by
      have e5 := e4
      rcases e4 with ⟨⟨_, _, _, _, rfl⟩, h, _⟩ | ⟨h, _⟩
      · exact .inr ⟨⟨_, _, _, _, rfl⟩, h⟩
      · exact .inl ⟨by rw [withEnv_writes]; exact h, susp_withEnv env e5, (direct_withEnv env).2 hdir⟩) (by rw [envOf_withEnv env hor]; exact he) hat
    rw [withEnv_handle, e1] at ht
    obtain ⟨hd, g1, _⟩ := hrep.inv.rel.live' e3
    exact ⟨k, _, ht, ⟨hd, g1⟩, .inl ⟨op, env, os, rfl, hb, rfl, he⟩⟩
  | interrupt => exact he.elim
  | kill => exact he.elim

/-! ## Sums -/

def sumTo (f : Nat → Nat) : Nat → Nat
  | 0 => 0
  | n + 1 => sumTo f n + f n

theorem sumTo_congr {f g : Nat → Nat} {N : Nat} (h : ∀ j, j < N → g j = f j) : sumTo g N = sumTo f N := by
  induction N with
  | zero => rfl
  | succ n ih => unfold sumTo; rw [ih fun j hj => h j (by omega), h n (by omega)]

theorem sumTo_upd {f g : Nat → Nat} {k N : Nat} (hk : k < N) (h : ∀ j, j ≠ k → g j = f j) : sumTo g N + f k = sumTo f N + g k := by
  induction N with
  | zero => omega
  | succ n ih =>
    unfold sumTo
    by_cases e : k = n
    · subst e
      rw [sumTo_congr fun j hj => h j (by omega)]
      omega
    · have := ih (by omega)
      rw [h n (fun e' => e e'.symm)]
      omega

/-! ## The measure -/

/-- Messages that a waiting writer still has to put into the ring. -/
def WSys.mu1 (w : WSys) (k : Nat) : Nat :=
  match w.blk k with
  | some (op, _) => if op.writes then (w.sys.wants op).length else 0
  | none => 0
/-- Waiting calls that will not be made again. -/
def WSys.mu2 (w : WSys) (k : Nat) : Nat :=
  match w.blk k with
  | some (op, _) => if op.bigRead w.sys.ring.n then 0 else 1
  | none => 0
/-- Handles without a waiting call. -/
def WSys.mu3 (w : WSys) (k : Nat) : Nat :=
  match w.blk k with
  | some _ => 0
  | none => 1
/-- Wake-ups. -/
def WSys.mu4 (w : WSys) (k : Nat) : Nat :=
  match w.blk k with
  | some (op, b) => 2 * w.b.pending op.waitsOn + (if b then 1 else 0)
  | none => match w.sys.hs k with
    | .live hd => if hd.flags.has SHR_RDONLY && hd.flags.has SHR_NONBLOCK then w.b.pending (2 * k) else 0
    | _ => 0

def WSys.mu (w : WSys) (N : Nat) : Nat × Nat × Nat × Nat :=
  (w.sys.ring.unreadMsgs.length + sumTo w.mu1 N, sumTo w.mu2 N, sumTo w.mu3 N, sumTo w.mu4 N)

abbrev lex4 : Nat × Nat × Nat × Nat → Nat × Nat × Nat × Nat → Prop := Prod.Lex (· < ·) (Prod.Lex (· < ·) (Prod.Lex (· < ·) (· < ·)))

theorem lex4_wf : WellFounded lex4 :=
  (inferInstance : WellFoundedRelation (Nat × Nat × Nat × Nat)).wf

theorem lex4_of {a b c d a' b' c' d' : Nat} (h : a' < a ∨ (a' ≤ a ∧ (b' < b ∨ (b' ≤ b ∧ (c' < c ∨ (c' ≤ c ∧ d' < d)))))) : lex4 (a', b', c', d') (a, b, c, d) := by
  rcases h with h | ⟨h, h2⟩
  · exact .left _ _ h
  rcases Nat.lt_or_eq_of_le h with h | rfl
  · exact .left _ _ h
  refine .right _ ?_
  rcases h2 with h | ⟨h, h2⟩
  · exact .left _ _ h
  rcases Nat.lt_or_eq_of_le h with h | rfl
  · exact .left _ _ h
  refine .right _ ?_
  rcases h2 with h | ⟨h, h2⟩
  · exact .left _ _ h
  rcases Nat.lt_or_eq_of_le h with h | rfl
  · exact .left _ _ h
  exact .right _ h2

/-- No handle number from `N` on has been used. -/
def WSys.Below (w : WSys) (N : Nat) : Prop := ∀ k, N ≤ k → w.sys.hs k = .never

/-- The pending datagrams of a handle that the step does not concern. -/
theorem mu4_other {a : InitArgs} {pid : Nat → Nat} {hist : List Op} {w w' : WSys} (h : CReach a pid hist w) {ops : List BOp} (hc : w.b.CleanRun ops)
    (hb : w'.b = w.b.runs ops) {k j : Nat} (hjk : j ≠ k) (hav : ∀ x ∈ ops, ∀ i p, i ≠ 2 * k → i ≠ 2 * k + 1 → x.avoids i p)
    (hn : ∀ x ∈ ops, ∀ i os, x ≠ .wake i os) (h1 : w'.blk j = w.blk j) (h2 : w'.sys.hs j = w.sys.hs j) : w'.mu4 j = w.mu4 j := by
  obtain ⟨sp, hrep⟩ := h.any.state
  have keep : ∀ i, (i = 2 * j ∨ i = 2 * j + 1) → (∃ a p t, w.b.ts i = some (.wait a p t)) → w'.b.pending i = w.b.pending i := by
    rintro i hi ⟨a, p, t, e⟩
    rw [hb]
    refine (runs_pending h.breach hc e ?_).2.2 hn
    intro x hx
    exact hav x hx i p (by omega) (by omega)
  unfold WSys.mu4
  rw [h1, h2]
  cases e : w.blk j with
  | some y =>
    obtain ⟨op, b⟩ := y
    dsimp only
    obtain ⟨e1, t, e2⟩ := C55_waits_on_own_handle h.any e
    rw [keep _ (waitsOn_own e1) ⟨_, _, _, e2⟩]
  | none =>
    dsimp only
    cases e2 : w.sys.hs j with
    | never => rfl
    | gone b => rfl
    | live hd =>
      dsimp only
      by_cases hr : (hd.flags.has SHR_RDONLY && hd.flags.has SHR_NONBLOCK) = true
      · rw [if_pos hr, if_pos hr]
        obtain ⟨sh, g1, g2⟩ := hrep.inv.rel.live e2
        obtain ⟨⟨t, e3⟩, _⟩ := hrep.inv.rdl j sh g1 (by rw [← g2.flags]; simp at hr; exact hr.1)
        exact keep _ (.inl rfl) ⟨_, _, _, e3⟩
      · rw [if_neg hr, if_neg hr]

theorem ready_pending {b : BSys} (h : BInv b) {i hi p : Nat} {t : WaitT} {os : Os} (e : b.ts i = some (.wait hi p t))
    (hok : (b.step (.ready i os)).2 = true) : (b.step (.ready i os)).1.pending i = b.pending i - 1 := by
  have r := h.reg i hi p t e
  obtain ⟨x, hx, e1, e2, e3⟩ := r.sock
  have hop : b.kern.isOpen t.sid = true := isOpen_iff.2 ⟨x, hx, e1⟩
  have e' : (b.step (.ready i os)).1.ts i = some (.wait hi p t) := by rw [ready_ts]; exact e
  rw [pending_wait e, pending_wait e']
  unfold BSys.step BSys.ready at hok ⊢
  dsimp only at hok ⊢
  rw [e] at hok ⊢
  dsimp only at hok ⊢
  unfold bw_ready_ul at hok ⊢
  by_cases hr : os.recvOk = false
  · rw [if_pos hr] at hok; cases hok
  · rw [if_neg hr]
    dsimp only
    rw [pending_onQ, if_pos rfl, if_pos hop]

/-- Every eager step decreases the measure. -/
theorem eager_decreases {a : InitArgs} {pid : Nat → Nat} {hist : List Op} {w w' : WSys} {x : WOp} {o : Out} {ops : List BOp} {S : BOp → Bool}
    (hS : ∀ k y, BOp.forces (2 * k) y = true → S y = true)
    (h : CReach a pid hist w) (hf : w.sys.ring.gflags.has SHR_FARM = false) (hs : EStep a pid S hist w x w' o ops) {N : Nat} (hN : w.Below N) :
    lex4 (w'.mu N) (w.mu N) ∧ w'.Below N ∧ w'.sys.ring.gflags = w.sys.ring.gflags := by
  have lt : ∀ {k hd}, w.sys.hs k = .live hd → k < N := by
    intro k hd e
    rcases Nat.lt_or_ge k N with h | h
    · exact h
    · rw [hN k h] at e; cases e
  rcases eager_cases h.any hf hs with ⟨k, op, os, rfl, hwk⟩ | ⟨k, op, ht, ⟨hd, hlive⟩, hx⟩
  · -- a wake-up arrives
    obtain ⟨hb, hp, hr, rfl, rfl, rfl⟩ := hwk
    refine ⟨?_, hN, rfl⟩
    obtain ⟨e1, t, e2⟩ := C55_waits_on_own_handle h.any hb
    obtain ⟨hd, hlive, _⟩ := h.any.waiting k op false hb
    have hk := lt hlive
    unfold WSys.mu
    refine lex4_of (.inr ⟨?_, .inr ⟨?_, .inr ⟨?_, ?_⟩⟩⟩)
    · refine Nat.le_of_eq (congrArg _ (sumTo_congr fun j _ => ?_))
      unfold WSys.mu1
      dsimp only
      by_cases hj : j = k
      · subst hj; rw [upd_same, hb]
      · rw [upd_other _ _ hj]
    · refine Nat.le_of_eq (sumTo_congr fun j _ => ?_)
      unfold WSys.mu2
      dsimp only
      by_cases hj : j = k
      · subst hj; rw [upd_same, hb]
      · rw [upd_other _ _ hj]
    · refine Nat.le_of_eq (sumTo_congr fun j _ => ?_)
      unfold WSys.mu3
      dsimp only
      by_cases hj : j = k
      · subst hj; rw [upd_same, hb]
      · rw [upd_other _ _ hj]
    · have hsum := sumTo_upd (f := w.mu4) (g := WSys.mu4 { w with b := w.b.runs [.ready op.waitsOn os], blk := upd w.blk k (some (op, true)) }) hk (by
        intro j hj
        refine mu4_other h hs.clean rfl hj ?_ ?_ (upd_other _ _ hj) rfl
        · intro x hx i p h1 h2
          simp only [List.mem_singleton] at hx
          subst hx
          show op.waitsOn ≠ i
          rcases waitsOn_own e1 with e | e <;> omega
        · intro x hx i os' e
          simp only [List.mem_singleton] at hx
          subst hx; cases e)
      have f1 : w.mu4 k = 2 * w.b.pending op.waitsOn := by unfold WSys.mu4; rw [hb]; simp
      have f2 : WSys.mu4 { w with b := w.b.runs [.ready op.waitsOn os], blk := upd w.blk k (some (op, true)) } k =
          2 * (w.b.pending op.waitsOn - 1) + 1 := by
        unfold WSys.mu4
        dsimp only
        rw [upd_same]
        dsimp only
        rw [if_pos rfl]
        show 2 * (w.b.step _).1.pending _ + 1 = _
        rw [ready_pending h.breach e2 hr]
      omega
  · have hk := lt hlive
    refine ⟨?_, ?_, ht.gf⟩
    · -- what changes
      have hbo : ∀ j, j ≠ k → w'.blk j = w.blk j := fun j hj => by rw [ht.blk, upd_other _ _ hj]
      have hbk : w'.blk k = if o = .blocked then some (op, false) else none := by rw [ht.blk, upd_same]
      have hother : ∀ j, j ≠ k → ∀ op' b, w.blk j = some (op', b) → w'.sys.wants op' = w.sys.wants op' := by
        intro j hj op' b e
        obtain ⟨e1, _⟩ := C55_waits_on_own_handle h.any e
        have h2 : w'.sys.cached j = w.sys.cached j := by unfold Sys.cached; rw [ht.other j hj]
        subst e1
        cases op' <;> first | rfl | exact h2
      have s1 := sumTo_upd (f := w.mu1) (g := w'.mu1) hk (by
        intro j hj
        unfold WSys.mu1
        rw [hbo j hj]
        cases e : w.blk j with
        | none => rfl
        | some y =>
          obtain ⟨op', b⟩ := y
          dsimp only
          rw [hother j hj op' b e])
      have s2 := sumTo_upd (f := w.mu2) (g := w'.mu2) hk (by
        intro j hj
        unfold WSys.mu2
        rw [hbo j hj, ht.n])
      have s3 := sumTo_upd (f := w.mu3) (g := w'.mu3) hk (by
        intro j hj
        unfold WSys.mu3
        rw [hbo j hj])
      have hrd : op.writes = false → w'.sys.ring.unreadMsgs.length ≤ w.sys.ring.unreadMsgs.length := by
        intro hw
        have := congrArg List.length (ht.rd hw)
        simp only [List.length_append] at this
        omega
      unfold WSys.mu
      by_cases hbl : o = .blocked
      · -- it waits (again)
        obtain ⟨rfl, hu, hwt⟩ := ht.calm hbl
        rw [if_pos hbl] at hbk
        have m1' : w'.mu1 k = if op.writes then (w.sys.wants op).length else 0 := by
          unfold WSys.mu1; rw [hbk]; dsimp only; rw [hwt]
        have m2' : w'.mu2 k = if op.bigRead w.sys.ring.n then 0 else 1 := by
          unfold WSys.mu2; rw [hbk]; dsimp only; rw [ht.n]
        have m3' : w'.mu3 k = 0 := by unfold WSys.mu3; rw [hbk]
        rcases hx with ⟨op0, env, os, rfl, hb0, rfl, _⟩ | ⟨os, rfl, hb0, hbig, hnw, hd', _⟩
        · have m1 : w.mu1 k = if (op0.withEnv env).writes then (w.sys.wants (op0.withEnv env)).length else 0 := by
            unfold WSys.mu1; rw [hb0]; dsimp only; rw [withEnv_writes, wants_withEnv]
          have m2 : w.mu2 k = if (op0.withEnv env).bigRead w.sys.ring.n then 0 else 1 := by
            unfold WSys.mu2; rw [hb0]; dsimp only; cases op0 <;> rfl
          have m3 : w.mu3 k = 0 := by unfold WSys.mu3; rw [hb0]
          have s4 := sumTo_upd (f := w.mu4) (g := w'.mu4) hk (by
            intro j hj
            exact mu4_other h hs.clean ht.runs hj ht.avoid (by intro x hx; cases hx) (hbo j hj) (ht.other j hj))
          have m4 : w.mu4 k = 2 * w.b.pending op0.waitsOn + 1 := by unfold WSys.mu4; rw [hb0]; rfl
          have m4' : w'.mu4 k = 2 * w.b.pending op0.waitsOn := by
            unfold WSys.mu4; rw [hbk]; dsimp only
            rw [ht.runs, withEnv_waitsOn]; simp [BSys.runs]
          refine lex4_of (.inr ⟨?_, .inr ⟨?_, .inr ⟨?_, ?_⟩⟩⟩)
          · rw [hu]; omega
          · omega
          · omega
          · omega
        · have m1 : w.mu1 k = 0 := by unfold WSys.mu1; rw [hb0]
          have m2 : w.mu2 k = 0 := by unfold WSys.mu2; rw [hb0]
          have m3 : w.mu3 k = 1 := by unfold WSys.mu3; rw [hb0]
          rw [hnw] at m1'
          rw [hbig] at m2'
          refine lex4_of (.inr ⟨?_, .inr ⟨?_, .inl ?_⟩⟩)
          · rw [hu]; simp at m1'; omega
          · simp at m2'; omega
          · omega
      · -- it returns
        rw [if_neg hbl] at hbk
        have m1' : w'.mu1 k = 0 := by unfold WSys.mu1; rw [hbk]
        have m2' : w'.mu2 k = 0 := by unfold WSys.mu2; rw [hbk]
        have m3' : w'.mu3 k = 1 := by unfold WSys.mu3; rw [hbk]
        cases hw : op.writes with
        | true =>
          rcases hx with ⟨op0, env, os, rfl, hb0, rfl, _⟩ | ⟨os, rfl, hb0, hbig, hnw, hd', _⟩
          · have m1 : w.mu1 k = (w.sys.wants (op0.withEnv env)).length := by
              unfold WSys.mu1; rw [hb0]; dsimp only; rw [wants_withEnv, if_pos (by rw [← withEnv_writes op0 env]; exact hw)]
            have m2 : w.mu2 k = 1 := by
              unfold WSys.mu2; rw [hb0]; dsimp only
              cases op0 <;> first | rfl | cases hw
            have hu := congrArg List.length (ht.wr hw hbl)
            simp only [List.length_append] at hu
            refine lex4_of (.inr ⟨?_, .inl ?_⟩)
            · omega
            · omega
          · rw [hnw] at hw; cases hw
        | false =>
          have hrd := hrd hw
          cases hbig : op.bigRead w.sys.ring.n with
          | true =>
            have m1 : w.mu1 k = 0 := by
              rcases hx with ⟨op0, env, os, rfl, hb0, rfl, _⟩ | ⟨os, rfl, hb0, _⟩
              · unfold WSys.mu1; rw [hb0]; dsimp only; rw [withEnv_writes] at hw; rw [hw]; rfl
              · unfold WSys.mu1; rw [hb0]
            rcases ht.big hbig hbl with hlt | ⟨hd', os', e1, e2, e3⟩
            · refine lex4_of (.inl ?_)
              omega
            · -- a non-blocking reader found nothing
              subst e3
              rcases hx with ⟨op0, env, os, rfl, hb0, rfl, _⟩ | ⟨os, rfl, hb0, _, _, hd2, e4, e5, e6⟩
              · exfalso
                obtain ⟨sp, hrep⟩ := h.any.state
                obtain ⟨_, _, sh, g1, g2⟩ := hrep.inv.blk _ _ _ hb0
                obtain ⟨sh', c1, c2⟩ := hrep.inv.rel.live e1
                rw [g1] at c1; cases c1
                rw [c2.flags] at e2
                rcases g2 with ⟨_, _, g3⟩ | ⟨g3, _⟩
                · rw [e2] at g3; cases g3
                · rw [withEnv_writes, g3] at hw; cases hw
              · rw [e1] at e4; cases e4
                have m2 : w.mu2 k = 0 := by unfold WSys.mu2; rw [hb0]
                have m3 : w.mu3 k = 1 := by unfold WSys.mu3; rw [hb0]
                have s4 := sumTo_upd (f := w.mu4) (g := w'.mu4) hk (by
                  intro j hj
                  exact mu4_other h hs.clean ht.runs hj ht.avoid (by
                    intro x hx i os2 e
                    simp only [List.mem_singleton] at hx
                    subst hx; cases e) (hbo j hj) (ht.other j hj))
                have m4 : w.mu4 k = w.b.pending (2 * k) := by unfold WSys.mu4; rw [hb0]; dsimp only; rw [e1]; dsimp only; rw [e5, e2]; rfl
                have hpos : 1 ≤ w.b.pending (2 * k) := by
                  rcases e6 with e6 | e6
                  · rw [e2] at e6; cases e6
                  · exact e6
                have m4' : w'.mu4 k = 0 := by
                  obtain ⟨sp, hrep⟩ := h.any.state
                  obtain ⟨sh', c1, c2⟩ := hrep.inv.rel.live e1
                  obtain ⟨⟨t, e7⟩, _⟩ := hrep.inv.rdl k sh' c1 (by rw [← c2.flags]; exact e5)
                  have hok : (w.b.step (.force (2 * k) false os')).2 = true := hs.ok.1 (hS k _ (by simp [BOp.forces]))
                  have := (force_pending h.breach e7 hok).2
                  obtain ⟨hd3, f1, f2⟩ := ht.keep hd' e1 hw
                  unfold WSys.mu4
                  rw [hbk]; dsimp only
                  rw [f1]; dsimp only
                  rw [f2, e5, e2]
                  simp only [Bool.and_self, if_true]
                  rw [ht.runs]
                  show (w.b.step _).1.pending _ = 0
                  have h0 : ¬ 1 ≤ (w.b.step (.force (2 * k) false os')).1.pending (2 * k) := fun e => by cases this.1 e
                  omega
                refine lex4_of (.inr ⟨?_, .inr ⟨?_, .inr ⟨?_, ?_⟩⟩⟩)
                · omega
                · omega
                · omega
                · omega
          | false =>
            rcases hx with ⟨op0, env, os, rfl, hb0, rfl, _⟩ | ⟨os, rfl, hb0, hb, _⟩
            · have m1 : w.mu1 k = 0 := by
                unfold WSys.mu1; rw [hb0]; dsimp only; rw [withEnv_writes] at hw; rw [hw]; rfl
              have m2 : w.mu2 k = 1 := by
                unfold WSys.mu2; rw [hb0]; dsimp only
                have : op0.bigRead w.sys.ring.n = false := by rw [← hbig]; cases op0 <;> rfl
                rw [this]; rfl
              refine lex4_of (.inr ⟨?_, .inl ?_⟩)
              · omega
              · omega
            · rw [hb] at hbig; cases hbig
    · intro j hj
      have : j ≠ k := by omega
      rw [ht.other j this]
      exact hN j hj

/-- Only finitely many handle numbers have been used. -/
theorem AReach.bounded {a : InitArgs} {pid : Nat → Nat} {hist : List Op} {w : WSys} (h : AReach a pid hist w) : ∃ N, w.Below N := by
  induction h with
  | init h => exact ⟨0, fun k _ => rfl⟩
  | step hre hs ih =>
    rename_i hist w w' x o ops
    obtain ⟨N, hN⟩ := ih
    have dis : ∀ D k, N ≤ k → (w.sys.discard D).hs k = .never := by
      intro D k hk
      unfold Sys.discard
      dsimp only
      rw [hN k hk]
    have att : ∀ (op : Op) (os : WOs), w.attempt pid op os = some (w', o, ops) → ∃ N, w'.Below N := by
      intro op os hat
      refine ⟨max N (op.handle + 1), fun k hk => ?_⟩
      unfold WSys.attempt at hat
      split at hat
      · cases hat
      · rename_i s' o' hst
        simp only [Option.some.injEq, Prod.mk.injEq] at hat
        obtain ⟨rfl, rfl, rfl⟩ := hat
        dsimp only
        rw [sys_step_other hst (by rw [fill_handle]; omega)]
        exact hN k (by omega)
    cases hs.step with
    | call hca hat => exact att _ _ hat
    | wakeup => exact ⟨N, hN⟩
    | resume hb hat => exact att _ _ hat
    | interrupt hb ho =>
      refine ⟨N, fun k hk => ?_⟩
      dsimp only
      split
      · exact dis _ k hk
      · exact hN k hk
    | kill => exact ⟨N, fun k hk => dis _ k hk⟩
  | dies hre hd ih =>
    rename_i hist w w' x ops
    obtain ⟨N, hN⟩ := ih
    obtain ⟨sp, hr⟩ := hre.state
    obtain ⟨r, b', hcp⟩ := hd.dies.corpse hr.inv hd.wf
    refine ⟨N, fun j hj => ?_⟩
    rw [hcp.eq]
    unfold WSys.corpse Sys.discard
    dsimp only
    rw [hN j hj]

end Shr
