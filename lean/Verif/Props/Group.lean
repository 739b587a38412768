import Verif.Props.Algebra
/-! # C94: buffering and batching change when messages enter the ring, never which, in what order, or what happens afterwards -/
namespace Shr

/-- The reference queue after handle `k` has put the messages `X` into the ring, one by one. -/
def putAll (sp : Spec) (k : Nat) (X : List Msg) : Spec := X.foldl (fun t m => t.commit k [m] true) sp

theorem putAll_append (sp : Spec) (k : Nat) (X Y : List Msg) : putAll sp k (X ++ Y) = putAll (putAll sp k X) k Y := by
  simp [putAll]

theorem putAll_hs (X : List Msg) : ∀ (sp : Spec) (k : Nat) (H : Nat → Life SHandle (List Msg)),
    putAll { sp with hs := H } k X = { putAll sp k X with hs := H } := by
  induction X with
  | nil => intros; rfl
  | cons m ms ih =>
    intro sp k H
    have h1 : ∀ t : Spec, putAll t k (m :: ms) = putAll (t.commit k [m] true) k ms := fun _ => rfl
    rw [h1, h1, ← ih]
    rfl

structure PutInv (sp : Spec) : Prop where
  base : sp.base ≤ sp.log.length
  first : sp.first ≤ sp.log.length

theorem putAll_inv (X : List Msg) : ∀ {sp : Spec} (k : Nat), PutInv sp → PutInv (putAll sp k X) := by
  induction X with
  | nil => intro sp k h; exact h
  | cons m ms ih =>
    intro sp k h
    obtain ⟨g1, g2⟩ := commit_le (x := [m]) h.base h.first k true
    exact ih k ⟨g1, g2⟩

theorem putAll_params (X : List Msg) : ∀ (sp : Spec) (k : Nat),
    (putAll sp k X).cap = sp.cap ∧ (putAll sp k X).maxm = sp.maxm ∧ (putAll sp k X).gflags = sp.gflags ∧ (putAll sp k X).hs = sp.hs := by
  induction X with
  | nil => intros; exact ⟨rfl, rfl, rfl, rfl⟩
  | cons m ms ih =>
    intro sp k
    have := ih (sp.commit k [m] true) k
    exact this

theorem commit_putAll (X : List Msg) : ∀ {sp : Spec} (k : Nat), PutInv sp → X ≠ [] → Fits sp.cap sp.maxm [] X → sp.commit k X true = putAll sp k X := by
  induction X with
  | nil => intro sp k _ h; exact absurd rfl h
  | cons m ms ih =>
    intro sp k hi _ hf
    by_cases hms : ms = []
    · subst hms; rfl
    · have h1 := commit_append (x := [m]) (y := ms) hi.base hi.first hf k true
      obtain ⟨g1, g2⟩ := commit_le (x := [m]) hi.base hi.first k true
      have hf2 : Fits sp.cap sp.maxm [] ms := by
        simp only [Fits, bytesOf_cons, List.length_cons] at hf ⊢; omega
      have h2 := ih (sp := sp.commit k [m] true) k ⟨g1, g2⟩ hms hf2
      rw [List.singleton_append] at h1
      rw [h1, h2]
      rfl

/-- What a handle holds back fits. -/
structure HoldInv (sp : Spec) (h : SHandle) : Prop where
  bytes : bytesOf h.pend ≤ h.csz
  msgs : h.pend.length ≤ h.cvt
  csz : h.csz ≤ sp.cap
  cvt : h.cvt ≤ sp.maxm
  ne : ∀ b ∈ h.pend, b ≠ []

theorem tryWrite_put {sp : Spec} {k : Nat} {nb : Bool} {new : List Msg} {env : Env} (hi : PutInv sp) (hne : new ≠ []) (hf : Fits sp.cap sp.maxm [] new) (hg : env.good) :
    sp.tryWrite k nb new env = (putAll sp k new, .ret (bytesOf new)) ∨
    ∃ r, sp.tryWrite k nb new env = (sp, r) ∧ ∀ rc, r = .ret rc → rc ≤ 0 := by
  unfold Spec.tryWrite
  by_cases h1 : env.lockOk = false
  · right; rw [if_pos h1]; exact ⟨_, rfl, fun rc h => by cases h; omega⟩
  · rw [if_neg h1]
    by_cases h2 : Fits sp.cap sp.maxm sp.unread new ∨ sp.drop = true
    · left
      rw [if_pos h2, hg.1]
      rw [if_neg (by simp), if_neg (by simp [hg.2]), commit_putAll new k hi hne hf]
    · right
      rw [if_neg h2]
      cases nb with
      | true => exact ⟨_, rfl, fun rc h => by cases h; omega⟩
      | false =>
        simp only [Bool.false_eq_true, if_false]
        cases h8 : env.waitRc with
        | none => exact ⟨_, rfl, fun rc h => by cases h⟩
        | some e => exact ⟨_, rfl, fun rc h => by cases h; cases e <;> simp [WaitErr.rc]⟩

/-- A write or a flush (without waiting) on handle `k`. -/
def OnlyPuts (k : Nat) (op : Op) : Prop := (∃ iov envF env, op = .writev k iov envF env) ∨ ∃ env, op = .flush k false env

theorem acc_pos {k : Nat} {iov : List Msg} {envF env : Env} {rc : Int} (h : 0 < rc) : acceptedBy (.writev k iov envF env) (Spec.WRes.out (.ret rc)) = iov := by
  simp [acceptedBy, Spec.WRes.out, h]

theorem acc_not {k : Nat} {iov : List Msg} {envF env : Env} {r : Spec.WRes} (h : ∀ rc, r = .ret rc → rc ≤ 0) :
    acceptedBy (.writev k iov envF env) r.out = [] := by
  cases r with
  | wait => rfl
  | ret rc => have := h rc rfl; simp [acceptedBy, Spec.WRes.out]; omega

theorem writev_puts {sp : Spec} {k : Nat} {sh : SHandle} {iov : List Msg} {envF env : Env} (hi : PutInv sp) (hh : HoldInv sp sh)
    (hub : sh.flags.has SHR_BUFFERED = false → sh.pend = []) (hg1 : envF.good) (hg2 : env.good) :
    ∃ X p, (sp.writev k sh iov envF env).1 = putAll sp k X ∧ (sp.writev k sh iov envF env).2.1 = { sh with pend := p } ∧
      X ++ p = sh.pend ++ acceptedBy (.writev k iov envF env) (sp.writev k sh iov envF env).2.2.out ∧ HoldInv sp { sh with pend := p } ∧
      (sh.flags.has SHR_BUFFERED = false → p = []) := by
  have fl : Fits sp.cap sp.maxm [] sh.pend := by
    have := hh.bytes; have := hh.msgs; have := hh.csz; have := hh.cvt
    simp only [Fits, bytesOf_nil', List.length_nil]; omega
  have h0 : HoldInv sp { sh with pend := [] } := ⟨by simp [bytesOf], by simp, hh.csz, hh.cvt, by simp⟩
  unfold Spec.writev
  dsimp only
  by_cases hl : Legal sp.cap sp.maxm iov
  · rw [if_neg (by simpa using hl)]
    have hbp : 0 < bytesOf iov := bytesOf_pos hl.2.1 hl.1
    have fi : Fits sp.cap sp.maxm [] iov := by
      have := hl.2.2.1; have := hl.2.2.2; simp only [Fits, bytesOf_nil', List.length_nil]; omega
    by_cases hu : sh.flags.has SHR_BUFFERED = false
    · rw [if_pos hu]
      have hp := hub hu
      rcases tryWrite_put (k := k) (nb := sh.flags.has SHR_NONBLOCK) hi hl.1 fi hg2 with e | ⟨r, e, hr⟩
      · rw [e]; exact ⟨iov, [], rfl, by rw [← hp], by rw [acc_pos (by omega), hp]; simp, h0, fun _ => rfl⟩
      · rw [e]; exact ⟨[], sh.pend, rfl, rfl, by rw [acc_not hr]; simp, hh, fun _ => hp⟩
    · rw [if_neg hu]
      by_cases hc : Spec.cacheFits sh iov
      · rw [if_pos hc]
        obtain ⟨c1, c2⟩ := hc
        exact ⟨[], sh.pend ++ iov, rfl, rfl, by rw [acc_pos (by omega)]; simp, ⟨by rw [bytesOf_append]; exact c1, by simpa using c2, hh.csz, hh.cvt, fun b hb => (List.mem_append.1 hb).elim (hh.ne b) (hl.2.1 b)⟩, fun h => absurd h hu⟩
      · rw [if_neg hc]
        by_cases hp : sh.pend = []
        · rw [if_pos hp]
          rcases tryWrite_put (k := k) (nb := sh.flags.has SHR_NONBLOCK) hi hl.1 fi hg2 with e | ⟨r, e, hr⟩
          · rw [e]; exact ⟨iov, [], rfl, by rw [← hp], by rw [acc_pos (by omega), hp]; simp, h0, fun _ => rfl⟩
          · rw [e]; exact ⟨[], sh.pend, rfl, rfl, by rw [acc_not hr]; simp, hh, fun _ => hp⟩
        · rw [if_neg hp]
          rcases tryWrite_put (k := k) (nb := sh.flags.has SHR_NONBLOCK) hi hp fl hg1 with e | ⟨r, e, hr⟩
          · rw [e]
            dsimp only
            by_cases hle : (bytesOf sh.pend : Int) ≤ 0
            · have := bytesOf_pos hh.ne hp; omega
            · rw [if_neg hle]
              obtain ⟨q1, q2, q3, q4⟩ := putAll_params sh.pend sp k
              by_cases hc2 : Spec.cacheFits { sh with pend := [] } iov
              · rw [if_pos hc2]
                obtain ⟨c1, c2⟩ := hc2
                refine ⟨sh.pend, iov, rfl, rfl, by rw [acc_pos (by omega)], ⟨?_, ?_, hh.csz, hh.cvt, hl.2.1⟩, fun h => absurd h hu⟩
                · simpa [bytesOf_nil'] using c1
                · simpa using c2
              · rw [if_neg hc2]
                rcases tryWrite_put (sp := putAll sp k sh.pend) (k := k) (nb := sh.flags.has SHR_NONBLOCK) (putAll_inv _ k hi) hl.1 (by rw [q1, q2]; exact fi) hg2 with e | ⟨r, e, hr⟩
                · rw [e]; exact ⟨sh.pend ++ iov, [], by rw [putAll_append], rfl, by rw [acc_pos (by omega)]; simp, h0, fun _ => rfl⟩
                · rw [e]; exact ⟨sh.pend, [], rfl, rfl, by rw [acc_not hr], h0, fun _ => rfl⟩
          · rw [e]
            cases r with
            | wait => exact ⟨[], sh.pend, rfl, rfl, by rw [acc_not hr]; simp, hh, fun h => absurd h hu⟩
            | ret rc =>
              dsimp only
              rw [if_pos (hr rc rfl)]
              exact ⟨[], sh.pend, rfl, rfl, by rw [acc_not hr]; simp, hh, fun h => absurd h hu⟩
  · rw [if_pos hl]
    exact ⟨[], sh.pend, rfl, rfl, by simp [acceptedBy, Spec.WRes.out], hh, hub⟩

theorem flush_puts {sp : Spec} {k : Nat} {sh : SHandle} {env : Env} (hi : PutInv sp) (hh : HoldInv sp sh) (hg : env.good) :
    ∃ X p, (sp.flush k sh false env).1 = putAll sp k X ∧ (sp.flush k sh false env).2.1 = { sh with pend := p } ∧ X ++ p = sh.pend ∧ HoldInv sp { sh with pend := p } ∧
      (sh.pend = [] → p = []) := by
  have fl : Fits sp.cap sp.maxm [] sh.pend := by
    have := hh.bytes; have := hh.msgs; have := hh.csz; have := hh.cvt
    simp only [Fits, bytesOf_nil', List.length_nil]; omega
  have h0 : HoldInv sp { sh with pend := [] } := ⟨by simp [bytesOf], by simp, hh.csz, hh.cvt, by simp⟩
  unfold Spec.flush
  by_cases hp : sh.pend = []
  · rw [if_pos hp]
    exact ⟨[], sh.pend, rfl, rfl, rfl, hh, fun h => h⟩
  · rw [if_neg hp]
    simp only [Bool.and_false, Bool.false_eq_true, false_and, if_false, Bool.or_false, Bool.not_false, Bool.and_true]
    rcases tryWrite_put (k := k) (nb := sh.flags.has SHR_NONBLOCK) hi hp fl hg with e | ⟨r, e, hr⟩
    · rw [e]
      dsimp only
      by_cases h : (bytesOf sh.pend : Int) > 0
      · rw [if_pos h]
        exact ⟨sh.pend, [], rfl, rfl, by simp, h0, fun _ => rfl⟩
      · have := bytesOf_pos hh.ne hp; omega
    · rw [e]
      cases r with
      | wait => exact ⟨[], sh.pend, rfl, rfl, rfl, hh, fun h => h⟩
      | ret rc =>
        have := hr rc rfl
        dsimp only
        rw [if_neg (by omega)]
        exact ⟨[], sh.pend, rfl, rfl, rfl, hh, fun h => h⟩

/-- One such call: the messages `X` enter the ring one by one, `p` is held back afterwards. -/
theorem step_puts {sp : Spec} {k : Nat} {sh : SHandle} {op : Op} (hk : sp.hs k = .live sh) (hi : PutInv sp) (hh : HoldInv sp sh)
    (hub : sh.flags.has SHR_BUFFERED = false → sh.pend = []) (ho : OnlyPuts k op) (hg : op.good) :
    ∃ X p, (sp.step op).1 = { putAll sp k X with hs := upd sp.hs k (.live { sh with pend := p }) } ∧
      X ++ p = sh.pend ++ acceptedBy op (sp.step op).2 ∧ HoldInv sp { sh with pend := p } ∧ (sh.flags.has SHR_BUFFERED = false → p = []) := by
  have same : sp = { putAll sp k [] with hs := upd sp.hs k (.live { sh with pend := sh.pend }) } := by
    rw [upd_idem hk]; rfl
  rcases ho with ⟨iov, envF, env, rfl⟩ | ⟨env, rfl⟩
  · cases hw : sh.flags.has SHR_WRONLY with
    | false =>
      have e : sp.step (.writev k iov envF env) = (sp, .misuse) := by
        unfold Spec.step; simp [hk, hw]
      rw [e]
      exact ⟨[], sh.pend, same, by simp [acceptedBy], hh, hub⟩
    | true =>
      have e : sp.step (.writev k iov envF env) = ({ (sp.writev k sh iov envF env).1 with hs := upd sp.hs k (.live (sp.writev k sh iov envF env).2.1) }, (sp.writev k sh iov envF env).2.2.out) := by
        unfold Spec.step; simp [hk, hw]
      rw [e]
      obtain ⟨X, p, e1, e2, e3, e4, e5⟩ := writev_puts (k := k) (iov := iov) hi hh hub hg.1 hg.2
      exact ⟨X, p, by rw [e1, e2], e3, e4, e5⟩
  · cases hw : sh.flags.has SHR_WRONLY with
    | false =>
      have e : sp.step (.flush k false env) = (sp, .misuse) := by
        unfold Spec.step; simp [hk, hw]
      rw [e]
      exact ⟨[], sh.pend, same, by simp [acceptedBy], hh, hub⟩
    | true =>
      have e : sp.step (.flush k false env) = ({ (sp.flush k sh false env).1 with hs := upd sp.hs k (.live (sp.flush k sh false env).2.1) }, (sp.flush k sh false env).2.2.out) := by
        unfold Spec.step; simp [hk, hw]
      rw [e]
      obtain ⟨X, p, e1, e2, e3, e4, e5⟩ := flush_puts (k := k) hi hh hg
      refine ⟨X, p, by rw [e1, e2], ?_, e4, fun h => e5 (hub h)⟩
      rw [e3]; simp [acceptedBy]

theorem upd_put {α : Type} (f : Nat → α) (k : Nat) (u v : α) : upd (upd f k u) k v = upd f k v := by
  funext j; unfold upd; split <;> rfl

theorem run_puts {k : Nat} (ops : List Op) : ∀ {sp : Spec} {sh : SHandle}, sp.hs k = .live sh → PutInv sp → HoldInv sp sh →
    (sh.flags.has SHR_BUFFERED = false → sh.pend = []) → (∀ op ∈ ops, OnlyPuts k op ∧ op.good) →
    ∃ X p, (sp.run ops).1 = { putAll sp k X with hs := upd sp.hs k (.live { sh with pend := p }) } ∧ X ++ p = sh.pend ++ accepted ops (sp.run ops).2 := by
  induction ops with
  | nil =>
    intro sp sh hk _ _ _ _
    exact ⟨[], sh.pend, by rw [upd_idem hk]; rfl, by simp [accepted]⟩
  | cons op ops ih =>
    intro sp sh hk hi hh hub hall
    obtain ⟨X, p, e1, e2, e3, e4⟩ := step_puts hk hi hh hub (hall op (by simp)).1 (hall op (by simp)).2
    obtain ⟨q1, q2, q3, q4⟩ := putAll_params X sp k
    have hi' : PutInv (sp.step op).1 := by
      have := putAll_inv X k hi
      rw [e1]; exact ⟨this.base, this.first⟩
    have hk' : (sp.step op).1.hs k = .live { sh with pend := p } := by rw [e1]; exact upd_same _ _ _
    have hh' : HoldInv (sp.step op).1 { sh with pend := p } := by
      rw [e1]
      exact ⟨e3.bytes, e3.msgs, by have := e3.csz; rw [← q1] at this; exact this, by have := e3.cvt; rw [← q2] at this; exact this, e3.ne⟩
    obtain ⟨Y, p', f1, f2⟩ := ih hk' hi' hh' e4 (fun o h => hall o (by simp [h]))
    refine ⟨X ++ Y, p', ?_, ?_⟩
    · rw [Spec.run, f1, e1, putAll_hs, putAll_append]
      dsimp only
      rw [upd_put]
    · rw [Spec.run, accepted, List.append_assoc, f2, ← List.append_assoc, ← List.append_assoc, ← e2]

/-- **C94.** Two sequences `A` and `B` of writes and flushes through the same handle, grouped into calls and flushed as they please, that accept the same
messages and leave the same messages (for example none) held back: whatever is done afterwards, by anybody, has the same results, shr_stat's counters
included.  (Wake-ups and msync succeed: otherwise see C26.) -/
theorem C94_same {a : InitArgs} {pre A B post : List Op} {k : Nat} {s sA sB : Sys} {h : Handle} {outs oA oB : List Out}
    (vA : Valid a (pre ++ (A ++ post))) (vB : Valid a (pre ++ (B ++ post)))
    (hA : ∀ op ∈ A, OnlyPuts k op ∧ op.good) (hB : ∀ op ∈ B, OnlyPuts k op ∧ op.good)
    (hrun : (Sys.init a).run pre = .ok (s, outs)) (hk : s.hs k = .live h)
    (rA : s.run A = .ok (sA, oA)) (rB : s.run B = .ok (sB, oB))
    (hacc : accepted A oA = accepted B oB) (hheld : sA.cached k = sB.cached k) :
    ∃ o tA tB, sA.run post = .ok (tA, o) ∧ sB.run post = .ok (tB, o) := by
  obtain ⟨sp, x, esp, _⟩ := vA.left.state hrun
  obtain ⟨sh, hsk, hh⟩ := x.rel.live hk
  have hi : PutInv sp := ⟨by have := x.rel.ring.ble; have := x.rel.ring.fle; omega, x.rel.ring.fle⟩
  have hI : HoldInv sp sh := ⟨hh.cache.nle, hh.cache.vle, hh.csz, hh.cvt, hh.cache.ne⟩
  have hub : sh.flags.has SHR_BUFFERED = false → sh.pend = [] := by
    intro hb
    have hc := hh.cache
    rw [hh.nbuf (by rw [hb]; simp)] at hc
    exact hc.pend_nil
  obtain ⟨XA, pA, a1, a2⟩ := run_puts A hsk hi hI hub hA
  obtain ⟨XB, pB, b1, b2⟩ := run_puts B hsk hi hI hub hB
  have key : ∀ {C : List Op} {sC : Sys} {oC : List Out} (v : Valid a (pre ++ (C ++ post))), s.run C = .ok (sC, oC) →
      oC = (sp.run C).2 ∧ Rel sC (sp.run C).1 ∧ ∃ t, sC.run post = .ok (t, ((sp.run C).1.run post).2) := by
    intro C sC oC v rC
    rw [← List.append_assoc] at v
    have hr : (Sys.init a).run (pre ++ C) = .ok (sC, outs ++ oC) := by rw [sys_run_append, hrun]; dsimp only; rw [rC]
    obtain ⟨sp', x', e', eo⟩ := v.left.state hr
    obtain ⟨t, et⟩ := v.conts hr
    obtain ⟨s1, e1⟩ := v.left.conts hrun
    rw [run_append, ← esp] at e'
    dsimp only at e'
    rw [run_append, ← esp] at et
    rw [rC, ← esp] at e1
    simp only [Except.ok.injEq, Prod.mk.injEq] at e1
    exact ⟨e1.2, e' ▸ x'.rel, t, et⟩
  obtain ⟨o1, r1, tA, t1⟩ := key vA rA
  obtain ⟨o2, r2, tB, t2⟩ := key vB rB
  have ca : sA.cached k = pA := r1.cached (sh := { sh with pend := pA }) (by rw [a1]; exact upd_same _ _ _)
  have cb : sB.cached k = pB := r2.cached (sh := { sh with pend := pB }) (by rw [b1]; exact upd_same _ _ _)
  have hp : pA = pB := by rw [← ca, ← cb, hheld]
  rw [← o1, hacc, o2, ← b2, hp] at a2
  have hX := List.append_cancel_right a2
  refine ⟨_, tA, tB, t1, ?_⟩
  rw [t2, a1, b1, hX, hp]

def bufOps : List Op := [opn 0 (SHR_WRONLY ||| SHR_BUFFERED ||| SHR_NONBLOCK), opn 1 (SHR_RDONLY ||| SHR_NONBLOCK), wr 0 [[9, 9]]]
def putsA : List Op := [wr 0 [[1, 2], [3]], .flush 0 false {}]
def putsB : List Op := [.flush 0 false {}, wr 0 [[1, 2]], .flush 0 false {}, wr 0 [[3]], .flush 0 false {}]

/-- C94_same: a buffered writer that holds back a message already; one batch and one flush, against a flush after every message. -/
example : ∃ o tA tB, (final demoD (bufOps ++ putsA)).run [rd 1 10 5, .stat 1 none {}] = .ok (tA, o) ∧
    (final demoD (bufOps ++ putsB)).run [rd 1 10 5, .stat 1 none {}] = .ok (tB, o) := by
  have vA : Valid demoD (bufOps ++ (putsA ++ [rd 1 10 5, .stat 1 none {}])) := valid_of (by decide +kernel)
  have vB : Valid demoD (bufOps ++ (putsB ++ [rd 1 10 5, .stat 1 none {}])) := valid_of (by decide +kernel)
  have wA : Valid demoD (bufOps ++ putsA) := valid_of (by decide +kernel)
  have wB : Valid demoD (bufOps ++ putsB) := valid_of (by decide +kernel)
  have rr : ∀ {C : List Op}, Valid demoD (bufOps ++ C) → ∃ oC, (final demoD bufOps).run C = .ok (final demoD (bufOps ++ C), oC) ∧ outsOf demoD (bufOps ++ C) = outsOf demoD bufOps ++ oC := by
    intro C w
    have h := w.runs
    rw [sys_run_append, w.left.runs] at h
    dsimp only at h
    cases hc : (final demoD bufOps).run C with
    | error f => rw [hc] at h; cases h
    | ok p =>
      rw [hc] at h
      simp only [Except.ok.injEq, Prod.mk.injEq] at h
      exact ⟨p.2, by rw [← h.1], h.2.symm⟩
  obtain ⟨oA, rA, eA⟩ := rr wA
  obtain ⟨oB, rB, eB⟩ := rr wB
  have oA' : oA = [.wrote 3, .wrote 5] := by
    rw [show outsOf demoD (bufOps ++ putsA) = outsOf demoD bufOps ++ [.wrote 3, .wrote 5] from by decide +kernel] at eA
    exact (List.append_cancel_left eA).symm
  have oB' : oB = [.wrote 2, .wrote 2, .wrote 2, .wrote 1, .wrote 1] := by
    rw [show outsOf demoD (bufOps ++ putsB) = outsOf demoD bufOps ++ [.wrote 2, .wrote 2, .wrote 2, .wrote 1, .wrote 1] from by decide +kernel] at eB
    exact (List.append_cancel_left eB).symm
  refine C94_same vA vB ?_ ?_ wA.left.runs (live_handle (k := 0) (by decide +kernel)) rA rB (by rw [oA', oB']; decide +kernel) (by decide +kernel)
  · intro op h
    simp only [putsA, wr, List.mem_cons, List.not_mem_nil, or_false] at h
    rcases h with rfl | rfl
    · exact ⟨.inl ⟨_, _, _, rfl⟩, ⟨rfl, rfl⟩, rfl, rfl⟩
    · exact ⟨.inr ⟨_, rfl⟩, rfl, rfl⟩
  · intro op h
    simp only [putsB, wr, List.mem_cons, List.not_mem_nil, or_false] at h
    rcases h with rfl | rfl | rfl | rfl | rfl
    · exact ⟨.inr ⟨_, rfl⟩, rfl, rfl⟩
    · exact ⟨.inl ⟨_, _, _, rfl⟩, ⟨rfl, rfl⟩, rfl, rfl⟩
    · exact ⟨.inr ⟨_, rfl⟩, rfl, rfl⟩
    · exact ⟨.inl ⟨_, _, _, rfl⟩, ⟨rfl, rfl⟩, rfl, rfl⟩
    · exact ⟨.inr ⟨_, rfl⟩, rfl, rfl⟩

end Shr
