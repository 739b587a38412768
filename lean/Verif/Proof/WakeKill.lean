import Verif.Model.WakeKill
import Verif.Proof.WakeWoke
import Verif.Proof.Usable
import Verif.Props.BwKill
import Verif.Proof.FarmRel
import Verif.Proof.ReadFrame
/-! # Deaths inside calls, in the whole system -/
namespace Shr

theorem killed_ts {b b' : BSys} {op : BOp} (h : b.Killed op b') : b'.ts = (b.exit (b.caller op)).ts := by
  obtain ⟨gs, a, p, pts, x, e, hx, rfl⟩ := h
  rw [← points_caller e]; rfl

/-- The `bw_t`s after a death are those after some of the calls and the exit. -/
theorem BSys.Cut.ts {p : Nat} {b b' : BSys} {ops : List BOp} (h : BSys.Cut p b ops b') :
    ∃ pre, (∀ x ∈ pre, x ∈ ops ∨ x = .exit p) ∧ b'.ts = (b.runs pre).ts := by
  induction h with
  | between b ops => exact ⟨[.exit p], by simp, rfl⟩
  | inside ops hc hk => exact ⟨[.exit p], by simp, by rw [killed_ts hk, hc]; rfl⟩
  | later _ ih =>
    rename_i op _ _
    obtain ⟨pre, h1, h2⟩ := ih
    refine ⟨op :: pre, ?_, h2⟩
    intro x hx
    rcases List.mem_cons.1 hx with rfl | hx
    · exact .inl (by simp)
    · rcases h1 x hx with h | h
      · exact .inl (by simp [h])
      · exact .inr h

theorem BSys.Cut.inv {p : Nat} {b b' : BSys} {ops : List BOp} (h : BSys.Cut p b ops b') (hi : BInv b) (hc : b.CleanRun ops) : BInv b' := by
  induction h with
  | between b ops => exact hi.exit p
  | inside ops _ hk => exact hi.killed hc.1 hk
  | later _ ih => exact ih (hi.step _ hc.1) hc.2

theorem BSys.Cut.pending {p : Nat} {b b' : BSys} {ops : List BOp} (h : BSys.Cut p b ops b') (hi : BInv b) (hc : b.CleanRun ops) {i a q : Nat}
    {w : WaitT} (e : b.ts i = some (.wait a q w)) (hq : q ≠ p) (hav : ∀ op ∈ ops, op.avoids i q) : b.pending i ≤ b'.pending i := by
  induction h with
  | between b ops =>
    exact (runs_pending (ops := [.exit p]) hi ⟨trivial, trivial⟩ e (by
      intro x hx; simp only [List.mem_singleton] at hx; subst hx; exact fun h => hq h.symm)).2.1
  | inside ops h1 hk => exact (hi.killed_keeps hc.1 hk e (by rw [h1]; exact hq)).2
  | later _ ih =>
    rename_i b b' op ops _
    have hx := hav op (by simp)
    have e' : (b.step op).1.ts i = some (.wait a q w) := step_waiting e (by rintro rfl; exact hx rfl) (by rintro rfl; exact hx rfl)
    exact Nat.le_trans (step_pending hi hc.1 e hx).1 (ih (hi.step _ hc.1) hc.2 e' fun x hx => hav x (by simp [hx]))

/-- The calls of a step concern only the `bw_t`s of its handle. -/
theorem attempt_own {pid : Nat → Nat} {w w' : WSys} {op : Op} {os : WOs} {o : Out} {ops : List BOp} (hat : w.attempt pid op os = some (w', o, ops)) :
    ∀ x ∈ ops, ∀ i p, i ≠ 2 * op.handle → i ≠ 2 * op.handle + 1 → x.avoids i p := by
  have hops : ops = w.bops pid os o (w.fill pid os op) := by
    unfold WSys.attempt at hat; split at hat <;> cases hat; rfl
  by_cases hop : ∃ k flags env, op = .open k flags env
  · obtain ⟨k, flags, env, rfl⟩ := hop
    intro x hx
    rw [hops] at hx
    simp only [WSys.fill] at hx
    unfold WSys.bops at hx
    dsimp only at hx
    split at hx
    · exact obw_own x hx
    · cases hx
  · have := bops_own (w := w) (pid := pid) (os := os) (o := o) (fill_open (w := w) (pid := pid) (os := os) fun k flags env e => hop ⟨k, flags, env, e⟩)
    rw [fill_handle, ← hops] at this
    exact this

/-- What all deaths have in common. -/
structure Corpse (pid : Nat → Nat) (w : WSys) (ops : List BOp) (k : Nat) (r : Ring) (b' : BSys) (w' : WSys) : Prop where
  eq : w' = w.corpse pid (pid k) r b'
  framed : FramedRing w.sys.ring r
  cons : r.Consistent
  cut : BSys.Cut (pid k) w.b ops b'
  own : ∀ x ∈ ops, ∀ i p, i ≠ 2 * k → i ≠ 2 * k + 1 → x.avoids i p

theorem WSys.Dies.corpse {a : InitArgs} {pid : Nat → Nat} {w w' : WSys} {sp : Spec} (hw : TInv a pid w sp) {x : WOp} {ops : List BOp}
    (hwf : ∀ op os, x = .call op os → op.WF a.appsize) (h : WSys.Dies pid w x ops w') : ∃ r b', Corpse pid w ops x.actor r b' w' := by
  cases h with
  | call hca hat hr hc hcut =>
    exact ⟨_, _, rfl, points_framedRing hw.rel (by rw [hw.app]; exact fill_wf.2 (hwf _ _ rfl)) hr, hc, hcut, attempt_own hat⟩
  | resume hb hat hr hc hcut =>
    rename_i k op env os o r b'
    obtain ⟨e0, e2, _⟩ := hw.blk _ _ _ hb
    have h1 : (op.withEnv env).handle = k := by rw [← e0]; cases op <;> rfl
    have h2 : (op.withEnv env).WF a.appsize := by cases op <;> exact e2
    have := attempt_own hat
    rw [h1] at this
    exact ⟨_, _, rfl, points_framedRing hw.rel (by rw [hw.app]; exact fill_wf.2 h2) hr, hc, hcut, this⟩
  | wakeup hb hcut =>
    obtain ⟨e0, _⟩ := hw.blk _ _ _ hb
    refine ⟨_, _, rfl, hw.rel.ring.framed, hw.rel.ring.consistent, hcut, ?_⟩
    intro y hy i p h1 h2
    simp only [List.mem_singleton] at hy; subst hy
    rcases waitsOn_own e0 with h | h <;> rw [h]
    · exact fun e => h1 e.symm
    · exact fun e => h2 e.symm
  | interrupt hb ho hcut =>
    refine ⟨_, _, rfl, hw.rel.ring.framed, hw.rel.ring.consistent, hcut, ?_⟩
    intro y hy i p h1 h2
    rw [ho] at hy
    split at hy
    · simp only [List.mem_cons, List.not_mem_nil, or_false] at hy
      rcases hy with rfl | rfl
      · exact fun e => h1 e.symm
      · exact fun e => h2 e.symm
    · cases hy

/-- The handles that are left keep their state on the side of the specification. -/
theorem corpse_rel {s : Sys} {sp : Spec} (h : Rel s sp) (hnf : sp.farm = false) {r : Ring} (hfr : FramedRing s.ring r) (hc : r.Consistent)
    (D : Nat → Bool) : ∃ sp', Rel { ring := r, hs := (s.discard D).hs } sp' ∧ sp'.hs = (sp.discard D).hs ∧ sp'.farm = false ∧ sp'.cap = sp.cap ∧
      sp'.maxm = sp.maxm ∧ sp'.gflags = sp.gflags ∧ sp'.app.length = sp.app.length := by
  obtain ⟨hz, ⟨st, hst⟩, g1, g2, g3, g4⟩ := hfr
  have hf : r.gflags.has SHR_FARM = false := by rw [g1, h.ring.gf]; exact hnf
  refine ⟨specOf r st (sp.discard D).hs, ⟨hc.rel hz hf hst _, ?_⟩, rfl, hf, ?_, ?_, ?_, ?_⟩
  · intro j
    exact ((rel_discard h D).hs j).nonfarm (sq := specOf r st _) hf (by show _ = r.n; rw [g2, h.ring.n]; rfl) (by show _ = r.mm; rw [g3, h.ring.mm]; rfl)
  · show r.n = _; rw [g2, h.ring.n]
  · show r.mm = _; rw [g3, h.ring.mm]
  · show r.gflags = _; rw [g1, h.ring.gf]
  · show r.app.length = _; rw [← hz.app, g4, h.ring.app_len]

theorem readable_nonfarm {sp : Spec} (h : sp.farm = false) (sh : SHandle) : sp.readable sh = sp.unread := by
  unfold Spec.readable; rw [if_neg (by simp [h])]

/-- The invariant after a death inside a call. -/
theorem corpse_inv {a : InitArgs} {pid : Nat → Nat} {w w' : WSys} {sp sp' : Spec} (hw : TInv a pid w sp) {ops : List BOp} {k : Nat}
    {r : Ring} {b' : BSys} (h : Corpse pid w ops k r b' w')
    (hrel : Rel { ring := r, hs := (w.sys.discard (fun j => pid j == pid k)).hs } sp') (hhs : sp'.hs = (sp.discard (fun j => pid j == pid k)).hs)
    (e1 : sp'.cap = sp.cap) (e2 : sp'.maxm = sp.maxm) (e3 : sp'.gflags = sp.gflags) (e4 : sp'.app.length = sp.app.length) :
    TInv a pid w' sp' ∧ (BInv w.b ∧ w.b.CleanRun ops → BInv w'.b ∧
      ((∀ j hd, w'.sys.hs j = .live hd → r.readableBy hd ≠ [] → w.sys.ring.readableBy hd ≠ []) → ∀ j P, J1 w sp j P → J1 w' sp' j P) ∧
      ((∀ new, Fits sp.cap sp.maxm r.unreadMsgs new → Fits sp.cap sp.maxm w.sys.ring.unreadMsgs new) → ∀ j, J2 w sp j → J2 w' sp' j)) := by
  obtain ⟨rfl, hfr, hc, hcut, hown⟩ := h
  have hdrop : sp'.drop = sp.drop := by unfold Spec.drop; rw [e3]
  have hlive : ∀ j sh, sp'.hs j = .live sh → sp.hs j = .live sh ∧ pid j ≠ pid k := by
    intro j sh hj
    rw [hhs] at hj
    obtain ⟨h1, h2⟩ := discard_live.1 hj
    exact ⟨h1, by simpa using h2⟩
  have hsys : ∀ j sh, sp.hs j = .live sh → ∃ h, w.sys.hs j = .live h := by
    intro j sh hj
    have := hw.rel.hs j
    rw [hj] at this
    cases e : w.sys.hs j with
    | never => rw [e] at this; exact this.elim
    | gone b => rw [e] at this; exact this.elim
    | live h => exact ⟨h, rfl⟩
  have hblk : ∀ j sh, sp'.hs j = .live sh → (w.corpse pid (pid k) r b').blk j = w.blk j := by
    intro j sh hj
    obtain ⟨h1, h2⟩ := hlive j sh hj
    obtain ⟨hd, h3⟩ := hsys j sh h1
    unfold WSys.corpse; dsimp only; rw [h3]; dsimp only; rw [if_neg h2]
  -- the calls do not concern the handles of others
  have hav : ∀ x ∈ ops, ∀ j, pid j ≠ pid k → ∀ i p, i = 2 * j ∨ i = 2 * j + 1 → x.avoids i p := by
    intro x hx j hj i p hi
    have : j ≠ k := by rintro rfl; exact hj rfl
    exact hown x hx i p (by omega) (by omega)
  obtain ⟨pre, hpre, hts⟩ := hcut.ts
  have hav2 : ∀ x ∈ pre, ∀ j, pid j ≠ pid k → ∀ i, i = 2 * j ∨ i = 2 * j + 1 → x.avoids i (pid j) ∧ ∀ p, x.avoids i p ∨ ∃ q, x = .exit q := by
    intro x hx j hj i hi
    rcases hpre x hx with h | rfl
    · exact ⟨hav x h j hj i _ hi, fun p => .inl (hav x h j hj i p hi)⟩
    · exact ⟨fun e => hj e.symm, fun _ => .inr ⟨_, rfl⟩⟩
  have wt : ∀ j, pid j ≠ pid k → ∀ i h t, i = 2 * j ∨ i = 2 * j + 1 → w.b.ts i = some (.wait h (pid j) t) → b'.ts i = some (.wait h (pid j) t) := by
    intro j hj i h t hi e
    rw [hts]; exact runs_wait e fun x hx => (hav2 x hx j hj i hi).1
  have wk : ∀ j, pid j ≠ pid k → ∀ i h v, i = 2 * j ∨ i = 2 * j + 1 → w.b.ts i = some (.wake h (pid j) v) → ∃ v, b'.ts i = some (.wake h (pid j) v) := by
    intro j hj i h v hi e
    rw [hts]; exact runs_mode e fun x hx => (hav2 x hx j hj i hi).1
  have nn : ∀ j, pid j ≠ pid k → ∀ i, i = 2 * j ∨ i = 2 * j + 1 → w.b.ts i = none → b'.ts i = none := by
    intro j hj i hi e
    rw [hts]; exact runs_none e fun x hx => (hav2 x hx j hj i hi).2
  refine ⟨?_, ?_⟩
  · constructor
    case rel => exact hrel
    case cap => rw [e1]; exact hw.cap
    case maxm => rw [e2]; exact hw.maxm
    case gf => rw [e3]; exact hw.gf
    case app => rw [e4]; exact hw.app
    case canw =>
      intro j sh hj; rw [hdrop]; exact hw.canw j sh (hlive j sh hj).1
    case rdl =>
      intro j sh hj hr
      obtain ⟨h1, h2⟩ := hlive j sh hj
      obtain ⟨⟨t, ht⟩, v, hv⟩ := hw.rdl j sh h1 hr
      exact ⟨⟨t, wt j h2 _ _ _ (.inl rfl) ht⟩, wk j h2 _ _ _ (.inr rfl) hv⟩
    case wrl =>
      intro j sh hj hr
      obtain ⟨h1, h2⟩ := hlive j sh hj
      obtain ⟨⟨v, hv⟩, g1, g2⟩ := hw.wrl j sh h1 hr
      refine ⟨wk j h2 _ _ _ (.inl rfl) hv, fun hc => ?_, fun hc => nn j h2 _ (.inr rfl) (g2 hc)⟩
      obtain ⟨t, ht⟩ := g1 hc
      exact ⟨t, wt j h2 _ _ _ (.inr rfl) ht⟩
    case blk =>
      intro j op b hj
      have hold : w.blk j = some (op, b) ∧ (∀ sh, sp.hs j = .live sh → pid j ≠ pid k) := by
        unfold WSys.corpse at hj; dsimp only at hj
        cases e : w.sys.hs j with
        | live hd =>
          rw [e] at hj; dsimp only at hj
          split at hj
          · cases hj
          · rename_i hp; exact ⟨hj, fun _ _ => hp⟩
        | never =>
          rw [e] at hj
          refine ⟨hj, fun sh hs => ?_⟩
          obtain ⟨hd, h3⟩ := hsys j sh hs
          rw [e] at h3; cases h3
        | gone b =>
          rw [e] at hj
          refine ⟨hj, fun sh hs => ?_⟩
          obtain ⟨hd, h3⟩ := hsys j sh hs
          rw [e] at h3; cases h3
      obtain ⟨g1, g2, sh, g3, g4⟩ := hw.blk j op b hold.1
      refine ⟨g1, g2, sh, ?_, ?_⟩
      · rw [hhs]; exact discard_live.2 ⟨g3, by simpa using hold.2 sh g3⟩
      · rcases g4 with h | ⟨h1, h2, h3, h4, h5⟩
        · exact .inl h
        · exact .inr ⟨h1, h2, h3, by rw [hdrop]; exact h4, fun k iov f1 f2 e => ⟨(h5 k iov f1 f2 e).1.congr e1 e2 rfl rfl rfl rfl, by rw [e1, e2]; exact (h5 k iov f1 f2 e).2⟩⟩
  · rintro ⟨hi, hcl⟩
    have hu : sp'.unread = r.unreadMsgs := hrel.ring.unreadMsgs.symm
    have hu0 : w.sys.ring.unreadMsgs = sp.unread := hw.rel.ring.unreadMsgs
    refine ⟨hcut.inv hi hcl, fun hne j P hJ sh hj hr hS hav1 => ?_, fun hfit j hJ op sh hb hwr hj hf => ?_⟩
    · obtain ⟨h1, h2⟩ := hlive j sh hj
      obtain ⟨⟨t, ht⟩, _⟩ := hw.rdl j sh h1 hr
      have hl' := hrel.hs j
      rw [hj] at hl'
      obtain ⟨hd, e5⟩ : ∃ hd, (w.sys.discard (fun j => pid j == pid k)).hs j = .live hd := by
        cases e : (w.sys.discard (fun j => pid j == pid k)).hs j with
        | live hd => exact ⟨hd, rfl⟩
        | never => dsimp only at hl'; rw [e] at hl'; exact hl'.elim
        | gone b => dsimp only at hl'; rw [e] at hl'; exact hl'.elim
      dsimp only at hl'
      rw [e5] at hl'
      have e6 : w.sys.hs j = .live hd := by
        unfold Sys.discard at e5; dsimp only at e5
        cases e : w.sys.hs j with
        | live hd => rw [e] at e5; dsimp only at e5; split at e5 <;> cases e5; rfl
        | never => rw [e] at e5; cases e5
        | gone b => rw [e] at e5; cases e5
      have hl0 := hw.rel.hs j
      rw [h1, e6] at hl0
      have := hJ sh h1 hr (by rw [hblk j sh hj] at hS; exact hS) (by
        rw [← readableBy_eq hw.rel.ring hl0]; refine hne j hd e5 ?_
        rw [readableBy_eq hrel.ring hl']; exact hav1)
      exact Nat.le_trans this (hcut.pending hi hcl ht h2 fun x hx => hav x hx j h2 _ _ (.inl rfl))
    · obtain ⟨h1, h2⟩ := hlive j sh hj
      rw [hblk j sh hj] at hb
      have := hJ op sh hb hwr h1 (by
        rw [← hu0]; apply hfit
        rw [e1, e2, hu] at hf; exact hf)
      obtain ⟨g1, g2, sh', g3, g4⟩ := hw.blk j op false hb
      rw [h1] at g3; cases g3
      rcases g4 with ⟨⟨_, _, _, _, rfl⟩, _⟩ | ⟨_, g5, g6, _⟩
      · cases hwr
      · obtain ⟨t, ht⟩ := (hw.wrl j sh h1 g5).2.1 g6
        exact Nat.le_trans this (hcut.pending hi hcl ht h2 fun x hx => hav x hx j h2 _ _ (.inr rfl))

end Shr
