import Verif.Proof.FarmRead
import Verif.Spec.FarmLog
/-! # Writing to a farm ring some of whose writers were killed -/
namespace Shr
open M

theorem Calm.shift {N K : Nat} {L P : List Msg} {g g1 : Nat} {Xs Ys : List (List Msg)} {a b : Ring} (h : Calm N K (L ++ P) g1 Xs a b) (hg : g ≤ g1)
    (hX : ∀ X ∈ Xs, P ++ X ∈ Ys) : Calm N K L g Ys a b := by
  intro h1 h2
  obtain ⟨X, hx, g', hg', hf⟩ := h h1 h2
  exact ⟨P ++ X, hX X hx, g', by omega, by rw [← List.append_assoc]; exact hf⟩

theorem Calm.more {N K : Nat} {L : List Msg} {g : Nat} {Xs Ys : List (List Msg)} {a b : Ring} (h : Calm N K L g Xs a b)
    (hX : ∀ X ∈ Xs, X ∈ Ys) : Calm N K L g Ys a b := by
  intro h1 h2
  obtain ⟨X, hx, g', hg', hf⟩ := h h1 h2
  exact ⟨X, hX X hx, g', hg', hf⟩

/-- What an attempt to put `new` into the ring has done when it returns `o`: `X` is what was put. -/
def FTried (L new : List Msg) (g : Nat) (o : WrOut) (X : List Msg) (g' : Nat) : Prop :=
  g ≤ g' ∧ (X = [] ∧ g' = g ∨ X = new ∧ g' ≤ L.length) ∧
  (∀ rc w, o = .ret rc w → 0 < rc → rc = (bytesOf new : Int) ∧ X = new) ∧ (o = .wait → X = [])

theorem writevFinish_farm {N K : Nat} {r : Ring} {L new : List Msg} {g : Nat} (h : FarmR N K r (L ++ new) g) {g0 : Nat} (hg : g0 ≤ g) (env : Env) (niov : Nat)
    (hle : g ≤ L.length) :
    Pc (writevFinish (bytesOf new) niov env) r (Calm N K L g0 [[], new])
      (fun o s => ∃ X g', FarmR N K s (L ++ X) g' ∧ FTried L new g0 o X g') := by
  have cong : ∀ st, FarmR N K { r with stat := st } (L ++ new) g := fun st => h.congr rfl (by rw [h.mm]; have := h.r; rw [h.mm] at this; exact this)
  have fin : ∀ o st, (∀ rc w, o = WrOut.ret rc w → 0 < rc → rc = (bytesOf new : Int)) → o ≠ .wait →
      ∃ X g', FarmR N K { r with stat := st } (L ++ X) g' ∧ FTried L new g0 o X g' := fun o st h1 h2 =>
    ⟨new, g, cong st, hg, Or.inr ⟨rfl, hle⟩, fun rc w e hp => ⟨h1 rc w e hp, rfl⟩, fun e => absurd e h2⟩
  have calm : ∀ a st, Calm N K L g0 [[], new] a { r with stat := st } := fun _ st _ _ => ⟨new, by simp, g, hg, cong st⟩
  unfold writevFinish
  refine Pc.ite (fun _ => Pc.pure (fin _ r.stat (by rintro rc w ⟨⟩ hp; omega) (by simp))) (fun _ => ?_)
  refine Pc.store_bind (calm _ _) ?_
  refine Pc.store_bind (calm _ _) ?_
  apply Pc.get_bind
  refine Pc.ite (fun _ => Pc.pure (fin _ _ (by rintro rc w ⟨⟩ hp; omega) (by simp)))
    (fun _ => Pc.pure (fin _ _ (by rintro rc w ⟨⟩ hp; rfl) (by simp)))

theorem writevAttempt_farm {N K : Nat} {r : Ring} {L new : List Msg} {g : Nat} (h : FarmR N K r L g) (hb : bytesOf new ≤ N)
    (hc : new.length ≤ K) (hw : (L ++ new).length < W) (flags : Flags) (env : Env) :
    Pc (writevAttempt flags K new (bytesOf new) env) r (Calm N K L g [[], new])
      (fun o s => ∃ X g', FarmR N K s (L ++ X) g' ∧ FTried L new g o X g') := by
  have none : ∀ o, (∀ rc w, o = WrOut.ret rc w → rc ≤ 0) → ∃ X g', FarmR N K r (L ++ X) g' ∧ FTried L new g o X g' := fun o ho =>
    ⟨[], g, by rw [List.append_nil]; exact h, Nat.le_refl _, Or.inl ⟨rfl, rfl⟩, fun rc w e hp => absurd (ho rc w e) (by omega), fun _ => rfl⟩
  have put : ∀ s, FarmR N K s L g → Pc (writevCommit K new (bytesOf new) >>= fun _ => writevFinish (bytesOf new) new.length env) s (Calm N K L g [[], new])
      (fun o s => ∃ X g', FarmR N K s (L ++ X) g' ∧ FTried L new g o X g') := fun s hs =>
    Pc.bind (writevCommit_farm hs hb hc hw) (fun _ s1 ⟨g1, h1, h2, h3⟩ => writevFinish_farm h3 h1 env new.length h2)
  unfold writevAttempt
  refine Pc.ite (fun _ => Pc.pure (none _ (by rintro rc w ⟨⟩; omega))) (fun _ => ?_)
  apply Pc.get_bind
  refine Pc.ite (fun _ => put r h) (fun _ => ?_)
  refine Pc.ite (fun _ => ?_) (fun _ => ?_)
  · refine Pc.bind ((drop_unread_farm h _ _).mono (fun _ _ hc => hc.more (by simp)) (fun _ _ h => h)) ?_
    intro _ s hs
    exact put s hs
  refine Pc.ite (fun _ => Pc.pure (none _ (by rintro rc w ⟨⟩; omega))) (fun _ => ?_)
  cases e : env.waitRc with
  | none => exact Pc.pure (none _ (by rintro rc w ⟨⟩))
  | some sc => exact Pc.pure (none _ (by rintro rc w ⟨⟩; cases sc <;> decide))

theorem flushCache_farm {N K : Nat} {r : Ring} {L pend : List Msg} {g : Nat} (h : FarmR N K r L g) {hd : Handle} {csz cvt : Nat} (hn : hd.n = N)
    (hmm : hd.mm = K) (hc : CRel hd.c pend csz cvt) (hp : Legal N K pend) (hcs : csz ≤ N)
    (hw : (L ++ pend).length < W) (env : Env) :
    Pc (flushCache hd env) r (Calm N K L g [[], pend]) (fun o s => ∃ X g', FarmR N K s (L ++ X) g' ∧ FTried L pend g o X g') := by
  obtain ⟨O, E, hg⟩ := h.geo
  have hN : N ≤ SSIZE_MAX := by rw [← h.n]; exact hg.nbd
  unfold flushCache
  refine Pc.lift_bind (by rw [hc.read]; exact fun x => nomatch x) ?_
  intro ms hms
  rw [hc.read] at hms
  cases hms
  unfold writevDirect
  refine Pc.assert_bind fun _ => ?_
  have hbd := pend_bd hc (by omega)
  rw [hn, hmm, lenCheck_spec hN (fun b hb => ⟨hp.2.1 b hb, hbd b hb⟩), if_pos hp]
  exact writevAttempt_farm h hp.2.2.1 hp.2.2.2 hw _ env

theorem shr_writev_farm {r : Ring} {sp : Spec} (hr : FarmR sp.cap sp.maxm r sp.log sp.base) {h : Handle} {sh : SHandle} (hh : HRel sp h sh)
    {iov : List Msg} (hwf : WriteWF iov) (hw : sp.log.length + 2 * sp.maxm < W) (envF env : Env) :
    Pc (shr_writev h iov envF env) r (Calm sp.cap sp.maxm sp.log sp.base [[], sh.pend, sh.pend ++ iov])
      (fun x s => ∃ X pend g', FarmR sp.cap sp.maxm s (sp.log ++ X) g' ∧ HRel sp x.1 { sh with pend := pend } ∧
        Wrote sp sh iov x.2.out X pend g' ∧ X.length ≤ 2 * sp.maxm) := by
  obtain ⟨O, E, hg⟩ := hr.geo
  have hN : sp.cap ≤ SSIZE_MAX := by rw [← hr.n]; exact hg.nbd
  have hgl := hr.gle
  have hfl := hh.flags
  have hpl : sh.pend.length ≤ sp.maxm := by have := hh.cache.vle; have := hh.cvt; omega
  have self : { sh with pend := sh.pend } = sh := rfl
  have nothing : ∀ o : WrOut, (∀ rc w, o = .ret rc w → rc ≤ 0) → ∃ X pend g', FarmR sp.cap sp.maxm r (sp.log ++ X) g' ∧
      HRel sp h { sh with pend := pend } ∧ Wrote sp sh iov o.out X pend g' ∧ X.length ≤ 2 * sp.maxm := fun o ho => by
    have ho' : ∀ rc, o.out = .wrote rc → rc ≤ 0 := fun rc e => by
      cases o with
      | ret rc' w => cases e; exact ho _ _ rfl
      | wait => cases e
    exact ⟨[], sh.pend, sp.base, by rw [List.append_nil]; exact hr, hh, ⟨Nat.le_refl _, fun _ => rfl, fun x => absurd rfl x, by omega,
      fun rc e hp => absurd (ho' rc e) (by omega), fun _ => Or.inl ⟨rfl, rfl⟩⟩, by simp⟩
  unfold shr_writev
  refine Pc.assert_bind fun _ => ?_
  rw [hh.n, hh.mm, lenCheck_wf hN hwf]
  by_cases hL : Legal sp.cap sp.maxm iov
  case neg => rw [if_neg hL]; exact Pc.pure (nothing _ (by rintro rc w ⟨⟩; omega))
  rw [if_pos hL]
  dsimp only
  have hil := hL.2.2.2
  -- a direct write of `iov` when `P` has been put and nothing is pending
  have direct : ∀ (P : List Msg) (s : Ring) (g1 : Nat) (h1 : Handle), P = sh.pend → FarmR sp.cap sp.maxm s (sp.log ++ P) g1 → sp.base ≤ g1 →
      (P = [] → g1 = sp.base) → (P ≠ [] → g1 < (sp.log ++ P).length) →
      HRel sp h1 { sh with pend := [] } → Pc (do let out ← writevAttempt h1.flags h1.mm iov (bytesOf iov) env; pure (h1, out)) s
      (Calm sp.cap sp.maxm sp.log sp.base [[], sh.pend, sh.pend ++ iov])
      (fun x s => ∃ X pend g', FarmR sp.cap sp.maxm s (sp.log ++ X) g' ∧ HRel sp x.1 { sh with pend := pend } ∧
        Wrote sp sh iov x.2.out X pend g' ∧ X.length ≤ 2 * sp.maxm) := by
    rintro P s g1 h1 hP hs hg1 hz hnew hh1
    subst hP
    rw [hh1.mm]
    refine Pc.bind ((writevAttempt_farm hs hL.2.2.1 hil (by simp; omega) _ env).mono
      (fun _ _ hc => hc.shift hg1 (by simp)) (fun _ _ h => h)) ?_
    rintro o s2 ⟨X, g2, hf, t1, t2, t3, t4⟩
    refine Pc.pure ⟨sh.pend ++ X, [], g2, by rw [← List.append_assoc]; exact hf, hh1, ⟨by omega, ?_, ?_, ?_, ?_, ?_⟩, ?_⟩
    · intro e
      obtain ⟨e1, e2⟩ := List.append_eq_nil_iff.mp e
      rcases t2 with ⟨_, e⟩ | ⟨e, _⟩
      · rw [e]; exact hz e1
      · exact absurd (e ▸ e2) hL.1
    · intro hne
      rcases t2 with ⟨e, e'⟩ | ⟨e, e'⟩
      · rw [e, List.append_nil] at hne ⊢; rw [e']; exact hnew hne
      · have : 0 < iov.length := List.length_pos_iff.mpr hL.1
        rw [e]; simp only [List.length_append] at e' ⊢; omega
    · rcases t2 with ⟨_, e⟩ | ⟨_, e⟩
      · rw [e]; have := hs.gle; simpa using this
      · simpa using e
    · intro rc e hp
      cases o with
      | wait => cases e
      | ret rc' w =>
        cases e
        obtain ⟨h1, h2⟩ := t3 _ _ rfl hp
        exact ⟨h1, by rw [h2, List.append_nil]⟩
    · intro _
      rcases t2 with ⟨e, _⟩ | ⟨e, _⟩
      · rw [e, List.append_nil]; exact Or.inr (Or.inl ⟨rfl, Or.inr rfl⟩)
      · rw [e]; exact Or.inr (Or.inr ⟨rfl, rfl⟩)
    · rcases t2 with ⟨e, _⟩ | ⟨e, _⟩ <;> rw [e] <;> simp <;> omega
  have direct0 : sh.pend = [] → Pc (do let out ← writevAttempt h.flags h.mm iov (bytesOf iov) env; pure (h, out)) r
      (Calm sp.cap sp.maxm sp.log sp.base [[], sh.pend, sh.pend ++ iov])
      (fun x s => ∃ X pend g', FarmR sp.cap sp.maxm s (sp.log ++ X) g' ∧ HRel sp x.1 { sh with pend := pend } ∧
        Wrote sp sh iov x.2.out X pend g' ∧ X.length ≤ 2 * sp.maxm) := by
    intro hp
    refine direct [] r sp.base h hp.symm (by rw [List.append_nil]; exact hr) (Nat.le_refl _) (fun _ => rfl) (fun x => absurd rfl x) ?_
    rw [← hp]; exact hh
  unfold cacheLoop
  by_cases hb : sh.flags.has SHR_BUFFERED = false
  · rw [if_pos (by rw [hfl]; exact hb)]
    apply Pc.pure_bind
    exact direct0 (Classical.byContradiction fun hp => by
      have := (hh.buffered hp).1
      rw [has_BUFFERED] at hb; rw [this] at hb; cases hb)
  rw [if_neg (by rw [hfl]; exact hb)]
  by_cases hf : Spec.cacheFits sh iov
  · rw [if_pos ((cacheFits_iff hh iov).mpr hf)]
    obtain ⟨c', e', hh'⟩ := hh.cacheAll hL.2.1 hf
    rw [e']
    refine Pc.bind (Q := fun x s => s = r ∧ x = ({ h with c := c' }, some (WrOut.ret (bytesOf iov : Int) false)))
      (Pc.lift_bind (fun x => nomatch x) fun c hc => by cases hc; exact Pc.pure ⟨rfl, rfl⟩) ?_
    rintro _ _ ⟨rfl, rfl⟩
    refine Pc.pure ⟨[], sh.pend ++ iov, sp.base, by rw [List.append_nil]; exact hr, hh', ⟨Nat.le_refl _, fun _ => rfl, fun x => absurd rfl x, by omega,
      ?_, ?_⟩, by simp⟩
    · rintro rc ⟨⟩ _; exact ⟨rfl, rfl⟩
    · intro hx
      have := hx _ rfl
      have := bytesOf_pos hL.2.1 hL.1
      omega
  rw [if_neg (fun x => hf ((cacheFits_iff hh iov).mp x))]
  by_cases hp : sh.pend = []
  · rw [if_pos (hh.cache.n_zero.mpr hp)]
    apply Pc.pure_bind
    exact direct0 hp
  rw [if_neg (fun x => hp (hh.cache.n_zero.mp x))]
  have hfb := hh.buffered hp
  have hplg := hh.pend_legal hp
  have hpp : 0 < sh.pend.length := List.length_pos_iff.mpr hp
  have hfs := flushCache_farm (env := envF) hr hh.n hh.mm hh.cache hplg hh.csz (by simp; omega)
  refine Pc.bind (Q := fun (x : Handle × Option WrOut) s => (∃ o, x = (h, some o) ∧ (∀ rc w, o = .ret rc w → rc ≤ 0) ∧
      ∃ X g', FarmR sp.cap sp.maxm s (sp.log ++ X) g' ∧ FTried sp.log sh.pend sp.base o X g') ∨
    (∃ g', FarmR sp.cap sp.maxm s (sp.log ++ sh.pend) g' ∧ sp.base ≤ g' ∧ g' ≤ sp.log.length ∧
      (x = ({ h with c := { h.c with n := 0, vm := 0 } }, none) ∨ ∃ c', x = ({ h with c := c' }, some (WrOut.ret (bytesOf iov : Int) false)) ∧
        HRel sp { h with c := c' } { sh with pend := iov }))) ?_ ?_
  · refine Pc.bind (hfs.mono (fun _ _ hc => hc.more (by simp)) (fun _ _ h => h)) ?_
    rintro o s ⟨X, g1, hX⟩
    cases o with
    | wait => exact Pc.pure (Or.inl ⟨_, rfl, (by rintro rc w ⟨⟩), X, g1, hX⟩)
    | ret rc wk =>
      dsimp only
      by_cases hrc : rc ≤ 0
      · rw [if_pos hrc]; exact Pc.pure (Or.inl ⟨_, rfl, (by rintro rc' w ⟨⟩; exact hrc), X, g1, hX⟩)
      rw [if_neg hrc]
      obtain ⟨hf1, t1, t2, t3, _⟩ := hX
      obtain ⟨_, rfl⟩ := t3 rc wk rfl (by omega)
      have t2' : g1 ≤ sp.log.length := by
        rcases t2 with ⟨e, _⟩ | ⟨_, e⟩
        · exact absurd e hp
        · exact e
      have hh2 := hh.cleared
      unfold cacheLoop
      have hfl2 : ({ h with c := { h.c with n := 0, vm := 0 } } : Handle).flags = sh.flags := hfl
      rw [if_neg (by rw [hfl2]; exact hb)]
      by_cases hf2 : Spec.cacheFits { sh with pend := [] } iov
      · rw [if_pos ((cacheFits_iff hh2 iov).mpr hf2)]
        obtain ⟨c', e', hh'⟩ := hh2.cacheAll hL.2.1 hf2
        rw [e']
        refine Pc.lift_bind (fun x => nomatch x) fun c hc => ?_
        cases hc
        exact Pc.pure (Or.inr ⟨g1, hf1, t1, t2', Or.inr ⟨c', rfl, hh'⟩⟩)
      · rw [if_neg (fun x => hf2 ((cacheFits_iff hh2 iov).mp x))]
        rw [if_pos rfl]
        exact Pc.pure (Or.inr ⟨g1, hf1, t1, t2', Or.inl rfl⟩)
  · rintro x s (⟨o, rfl, ho, X, g1, hf1, t1, t2, t3, t4⟩ | ⟨g1, hf1, t1, t2, rfl | ⟨c', rfl, hh'⟩⟩)
    · refine Pc.pure ⟨X, sh.pend, g1, hf1, hh, ⟨t1, ?_, ?_, ?_, ?_, ?_⟩, ?_⟩
      · rintro rfl
        rcases t2 with ⟨_, e⟩ | ⟨e, _⟩
        · exact e
        · exact absurd e.symm hp
      · intro hx
        rcases t2 with ⟨e, _⟩ | ⟨e, e'⟩
        · exact absurd e hx
        · rw [e]; simp only [List.length_append]; omega
      · rcases t2 with ⟨_, e⟩ | ⟨_, e⟩ <;> omega
      · intro rc e hpos
        cases o with
        | wait => cases e
        | ret rc' w => cases e; have := ho _ _ rfl; omega
      · intro _
        rcases t2 with ⟨e, _⟩ | ⟨e, _⟩
        · exact Or.inl ⟨e, rfl⟩
        · exact Or.inr (Or.inl ⟨e, Or.inl rfl⟩)
      · rcases t2 with ⟨e, _⟩ | ⟨e, _⟩ <;> rw [e]
        · simp
        · omega
    · exact direct sh.pend s g1 _ rfl hf1 t1 (fun e => absurd e hp) (fun _ => by simp only [List.length_append]; omega) hh.cleared
    · refine Pc.pure ⟨sh.pend, iov, g1, hf1, hh', ⟨t1, fun e => absurd e hp, fun _ => by simp only [List.length_append]; omega, by omega, ?_, ?_⟩, by omega⟩
      · rintro rc ⟨⟩ _; exact ⟨rfl, rfl⟩
      · intro hx
        have := hx _ rfl
        have := bytesOf_pos hL.2.1 hL.1
        omega

theorem FTried.flushed {sp : Spec} {sh : SHandle} {o : WrOut} {X : List Msg} {g : Nat} (h : FTried sp.log sh.pend sp.base o X g) (hb : sp.base ≤ sp.log.length)
    (hp : sh.pend ≠ []) :
    Flushed sp sh o.out X (match o with | .ret rc _ => if rc > 0 then [] else sh.pend | .wait => sh.pend) g := by
  obtain ⟨t1, t2, t3, t4⟩ := h
  refine ⟨t1, ?_, ?_, ?_, ?_⟩
  · rintro rfl
    rcases t2 with ⟨_, e⟩ | ⟨e, _⟩
    · exact e
    · exact absurd e.symm hp
  · rcases t2 with ⟨_, e⟩ | ⟨_, e⟩ <;> omega
  · intro rc e hpos
    cases o with
    | wait => cases e
    | ret rc' w =>
      cases e
      obtain ⟨h1, h2⟩ := t3 _ _ rfl hpos
      exact ⟨h1, h2, by dsimp only; rw [if_pos hpos]⟩
  · intro ho
    refine ⟨by rcases t2 with ⟨e, _⟩ | ⟨e, _⟩ <;> simp [e], ?_⟩
    cases o with
    | wait => rfl
    | ret rc w => dsimp only; rw [if_neg (by have := ho rc rfl; omega)]

theorem shr_flush_farm {r : Ring} {sp : Spec} (hr : FarmR sp.cap sp.maxm r sp.log sp.base) {h : Handle} {sh : SHandle} (hh : HRel sp h sh)
    (hw : sp.log.length + 2 * sp.maxm < W) (wait : Bool) (env : Env) :
    Pc (shr_flush h wait env) r (Calm sp.cap sp.maxm sp.log sp.base [[], sh.pend])
      (fun x s => ∃ X pend g' c, FarmR sp.cap sp.maxm s (sp.log ++ X) g' ∧ HRel sp x.1 { sh with pend := pend, canWait := c } ∧
        Flushed sp sh x.2.out X pend g' ∧ X.length ≤ 2 * sp.maxm) := by
  have hgl := hr.gle
  have hpl : sh.pend.length ≤ sp.maxm := by have := hh.cache.vle; have := hh.cvt; omega
  obtain ⟨fl, cur, c, n, mm, r2w⟩ := h
  have hfl : fl = sh.flags := hh.flags
  subst hfl
  have hr2w : r2w = sh.canWait := hh.r2w
  subst hr2w
  have nothing : ∀ (o : WrOut), (∀ rc w, o = .ret rc w → rc ≤ 0) → ∃ X pend g' c', FarmR sp.cap sp.maxm r (sp.log ++ X) g' ∧
      HRel sp ⟨sh.flags, cur, c, n, mm, sh.canWait⟩ { sh with pend := pend, canWait := c' } ∧ Flushed sp sh o.out X pend g' ∧ X.length ≤ 2 * sp.maxm := fun o ho => by
    have ho' : ∀ rc, o.out = .wrote rc → rc ≤ 0 := fun rc e => by
      cases o with
      | ret rc' w => cases e; exact ho _ _ rfl
      | wait => cases e
    exact ⟨[], sh.pend, sp.base, sh.canWait, by rw [List.append_nil]; exact hr, hh, ⟨Nat.le_refl _, fun _ => rfl, hgl,
      fun rc e hp => absurd (ho' rc e) (by omega), fun _ => ⟨Or.inl rfl, rfl⟩⟩, by simp⟩
  unfold shr_flush
  refine Pc.assert_bind fun _ => ?_
  by_cases hp : sh.pend = []
  · rw [if_pos (hh.cache.n_zero.mpr hp)]
    exact Pc.pure (nothing _ (by rintro rc w ⟨⟩; omega))
  rw [if_neg (fun x => hp (hh.cache.n_zero.mp x))]
  have hfb := hh.buffered hp
  have hplg := hh.pend_legal hp
  have hlen : ∀ {X : List Msg} {o : WrOut} {g : Nat}, FTried sp.log sh.pend sp.base o X g → X.length ≤ 2 * sp.maxm := fun t => by
    rcases t.2.1 with ⟨e, _⟩ | ⟨e, _⟩ <;> rw [e]
    · simp
    · omega
  have fls := fun (f : Flags) (b : Bool) => flushCache_farm (hd := ⟨f, cur, c, n, mm, b⟩) (env := env) hr hh.n hh.mm hh.cache hplg hh.csz (by simp; omega)
  cases ht : (sh.flags.has SHR_NONBLOCK && wait)
  · simp only [Bool.false_eq_true, false_and, if_false]
    refine Pc.bind (fls _ _) ?_
    rintro o s ⟨X, g1, hf1, ht1⟩
    have hfd := ht1.flushed hgl hp
    rw [clear_set_BUFFERED _ hfb.1]
    refine Pc.pure ⟨X, _, g1, sh.canWait, hf1, ?_, hfd, hlen ht1⟩
    cases o with
    | wait => exact hh
    | ret rc wk =>
      dsimp only
      by_cases hrc : rc > 0
      · simp only [if_pos hrc]; exact hh.cleared
      · simp only [if_neg hrc]; exact hh
  · have ht' := ht
    simp only [Bool.and_eq_true] at ht'
    obtain ⟨hnbf, rfl⟩ := ht'
    have hb15 : sh.flags.getLsbD 15 = true := by rw [← has_NONBLOCK]; exact hnbf
    have hback : (sh.flags.clear SHR_NONBLOCK).set SHR_NONBLOCK = sh.flags := clear_set_NONBLOCK _ hb15
    have hb16 : (sh.flags.clear SHR_NONBLOCK).getLsbD 16 = true := by
      rw [clear_NONBLOCK _ _ (by decide), hfb.1]; rfl
    simp only [if_true, true_and]
    by_cases hbad : sh.canWait = false ∧ (env.lockOk = false ∨ env.bwOpenOk = false)
    · rw [if_pos hbad, hback]
      exact Pc.pure (nothing _ (by rintro rc w ⟨⟩; omega))
    · rw [if_neg hbad]
      refine Pc.bind (fls _ _) ?_
      rintro o s ⟨X, g1, hf1, ht1⟩
      have hfd := ht1.flushed hgl hp
      rw [clear_set_BUFFERED _ hb16]
      have hh1 : HRel sp ⟨sh.flags, cur, c, n, mm, true⟩ { sh with canWait := true } :=
        ⟨hh.flags, hh.n, hh.mm, ⟨hh.cur.1, hh.cur.2⟩, hh.cache, hh.csz, hh.cvt, hh.nbuf, rfl, hh.mode⟩
      refine Pc.pure ⟨X, _, g1, true, hf1, ?_, hfd, hlen ht1⟩
      cases o with
      | wait => dsimp only; rw [hback]; exact hh1
      | ret rc wk =>
        dsimp only
        by_cases hrc : rc > 0
        · simp only [if_pos hrc, hback]; exact hh1.cleared
        · simp only [if_neg hrc, hback]; exact hh1

theorem shr_close_farm {r : Ring} {sp : Spec} (hr : FarmR sp.cap sp.maxm r sp.log sp.base) {h : Handle} {sh : SHandle} (hh : HRel sp h sh)
    (hw : sp.log.length + 2 * sp.maxm < W) (env : Env) :
    Pc (shr_close h env) r (Calm sp.cap sp.maxm sp.log sp.base [[], sh.pend])
      (fun o s => ∃ X pend g', FarmR sp.cap sp.maxm s (sp.log ++ X) g' ∧ Flushed sp sh o.out X pend g' ∧ X.length ≤ 2 * sp.maxm) := by
  unfold shr_close
  refine Pc.ite (fun _ => ?_) (fun _ => ?_)
  · refine Pc.bind (shr_flush_farm hr hh hw false env) ?_
    rintro x s ⟨X, pend, g', c, h1, _, h2, h3⟩
    exact Pc.pure ⟨X, pend, g', h1, h2, h3⟩
  · exact Pc.pure ⟨[], sh.pend, sp.base, by rw [List.append_nil]; exact hr, ⟨Nat.le_refl _, fun _ => rfl, hr.gle,
      (by rintro rc ⟨⟩ h; omega), fun _ => ⟨Or.inl rfl, rfl⟩⟩, by simp⟩

end Shr
