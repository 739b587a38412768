import Verif.Proof.FarmGeo
import Verif.Props.Poison
import Verif.Proof.Crash
/-! # Farm rings whose users are killed inside calls -/
namespace Shr
open M
variable {α β : Type}

/-- Successive states of the ring, each made from the one before by one store, in the relation `T`. -/
inductive Chain (T : Ring → Ring → Prop) : Ring → List Ring → Ring → Prop where
  | nil (r : Ring) : Chain T r [] r
  | cons {r r' s : Ring} {l : List Ring} : T r r' → Chain T r' l s → Chain T r (r :: l) s

theorem Chain.append {T : Ring → Ring → Prop} {r s t : Ring} {l m : List Ring} (h : Chain T r l s) (h' : Chain T s m t) : Chain T r (l ++ m) t := by
  induction h with
  | nil => exact h'
  | cons a _ ih => exact .cons a (ih h')

theorem Chain.mono {T T' : Ring → Ring → Prop} (hT : ∀ a b, T a b → T' a b) {r s : Ring} {l : List Ring} (h : Chain T r l s) : Chain T' r l s := by
  induction h with
  | nil => exact .nil _
  | cons a _ ih => exact .cons (hT _ _ a) ih

/-- `x`, run on `r`, accesses nothing outside its objects; its stores are in the relation `T`; if it returns, `Q`
holds.  (It may fail an assertion.) -/
def Pc (x : M Ring α) (r : Ring) (T : Ring → Ring → Prop) (Q : α → Ring → Prop) : Prop :=
  (x r).res ≠ .ub ∧ ∃ r', Chain T r (x r).trace r' ∧ (∀ a s, (x r).res = .ok a s → s = r' ∧ Q a s) ∧ (∀ s, (x r).res = .abort s → s = r')

namespace Pc
variable {T : Ring → Ring → Prop}

theorem pure {a : α} {r : Ring} {Q : α → Ring → Prop} (h : Q a r) : Pc (Pure.pure a : M Ring α) r T Q :=
  ⟨(fun e => nomatch e), r, .nil r, (fun _ _ e => by cases e; exact ⟨rfl, h⟩), (fun _ e => nomatch e)⟩

theorem bind {x : M Ring α} {f : α → M Ring β} {r : Ring} {Q : α → Ring → Prop} {R : β → Ring → Prop} (h : Pc x r T Q)
    (hf : ∀ a s, Q a s → Pc (f a) s T R) : Pc (x >>= f) r T R := by
  obtain ⟨h0, r', p, h1, h2⟩ := h
  unfold Pc
  rw [M.bind_apply]
  cases e : (x r).res with
  | ok a s =>
    obtain ⟨rfl, hq⟩ := h1 a s e
    obtain ⟨g0, r2, p2, g1, g2⟩ := hf a s hq
    exact ⟨g0, r2, p.append p2, g1, g2⟩
  | abort s => exact ⟨(fun h => nomatch h), r', p, (fun _ _ h => nomatch h), (fun s' h => by cases h; exact h2 _ e)⟩
  | ub => exact absurd e h0
  | hang => exact ⟨(fun h => nomatch h), r', p, (fun _ _ h => nomatch h), (fun _ h => nomatch h)⟩

theorem mono {x : M Ring α} {r : Ring} {Q R : α → Ring → Prop} {T' : Ring → Ring → Prop} (h : Pc x r T Q) (hT : ∀ a b, T a b → T' a b)
    (hQ : ∀ a s, Q a s → R a s) : Pc x r T' R := by
  obtain ⟨h0, r', p, h1, h2⟩ := h
  exact ⟨h0, r', p.mono hT, fun a s e => ⟨(h1 a s e).1, hQ _ _ (h1 a s e).2⟩, h2⟩

theorem get_bind {f : Ring → M Ring β} {r : Ring} {R : β → Ring → Prop} (h : Pc (f r) r T R) : Pc (M.get >>= f) r T R := by
  unfold Pc at h ⊢; rw [M.get_bind]; exact h

theorem pure_bind {a : α} {f : α → M Ring β} {r : Ring} {R : β → Ring → Prop} (h : Pc (f a) r T R) :
    Pc ((Pure.pure a : M Ring α) >>= f) r T R := by
  unfold Pc at h ⊢; rw [M.pure_bind]; exact h

theorem assert {b : Bool} {r : Ring} {Q : Unit → Ring → Prop} (h : b = true → Q () r) : Pc (M.assert b) r T Q := by
  refine ⟨?_, r, .nil r, ?_, ?_⟩
  · unfold M.assert; dsimp only; split <;> exact fun e => nomatch e
  · intro a s e; unfold M.assert at e; dsimp only at e; split at e
    · cases e; exact ⟨rfl, h ‹_›⟩
    · cases e
  · intro s e; unfold M.assert at e; dsimp only at e; split at e <;> cases e; rfl

theorem assert_bind {b : Bool} {f : Unit → M Ring β} {r : Ring} {R : β → Ring → Prop} (h : b = true → Pc (f ()) r T R) :
    Pc (M.assert b >>= f) r T R :=
  bind (Q := fun _ s => b = true ∧ s = r) (assert fun hb => ⟨hb, rfl⟩) (fun _ _ h' => by obtain ⟨hb, rfl⟩ := h'; exact h hb)

theorem store {g : Ring → Ring} {r : Ring} {Q : Unit → Ring → Prop} (hT : T r (g r)) (h : Q () (g r)) : Pc (M.store g) r T Q :=
  ⟨(fun e => nomatch e), g r, .cons hT (.nil _), (fun _ _ e => by cases e; exact ⟨rfl, h⟩), (fun _ e => nomatch e)⟩

theorem store_bind {g : Ring → Ring} {f : Unit → M Ring β} {r : Ring} {R : β → Ring → Prop} (hT : T r (g r)) (h : Pc (f ()) (g r) T R) :
    Pc (M.store g >>= f) r T R :=
  bind (Q := fun _ s => s = g r) (store hT rfl) (fun _ _ h' => by subst h'; exact h)

theorem lift {x : Except Fault α} {r : Ring} {Q : α → Ring → Prop} (h0 : x ≠ .error .ub) (h : ∀ a, x = .ok a → Q a r) : Pc (M.lift x) r T Q := by
  refine ⟨?_, r, .nil r, ?_, ?_⟩
  · unfold M.lift; dsimp only; split
    · exact fun e => nomatch e
    · exact fun e => nomatch e
    · exact absurd rfl h0
    · exact fun e => nomatch e
  · intro a s e; unfold M.lift at e; dsimp only at e; split at e <;> cases e
    exact ⟨rfl, h _ rfl⟩
  · intro s e; unfold M.lift at e; dsimp only at e; split at e <;> cases e; rfl

theorem lift_bind {x : Except Fault α} {f : α → M Ring β} {r : Ring} {R : β → Ring → Prop} (h0 : x ≠ .error .ub)
    (h : ∀ a, x = .ok a → Pc (f a) r T R) : Pc (M.lift x >>= f) r T R :=
  bind (Q := fun a s => x = .ok a ∧ s = r) (lift h0 fun a e => ⟨e, rfl⟩) (fun _ _ h' => by obtain ⟨e, rfl⟩ := h'; exact h _ e)

theorem ite {c : Prop} [Decidable c] {x y : M Ring α} {r : Ring} {Q : α → Ring → Prop} (h1 : c → Pc x r T Q) (h2 : ¬c → Pc y r T Q) :
    Pc (if c then x else y) r T Q := by
  by_cases hc : c
  · rw [if_pos hc]; exact h1 hc
  · rw [if_neg hc]; exact h2 hc

/-- A run that completes, all of whose states have a property. -/
theorem of_ok {x : M Ring α} {r : Ring} {P : Ring → Prop} {Q : α → Ring → Prop} (h : Ok x r P Q) (hQ : ∀ a s, Q a s → P s) (hb : BS x r) :
    Pc x r (fun _ b => P b) Q := by
  obtain ⟨h1, a, s, h2, h3⟩ := h
  obtain ⟨r', p, b1, b2⟩ := hb
  have hs := b1 a s h2
  subst hs
  refine ⟨(by rw [h2]; exact fun e => nomatch e), s, ?_, (fun a' s' e => ?_), (fun s' e => by rw [h2] at e; cases e)⟩
  · have hl := hQ _ _ h3
    clear b1 b2 h2 h3
    generalize (x r).trace = l at h1 p
    induction p with
    | nil => exact .nil _
    | @cons r0 r1 s0 l0 hst hp ih =>
      refine .cons ?_ (ih hl (fun t ht => h1 t (by simp [ht])))
      cases hp with
      | nil => exact hl
      | cons _ _ => exact h1 _ (by simp)
  · rw [h2] at e; cases e; exact ⟨rfl, h3⟩

end Pc

/-- A farm ring of `N` bytes and `K` slots in which the messages `L` have become visible, those before `g` being gone. -/
structure FarmR (N K : Nat) (r : Ring) (L : List Msg) (g : Nat) : Prop where
  geo : ∃ O E, FG r L g O E
  typed : Typed r
  n : r.n = N
  mm : r.mm = K
  farm : r.gflags.has SHR_FARM = true
  q : r.q = g
  mp : r.mp = L.length - g
  e : r.e = g % r.mm
  lw : L.length < W
  r : r.r < r.mm

theorem FG.mm_lt {r : Ring} {L : List Msg} {g : Nat} {O : Nat → Nat} {E : Nat} (h : FG r L g O E) : r.mm < W := by
  have := h.mmbd; rw [SSIZE_MAX_val] at this; rw [W_val]; omega

/-- Changes a reader of a farm does not look at. -/
theorem FarmR.congr {N K : Nat} {r s : Ring} {L : List Msg} {g : Nat} (h : FarmR N K r L g)
    (hs : s = { r with r := s.r, u := s.u, m := s.m, stat := s.stat }) (hr : s.r < r.mm) : FarmR N K s L g := by
  obtain ⟨⟨O, E, hg⟩, h8, h9, h10, h2, h3, h4, h5, h6, h7⟩ := h
  have hmm := hg.mm_lt
  rw [hs]
  refine ⟨⟨O, E, hg.congr rfl rfl rfl rfl rfl⟩, ⟨h8.i, ?_, h8.e, h8.mp, h8.d, h8.app⟩, h9, h10, h2, h3, h4, h5, h6, hr⟩
  show s.r < W; omega

theorem FarmR.gle {N K : Nat} {r : Ring} {L : List Msg} {g : Nat} (h : FarmR N K r L g) : g ≤ L.length := by
  obtain ⟨O, E, hg⟩ := h.geo; exact hg.gle

/-- A store of a writer: unless it moves the eldest position, the ring is a farm ring with the messages `L ++ X`, for one of `Xs`,
none of them back that were gone before. -/
def Calm (N K : Nat) (L : List Msg) (g : Nat) (Xs : List (List Msg)) (a b : Ring) : Prop :=
  a.e = b.e → a.q = b.q → ∃ X ∈ Xs, ∃ g', g ≤ g' ∧ FarmR N K b (L ++ X) g'

theorem FG.congrO {r : Ring} {L : List Msg} {g : Nat} {O O' : Nat → Nat} {E : Nat} (h : FG r L g O E) (he : ∀ j, j < L.length → O j = O' j) :
    FG r L g O' E := by
  refine ⟨h.npos, h.nbd, h.mmpos, h.mmbd, h.dlen, h.mvlen, h.i, h.gle, h.cnt, h.ne, ?_, ?_, ?_, ?_⟩
  · intro j b g1 e; rw [← he j (getElem?_lt e)]; exact h.held j b g1 e
  · intro j b g1 e; rw [← he j (getElem?_lt e)]; exact h.below j b g1 e
  · intro j g1 e; rw [← he j e]; exact h.room j g1 e
  · intro j k g1 g2 g3; rw [← he j (by omega), ← he k g3]; exact h.mono j k g1 g2 g3

theorem copyLoop_fg : ∀ {iov : List Msg} {r : Ring} {L : List Msg} {g : Nat} {O : Nat → Nat} {E : Nat}, FG r L g O E → bytesOf iov ≤ r.n →
    L.length + iov.length ≤ g + r.mm → (∀ j, g ≤ j → j < L.length → E + bytesOf iov ≤ O j + r.n) → Typed r →
    Pc (copyLoop iov (L.length % r.mm)) r (fun _ s => (∃ E', FG s L g O E') ∧ Frame r s)
      (fun _ s => (∃ O' E', FG s (L ++ iov) g O' E') ∧ Frame r s ∧ Typed s) := by
  intro iov
  induction iov with
  | nil => intro r L g O E h _ _ _ t; exact Pc.pure ⟨⟨O, E, by simpa using h⟩, Frame.refl r, t⟩
  | cons b bs ih =>
    intro r L g O E h hb hc hr t
    simp only [bytesOf_cons, List.length_cons] at hb hc hr
    have nbd := h.nbd
    rw [SSIZE_MAX_val] at nbd
    unfold copyLoop
    by_cases hbe : b = []
    · -- the assertion fails
      have e : ∀ p, copyOne b p r = ⟨[], .abort r⟩ := by
        intro p; unfold copyOne; rw [M.bind_apply]; subst hbe; rfl
      refine Pc.bind (Q := fun _ _ => False) ⟨(by rw [e]; exact fun x => nomatch x), r, ?_, ?_, ?_⟩ (fun _ _ hf => hf.elim)
      · rw [e]; exact .nil _
      · intro a s h; rw [e] at h; cases h
      · intro s h; rw [e] at h; cases h; rfl
    have h1 := copyOne_fg h hbe (by omega) (by omega) (fun j g1 g2 => by have := hr j g1 g2; omega)
    have h2 := Pc.of_ok (P := fun s => (∃ E', FG s L g O E') ∧ Frame r s) (h1.mono (fun s hs => ⟨⟨E, hs.1⟩, hs.2⟩) (fun _ _ h => h))
      (fun p s hs => ⟨⟨_, (hs.2.1.left h.gle).congrO fun j hj => upd_other _ _ (by omega)⟩, hs.2.2⟩) (copyOne_bs _ t (by rw [W_val]; omega))
    refine Pc.bind (Q := fun p s => (p = (L.length + 1) % r.mm ∧ FG s (L ++ [b]) g (upd O L.length E) (E + b.length) ∧ Frame r s) ∧ Typed s) ?_ ?_
    · have hbs := copyOne_bs (L.length % r.mm) t (b := b) (by rw [W_val]; omega)
      obtain ⟨a0, r', a1, a2, a3⟩ := h2
      obtain ⟨r2, p2, b1, _⟩ := hbs
      exact ⟨a0, r', a1, fun p s e => ⟨(a2 p s e).1, (a2 p s e).2, by rw [b1 p s e]; exact p2.typed t⟩, a3⟩
    · rintro p s ⟨⟨rfl, hs, hf⟩, ts⟩
      have hll : (L ++ [b]).length = L.length + 1 := by simp
      have := ih (r := s) (L := L ++ [b]) hs (by rw [hf.n]; omega) (by rw [hf.mm, hll]; omega) (by
        intro j g1 g2
        rw [hll] at g2
        rw [hf.n]
        unfold upd
        split
        · omega
        · have := hr j g1 (by omega); omega) ts
      rw [hf.mm, hll] at this
      refine this.mono ?_ ?_
      · rintro x y ⟨⟨E', hE⟩, hfr⟩
        exact ⟨⟨E', (hE.left (M := [b]) h.gle).congrO fun j hj => upd_other _ _ (by omega)⟩, hf.trans hfr⟩
      · rintro _ y ⟨⟨O', E', hE⟩, hfr, ty⟩
        exact ⟨⟨O', E', by rw [List.append_assoc] at hE; exact hE⟩, hf.trans hfr, ty⟩

theorem writevCommit_farm {N K : Nat} {r : Ring} {L : List Msg} {g : Nat} {new : List Msg} (h : FarmR N K r L g) (hb : bytesOf new ≤ N)
    (hc : new.length ≤ K) (hw : (L ++ new).length < W) :
    Pc (writevCommit K new (bytesOf new)) r (Calm N K L g [[], new]) (fun _ s => ∃ g', g ≤ g' ∧ g' ≤ L.length ∧ FarmR N K s (L ++ new) g') := by
  obtain ⟨⟨O, E, hg⟩, t, hn, hm, hf, hq, hmp, he, hl, hr⟩ := h
  subst hn; subst hm
  have hgle := hg.gle
  have nbd := hg.nbd; have mmbd := hg.mmbd; have mmpos := hg.mmpos
  rw [SSIZE_MAX_val] at nbd mmbd
  simp only [List.length_append] at hw
  obtain ⟨k, hk, hel, hroom⟩ := eldestLoop_fg (len := bytesOf new) (niov := new.length) (L.length - g) g 0 hg (by omega) (by omega)
  have hcnt := hg.cnt
  unfold writevCommit
  apply Pc.get_bind
  refine Pc.assert_bind fun _ => Pc.assert_bind fun _ => Pc.assert_bind fun _ => ?_
  rw [hmp, he]
  refine Pc.lift_bind (by rw [hel]; exact fun x => nomatch x) ?_
  intro x hx
  rw [hel] at hx
  cases hx
  dsimp only
  have hqk : wadd r.q (0 + k) = g + k := by rw [hq, wadd_eq (by omega)]; omega
  have ek : (g + k) % r.mm < W := by have := Nat.mod_lt (g + k) mmpos; rw [W_val]; omega
  have base : FarmR r.n r.mm r L g := ⟨⟨O, E, hg⟩, t, rfl, rfl, hf, hq, hmp, he, hl, hr⟩
  refine Pc.store_bind ?_ ?_
  · intro e1 e2
    refine ⟨[], by simp, g, Nat.le_refl _, ?_⟩
    dsimp only at e1
    rw [← e1, List.append_nil]
    exact base
  have t1 : Typed { r with e := (g + k) % r.mm } := ⟨t.i, t.r, ek, t.mp, t.d, t.app⟩
  refine Pc.store_bind ?_ ?_
  · intro e1 e2
    dsimp only at e2
    rw [hqk] at e2
    have k0 : k = 0 := by omega
    subst k0
    refine ⟨[], by simp, g, Nat.le_refl _, ?_⟩
    rw [List.append_nil]
    exact ⟨⟨O, E, hg.congr rfl rfl rfl rfl rfl⟩, ⟨t.i, t.r, ek, t.mp, t.d, t.app⟩, rfl, rfl, hf, by dsimp only; rw [hqk, Nat.add_zero], hmp, rfl, hl, hr⟩
  have hg1 : FG { r with e := (g + k) % r.mm, q := wadd r.q (0 + k), mp := L.length - g - k } L (g + k) O E :=
    (hg.evict (by omega)).congr rfl rfl rfl rfl rfl
  have t2 : Typed { r with e := (g + k) % r.mm, q := wadd r.q (0 + k), mp := L.length - g - k } :=
    ⟨t.i, t.r, ek, (by dsimp only; omega), t.d, t.app⟩
  -- states with the eldest messages gone
  have mid : ∀ s E', Frame { r with e := (g + k) % r.mm, q := wadd r.q (0 + k), mp := L.length - g - k } s → FG s L (g + k) O E' →
      FarmR r.n r.mm s L (g + k) := by
    intro s E' hfr hs
    have hi : s.i < W := by
      rw [hs.i, hfr.n]; have := Nat.mod_lt E' hg.npos; rw [W_val]; dsimp only; omega
    rw [hfr] at hs hi ⊢
    refine ⟨⟨O, E', hs⟩, ⟨hi, t.r, ek, (by dsimp only; omega), hs.dlen, t.app⟩, rfl, rfl, hf, hqk, ?_, rfl, hl, hr⟩
    dsimp only; omega
  refine Pc.store_bind ?_ ?_
  · intro _ _
    exact ⟨[], by simp, g + k, by omega, by rw [List.append_nil]; exact mid _ E rfl hg1⟩
  apply Pc.get_bind
  dsimp only
  rw [if_neg (by omega)]
  apply Pc.pure_bind
  have hslot : wadd ((g + k) % r.mm) (L.length - g - k) % r.mm = L.length % r.mm := by
    have := Nat.mod_lt (g + k) mmpos
    rw [wadd_eq (by rw [W_val]; omega), mod_add_mod_left]
    congr 1; omega
  rw [hslot]
  have hcl := copyLoop_fg (iov := new) hg1 hb (by dsimp only; rcases hroom with h | ⟨_, h⟩ <;> omega) (by
    intro j g1 g2
    dsimp only
    rcases hroom with h | ⟨h, _⟩
    · omega
    · have := hg.mono (g + k) j (by omega) g1 g2; omega) t2
  refine Pc.bind (hcl.mono ?_ (fun _ _ h => h)) ?_
  · rintro a s ⟨⟨E', hs⟩, hfr⟩ _ _
    exact ⟨[], by simp, g + k, by omega, by rw [List.append_nil]; exact mid s E' hfr hs⟩
  rintro _ s ⟨⟨O', E', hs⟩, hfr, ts⟩
  have smp : s.mp = L.length - g - k := by rw [hfr]
  have sq : s.q = g + k := by rw [hfr]; exact hqk
  have se : s.e = (g + k) % r.mm := by rw [hfr]
  have sr : s.r = r.r := by rw [hfr]
  have sn : s.n = r.n := by rw [hfr]
  have smm : s.mm = r.mm := by rw [hfr]
  have sgf : s.gflags = r.gflags := by rw [hfr]
  have hsl := hs.left (by omega : g + k ≤ L.length)
  refine Pc.store_bind ?_ ?_
  · intro _ _
    refine ⟨[], by simp, g + k, by omega, ?_⟩
    rw [List.append_nil]
    exact ⟨⟨O', E', hsl.congr rfl rfl rfl rfl rfl⟩, ⟨ts.i, ts.r, ts.e, ts.mp, ts.d, ts.app⟩, sn, smm, by dsimp only; rw [sgf]; exact hf, sq,
      by dsimp only; omega, by dsimp only; rw [se, smm], hl, by dsimp only; rw [sr, smm]; exact hr⟩
  have hmp2 : wadd s.mp new.length = (L ++ new).length - (g + k) := by
    rw [smp, wadd_eq (by omega)]; simp; omega
  have fin : ∀ u m, FarmR r.n r.mm { s with u := u, mp := wadd s.mp new.length, m := m } (L ++ new) (g + k) := by
    intro u m
    exact ⟨⟨O', E', hs.congr rfl rfl rfl rfl rfl⟩, ⟨ts.i, ts.r, ts.e, wadd_lt _ _, ts.d, ts.app⟩, sn, smm, by dsimp only; rw [sgf]; exact hf, sq,
      hmp2, by dsimp only; rw [se, smm], by simp; omega, by dsimp only; rw [sr, smm]; exact hr⟩
  refine Pc.store_bind ?_ ?_
  · intro _ _
    exact ⟨new, by simp, g + k, by omega, fin _ _⟩
  refine Pc.store ?_ ?_
  · intro _ _
    exact ⟨new, by simp, g + k, by omega, fin _ _⟩
  · exact ⟨g + k, by omega, by omega, fin _ _⟩

theorem dropLoop_pc {mv : List Slot} {smm am ab niov need : Nat} (hl : mv.length = smm) (hs : smm < W) : ∀ (fuel i z p : Nat), p < smm →
    dropLoop mv smm am ab niov need fuel i z p ≠ .error .ub ∧
    ∀ x, dropLoop mv smm am ab niov need fuel i z p = .ok x → x.2.2 < smm := by
  intro fuel
  induction fuel with
  | zero => intro i z p _; unfold dropLoop; exact ⟨(fun x => nomatch x), (fun x e => nomatch e)⟩
  | succ fuel ih =>
    intro i z p hp
    unfold dropLoop
    split
    · obtain ⟨s, e⟩ : ∃ s, mv[p]? = some s := ⟨_, List.getElem?_eq_getElem (by omega)⟩
      rw [e]
      dsimp only
      refine ih _ _ _ ?_
      rw [wadd_eq (by rw [W_val] at *; omega)]
      split <;> omega
    · exact ⟨(fun x => nomatch x), (fun x e => by cases e; exact hp)⟩

theorem drop_unread_farm {N K : Nat} {r : Ring} {L : List Msg} {g : Nat} (h : FarmR N K r L g) (need niov : Nat) :
    Pc (drop_unread K need niov) r (Calm N K L g [[]]) (fun _ s => FarmR N K s L g) := by
  obtain ⟨O, E, hg⟩ := h.geo
  have hm := h.mm
  subst hm
  have same : ∀ {a s : Ring}, s = { r with r := s.r, u := s.u, m := s.m, stat := s.stat } → s.r < r.mm → Calm N r.mm L g [[]] a s :=
    fun hs hr _ _ => ⟨[], by simp, g, Nat.le_refl _, by rw [List.append_nil]; exact h.congr hs hr⟩
  unfold drop_unread
  apply Pc.get_bind
  refine Pc.assert_bind fun _ => Pc.assert_bind fun _ => Pc.assert_bind fun _ => Pc.assert_bind fun _ => Pc.assert_bind fun _ => ?_
  have hd := dropLoop_pc (am := wsub r.mm r.m) (ab := wsub r.n r.u) (niov := niov) (need := need) hg.mvlen hg.mm_lt (W * W * (r.mm + 1)) 0 0 r.r h.r
  refine Pc.lift_bind hd.1 ?_
  intro x hx
  have hx' := hd.2 x hx
  refine Pc.store_bind (same rfl hx') ?_
  refine Pc.store_bind (same rfl hx') ?_
  refine Pc.store_bind (same rfl hx') ?_
  refine Pc.store_bind (same rfl hx') ?_
  refine Pc.store_bind (same rfl hx') ?_
  apply Pc.get_bind
  refine Pc.assert_bind fun _ => Pc.assert fun _ => ?_
  exact h.congr rfl hx'

end Shr
