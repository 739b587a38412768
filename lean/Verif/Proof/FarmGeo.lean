import Verif.Proof.RefineR
import Verif.Proof.Stores
/-!
# The geometry of a farm ring some of whose writers were killed

A writer that is killed while it copies a batch has moved the write position past bytes that belong to no
message.  So the messages of the ring need not be adjacent any more.  `FG r L g O E`: of the list `L` of all
messages ever made visible those from number `g` on are in the ring, number `j` in slot `j` modulo the number
of slots and at offset `O j` modulo the ring size; the next write goes to offset `E`.  Offsets are counted
without wrapping around, so they increase; everything lies within one ring size below `E`.
-/
namespace Shr

/-- Slot number `j` describes the message `b`, whose bytes are at offset `o`. -/
structure Held (r : Ring) (j o : Nat) (b : Msg) : Prop where
  slot : r.mv[j % r.mm]? = some ⟨o % r.n, b.length⟩
  data : ∀ t x, b[t]? = some x → r.d[(o + t) % r.n]? = some x

structure FG (r : Ring) (L : List Msg) (g : Nat) (O : Nat → Nat) (E : Nat) : Prop where
  npos : 0 < r.n
  nbd : r.n ≤ SSIZE_MAX
  mmpos : 0 < r.mm
  mmbd : r.mm ≤ SSIZE_MAX
  dlen : r.d.length = r.n
  mvlen : r.mv.length = r.mm
  i : r.i = E % r.n
  gle : g ≤ L.length
  cnt : L.length ≤ g + r.mm
  ne : ∀ j b, g ≤ j → L[j]? = some b → b ≠ []
  held : ∀ j b, g ≤ j → L[j]? = some b → Held r j (O j) b
  below : ∀ j b, g ≤ j → L[j]? = some b → O j + b.length ≤ E
  room : ∀ j, g ≤ j → j < L.length → E ≤ O j + r.n
  mono : ∀ j k, g ≤ j → j ≤ k → k < L.length → O j ≤ O k

theorem FG.congr {r s : Ring} {L : List Msg} {g : Nat} {O : Nat → Nat} {E : Nat} (h : FG r L g O E) (hn : s.n = r.n) (hmm : s.mm = r.mm)
    (hd : s.d = r.d) (hmv : s.mv = r.mv) (hi : s.i = r.i) : FG s L g O E := by
  obtain ⟨a1, a2, a3, a4, a5, a6, a7, a8, a9, a10, a11, a12, a13, a14⟩ := h
  refine ⟨hn ▸ a1, hn ▸ a2, hmm ▸ a3, hmm ▸ a4, by rw [hd, hn]; exact a5, by rw [hmv, hmm]; exact a6, by rw [hi, hn]; exact a7, a8,
    by rw [hmm]; exact a9, a10, fun j b h1 h2 => ?_, a12, by rw [hn]; exact a13, a14⟩
  obtain ⟨b1, b2⟩ := a11 j b h1 h2
  exact ⟨by rw [hmv, hmm, hn]; exact b1, by rw [hd, hn]; exact b2⟩

/-- Forgetting the eldest messages. -/
theorem FG.evict {r : Ring} {L : List Msg} {g : Nat} {O : Nat → Nat} {E : Nat} (h : FG r L g O E) {k : Nat} (hk : g + k ≤ L.length) :
    FG r L (g + k) O E :=
  ⟨h.npos, h.nbd, h.mmpos, h.mmbd, h.dlen, h.mvlen, h.i, hk, by have := h.cnt; omega, fun j b h1 => h.ne j b (by omega),
    fun j b h1 => h.held j b (by omega), fun j b h1 => h.below j b (by omega), fun j h1 => h.room j (by omega),
    fun j k h1 => h.mono j k (by omega)⟩

theorem lt_of_getElem? {α : Type} {l : List α} {j : Nat} {a : α} (h : l[j]? = some a) : j < l.length := getElem?_lt h

/-- Messages that are in the ring already but not yet visible. -/
theorem FG.left {r : Ring} {L M : List Msg} {g : Nat} {O : Nat → Nat} {E : Nat} (h : FG r (L ++ M) g O E) (hg : g ≤ L.length) : FG r L g O E := by
  have ap : ∀ {j : Nat} {b : Msg}, L[j]? = some b → (L ++ M)[j]? = some b := fun e => by
    rw [List.getElem?_append_left (getElem?_lt e)]; exact e
  have hc := h.cnt
  simp only [List.length_append] at hc
  exact ⟨h.npos, h.nbd, h.mmpos, h.mmbd, h.dlen, h.mvlen, h.i, hg, by omega, fun j b h1 h2 => h.ne j b h1 (ap h2),
    fun j b h1 h2 => h.held j b h1 (ap h2), fun j b h1 h2 => h.below j b h1 (ap h2), fun j h1 h2 => h.room j h1 (by simp; omega),
    fun j k h1 h2 h3 => h.mono j k h1 h2 (by simp; omega)⟩

/-- How far the write position is from an older message. -/
theorem gap_eq {n E o : Nat} (hn : 0 < n) (h1 : o < E) (h2 : E ≤ o + n) :
    (E % n > o % n → n - E % n + o % n = o + n - E) ∧ (¬ E % n > o % n → o % n - E % n = o + n - E) := by
  have a := Nat.div_add_mod E n
  have b := Nat.div_add_mod o n
  have c := Nat.mod_lt E hn
  have d := Nat.mod_lt o hn
  have hq : E / n = o / n ∨ E / n = o / n + 1 := by
    have q1 : o / n ≤ E / n := Nat.div_le_div_right (by omega)
    have q2 : E / n ≤ (o + n) / n := Nat.div_le_div_right h2
    rw [Nat.add_div_right _ hn] at q2
    omega
  rcases hq with hq | hq
  · rw [hq] at a
    constructor <;> intro h <;> omega
  · rw [hq, Nat.mul_add, Nat.mul_one] at a
    constructor <;> intro h <;> omega

theorem eldestLoop_fg {r : Ring} {L : List Msg} {O : Nat → Nat} {E len niov : Nat} : ∀ (mp g a : Nat), FG r L g O E → L.length = g + mp →
    a + mp < W → ∃ k, k ≤ mp ∧ eldestLoop r.mv r.n r.i r.mm len niov mp (g % r.mm) a = .ok ((g + k) % r.mm, a + k, mp - k) ∧
      (k = mp ∨ (E + len ≤ O (g + k) + r.n ∧ mp - k + niov ≤ r.mm)) := by
  intro mp
  induction mp with
  | zero => intro g a _ _ _; exact ⟨0, by simp, by simp [eldestLoop], .inl rfl⟩
  | succ mp ih =>
    intro g a h hL ha
    have nbd := h.nbd; have mmbd := h.mmbd; have npos := h.npos; have mmpos := h.mmpos
    rw [SSIZE_MAX_val] at nbd mmbd
    have hlt : g < L.length := by omega
    obtain ⟨b, hb⟩ : ∃ b, L[g]? = some b := ⟨_, List.getElem?_eq_getElem hlt⟩
    have hs := (h.held g b (Nat.le_refl _) hb).slot
    have hbl := h.below g b (Nat.le_refl _) hb
    have hrm := h.room g (Nat.le_refl _) hlt
    have hbp := List.length_pos_iff.mpr (h.ne g b (Nat.le_refl _) hb)
    obtain ⟨g1, g2⟩ := gap_eq (n := r.n) (E := E) (o := O g) npos (by omega) hrm
    have hml := Nat.mod_lt E npos
    have hol := Nat.mod_lt (O g) npos
    have hcnt := h.cnt
    unfold eldestLoop
    rw [hs]
    dsimp only
    rw [h.i]
    have hgap : (if E % r.n > O g % r.n then wadd (wsub r.n (E % r.n)) (O g % r.n) else wsub (O g % r.n) (E % r.n)) = O g + r.n - E := by
      split
      · rename_i hc
        rw [wsub_eq (by omega) (by rw [W_val]; omega), wadd_eq (by rw [W_val]; omega)]
        exact g1 hc
      · rename_i hc
        rw [wsub_eq (by omega) (by rw [W_val]; omega)]
        exact g2 hc
    rw [hgap, wsub_eq (by omega) (by rw [W_val]; omega)]
    by_cases hf : len ≤ O g + r.n - E ∧ r.mm - (mp + 1) ≥ niov
    · rw [if_pos hf]
      refine ⟨0, by omega, by simp, .inr ⟨?_, ?_⟩⟩
      · rw [Nat.add_zero]; omega
      · omega
    · rw [if_neg hf]
      have hgl := Nat.mod_lt g mmpos
      obtain ⟨k, h1, h2, h3⟩ := ih (g + 1) (a + 1) (h.evict (by omega)) (by omega) (by omega)
      rw [wadd_eq (a := g % r.mm) (by rw [W_val]; omega), wadd_eq (a := a) (by omega), succ_mod hgl, mod_add_mod_left, ← h.i, h2]
      refine ⟨k + 1, by omega, ?_, ?_⟩
      · congr 2
        · congr 1; omega
        · congr 1 <;> omega
      · rcases h3 with h3 | ⟨h3, h4⟩
        · exact .inl (by omega)
        · refine .inr ⟨?_, by omega⟩
          rw [show g + (k + 1) = g + 1 + k by omega]; exact h3

/-- What storing one message at the write position can change: the bytes it occupies and its slot. -/
structure Outside (r : Ring) (p len : Nat) (s : Ring) : Prop where
  frame : Frame r s
  d : s.d.length = r.d.length
  mv : s.mv.length = r.mv.length
  i : s.i = r.i ∨ s.i = (r.i + len) % r.n
  od : ∀ x, (∀ t, t < len → x ≠ (r.i + t) % r.n) → s.d[x]? = r.d[x]?
  om : ∀ x, x ≠ p → s.mv[x]? = r.mv[x]?

theorem copyOne_outside {r : Ring} {b : Msg} {p : Nat} (hb : b ≠ []) (hbn : b.length ≤ r.n) (hi : r.i < r.n) (hp : p < r.mm) (nbd : r.n ≤ SSIZE_MAX)
    (dlen : r.d.length = r.n) (mvlen : r.mv.length = r.mm) :
    Ok (copyOne b p) r (fun s => Outside r p b.length s ∧ s.i = r.i) (fun _ s => Outside r p b.length s ∧ s.i = (r.i + b.length) % r.n) := by
  have hblen : 0 < b.length := List.length_pos_iff.mpr hb
  have nbd' := nbd
  rw [SSIZE_MAX_val] at nbd'
  have hsum : wadd r.i b.length = r.i + b.length := wadd_eq (by rw [W_val]; omega)
  have part : ∀ (d : List Byte) (mv : List Slot), d.length = r.d.length → mv.length = r.mv.length →
      (∀ x, (∀ t, t < b.length → x ≠ (r.i + t) % r.n) → d[x]? = r.d[x]?) → (∀ x, x ≠ p → mv[x]? = r.mv[x]?) →
      Outside r p b.length { r with d := d, mv := mv } ∧ ({ r with d := d, mv := mv } : Ring).i = r.i :=
    fun d mv h1 h2 h3 h4 => ⟨⟨rfl, h1, h2, .inl rfl, h3, h4⟩, rfl⟩
  let mv1 := r.mv.modify p fun s => { s with pos := r.i }
  let mv2 := mv1.modify p fun s => { s with len := b.length }
  have hmv1l : mv1.length = r.mv.length := by simp [mv1]
  have hmv2l : mv2.length = r.mv.length := by simp [mv2, hmv1l]
  have hmv1 : ∀ x, x ≠ p → mv1[x]? = r.mv[x]? := fun x hx => List.modify_getElem?_ne _ _ (Ne.symm hx)
  have hmv2 : ∀ x, x ≠ p → mv2[x]? = r.mv[x]? := fun x hx => by
    rw [← hmv1 x hx]; exact List.modify_getElem?_ne _ _ (Ne.symm hx)
  have fin : ∀ d : List Byte, d.length = r.d.length → (∀ x, (∀ t, t < b.length → x ≠ (r.i + t) % r.n) → d[x]? = r.d[x]?) →
      Outside r p b.length { r with d := d, mv := mv2, i := (r.i + b.length) % r.n } :=
    fun d h1 h2 => ⟨rfl, h1, hmv2l, .inr rfl, h2, hmv2⟩
  unfold copyOne
  apply Ok.assert_bind (decide_eq_true hblen)
  apply Ok.get_bind
  rw [mvlen, if_pos hp]
  refine Ok.store_bind ⟨⟨Frame.refl r, rfl, rfl, .inl rfl, fun _ _ => rfl, fun _ _ => rfl⟩, rfl⟩ ?_
  refine Ok.store_bind ?_ ?_
  · exact part r.d mv1 rfl hmv1l (fun _ _ => rfl) hmv1
  apply Ok.get_bind
  show Ok _ { r with mv := mv2 } _ _
  dsimp only
  simp only [hsum]
  by_cases hw : r.i + b.length > r.n
  · have hl1 : wsub r.n r.i = r.n - r.i := wsub_eq (by omega) (by rw [W_val]; omega)
    have hl2 : wsub b.length (r.n - r.i) = b.length - (r.n - r.i) := wsub_eq (by omega) (by rw [W_val]; omega)
    simp only [if_pos hw, hl1, hl2]
    rw [if_pos (by omega)]
    generalize hk : r.n - r.i = k
    have hput1 : ∀ src : List Byte, src.length ≤ k → ∀ x, (∀ t, t < b.length → x ≠ (r.i + t) % r.n) →
        (put r.d r.i src)[x]? = r.d[x]? := by
      intro src hs x hx
      refine put_getElem?_out (by omega) ?_
      rcases Nat.lt_or_ge x r.i with h1 | h1
      · exact .inl h1
      rcases Nat.lt_or_ge x (r.i + src.length) with h2 | h2
      · exfalso
        have := hx (x - r.i) (by omega)
        rw [Nat.mod_eq_of_lt (by omega)] at this
        omega
      · exact .inr h2
    have hput1l : ∀ src : List Byte, src.length ≤ k → (put r.d r.i src).length = r.d.length := fun src hs => put_length (by omega)
    have htk : ∀ j, ((b.take k).take j).length ≤ k := by intro j; simp; omega
    have htk' : (b.take k).length = k := by simp; omega
    apply memcpy_bind
    · simp [dlen]; omega
    · intro j hj
      exact part _ mv2 (hput1l _ (htk j)) hmv2l (hput1 _ (htk j)) hmv2
    · rw [if_pos (by omega)]
      have hsrc : (b.drop k).take (b.length - k) = b.drop k := by rw [List.take_of_length_le (by simp)]
      rw [hsrc]
      generalize hd1 : put r.d r.i (b.take k) = d1
      have hd1l : d1.length = r.d.length := by rw [← hd1, hput1l _ (by omega)]
      have hput2 : ∀ src : List Byte, src.length ≤ b.length - k → ∀ x, (∀ t, t < b.length → x ≠ (r.i + t) % r.n) →
          (put d1 0 src)[x]? = r.d[x]? := by
        intro src hs x hx
        rw [put_getElem?_out (by omega) ?_, ← hd1]
        · exact hput1 _ (by omega) x hx
        · rcases Nat.lt_or_ge x src.length with h1 | h1
          · exfalso
            have := hx (x + k) (by omega)
            rw [show r.i + (x + k) = x + r.n by omega, Nat.add_mod_right, Nat.mod_eq_of_lt (by omega)] at this
            exact this rfl
          · exact .inr (by omega)
      have hdl : (b.drop k).length = b.length - k := by simp
      apply memcpy_bind
      · simp; omega
      · intro j hj
        have : ((b.drop k).take j).length ≤ b.length - k := by simp; omega
        exact part _ mv2 (by dsimp only; rw [put_length (by omega), hd1l]) hmv2l (hput2 _ this) hmv2
      · rw [if_neg (by omega)]
        have hfl : (put d1 0 (b.drop k)).length = r.d.length := by rw [put_length (by omega), hd1l]
        refine Ok.store_bind (part _ mv2 hfl hmv2l (hput2 _ (by omega)) hmv2) ?_
        apply Ok.get_bind
        apply Ok.pure
        dsimp only
        rw [hsum]
        exact ⟨fin _ hfl (hput2 _ (by omega)), rfl⟩
  · have hwn : r.i + b.length ≤ r.n := by omega
    simp only [if_neg hw]
    rw [if_pos (Nat.le_refl _), List.take_length]
    have hput1 : ∀ src : List Byte, src.length ≤ b.length → ∀ x, (∀ t, t < b.length → x ≠ (r.i + t) % r.n) →
        (put r.d r.i src)[x]? = r.d[x]? := by
      intro src hs x hx
      refine put_getElem?_out (by omega) ?_
      rcases Nat.lt_or_ge x r.i with h1 | h1
      · exact .inl h1
      rcases Nat.lt_or_ge x (r.i + src.length) with h2 | h2
      · exfalso
        have := hx (x - r.i) (by omega)
        rw [Nat.mod_eq_of_lt (by omega)] at this
        omega
      · exact .inr h2
    have hput1l : ∀ src : List Byte, src.length ≤ b.length → (put r.d r.i src).length = r.d.length := fun src hs => put_length (by omega)
    apply memcpy_bind
    · simp [dlen]; omega
    · intro j hj
      have : (b.take j).length ≤ b.length := by simp; omega
      exact part _ mv2 (hput1l _ this) hmv2l (hput1 _ this) hmv2
    · rw [if_neg (by simp), if_neg (by omega)]
      refine Ok.store_bind (part _ mv2 (hput1l _ (Nat.le_refl _)) hmv2l (hput1 _ (Nat.le_refl _)) hmv2) ?_
      apply Ok.get_bind
      apply Ok.pure
      dsimp only
      rw [hsum]
      exact ⟨fin _ (hput1l _ (Nat.le_refl _)) (hput1 _ (Nat.le_refl _)), rfl⟩

theorem mod_ne {n x y : Nat} (h1 : x < y) (h2 : y < x + n) : x % n ≠ y % n := by
  intro e
  have a := Nat.div_add_mod x n
  have b := Nat.div_add_mod y n
  rw [← e] at b
  have q1 : x / n ≤ y / n := Nat.div_le_div_right (by omega)
  obtain ⟨t, ht⟩ : ∃ t, y / n = x / n + t := ⟨y / n - x / n, by omega⟩
  rw [ht, Nat.mul_add] at b
  cases t with
  | zero => omega
  | succ t =>
    rw [Nat.mul_add] at b
    have := Nat.zero_le (n * t)
    omega

theorem FG.outside {r s : Ring} {L : List Msg} {g : Nat} {O : Nat → Nat} {E len : Nat} (h : FG r L g O E) (ho : Outside r (L.length % r.mm) len s)
    (hc : L.length < g + r.mm) (hr : ∀ j, g ≤ j → j < L.length → E + len ≤ O j + r.n) :
    (s.i = r.i → FG s L g O E) ∧ (s.i = (r.i + len) % r.n → FG s L g O (E + len)) := by
  have hn := ho.frame.n; have hm := ho.frame.mm
  have hheld : ∀ j b, g ≤ j → L[j]? = some b → Held s j (O j) b := by
    intro j b h1 h2
    obtain ⟨a1, a2⟩ := h.held j b h1 h2
    have hj := getElem?_lt h2
    refine ⟨?_, ?_⟩
    · rw [hm, hn, ho.om _ (mod_ne hj (by omega))]; exact a1
    · intro t x ht
      have htl := getElem?_lt ht
      rw [hn, ho.od, a2 t x ht]
      intro t' ht'
      rw [h.i, mod_add_mod_left]
      have := h.below j b h1 h2
      have := hr j h1 hj
      exact mod_ne (by omega) (by omega)
  have base : ∀ E', s.i = E' % r.n → E ≤ E' → (∀ j, g ≤ j → j < L.length → E' ≤ O j + r.n) → FG s L g O E' := fun E' hi hE hr' =>
    ⟨by rw [hn]; exact h.npos, by rw [hn]; exact h.nbd, by rw [hm]; exact h.mmpos, by rw [hm]; exact h.mmbd, by rw [ho.d, hn]; exact h.dlen,
      by rw [ho.mv, hm]; exact h.mvlen, by rw [hn]; exact hi, h.gle, by rw [hm]; exact h.cnt, h.ne, hheld,
      fun j b h1 h2 => by have := h.below j b h1 h2; omega, by rw [hn]; exact hr', h.mono⟩
  refine ⟨fun hi => base E (by rw [hi]; exact h.i) (Nat.le_refl _) (fun j h1 h2 => h.room j h1 h2), fun hi => base (E + len) ?_ (by omega) hr⟩
  rw [hi, h.i, mod_add_mod_left]

theorem copyOne_fg {r : Ring} {L : List Msg} {g : Nat} {O : Nat → Nat} {E : Nat} {b : Msg} (h : FG r L g O E) (hb : b ≠ []) (hbn : b.length ≤ r.n)
    (hc : L.length < g + r.mm) (hr : ∀ j, g ≤ j → j < L.length → E + b.length ≤ O j + r.n) :
    Ok (copyOne b (L.length % r.mm)) r (fun s => FG s L g O E ∧ Frame r s)
      (fun p s => p = (L.length + 1) % r.mm ∧ FG s (L ++ [b]) g (upd O L.length E) (E + b.length) ∧ Frame r s) := by
  have hi : r.i < r.n := by rw [h.i]; exact Nat.mod_lt _ h.npos
  have hG : GeoAt r L.length r.i [] :=
    ⟨⟨h.npos, h.nbd, h.mmpos, h.mmbd, h.dlen, h.mvlen, by simp, by simp, by simp, hi, by simp, by simp⟩, by simp [Nat.mod_eq_of_lt hi]⟩
  have h1 := copyOne_spec hG hb (by simpa using hbn) (by have := h.mmpos; simp; omega)
  have h2 := copyOne_outside (p := L.length % r.mm) hb hbn hi (Nat.mod_lt _ h.mmpos) h.nbd h.dlen h.mvlen
  refine (h1.and h2).mono ?_ ?_
  · rintro s ⟨⟨h3, _⟩, h4, h5⟩
    exact ⟨(h.outside h4 hc hr).1 h5, h3⟩
  · rintro p s ⟨⟨rfl, h3, h4⟩, h5, h6⟩
    have hL := (h.outside h5 hc hr).2 h6
    have hn := h4.n; have hm := h4.mm
    refine ⟨by simp, ?_, h4⟩
    have get : ∀ {j : Nat} {x : Msg}, (L ++ [b])[j]? = some x → (j < L.length ∧ L[j]? = some x) ∨ (j = L.length ∧ x = b) := by
      intro j x e
      rcases Nat.lt_or_ge j L.length with hj | hj
      · rw [List.getElem?_append_left hj] at e; exact .inl ⟨hj, e⟩
      · have := getElem?_lt e
        simp only [List.length_append, List.length_cons, List.length_nil] at this
        have : j = L.length := by omega
        subst this
        rw [List.getElem?_append_right (Nat.le_refl _)] at e
        simp at e
        exact .inr ⟨rfl, e.symm⟩
    have hO : ∀ {j}, j < L.length → upd O L.length E j = O j := fun {j} hj => by unfold upd; rw [if_neg (by omega)]
    have hO' : upd O L.length E L.length = E := by unfold upd; rw [if_pos rfl]
    have hLl : (L ++ [b]).length = L.length + 1 := by simp
    refine ⟨hL.npos, hL.nbd, hL.mmpos, hL.mmbd, hL.dlen, hL.mvlen, hL.i, by have := h.gle; rw [hLl]; omega, by rw [hLl, hm]; omega, ?_, ?_, ?_, ?_, ?_⟩
    · intro j x g1 e
      rcases get e with ⟨_, e⟩ | ⟨_, rfl⟩
      · exact hL.ne j x g1 e
      · exact hb
    · intro j x g1 e
      rcases get e with ⟨hj, e⟩ | ⟨rfl, rfl⟩
      · rw [hO hj]; exact hL.held j x g1 e
      · rw [hO']
        have hs := h3.toCore.slots 0 x (by simp)
        simp at hs
        refine ⟨?_, ?_⟩
        · rw [hm, hn] at hs ⊢
          rw [hs, Nat.mod_eq_of_lt hi, h.i]
        · intro t y ht
          have := h3.toCore.data t y (by simpa using ht)
          rw [hn] at this ⊢
          rw [h.i, mod_add_mod_left] at this
          exact this
    · intro j x g1 e
      rcases get e with ⟨hj, e⟩ | ⟨rfl, rfl⟩
      · rw [hO hj]; exact hL.below j x g1 e
      · rw [hO']; exact Nat.le_refl _
    · intro j g1 hj
      rw [hLl] at hj
      rcases Nat.lt_or_ge j L.length with hj' | hj'
      · rw [hO hj']; exact hL.room j g1 hj'
      · have : j = L.length := by omega
        subst this
        rw [hO', hn]; omega
    · intro j k g1 hjk hk
      rw [hLl] at hk
      rcases Nat.lt_or_ge k L.length with hk' | hk'
      · rw [hO hk', hO (by omega)]; exact hL.mono j k g1 hjk hk'
      · have : k = L.length := by omega
        subst this
        rw [hO']
        rcases Nat.lt_or_ge j L.length with hj' | hj'
        · rw [hO hj']
          have := h.below j _ g1 (List.getElem?_eq_getElem hj')
          omega
        · have : j = L.length := by omega
          subst this
          rw [hO']; exact Nat.le_refl _

end Shr
