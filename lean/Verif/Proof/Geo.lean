import Verif.Model.Ring
import Verif.Proof.Arith
/-!
# Geometry of the ring: where the present messages lie

`Core r gq p0 P`: the messages `P` are stored circularly from offset `p0`, described by the slots
`gq, gq+1, ...` (mod the number of slots).  `GeoAt` adds that the next write position is their end.
-/
namespace Shr

structure Core (r : Ring) (gq p0 : Nat) (P : List Msg) : Prop where
  npos : 0 < r.n
  nbd : r.n ≤ SSIZE_MAX
  mmpos : 0 < r.mm
  mmbd : r.mm ≤ SSIZE_MAX
  dlen : r.d.length = r.n
  mvlen : r.mv.length = r.mm
  ne : ∀ b ∈ P, b ≠ []
  tot : bytesOf P ≤ r.n
  cnt : P.length ≤ r.mm
  p0lt : p0 < r.n
  slots : ∀ j b, P[j]? = some b →
    r.mv[(gq + j) % r.mm]? = some ⟨(p0 + bytesOf (P.take j)) % r.n, b.length⟩
  data : ∀ t x, P.flatten[t]? = some x → r.d[(p0 + t) % r.n]? = some x

structure GeoAt (r : Ring) (gq p0 : Nat) (P : List Msg) : Prop extends Core r gq p0 P where
  ieq : r.i = (p0 + bytesOf P) % r.n

theorem flatten_drop (P : List Msg) (k : Nat) :
    (P.drop k).flatten = P.flatten.drop (bytesOf (P.take k)) := by
  have : P.flatten = (P.take k).flatten ++ (P.drop k).flatten := by
    rw [← List.flatten_append, List.take_append_drop]
  rw [this, ← flatten_length, List.drop_left]

theorem Core.drop {r : Ring} {gq p0 : Nat} {P : List Msg} (h : Core r gq p0 P) (k : Nat) :
    Core r (gq + k) ((p0 + bytesOf (P.take k)) % r.n) (P.drop k) where
  npos := h.npos
  nbd := h.nbd
  mmpos := h.mmpos
  mmbd := h.mmbd
  dlen := h.dlen
  mvlen := h.mvlen
  ne := fun b hb => h.ne b (List.mem_of_mem_drop hb)
  tot := Nat.le_trans (bytesOf_drop_le P k) h.tot
  cnt := by have := h.cnt; simp; omega
  p0lt := Nat.mod_lt _ h.npos
  slots := by
    intro j b hj
    rw [List.getElem?_drop] at hj
    have := h.slots _ _ hj
    rw [Nat.add_assoc, this]
    congr 2
    rw [mod_add_mod_left, Nat.add_assoc]
    congr 2
    rw [← bytesOf_append]
    congr 1
    rw [List.take_add]
  data := by
    intro t x ht
    rw [flatten_drop, List.getElem?_drop] at ht
    have := h.data _ _ ht
    rw [mod_add_mod_left, Nat.add_assoc]
    exact this

theorem GeoAt.drop {r : Ring} {gq p0 : Nat} {P : List Msg} (h : GeoAt r gq p0 P) (k : Nat) :
    GeoAt r (gq + k) ((p0 + bytesOf (P.take k)) % r.n) (P.drop k) where
  toCore := h.toCore.drop k
  ieq := by
    rw [h.ieq, mod_add_mod_left, Nat.add_assoc, bytesOf_take_add_drop]

/-- Fields other than the data, the slots and the write position agree. -/
def Frame (r s : Ring) : Prop := s = { r with mv := s.mv, d := s.d, i := s.i }

theorem Frame.refl (r : Ring) : Frame r r := rfl
theorem Frame.trans {r s t : Ring} (h1 : Frame r s) (h2 : Frame s t) : Frame r t := by
  unfold Frame at *; rw [h2, h1]

theorem Frame.n {r s : Ring} (h : Frame r s) : s.n = r.n := by rw [h]
theorem Frame.mm {r s : Ring} (h : Frame r s) : s.mm = r.mm := by rw [h]

/-! ## Reading one message -/

theorem circ_read {d b : List Byte} {n pos : Nat} (_hd : d.length = n) (hp : pos < n)
    (hb : b.length ≤ n) (h : ∀ t x, b[t]? = some x → d[(pos + t) % n]? = some x) :
    (pos + b.length ≤ n → (d.drop pos).take b.length = b) ∧
    (n < pos + b.length → (d.drop pos).take (n - pos) = b.take (n - pos) ∧
      d.take (b.length - (n - pos)) = b.drop (n - pos)) := by
  have key : ∀ t, t < b.length → d[(pos + t) % n]? = b[t]? := by
    intro t ht
    rw [List.getElem?_eq_getElem ht]
    exact h t _ (List.getElem?_eq_getElem ht)
  constructor
  · intro hle
    apply List.ext_getElem?
    intro t
    rw [List.getElem?_take]
    split
    · rename_i ht
      rw [List.getElem?_drop, ← key t ht, Nat.mod_eq_of_lt (by omega)]
    · rename_i ht
      rw [List.getElem?_eq_none (by omega)]
  · intro hgt
    constructor
    · apply List.ext_getElem?
      intro t
      rw [List.getElem?_take, List.getElem?_take]
      split
      · rename_i ht
        rw [List.getElem?_drop, ← key t (by omega), Nat.mod_eq_of_lt (by omega)]
      · rfl
    · apply List.ext_getElem?
      intro t
      rw [List.getElem?_take, List.getElem?_drop]
      split
      · rename_i ht
        rw [← key (n - pos + t) (by omega), mod_two (by omega), if_neg (by omega)]
        congr 1; omega
      · rename_i ht
        rw [List.getElem?_eq_none (by omega)]

theorem getElem?_flatten_take {P : List Msg} {j t : Nat} {b : Msg} (hj : P[j]? = some b)
    (ht : t < b.length) : P.flatten[bytesOf (P.take j) + t]? = b[t]? := by
  have hd : P.drop j = b :: P.drop (j + 1) := by
    have hlt : j < P.length := by
      rcases Nat.lt_or_ge j P.length with h | h
      · exact h
      · rw [List.getElem?_eq_none h] at hj; simp at hj
    rw [List.drop_eq_getElem_cons hlt]
    rw [List.getElem?_eq_getElem hlt] at hj
    simp at hj
    rw [hj]
  rw [← List.getElem?_drop, ← flatten_drop, hd, List.flatten_cons, List.getElem?_append_left ht]

theorem bytesOf_getElem_le {P : List Msg} {j : Nat} {b : Msg} (hj : P[j]? = some b) :
    bytesOf (P.take j) + b.length ≤ bytesOf P := by
  have hlt : j < P.length := by
    rcases Nat.lt_or_ge j P.length with h | h
    · exact h
    · rw [List.getElem?_eq_none h] at hj; simp at hj
  rw [List.getElem?_eq_getElem hlt] at hj
  simp at hj
  have := bytesOf_take_add_drop P j
  rw [List.drop_eq_getElem_cons hlt, hj] at this
  simp at this; omega

/-- The bytes of message `j` are found circularly at the position its slot records. -/
theorem Core.msg_data {r : Ring} {gq p0 : Nat} {P : List Msg} (h : Core r gq p0 P)
    {j : Nat} {b : Msg} (hj : P[j]? = some b) :
    ∀ t x, b[t]? = some x → r.d[((p0 + bytesOf (P.take j)) % r.n + t) % r.n]? = some x := by
  intro t x hx
  rw [mod_add_mod_left, Nat.add_assoc]
  apply h.data
  have ht : t < b.length := by
    rcases Nat.lt_or_ge t b.length with h | h
    · exact h
    · rw [List.getElem?_eq_none h] at hx; simp at hx
  rw [getElem?_flatten_take hj ht, hx]

/-! ## Writing one message -/

theorem List.modify_getElem?_ne {α : Type} (l : List α) (f : α → α) {i j : Nat} (h : i ≠ j) :
    (l.modify i f)[j]? = l[j]? := by
  rw [List.getElem?_modify]; simp [h]

/-- A state that differs from `r` in data/slots only outside what `P` occupies still holds `P`. -/
theorem Core.of_agree {r s : Ring} {gq p0 : Nat} {P : List Msg} (h : Core r gq p0 P)
    (hf : Frame r s) (hd : s.d.length = r.d.length) (hm : s.mv.length = r.mv.length)
    (hdd : ∀ t, t < bytesOf P → s.d[(p0 + t) % r.n]? = r.d[(p0 + t) % r.n]?)
    (hmm : ∀ j, j < P.length → s.mv[(gq + j) % r.mm]? = r.mv[(gq + j) % r.mm]?) :
    Core s gq p0 P where
  npos := by rw [hf.n]; exact h.npos
  nbd := by rw [hf.n]; exact h.nbd
  mmpos := by rw [hf.mm]; exact h.mmpos
  mmbd := by rw [hf.mm]; exact h.mmbd
  dlen := by rw [hf.n, hd]; exact h.dlen
  mvlen := by rw [hf.mm, hm]; exact h.mvlen
  ne := h.ne
  tot := by rw [hf.n]; exact h.tot
  cnt := by rw [hf.mm]; exact h.cnt
  p0lt := by rw [hf.n]; exact h.p0lt
  slots := by
    intro j b hj
    rw [hf.n, hf.mm, hmm j, h.slots j b hj]
    rcases Nat.lt_or_ge j P.length with h' | h'
    · exact h'
    · rw [List.getElem?_eq_none h'] at hj; simp at hj
  data := by
    intro t x ht
    rw [hf.n, hdd t, h.data t x ht]
    rcases Nat.lt_or_ge t (bytesOf P) with h' | h'
    · exact h'
    · rw [List.getElem?_eq_none (by rw [flatten_length]; exact h')] at ht; simp at ht

/-- A position occupied by `P`, relative to the end of `P`. -/
theorem old_pos {n p0 T t len : Nat} (hp : p0 < n) (ht : t < T) (hT : T + len ≤ n) :
    ((p0 + T) % n + len ≤ n →
      ((p0 + t) % n < (p0 + T) % n ∨ (p0 + T) % n + len ≤ (p0 + t) % n)) ∧
    (n < (p0 + T) % n + len →
      (p0 + t) % n < (p0 + T) % n ∧ (p0 + T) % n + len - n ≤ (p0 + t) % n) := by
  rw [mod_two (x := p0 + t) (by omega), mod_two (x := p0 + T) (by omega)]
  constructor <;> intro h <;> split at h <;> split <;> omega

theorem memcpyShared_ok {off : Nat} {src : List Byte} {r : Ring}
    (h : off + src.length ≤ r.d.length) :
    memcpyShared Ring.d (fun d r => { r with d := d }) off src r =
      ⟨(List.range src.length).map (fun k => { r with d := put r.d off (src.take k) }),
        .ok () { r with d := put r.d off src }⟩ := by
  unfold memcpyShared
  rw [if_pos h]

end Shr
