import Verif.Model.File
import Verif.Proof.Read
/-! # Bytes, fields and regions of the ring file -/
namespace Shr

@[simp] theorem le_length (k v : Nat) : (le k v).length = k := by
  induction k generalizing v with
  | zero => rfl
  | succ k ih => simp [le, ih]

theorem leVal_le (k v : Nat) : leVal (le k v) = v % 256 ^ k := by
  induction k generalizing v with
  | zero => simp [le, leVal, Nat.mod_one]
  | succ k ih =>
    simp only [le, leVal, ih]
    have h1 : (UInt8.ofNat v).toNat = v % 256 := by simp [UInt8.toNat_ofNat']
    rw [h1, Nat.pow_succ, Nat.mul_comm (256 ^ k), Nat.mod_mul]

theorem leVal_lt (b : List Byte) : leVal b < 256 ^ b.length := by
  induction b with
  | nil => simp [leVal]
  | cons x xs ih =>
    have := x.toNat_lt
    simp only [leVal, List.length_cons, Nat.pow_succ]
    omega

theorem leVal_replicate (k : Nat) : leVal (List.replicate k 0) = 0 := by
  induction k with
  | zero => rfl
  | succ k ih => simp [List.replicate_succ, leVal, ih]

theorem ld_length {f : List Byte} {o l : Nat} (h : o + l ≤ f.length) : (ld f o l).length = l := by
  simp [ld]; omega

theorem ld_getElem? (f : List Byte) (o l k : Nat) : (ld f o l)[k]? = if k < l then f[o + k]? else none := by
  unfold ld
  rw [List.getElem?_take]
  split
  · rw [List.getElem?_drop]
  · rfl

/-- A store elsewhere does not change what is read. -/
theorem ld_put_ne {f src : List Byte} {off o l : Nat} (hf : off + src.length ≤ f.length)
    (h : o + l ≤ off ∨ off + src.length ≤ o) : ld (put f off src) o l = ld f o l := by
  apply List.ext_getElem?
  intro k
  rw [ld_getElem?, ld_getElem?]
  split
  · rw [put_getElem?_out hf (by omega)]
  · rfl

/-- A store is read back. -/
theorem ld_put_same {f src : List Byte} {off : Nat} (hf : off + src.length ≤ f.length) :
    ld (put f off src) off src.length = src := by
  apply List.ext_getElem?
  intro k
  rw [ld_getElem?]
  split
  · rename_i h; rw [put_getElem?_in hf h]
  · rename_i h; rw [List.getElem?_eq_none (by omega)]

/-- A store inside the part that is read. -/
theorem ld_put_in {f src : List Byte} {o off l : Nat} (hf : o + l ≤ f.length) (h : off + src.length ≤ l) :
    ld (put f (o + off) src) o l = put (ld f o l) off src := by
  have hl : (ld f o l).length = l := ld_length hf
  apply List.ext_getElem?
  intro k
  by_cases h1 : off ≤ k ∧ k < off + src.length
  · obtain ⟨j, rfl⟩ : ∃ j, k = off + j := ⟨k - off, by omega⟩
    rw [ld_getElem?, if_pos (by omega), ← Nat.add_assoc, put_getElem?_in (by omega) (by omega),
      put_getElem?_in (by omega) (by omega)]
  · rw [put_getElem?_out (by omega) (by omega), ld_getElem?, ld_getElem?]
    split
    · rw [put_getElem?_out (by omega) (by omega)]
    · rfl

/-- A smaller window. -/
theorem ld_ld {f : List Byte} {o l o' l' : Nat} (h : o' + l' ≤ l) : ld (ld f o l) o' l' = ld f (o + o') l' := by
  apply List.ext_getElem?
  intro k
  rw [ld_getElem? (ld f o l), ld_getElem? f (o + o')]
  split
  · rw [ld_getElem?, if_pos (by omega), Nat.add_assoc]
  · rfl

/-- Storing a word. -/
abbrev st (f : List Byte) (k off v : Nat) : List Byte := put f off (le k v)

theorem st_length {f : List Byte} {k off v : Nat} (h : off + k ≤ f.length) : (st f k off v).length = f.length :=
  put_length (by simpa using h)

theorem ld_st_ne {f : List Byte} {k off v o l : Nat} (hf : off + k ≤ f.length) (h : o + l ≤ off ∨ off + k ≤ o) :
    ld (st f k off v) o l = ld f o l := ld_put_ne (by simpa using hf) (by simpa using h)

theorem ld64_st_ne {f : List Byte} {k off v o : Nat} (hf : off + k ≤ f.length) (h : o + 8 ≤ off ∨ off + k ≤ o) :
    ld64 (st f k off v) o = ld64 f o := by unfold ld64; rw [ld_st_ne hf h]
theorem ld32_st_ne {f : List Byte} {k off v o : Nat} (hf : off + k ≤ f.length) (h : o + 4 ≤ off ∨ off + k ≤ o) :
    ld32 (st f k off v) o = ld32 f o := by unfold ld32; rw [ld_st_ne hf h]

theorem ld64_put_ne {f src : List Byte} {off o : Nat} (hf : off + src.length ≤ f.length)
    (h : o + 8 ≤ off ∨ off + src.length ≤ o) : ld64 (put f off src) o = ld64 f o := by
  unfold ld64; rw [ld_put_ne hf h]
theorem ld32_put_ne {f src : List Byte} {off o : Nat} (hf : off + src.length ≤ f.length)
    (h : o + 4 ≤ off ∨ off + src.length ≤ o) : ld32 (put f off src) o = ld32 f o := by
  unfold ld32; rw [ld_put_ne hf h]

theorem W_eq : W = 256 ^ 8 := rfl

theorem ld64_st_same {f : List Byte} {off v : Nat} (hf : off + 8 ≤ f.length) (hv : v < W) :
    ld64 (st f 8 off v) off = v := by
  unfold ld64
  have := ld_put_same (f := f) (src := le 8 v) (off := off) (by simpa using hf)
  rw [le_length] at this
  rw [this, leVal_le, ← W_eq, Nat.mod_eq_of_lt hv]

theorem ld32_st_same {f : List Byte} {off v : Nat} (hf : off + 4 ≤ f.length) (hv : v < 2 ^ 32) :
    ld32 (st f 4 off v) off = v := by
  unfold ld32
  have := ld_put_same (f := f) (src := le 4 v) (off := off) (by simpa using hf)
  rw [le_length] at this
  rw [this, leVal_le, Nat.mod_eq_of_lt hv]

theorem ld64_lt (f : List Byte) (o : Nat) : ld64 f o < W := by
  unfold ld64
  have h := leVal_lt (ld f o 8)
  have : (ld f o 8).length ≤ 8 := by simp [ld]; omega
  exact Nat.lt_of_lt_of_le h (Nat.pow_le_pow_right (by decide) this)

/-- All regions are inside the file. -/
def LayoutOk (f : List Byte) : Prop := appOff f + ld64 f OFF_APP_LEN ≤ f.length

theorem decode_mv_length (f : List Byte) : (decode f).mv.length = ld64 f OFF_MV_LEN / SIZEOF_MSG := by
  simp [decode]

/-- Stores into one field of the control region. -/
def Store.isField : Store → Bool
  | .data .. | .pos .. | .len .. | .app .. | .statZero | .start _ => false
  | _ => true

theorem decode_store_field {f : List Byte} (hl : SIZEOF_CTRL ≤ f.length) (s : Store) (hb : s.inBounds (decode f))
    (hc : s.isField = true) : decode (s.onFile f) = s.onRing (decode f) := by
  unfold SIZEOF_CTRL at hl
  cases s <;> simp only [Store.isField, Bool.false_eq_true] at hc <;> simp only [Store.inBounds] at hb <;>
    simp (disch := omega) only [Store.onFile, Store.inFile, Store.onRing, decode, decodeStat, mvOff, appOff, OFF_GFLAGS, OFF_N,
      OFF_I, OFF_U, OFF_M, OFF_MP, OFF_R, OFF_E, OFF_Q, OFF_STAT, OFF_MM, OFF_MV_LEN, OFF_PAD_LEN, OFF_APP_LEN, SIZEOF_CTRL,
      ld64_st_ne, ld32_st_ne, ld_st_ne, ld64_st_same (hv := hb)]

/-- The header of the file up to the block/wake handles is the same. -/
theorem decode_store_data {f : List Byte} (hl : LayoutOk f) (o : Nat) (b : List Byte)
    (hb : (Store.data o b).inBounds (decode f)) : decode ((Store.data o b).onFile f) = (Store.data o b).onRing (decode f) := by
  have hb' : o + b.length ≤ ld64 f 16 := hb
  unfold LayoutOk appOff mvOff SIZEOF_CTRL OFF_N OFF_PAD_LEN OFF_MV_LEN OFF_APP_LEN at hl
  have hd : ld (put f (1784 + o) b) 1784 (ld64 f 16) = put (ld f 1784 (ld64 f 16)) o b := ld_put_in (by omega) hb'
  simp (disch := omega) only [Store.onFile, Store.inFile, Store.onRing, decode, decodeStat, mvOff, appOff, OFF_GFLAGS, OFF_N,
      OFF_I, OFF_U, OFF_M, OFF_MP, OFF_R, OFF_E, OFF_Q, OFF_STAT, OFF_MM, OFF_MV_LEN, OFF_PAD_LEN, OFF_APP_LEN, SIZEOF_CTRL,
      ld64_put_ne, ld32_put_ne]
  rw [hd]
  simp (disch := omega) only [ld_put_ne]

theorem decode_store_app {f : List Byte} (hl : LayoutOk f) (o : Nat) (b : List Byte)
    (hb : (Store.app o b).inBounds (decode f)) : decode ((Store.app o b).onFile f) = (Store.app o b).onRing (decode f) := by
  have hb' : o + b.length ≤ ld64 f 232 := hb
  unfold LayoutOk appOff mvOff SIZEOF_CTRL OFF_N OFF_PAD_LEN OFF_MV_LEN OFF_APP_LEN at hl
  have hd : ld (put f (1784 + ld64 f 16 + ld64 f 224 + ld64 f 216 + o) b) (1784 + ld64 f 16 + ld64 f 224 + ld64 f 216) (ld64 f 232) =
    put (ld f (1784 + ld64 f 16 + ld64 f 224 + ld64 f 216) (ld64 f 232)) o b := ld_put_in (by omega) hb'
  simp (disch := omega) only [Store.onFile, Store.inFile, Store.onRing, decode, decodeStat, mvOff, appOff, OFF_GFLAGS, OFF_N,
      OFF_I, OFF_U, OFF_M, OFF_MP, OFF_R, OFF_E, OFF_Q, OFF_STAT, OFF_MM, OFF_MV_LEN, OFF_PAD_LEN, OFF_APP_LEN, SIZEOF_CTRL,
      ld64_put_ne, ld32_put_ne]
  rw [hd]
  simp (disch := omega) only [ld_put_ne, Ring.mk.injEq, and_true, true_and]
  apply List.map_congr_left
  intro j hj
  rw [List.mem_range] at hj
  unfold SIZEOF_MSG at hj ⊢
  have : 16 * j + 16 ≤ ld64 f 216 := by omega
  rw [ld64_put_ne (by omega) (by omega), ld64_put_ne (by omega) (by omega)]

theorem decode_store_slot {f : List Byte} (hl : LayoutOk f) (p x v : Nat) (hx : x = 0 ∨ x = 8) (hp : p < (decode f).mv.length) :
    decode (st f 8 (mvOff f + SIZEOF_MSG * p + x) v) =
      { decode f with mv := (List.range (ld64 f OFF_MV_LEN / SIZEOF_MSG)).map fun j =>
        ⟨ld64 (st f 8 (mvOff f + SIZEOF_MSG * p + x) v) (mvOff f + SIZEOF_MSG * j),
          ld64 (st f 8 (mvOff f + SIZEOF_MSG * p + x) v) (mvOff f + SIZEOF_MSG * j + 8)⟩ } := by
  rw [decode_mv_length] at hp
  unfold LayoutOk appOff mvOff SIZEOF_CTRL OFF_N OFF_PAD_LEN OFF_MV_LEN OFF_APP_LEN at hl
  unfold SIZEOF_MSG OFF_MV_LEN at hp
  have : 16 * p + 16 ≤ ld64 f 216 := by omega
  simp (disch := omega) only [decode, decodeStat, mvOff, appOff, OFF_GFLAGS, OFF_N, SIZEOF_MSG,
      OFF_I, OFF_U, OFF_M, OFF_MP, OFF_R, OFF_E, OFF_Q, OFF_STAT, OFF_MM, OFF_MV_LEN, OFF_PAD_LEN, OFF_APP_LEN, SIZEOF_CTRL,
      ld64_st_ne, ld32_st_ne, ld_st_ne]

theorem decode_store_pos {f : List Byte} (hl : LayoutOk f) (p v : Nat)
    (hb : (Store.pos p v).inBounds (decode f)) : decode ((Store.pos p v).onFile f) = (Store.pos p v).onRing (decode f) := by
  obtain ⟨hp, hv⟩ := hb
  have h := decode_store_slot hl p 0 v (.inl rfl) hp
  simp only [Nat.add_zero] at h
  simp only [Store.onFile, Store.inFile, Store.onRing]
  rw [h]
  simp only [Ring.mk.injEq, and_true, true_and]
  rw [decode_mv_length] at hp
  unfold LayoutOk appOff OFF_MV_LEN at hl
  unfold OFF_MV_LEN SIZEOF_MSG at hp
  apply List.ext_getElem?
  intro j
  rw [List.getElem?_modify]
  simp only [decode, List.getElem?_map, SIZEOF_MSG, OFF_MV_LEN]
  by_cases hj : j < ld64 f 216 / 16
  · rw [List.getElem?_range hj]
    simp only [Option.map_some]
    by_cases hpj : p = j
    · subst hpj
      rw [ld64_st_same (by omega) hv, ld64_st_ne (by omega) (by omega)]
      simp
    · rw [ld64_st_ne (by omega) (by omega), ld64_st_ne (by omega) (by omega)]
      simp [hpj]
  · rw [List.getElem?_eq_none (by simpa using hj)]; simp

theorem decode_store_len {f : List Byte} (hl : LayoutOk f) (p v : Nat)
    (hb : (Store.len p v).inBounds (decode f)) : decode ((Store.len p v).onFile f) = (Store.len p v).onRing (decode f) := by
  obtain ⟨hp, hv⟩ := hb
  have h := decode_store_slot hl p 8 v (.inr rfl) hp
  simp only [Store.onFile, Store.inFile, Store.onRing]
  rw [h]
  simp only [Ring.mk.injEq, and_true, true_and]
  rw [decode_mv_length] at hp
  unfold LayoutOk appOff OFF_MV_LEN at hl
  unfold OFF_MV_LEN SIZEOF_MSG at hp
  apply List.ext_getElem?
  intro j
  rw [List.getElem?_modify]
  simp only [decode, List.getElem?_map, SIZEOF_MSG, OFF_MV_LEN]
  by_cases hj : j < ld64 f 216 / 16
  · rw [List.getElem?_range hj]
    simp only [Option.map_some]
    by_cases hpj : p = j
    · subst hpj
      rw [ld64_st_same (by omega) hv, ld64_st_ne (by omega) (by omega)]
      simp
    · rw [ld64_st_ne (by omega) (by omega), ld64_st_ne (by omega) (by omega)]
      simp [hpj]
  · rw [List.getElem?_eq_none (by simpa using hj)]; simp

theorem ld_replicate {k o l : Nat} (h : o + l ≤ k) : ld (List.replicate k (0 : Byte)) o l = List.replicate l 0 := by
  simp [ld, List.drop_replicate, List.take_replicate]; omega

theorem ld64_put_in {f src : List Byte} {off x : Nat} (hf : off + src.length ≤ f.length) (h : x + 8 ≤ src.length) :
    ld64 (put f off src) (off + x) = ld64 src x := by
  unfold ld64
  have := ld_put_same hf
  rw [← ld_ld (l := src.length) h, this]

theorem ld32_put_in {f src : List Byte} {off x : Nat} (hf : off + src.length ≤ f.length) (h : x + 4 ≤ src.length) :
    ld32 (put f off src) (off + x) = ld32 src x := by
  unfold ld32
  have := ld_put_same hf
  rw [← ld_ld (l := src.length) h, this]

theorem ld64_zero {k o : Nat} (h : o + 8 ≤ k) : ld64 (List.replicate k 0) o = 0 := by
  unfold ld64; rw [ld_replicate h, leVal_replicate]
theorem ld32_zero {k o : Nat} (h : o + 4 ≤ k) : ld32 (List.replicate k 0) o = 0 := by
  unfold ld32; rw [ld_replicate h, leVal_replicate]

theorem decode_store_statZero {f : List Byte} (hl : SIZEOF_CTRL ≤ f.length) :
    decode (Store.statZero.onFile f) = Store.statZero.onRing (decode f) := by
  unfold SIZEOF_CTRL at hl
  have hf : 80 + (List.replicate 128 (0 : Byte)).length ≤ f.length := by simp; omega
  have h64 : ∀ x, x + 8 ≤ 128 → ld64 (put f 80 (List.replicate 128 0)) (80 + x) = 0 := fun x hx => by
    rw [ld64_put_in hf (by simpa using hx), ld64_zero hx]
  have h32 : ∀ x, x + 4 ≤ 128 → ld32 (put f 80 (List.replicate 128 0)) (80 + x) = 0 := fun x hx => by
    rw [ld32_put_in hf (by simpa using hx), ld32_zero hx]
  have n64 : ∀ o, o + 8 ≤ 80 ∨ 208 ≤ o → ld64 (put f 80 (List.replicate 128 0)) o = ld64 f o := fun o ho =>
    ld64_put_ne hf (by simpa using ho)
  have n32 : ∀ o, o + 4 ≤ 80 ∨ 208 ≤ o → ld32 (put f 80 (List.replicate 128 0)) o = ld32 f o := fun o ho =>
    ld32_put_ne hf (by simpa using ho)
  have nl : ∀ o l, o + l ≤ 80 ∨ 208 ≤ o → ld (put f 80 (List.replicate 128 0)) o l = ld f o l := fun o l ho =>
    ld_put_ne hf (by simpa using ho)
  simp (disch := omega) only [Store.onFile, Store.inFile, Store.onRing, decode, decodeStat, mvOff, appOff, OFF_GFLAGS, OFF_N,
      OFF_I, OFF_U, OFF_M, OFF_MP, OFF_R, OFF_E, OFF_Q, OFF_STAT, OFF_MM, OFF_MV_LEN, OFF_PAD_LEN, OFF_APP_LEN, SIZEOF_CTRL,
      h64, h32, n64, n32, nl]

theorem decode_store_start {f : List Byte} (hl : SIZEOF_CTRL ≤ f.length) (t : Timeval) (ht : t.1 < W ∧ t.2 < W) :
    decode ((Store.start t).onFile f) = (Store.start t).onRing (decode f) := by
  unfold SIZEOF_CTRL at hl
  have hf : 80 + (le 8 t.1 ++ le 8 t.2).length ≤ f.length := by simp; omega
  have h0 : ld64 (put f 80 (le 8 t.1 ++ le 8 t.2)) (80 + 0) = t.1 := by
    rw [ld64_put_in hf (by simp)]
    unfold ld64 ld
    rw [List.drop_zero, List.take_append_of_le_length (by simp), List.take_of_length_le (by simp), leVal_le, ← W_eq,
      Nat.mod_eq_of_lt ht.1]
  have h8 : ld64 (put f 80 (le 8 t.1 ++ le 8 t.2)) (80 + 8) = t.2 := by
    rw [ld64_put_in hf (by simp)]
    unfold ld64 ld
    rw [List.drop_append_of_le_length (by simp), List.drop_of_length_le (by simp), List.nil_append,
      List.take_of_length_le (by simp), leVal_le, ← W_eq, Nat.mod_eq_of_lt ht.2]
  have n64 : ∀ o, o + 8 ≤ 80 ∨ 96 ≤ o → ld64 (put f 80 (le 8 t.1 ++ le 8 t.2)) o = ld64 f o := fun o ho =>
    ld64_put_ne hf (by simpa using ho)
  have n32 : ∀ o, o + 4 ≤ 80 ∨ 96 ≤ o → ld32 (put f 80 (le 8 t.1 ++ le 8 t.2)) o = ld32 f o := fun o ho =>
    ld32_put_ne hf (by simpa using ho)
  have nl : ∀ o l, o + l ≤ 80 ∨ 96 ≤ o → ld (put f 80 (le 8 t.1 ++ le 8 t.2)) o l = ld f o l := fun o l ho =>
    ld_put_ne hf (by simpa using ho)
  simp (disch := omega) only [Store.onFile, Store.inFile, Store.onRing, decode, decodeStat, mvOff, appOff, OFF_GFLAGS, OFF_N,
      OFF_I, OFF_U, OFF_M, OFF_MP, OFF_R, OFF_E, OFF_Q, OFF_STAT, OFF_MM, OFF_MV_LEN, OFF_PAD_LEN, OFF_APP_LEN, SIZEOF_CTRL,
      h0, h8, n64, n32, nl]

/-- A store by the library changes the ring in the file as the typed model says, and nothing else. -/
theorem decode_store {f : List Byte} (hl : LayoutOk f) (s : Store) (hb : s.inBounds (decode f)) :
    decode (s.onFile f) = s.onRing (decode f) := by
  have hc : SIZEOF_CTRL ≤ f.length := by
    unfold LayoutOk appOff mvOff at hl; omega
  cases s with
  | data o b => exact decode_store_data hl o b hb
  | pos p v => exact decode_store_pos hl p v hb
  | len p v => exact decode_store_len hl p v hb
  | app o b => exact decode_store_app hl o b hb
  | statZero => exact decode_store_statZero hc
  | start t => exact decode_store_start hc t hb
  | _ => exact decode_store_field hc _ hb rfl

end Shr
