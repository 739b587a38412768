import Verif.Model.Tool
import Mathlib.Tactic.Ring
import Mathlib.Tactic.SplitIfs
/-!
# shr-tool: writehex, readhex, size options, write (C47, C48, C51, C60)
-/
namespace Shr

/-! ## C47 -/

theorem hexVal_of_digit : ∀ n < 16, ∀ c : Byte, IsHexDigit c n →
    hexVal c = some n ∧ isSpaceC c = false ∧ c ≠ 43 ∧ c ≠ 45 ∧ c ≠ 120 ∧ c ≠ 88 := by
  have : ∀ n : Fin 16, ∀ k : Fin 256, IsHexDigit k.val.toUInt8 n.val → hexVal k.val.toUInt8 = some n.val ∧
      isSpaceC k.val.toUInt8 = false ∧ k.val.toUInt8 ≠ 43 ∧ k.val.toUInt8 ≠ 45 ∧ k.val.toUInt8 ≠ 120 ∧
      k.val.toUInt8 ≠ 88 := by decide +kernel
  intro n hn c hc
  have h := this ⟨n, hn⟩ ⟨c.toNat, c.toNat_lt⟩
  dsimp only at h
  rw [show c.toNat.toUInt8 = c by simp] at h
  exact h hc

theorem hexVal_lt (c : Byte) (d : Nat) (h : hexVal c = some d) : d < 16 := by
  have hc := c.toNat_lt
  simp only [hexVal] at h
  split_ifs at h with h1 h2 h3
  all_goals
    simp only [UInt8.le_iff_toNat_le, Option.some.injEq] at *
    simp at *
    omega

theorem scan2x_digits {lax : Bool} {c d : Byte} {b : Byte} {s : List Byte} (hc : IsHexDigit c (b.toNat / 16))
    (hd : IsHexDigit d (b.toNat % 16)) : scan2x lax (c :: d :: s) = some b.toNat := by
  have hb := b.toNat_lt
  obtain ⟨h1, h2, h3, h4, _, _⟩ := hexVal_of_digit _ (by omega) c hc
  obtain ⟨g1, _, _, _, g5, g6⟩ := hexVal_of_digit _ (by omega) d hd
  rw [scan2x, List.dropWhile_cons_of_neg (by simp [h2])]
  dsimp only
  rw [if_neg h3, if_neg h4, h1]
  dsimp only
  rw [if_neg (by simp [g5, g6]), g1]
  dsimp only
  congr 1
  omega

/-- The bytes of `h` from `i` on are not changed by a store at an index before `i`. -/
theorem drop_set_before (h : List Byte) (i j : Nat) (x : Byte) (hj : j < i) : (h.set j x).drop i = h.drop i := by
  rw [List.drop_set_of_lt hj]

theorem unhexLoop_ok (lax : Bool) : ∀ (bs s done : List Byte), HexText s bs → ∀ (h : List Byte),
    h.take done.length = done → h.drop (2 * done.length) = s → 2 * done.length ≤ h.length →
    unhexLoop lax bs.length (2 * done.length) h = .ok (done ++ bs) := by
  intro bs
  induction bs with
  | nil =>
    intro s done _ h h1 _ _
    rw [List.length_nil, unhexLoop, List.append_nil, show 2 * done.length / 2 = done.length by omega, h1]
  | cons b bs ih =>
    intro s done ht h h1 h2 h3
    cases ht with
    | cons hc hd ht' =>
      rename_i c d s'
      rw [List.length_cons, unhexLoop, h2, scan2x_digits hc hd]
      dsimp only
      have hb := b.toNat_lt
      rw [if_neg (by omega), show 2 * done.length / 2 = done.length by omega]
      have hlen : h.length = 2 * done.length + (s'.length + 2) := by
        have := congrArg List.length h2
        simp at this; omega
      have := ih s' (done ++ [b]) ht' (h.set done.length b.toNat.toUInt8) ?_ ?_ ?_
      · rw [show 2 * (done ++ [b]).length = 2 * done.length + 2 by simp; omega] at this
        rw [this, List.append_assoc]; rfl
      · rw [show b.toNat.toUInt8 = b by simp, List.length_append, List.length_singleton,
          List.take_add_one, List.take_set_of_le (Nat.le_refl _), h1, List.getElem?_set_self (by omega)]
        rfl
      · rw [List.drop_set_of_lt (by simp; omega)]
        have : h.drop (2 * (done ++ [b]).length) = (h.drop (2 * done.length)).drop 2 := by
          rw [List.drop_drop]; congr 1; simp; omega
        rw [this, h2]; rfl
      · simp; omega

theorem hexText_length {s bs : List Byte} (h : HexText s bs) : s.length = 2 * bs.length := by
  induction h with
  | nil => rfl
  | cons _ _ _ ih => simp [ih]; omega

/-- C47, round trip: what `writehex` makes of the hexadecimal text (either case) of a nonempty byte string is the byte
string. -/
theorem C47_roundtrip (lax : Bool) (s bs : List Byte) (h : HexText s bs) (hne : bs ≠ []) : unhex lax s = .ok bs := by
  have hl := hexText_length h
  have : 0 < bs.length := List.length_pos_iff.mpr hne
  rw [unhex, if_neg (by omega), if_neg (by omega), show s.length / 2 = bs.length by omega]
  have := unhexLoop_ok lax bs s [] h s rfl rfl (by simp)
  simpa using this

example : HexText (asc "c0fFEe") [0xc0, 0xff, 0xee] := by
  refine .cons ?_ ?_ (.cons ?_ ?_ (.cons ?_ ?_ .nil)) <;> decide +kernel

/-- C47: the empty argument and those of odd length are rejected. -/
theorem C47_rejects (lax : Bool) (s : List Byte) (h : s.length = 0 ∨ s.length % 2 = 1) : unhex lax s = .reject := by
  rw [unhex]
  rcases h with h | h
  · rw [if_pos h]
  · rw [if_neg (by omega), if_pos h]

theorem scan2x_le (lax : Bool) (s : List Byte) (u : Nat) (h : scan2x lax s = some u) (hu : u > 255) : (45 : Byte) ∈ s := by
  rw [scan2x] at h
  have hsub : ∀ c ∈ s.dropWhile isSpaceC, c ∈ s := fun c hc => List.dropWhile_sublist _ |>.subset hc
  rcases hs : s.dropWhile isSpaceC with _ | ⟨c, t⟩
  · rw [hs] at h; cases h
  · rw [hs] at h hsub
    dsimp only at h
    by_cases h1 : c = 43
    · rw [if_pos h1] at h
      rcases ht : t.head? with _ | c'
      · rw [ht] at h; cases h
      · rw [ht] at h
        have := hexVal_lt c' u h
        omega
    · rw [if_neg h1] at h
      by_cases h2 : c = 45
      · subst h2; exact hsub _ (by simp)
      · rw [if_neg h2] at h
        rcases hv : hexVal c with _ | d
        · rw [hv] at h; cases h
        · have hd := hexVal_lt c d hv
          rw [hv] at h
          dsimp only at h
          rcases t with _ | ⟨c', t⟩
          · cases h; omega
          · dsimp only at h
            split_ifs at h with h3 h4
            · cases h; omega
            · rcases hv' : hexVal c' with _ | d'
              · rw [hv'] at h; cases h; omega
              · have hd' := hexVal_lt c' d' hv'
                rw [hv'] at h; cases h; omega

theorem unhexLoop_abort (lax : Bool) : ∀ (n i : Nat) (h : List Byte), unhexLoop lax n i h = .abort →
    (45 : Byte) ∈ h.drop i := by
  intro n
  induction n with
  | zero => intro i h he; rw [unhexLoop] at he; cases he
  | succ n ih =>
    intro i h he
    rw [unhexLoop] at he
    rcases hs : scan2x lax (h.drop i) with _ | u
    · rw [hs] at he; cases he
    · rw [hs] at he
      dsimp only at he
      by_cases hu : u > 255
      · exact scan2x_le lax _ u hs hu
      · rw [if_neg hu] at he
        have := ih _ _ he
        rw [List.drop_set_of_lt (by omega), ← List.drop_drop] at this
        exact List.mem_of_mem_drop this

/-- C47, crashes: only an argument that contains a minus sign can crash the tool. -/
theorem C47_no_crash_partial (lax : Bool) (s : List Byte) (h : (45 : Byte) ∉ s) : unhex lax s ≠ .abort := by
  intro he
  rw [unhex] at he
  split_ifs at he
  exact h (unhexLoop_abort lax _ _ _ he)

/-- C47, what is missing, because it is false: `shr-tool writehex -1` crashes (as `-1` is scanned as UINT_MAX, which
the assertion of util/shr-tool.c:201 rejects). -/
theorem C47_counterexample_minus (lax : Bool) : unhex lax (asc "-1") = .abort := by cases lax <;> decide +kernel

/-- Arguments that are not hexadecimal text are not all rejected: a digit may be followed by anything, and white space is
skipped. -/
theorem C47_accepts_other_text (lax : Bool) :
    unhex lax (asc "4g") = .ok [4] ∧ unhex lax (asc " 1") = .ok [1] ∧ unhex lax (asc "+7") = .ok [7] := by
  cases lax <;> decide +kernel

/-! ## C48 -/

theorem hexDigit_digit : ∀ n < 16, IsHexDigit (hexDigit n) n := by decide +kernel

theorem hexDigit_plain : ∀ n < 16, hexDigit n ≠ 10 ∧ hexDigit n ≠ 32 := by decide +kernel

theorem hexCell_length (o : Option Byte) : (hexCell o).length = 3 := by cases o <;> rfl

theorem hexCols_length (buf : Msg) (n : Nat) : (hexCols buf n).length = 48 := by
  rw [hexCols, List.length_flatMap]
  simp only [hexCell_length]
  rfl

theorem flatMap_getElem {α β : Type} (w : Nat) (f : α → List β) (hf : ∀ a, (f a).length = w) :
    ∀ (l : List α) (i j : Nat), j < w → (l.flatMap f)[w * i + j]? = (l[i]?).bind fun a => (f a)[j]? := by
  intro l
  induction l with
  | nil => intro i j _; simp
  | cons a l ih =>
    intro i j hj
    rw [List.flatMap_cons]
    cases i with
    | zero => rw [List.getElem?_append_left (by rw [hf]; omega)]; simp
    | succ i =>
      rw [List.getElem?_append_right (by rw [hf, Nat.mul_add]; omega), hf]
      have : w * (i + 1) + j - w = w * i + j := by rw [Nat.mul_add]; omega
      rw [this, ih i j hj]; simp

theorem textLines_flatMap (ls : List (List Byte)) (h : ∀ l ∈ ls, cNL ∉ l) : textLines (ls.flatMap fun l => l ++ [10]) = ls := by
  have hs : (ls.flatMap fun l => l ++ [10]).splitOn cNL = ls ++ [[]] := by
    induction ls with
    | nil => rfl
    | cons l ls ih =>
      rw [List.flatMap_cons, List.append_assoc, List.singleton_append, List.splitOn_append_cons_self,
        List.splitOn_eq_singleton (h l (by simp)), ih (fun x hx => h x (by simp [hx]))]
      rfl
  rw [textLines, hs]
  simp

theorem hex8_length (n : Nat) : (hex8 n).length = 8 := by simp [hex8]

theorem ascCols_length (buf : Msg) (n : Nat) : (ascCols buf n).length = 16 := by simp [ascCols]

/-- A line without its newline. -/
def hexLine (buf : Msg) (n : Nat) : List Byte := hex8 n ++ [32] ++ hexCols buf n ++ ascCols buf n

theorem hexdump_lines (m : Msg) : textLines (hexdump m) = (List.range ((m.length + 15) / 16)).map fun k => hexLine m (16 * k) := by
  have : hexdump m = ((List.range ((m.length + 15) / 16)).map fun k => hexLine m (16 * k)).flatMap fun l => l ++ [10] := by
    rw [hexdump, List.flatMap_map]; rfl
  rw [this]
  apply textLines_flatMap
  intro l hl
  rw [List.mem_map] at hl
  obtain ⟨k, _, rfl⟩ := hl
  simp only [hexLine, List.mem_append, not_or]
  refine ⟨⟨⟨?_, by decide⟩, ?_⟩, ?_⟩
  · rw [hex8, List.mem_map]
    rintro ⟨i, _, hi⟩
    exact (hexDigit_plain _ (Nat.mod_lt _ (by decide))).1 hi
  · rw [hexCols, List.mem_flatMap]
    rintro ⟨i, _, hi⟩
    cases hm : m[16 * k + i]? with
    | none => rw [hm] at hi; exact absurd hi (by decide)
    | some c =>
      rw [hm] at hi
      have hc := c.toNat_lt
      simp only [hexCell, hex2, List.cons_append, List.nil_append, List.mem_cons, List.not_mem_nil, or_false] at hi
      rcases hi with hi | hi | hi
      · exact (hexDigit_plain _ (by omega)).1 hi.symm
      · exact (hexDigit_plain _ (by omega)).1 hi.symm
      · exact absurd hi (by decide)
  · rw [ascCols, List.mem_map]
    rintro ⟨i, _, hi⟩
    cases hm : m[16 * k + i]? with
    | none => rw [hm] at hi; exact absurd hi (by decide)
    | some c =>
      rw [hm, ascCell] at hi
      split_ifs at hi with h1
      · exact absurd hi (by decide)
      · rw [hi] at h1; exact absurd h1 (by decide)

theorem hexNumber_digits : ∀ (k n : Nat), n < 16 ^ k →
    HexNumber ((List.range k).map fun i => hexDigit (n / 16 ^ (k - 1 - i) % 16)) n := by
  intro k
  induction k with
  | zero => intro n hn; rw [show n = 0 by omega]; exact .nil
  | succ k ih =>
    intro n hn
    rw [List.range_succ, List.map_append]
    have h1 := ih (n / 16) (by rw [Nat.pow_succ] at hn; omega)
    have h2 : n % 16 < 16 := Nat.mod_lt _ (by decide)
    have := HexNumber.snoc h1 (hexDigit_digit _ h2)
    rw [show 16 * (n / 16) + n % 16 = n by omega] at this
    convert this using 2
    · apply List.map_congr_left
      intro i hi
      rw [List.mem_range] at hi
      rw [Nat.div_div_eq_div_mul, ← Nat.pow_succ', show k + 1 - 1 - i = (k - 1 - i).succ by omega]
    · simp

theorem hexCols_get (m : Msg) (n i j : Nat) (hi : i < 16) (hj : j < 3) :
    (hexCols m n)[3 * i + j]? = (hexCell m[n + i]?)[j]? := by
  rw [hexCols, flatMap_getElem 3 (fun i => hexCell m[n + i]?) (fun _ => hexCell_length _) _ _ _ hj,
    List.getElem?_range hi]
  rfl

theorem hexLine_col (m : Msg) (n i j : Nat) (hi : i < 16) (hj : j < 3) :
    (hexLine m n)[9 + 3 * i + j]? = (hexCell m[n + i]?)[j]? := by
  rw [hexLine, List.getElem?_append_left (by simp [hex8_length, hexCols_length]; omega),
    List.getElem?_append_right (by simp [hex8_length]; omega), ← hexCols_get m n i j hi hj]
  congr 1
  simp [hex8_length]; omega

theorem hexLine_asc (m : Msg) (n i : Nat) (hi : i < 16) :
    (hexLine m n)[57 + i]? = some (ascCell m[n + i]?) := by
  rw [hexLine, List.getElem?_append_right (by simp [hex8_length, hexCols_length]), ascCols]
  simp only [List.length_append, hex8_length, hexCols_length, List.length_singleton]
  rw [show 57 + i - (8 + 1 + 48) = i by omega]
  simp [hi]

/-- C48: `readhex` prints one line for every 16 bytes (or rest); line `k` begins with the offset `16 * k` in eight hexadecimal
digits and a space, the columns 9, 12, 15, … hold the bytes of the message in order (two digits and a space; spaces behind
the end of the message), and columns 57 to 72 the same bytes as characters, with a dot for those that are not printable. -/
theorem C48_hexdump (m : Msg) (hm : m.length ≤ 2 ^ 32) :
    (textLines (hexdump m)).length = (m.length + 15) / 16 ∧
    ∀ k line, (textLines (hexdump m))[k]? = some line →
      line.length = 73 ∧ HexNumber (line.take 8) (16 * k) ∧ line[8]? = some cSP ∧
      ∀ i < 16, line[9 + 3 * i + 2]? = some cSP ∧
        (∀ h : 16 * k + i < m.length,
          (∃ c d, line[9 + 3 * i]? = some c ∧ line[9 + 3 * i + 1]? = some d ∧ HexText [c, d] [m[16 * k + i]]) ∧
          line[57 + i]? = some (if 32 ≤ m[16 * k + i] ∧ m[16 * k + i] < 127 then m[16 * k + i] else 46)) ∧
        (m.length ≤ 16 * k + i → line[9 + 3 * i]? = some cSP ∧ line[9 + 3 * i + 1]? = some cSP ∧ line[57 + i]? = some cSP) := by
  rw [hexdump_lines]
  refine ⟨by simp, ?_⟩
  intro k line hl
  rw [List.getElem?_map] at hl
  by_cases hk : k < (m.length + 15) / 16
  case neg => rw [List.getElem?_eq_none (by simp; omega)] at hl; cases hl
  rw [List.getElem?_range hk] at hl
  cases hl
  refine ⟨by simp [hexLine, hex8_length, hexCols_length, ascCols_length], ?_, ?_, ?_⟩
  · have : (hexLine m (16 * k)).take 8 = hex8 (16 * k) := by
      unfold hexLine; rw [List.append_assoc, List.append_assoc]
      exact List.take_left' (hex8_length _)
    rw [this]
    exact hexNumber_digits 8 (16 * k) (by omega)
  · show (hexLine m (16 * k))[8]? = _
    unfold hexLine
    rw [List.append_assoc, List.append_assoc, List.getElem?_append_right (by simp [hex8_length]), hex8_length]
    rfl
  · intro i hi
    refine ⟨?_, ?_, ?_⟩
    · rw [hexLine_col m _ i 2 hi (by decide)]
      cases m[16 * k + i]? <;> rfl
    · intro h
      have hc := m[16 * k + i].toNat_lt
      refine ⟨⟨hexDigit (m[16 * k + i].toNat / 16), hexDigit (m[16 * k + i].toNat % 16), ?_, ?_, ?_⟩, ?_⟩
      · rw [← Nat.add_zero (9 + 3 * i), hexLine_col m _ i 0 hi (by decide), List.getElem?_eq_getElem h]; rfl
      · rw [hexLine_col m _ i 1 hi (by decide), List.getElem?_eq_getElem h]; rfl
      · exact .cons (hexDigit_digit _ (by omega)) (hexDigit_digit _ (by omega)) .nil
      · rw [hexLine_asc m _ i hi, List.getElem?_eq_getElem h, ascCell]
        generalize m[16 * k + i] = c
        congr 1
        have e : (c < 32 ∨ c > 126) ↔ ¬ (32 ≤ c ∧ c < 127) := by
          simp only [UInt8.lt_iff_toNat_lt, UInt8.le_iff_toNat_le, gt_iff_lt]
          simp
          omega
        by_cases hc : 32 ≤ c ∧ c < 127
        · rw [if_pos hc, if_neg (by rw [e]; simpa using hc)]
        · rw [if_neg hc, if_pos (e.mpr hc)]
    · intro h
      have hn : m[16 * k + i]? = none := List.getElem?_eq_none h
      refine ⟨?_, ?_, ?_⟩
      · rw [← Nat.add_zero (9 + 3 * i), hexLine_col m _ i 0 hi (by decide), hn]; rfl
      · rw [hexLine_col m _ i 1 hi (by decide), hn]; rfl
      · rw [hexLine_asc m _ i hi, hn]; rfl

theorem hexText_inj {s a b : List Byte} (h1 : HexText s a) (h2 : HexText s b) : a = b := by
  induction h1 generalizing b with
  | nil => cases h2; rfl
  | cons hc hd _ ih =>
    rename_i c d x s' bs _
    cases h2 with
    | cons hc' hd' h' =>
      rename_i y bs'
      have hx := x.toNat_lt
      have hy := y.toNat_lt
      have e1 := (hexVal_of_digit _ (by omega) _ hc).1
      have e2 := (hexVal_of_digit _ (by omega) _ hc').1
      have e3 := (hexVal_of_digit _ (by omega) _ hd).1
      have e4 := (hexVal_of_digit _ (by omega) _ hd').1
      rw [e1, Option.some.injEq] at e2
      rw [e3, Option.some.injEq] at e4
      rw [ih h', UInt8.toNat_inj.mp (by omega : x.toNat = y.toNat)]

/-- C48: nothing is lost: different messages are printed differently. -/
theorem C48_injective (m m' : Msg) (hm : m.length ≤ 2 ^ 32) (hm' : m'.length ≤ 2 ^ 32) (h : hexdump m = hexdump m') :
    m = m' := by
  obtain ⟨h1, h2⟩ := C48_hexdump m hm
  obtain ⟨h1', h2'⟩ := C48_hexdump m' hm'
  rw [← h] at h1' h2'
  have key : ∀ j : Nat, m[j]? = m'[j]? := by
    intro j
    have hj : 16 * (j / 16) + j % 16 = j := by omega
    rcases hl : (textLines (hexdump m))[j / 16]? with _ | line
    · rw [List.getElem?_eq_none_iff] at hl
      rw [List.getElem?_eq_none (by omega), List.getElem?_eq_none (by omega)]
    · obtain ⟨_, _, _, g⟩ := h2 _ _ hl
      obtain ⟨_, _, _, g'⟩ := h2' _ _ hl
      obtain ⟨_, ga, gb⟩ := g (j % 16) (by omega)
      obtain ⟨_, ga', gb'⟩ := g' (j % 16) (by omega)
      rw [hj] at gb gb'
      simp only [hj] at ga ga'
      have nosp : ∀ (c d : Byte) (b : Byte), HexText [c, d] [b] → c ≠ cSP := by
        intro c d b hb
        cases hb with
        | cons hc _ _ =>
          have hb := b.toNat_lt
          have := (hexVal_of_digit _ (by omega) _ hc).2.1
          rintro rfl; exact absurd this (by decide)
      by_cases a : j < m.length <;> by_cases b : j < m'.length
      · obtain ⟨⟨c, d, x1, x2, x3⟩, _⟩ := ga a
        obtain ⟨⟨c', d', y1, y2, y3⟩, _⟩ := ga' b
        rw [x1, Option.some.injEq] at y1
        rw [x2, Option.some.injEq] at y2
        subst y1; subst y2
        have := hexText_inj x3 y3
        rw [List.getElem?_eq_getElem a, List.getElem?_eq_getElem b]
        simpa using this
      · obtain ⟨⟨c, d, x1, x2, x3⟩, _⟩ := ga a
        obtain ⟨y1, _⟩ := gb' (by omega)
        rw [x1, Option.some.injEq] at y1
        exact absurd y1 (nosp _ _ _ x3)
      · obtain ⟨⟨c, d, x1, x2, x3⟩, _⟩ := ga' b
        obtain ⟨y1, _⟩ := gb (by omega)
        rw [x1, Option.some.injEq] at y1
        exact absurd y1 (nosp _ _ _ x3)
      · rw [List.getElem?_eq_none (by omega), List.getElem?_eq_none (by omega)]
  exact List.ext_getElem? key

example : hexdump (asc "Hi") = asc "00000000 48 69                                           Hi              \n" := by decide +kernel

/-! ## C51 -/

/-- The suffixes of the option -s and the powers of 1024 they stand for (shr-tool's help text). -/
def suffixes : List (Byte × Nat) :=
  [(107, 1), (75, 1), (109, 2), (77, 2), (103, 3), (71, 3), (116, 4), (84, 4)]

theorem digit_facts {c : Byte} (h : isDigit c = true) : isSpaceC c = false ∧ c ≠ 45 ∧ c ≠ 43 := by
  have : ∀ k : Fin 256, isDigit k.val.toUInt8 = true → isSpaceC k.val.toUInt8 = false ∧ k.val.toUInt8 ≠ 45 ∧
      k.val.toUInt8 ≠ 43 := by decide +kernel
  have h' := this ⟨c.toNat, c.toNat_lt⟩
  dsimp only at h'
  rw [show c.toNat.toUInt8 = c by simp] at h'
  exact h' h

theorem takeWhile_app (p : Byte → Bool) (ds t : List Byte) (h : ∀ c ∈ ds, p c = true) (ht : ∀ c, t.head? = some c → p c = false) :
    (ds ++ t).takeWhile p = ds ∧ (ds ++ t).dropWhile p = t := by
  induction ds with
  | nil =>
    cases t with
    | nil => simp
    | cons c t => simp [ht c rfl]
  | cons d ds ih =>
    have := ih (fun c hc => h c (by simp [hc]))
    simp [h d (by simp), this.1, this.2]

theorem scanSize_digits (ds t : List Byte) (hd : ∀ c ∈ ds, isDigit c = true) (hne : ds ≠ [])
    (hN : decimal ds < 2 ^ 63) (ht : ∀ c, t.head? = some c → isDigit c = false) :
    scanSize (ds ++ t) = (if t = [] then 1 else 2, (decimal ds : Int), t.head?) := by
  obtain ⟨h1, h2⟩ := takeWhile_app isDigit ds t hd ht
  rcases ds with _ | ⟨c, ds⟩
  · exact absurd rfl hne
  obtain ⟨f1, f2, f3⟩ := digit_facts (hd c (by simp))
  rw [scanSize, List.cons_append, List.dropWhile_cons_of_neg (by simp [f1])]
  dsimp only
  have ht' : (if c = 45 ∨ c = 43 then ds ++ t else c :: (ds ++ t)) = c :: ds ++ t := by
    rw [if_neg (by simp [f2, f3]), List.cons_append]
  rw [ht', h1, h2, if_neg (by simp)]
  simp only [f2, decide_false, Bool.false_eq_true, if_false]
  have : max (min (decimal (c :: ds) : Int) (2 ^ 63 - 1)) (-2 ^ 63) = decimal (c :: ds) := by omega
  rw [this]
  cases t <;> rfl

/-- C51: `-s N` with no suffix asks for `N` bytes, with one of the suffixes for `N * 1024 ^ k` (in 64 bits); every other suffix
ends the program with the usage text.  What follows the suffix is ignored. -/
theorem C51_size (ds : List Byte) (hd : ∀ c ∈ ds, isDigit c = true) (hne : ds ≠ []) (hN : decimal ds < 2 ^ 63) (old : Nat) :
    sizeOption ds old = some (decimal ds) ∧
    (∀ u k rest, (u, k) ∈ suffixes → sizeOption (ds ++ u :: rest) old = some (decimal ds * 1024 ^ k % 2 ^ 64)) ∧
    (∀ u rest, isDigit u = false → (∀ k, (u, k) ∉ suffixes) → sizeOption (ds ++ u :: rest) old = none) := by
  have hv : ((decimal ds : Int) % 2 ^ 64).toNat = decimal ds := by omega
  refine ⟨?_, ?_, ?_⟩
  · have := scanSize_digits ds [] hd hne hN (by simp)
    rw [List.append_nil] at this
    rw [sizeOption, this]
    dsimp only
    rw [if_neg (by decide), if_pos (by decide), hv]
    rfl
  · intro u k rest hu
    have hud : isDigit u = false := by
      simp only [suffixes, List.mem_cons, List.not_mem_nil, or_false, Prod.mk.injEq] at hu
      rcases hu with ⟨rfl, _⟩ | ⟨rfl, _⟩ | ⟨rfl, _⟩ | ⟨rfl, _⟩ | ⟨rfl, _⟩ | ⟨rfl, _⟩ | ⟨rfl, _⟩ | ⟨rfl, _⟩ <;> decide
    have hk : unitPow u = some k := by
      simp only [suffixes, List.mem_cons, List.not_mem_nil, or_false, Prod.mk.injEq] at hu
      rcases hu with ⟨rfl, rfl⟩ | ⟨rfl, rfl⟩ | ⟨rfl, rfl⟩ | ⟨rfl, rfl⟩ | ⟨rfl, rfl⟩ | ⟨rfl, rfl⟩ | ⟨rfl, rfl⟩ | ⟨rfl, rfl⟩ <;> decide
    rw [sizeOption, scanSize_digits ds (u :: rest) hd hne hN (by simp [hud]), if_neg (by simp), List.head?_cons]
    dsimp only
    rw [if_neg (by decide), if_pos (by decide), hv, hk]
    simp only [Option.map_some]
    congr 1
    have hmul : ∀ k x, x < 2 ^ 64 → Nat.repeat (fun x => wmul x 1024) k x = x * 1024 ^ k % 2 ^ 64 := by
      intro k
      induction k with
      | zero => intro x hx; rw [Nat.repeat]; omega
      | succ k ih =>
        intro x hx
        rw [Nat.repeat, ih x hx, Nat.pow_succ 1024 k, ← Nat.mul_assoc x]
        simp only [wmul, W]
        omega
    exact hmul k _ (by omega)
  · intro u rest hud hu
    rw [sizeOption, scanSize_digits ds (u :: rest) hd hne hN (by simp [hud]), if_neg (by simp), List.head?_cons]
    dsimp only
    rw [if_neg (by decide)]
    have : unitPow u = none := by
      simp only [suffixes, List.mem_cons, List.not_mem_nil, or_false, Prod.mk.injEq] at hu
      rw [unitPow, if_neg, if_neg, if_neg, if_neg]
      · rintro (rfl | rfl) <;> exact hu 1 (by decide)
      · rintro (rfl | rfl) <;> exact hu 2 (by decide)
      · rintro (rfl | rfl) <;> exact hu 3 (by decide)
      · rintro (rfl | rfl) <;> exact hu 4 (by decide)
    rw [this]
    rfl

/-- C51, in numbers: below the overflow the size is exactly `N * 1024 ^ k`. -/
theorem C51_exact (ds : List Byte) (hd : ∀ c ∈ ds, isDigit c = true) (hne : ds ≠ []) (u : Byte) (k : Nat) (hu : (u, k) ∈ suffixes)
    (hN : decimal ds * 1024 ^ k < 2 ^ 63) (old : Nat) : sizeOption (ds ++ [u]) old = some (decimal ds * 1024 ^ k) := by
  have hp : 0 < 1024 ^ k := Nat.pow_pos (by decide)
  have h1 : decimal ds ≤ decimal ds * 1024 ^ k := Nat.le_mul_of_pos_right _ hp
  rw [(C51_size ds hd hne (by omega) old).2.1 u k [] hu, Nat.mod_eq_of_lt (by omega)]

example : sizeOption (asc "10m") 0 = some 10485760 := by decide +kernel

/-- A negative number is not rejected: it asks for nearly 2^64 bytes. -/
theorem C51_negative_accepted : sizeOption (asc "-1") 0 = some (2 ^ 64 - 1) := by decide +kernel

/-! ## C60 -/

theorem fgets_line (m : Msg) (rest : List Byte) (h1 : cNL ∉ m) (h2 : m.length ≤ 998) :
    fgets1000 (m ++ 10 :: rest) = (m ++ [10], rest) := by
  have : ((m ++ 10 :: rest).takeWhile (· ≠ 10)) = m := by
    refine (takeWhile_app (fun c => decide (c ≠ 10)) m (10 :: rest) ?_ (by simp)).1
    intro c hc
    simp only [decide_eq_true_eq]
    rintro rfl; exact h1 hc
  rw [fgets1000, this]
  rw [show min 999 (m.length + 1) = m.length + 1 by omega]
  refine Prod.ext ?_ ?_
  · simp [List.take_append]
    exact List.take_of_length_le (Nat.le_succ _)
  · simp [List.drop_append]

theorem takeWhile_ne_of_not_mem (a : Byte) (l : List Byte) (h : a ∉ l) : l.takeWhile (· ≠ a) = l := by
  have := (takeWhile_app (fun c => decide (c ≠ a)) l [] (fun c hc => by
    simp only [decide_eq_true_eq]
    rintro rfl; exact h hc) (by simp)).1
  rwa [List.append_nil] at this

theorem lineMsg_line (m : Msg) (h1 : (0 : Byte) ∉ m) : lineMsg (m ++ [10]) = m := by
  rw [lineMsg, takeWhile_ne_of_not_mem 0 _ (by simpa using h1)]
  simp

/-- C60: given lines of at most 998 bytes without NUL (each ended by a newline), `shr-tool write` writes exactly the lines (without
the newlines), one message each and in order, as far as the ring takes them: if `shr_write` fails for one, it stops there
with an error and the lines before it were written. -/
theorem C60_lines (write : Nat → Msg → Int) (i : Nat) (ls : List Msg)
    (h : ∀ l ∈ ls, cNL ∉ l ∧ (0 : Byte) ∉ l ∧ l.length ≤ 998) :
    ((∀ j l, ls[j]? = some l → 0 ≤ write (i + j) l) → writeLoop write i (ls.flatMap fun l => l ++ [10]) = (ls, true)) ∧
    (∀ pre bad post, ls = pre ++ bad :: post → (∀ j l, pre[j]? = some l → 0 ≤ write (i + j) l) → write (i + pre.length) bad < 0 →
      writeLoop write i (ls.flatMap fun l => l ++ [10]) = (pre ++ [bad], false)) := by
  induction ls generalizing i with
  | nil =>
    refine ⟨?_, ?_⟩
    · intro _; rw [List.flatMap_nil, writeLoop, dif_pos rfl]
    · intro pre bad post he; simp at he
  | cons l ls ih =>
    obtain ⟨ih1, ih2⟩ := ih (i + 1) (fun x hx => h x (by simp [hx]))
    obtain ⟨h1, h2, h3⟩ := h l (by simp)
    have hf := fgets_line l (ls.flatMap fun l => l ++ [10]) h1 h3
    have hne : l ++ 10 :: ls.flatMap (fun l => l ++ [10]) ≠ [] := by simp
    refine ⟨?_, ?_⟩
    · intro hw
      rw [List.flatMap_cons, List.append_assoc, List.singleton_append, writeLoop, dif_neg hne, hf]
      dsimp only
      have : 0 ≤ write i l := hw 0 l (by simp)
      rw [lineMsg_line l h2, if_neg (by omega), ih1 (fun j x hx => by
        have := hw (j + 1) x (by simpa using hx)
        rwa [show i + (j + 1) = i + 1 + j by omega] at this)]
    · intro pre bad post he hw hb
      rw [List.flatMap_cons, List.append_assoc, List.singleton_append, writeLoop, dif_neg hne, hf]
      dsimp only
      rw [lineMsg_line l h2]
      cases pre with
      | nil =>
        simp only [List.nil_append, List.cons.injEq] at he
        rw [he.1, if_pos (show write i bad < 0 from hb)]; rfl
      | cons p pre =>
        simp only [List.cons_append, List.cons.injEq] at he
        have : 0 ≤ write i p := hw 0 p (by simp)
        rw [he.1, if_neg (by omega), ih2 pre bad post he.2 (fun j x hx => by
          have := hw (j + 1) x (by simpa using hx)
          rwa [show i + (j + 1) = i + 1 + j by omega] at this) (by
            rwa [List.length_cons, show i + (pre.length + 1) = i + 1 + pre.length by omega] at hb)]
        rfl

/-- C60: the last line need not be ended by a newline. -/
theorem C60_last_line (write : Nat → Msg → Int) (i : Nat) (l : Msg) (h1 : cNL ∉ l) (h2 : (0 : Byte) ∉ l) (h3 : l.length ≤ 999) (h4 : l ≠ [])
    (hw : 0 ≤ write i l) : writeLoop write i l = ([l], true) := by
  have hf : fgets1000 l = (l, []) := by
    rw [fgets1000, takeWhile_ne_of_not_mem 10 l h1]
    have : l.length ≤ min 999 (l.length + 1) := by omega
    rw [List.take_of_length_le this, List.drop_eq_nil_of_le this]
  have hl : lineMsg l = l := by
    rw [lineMsg, takeWhile_ne_of_not_mem 0 l h2]
    rw [if_neg]
    intro he
    exact h1 (List.mem_of_getLast? he)
  rw [writeLoop, dif_neg h4, hf]
  dsimp only
  rw [hl, if_neg (by omega), writeLoop, dif_pos rfl]

/-- C60, limit: a line of 999 bytes or more is not one message: the first 999 bytes are written by themselves. -/
theorem C60_long_line_split (write : Nat → Msg → Int) (i : Nat) (l : Msg) (rest : List Byte) (h1 : cNL ∉ l) (h2 : (0 : Byte) ∉ l)
    (h3 : l.length = 999) (hw : 0 ≤ write i l) :
    writeLoop write i (l ++ rest) = (l :: (writeLoop write (i + 1) rest).1, (writeLoop write (i + 1) rest).2) := by
  have hle : l.length ≤ ((l ++ rest).takeWhile (· ≠ 10)).length := by
    rw [List.takeWhile_append, takeWhile_ne_of_not_mem 10 l h1, if_pos rfl, List.length_append]
    omega
  have hf : fgets1000 (l ++ rest) = (l, rest) := by
    rw [fgets1000]
    rw [show min 999 (((l ++ rest).takeWhile (· ≠ 10)).length + 1) = l.length by omega]
    simp
  have hl : lineMsg l = l := by
    rw [lineMsg, takeWhile_ne_of_not_mem 0 l h2]
    rw [if_neg]
    intro he
    exact h1 (List.mem_of_getLast? he)
  have hne : l ++ rest ≠ [] := by
    intro he
    rw [List.append_eq_nil_iff] at he
    rw [he.1] at h3; cases h3
  rw [writeLoop, dif_neg hne, hf]
  dsimp only
  rw [hl, if_neg (by omega : ¬ write i l < 0)]

/-- C60, limit: a NUL byte and what follows it on the line are not written. -/
theorem C60_nul_truncates (write : Nat → Msg → Int) (i : Nat) (a b rest : List Byte) (h1 : cNL ∉ a ++ 0 :: b) (h2 : (0 : Byte) ∉ a)
    (h3 : (a ++ 0 :: b).length ≤ 998) (hw : 0 ≤ write i a) :
    writeLoop write i (a ++ 0 :: b ++ 10 :: rest) = (a :: (writeLoop write (i + 1) rest).1, (writeLoop write (i + 1) rest).2) := by
  have hl : lineMsg (a ++ 0 :: b ++ [10]) = a := by
    have : (a ++ 0 :: b ++ [10]).takeWhile (· ≠ 0) = a := by
      rw [List.append_assoc]
      refine (takeWhile_app (fun c => decide (c ≠ 0)) a (0 :: b ++ [10]) ?_ (by simp)).1
      intro c hc
      simp only [decide_eq_true_eq]
      rintro rfl; exact h2 hc
    rw [lineMsg, this]
    rw [if_neg]
    intro he
    exact h1 (List.mem_append_left _ (List.mem_of_getLast? he))
  rw [writeLoop, dif_neg (by simp), fgets_line _ rest h1 h3]
  dsimp only
  rw [hl, if_neg (by omega)]

example : writeLoop (fun _ m => m.length) 0 (asc "hello\nworld\n") = ([asc "hello", asc "world"], true) := by decide +kernel

end Shr
