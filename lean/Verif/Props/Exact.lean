import Verif.Props.Main
import Verif.Props.ToolHex
import Verif.Props.Args
import Verif.Props.Total
import Verif.Props.Read
/-! # C90, C91: exactly what shr-tool makes of numbers, addresses and hexadecimal text -/
namespace Shr

/-! ## Numbers -/

/-- A blank of the C locale. -/
def Blank (c : Byte) : Prop := c = 9 ∨ c = 10 ∨ c = 11 ∨ c = 12 ∨ c = 13 ∨ c = 32
/-- A decimal digit. -/
def Dig (c : Byte) : Prop := 48 ≤ c ∧ c ≤ 57

/-- The text begins, behind blanks, with a decimal number of the value `v`: an optional sign and at least one digit, and as many digits as there are. -/
def IntText (s : List Byte) (v : Int) : Prop :=
  ∃ bl sign ds rest, s = bl ++ sign ++ ds ++ rest ∧ (∀ c ∈ bl, Blank c) ∧ (sign = [] ∨ sign = asc "+" ∨ sign = asc "-") ∧
    ds ≠ [] ∧ (∀ c ∈ ds, Dig c) ∧ (∀ c, rest.head? = some c → ¬ Dig c) ∧ v = if sign = asc "-" then -(decimal ds : Int) else decimal ds

/-- The number of 32 bits that becomes of a number: the last 32 bits of it, if it has 64 bits; -1 if it is greater, 0 if it is less. -/
def IntOf (v x : Int) : Prop :=
  -2 ^ 31 ≤ x ∧ x < 2 ^ 31 ∧
  (-2 ^ 63 ≤ v → v < 2 ^ 63 → ∃ k, x = v + k * 2 ^ 32) ∧ (2 ^ 63 ≤ v → x = -1) ∧ (v < -2 ^ 63 → x = 0)

theorem blank_iff (c : Byte) : isSpaceC c = true ↔ Blank c := by
  have : ∀ n : Fin 256, isSpaceC (UInt8.ofNat n.val) = true ↔ (UInt8.ofNat n.val = 9 ∨ UInt8.ofNat n.val = 10 ∨ UInt8.ofNat n.val = 11 ∨ UInt8.ofNat n.val = 12 ∨ UInt8.ofNat n.val = 13 ∨ UInt8.ofNat n.val = 32) := by decide +kernel
  have h := this ⟨c.toNat, c.toNat_lt⟩
  simpa [Blank] using h

theorem dig_iff (c : Byte) : isDigit c = true ↔ Dig c := by unfold isDigit Dig; simp

theorem sign_not_dig {c : Byte} (h : Dig c) : c ≠ 43 ∧ c ≠ 45 ∧ ¬ Blank c := by
  unfold Dig Blank at *
  simp only [UInt8.le_iff_toNat_le, ← UInt8.toNat_inj, ne_eq] at *
  simp at *
  omega

theorem dropWhile_blank {bl t : List Byte} (h : ∀ c ∈ bl, Blank c) (ht : ∀ c, t.head? = some c → ¬ Blank c) : (bl ++ t).dropWhile isSpaceC = t := by
  induction bl with
  | nil =>
    cases t with
    | nil => rfl
    | cons c t =>
      rw [List.nil_append, List.dropWhile_cons_of_neg]
      rw [blank_iff]; exact ht c rfl
  | cons b bl ih =>
    rw [List.cons_append, List.dropWhile_cons_of_pos ((blank_iff b).2 (h b (by simp)))]
    exact ih fun c hc => h c (by simp [hc])

theorem takeWhile_dig {ds rest : List Byte} (h : ∀ c ∈ ds, Dig c) (ht : ∀ c, rest.head? = some c → ¬ Dig c) : (ds ++ rest).takeWhile isDigit = ds := by
  induction ds with
  | nil =>
    cases rest with
    | nil => rfl
    | cons c t =>
      rw [List.nil_append, List.takeWhile_cons_of_neg]
      rw [dig_iff]; exact ht c rfl
  | cons b ds ih =>
    rw [List.cons_append, List.takeWhile_cons_of_pos ((dig_iff b).2 (h b (by simp)))]
    rw [ih fun c hc => h c (by simp [hc])]

theorem takeWhile_dig' (s : List Byte) : (∀ c ∈ s.takeWhile isDigit, Dig c) ∧
    ∃ rest, s = s.takeWhile isDigit ++ rest ∧ ∀ c, rest.head? = some c → ¬ Dig c := by
  refine ⟨fun c hc => (dig_iff c).1 ((takeWhile_all _ _).1 c hc), s.dropWhile isDigit, (List.takeWhile_append_dropWhile ..).symm, ?_⟩
  intro c hc hd
  have := List.head?_dropWhile_not isDigit s
  rw [hc] at this
  simp [(dig_iff c).2 hd] at this

/-- `strtol` before saturation. -/
theorem strtol10_of {s : List Byte} {v : Int} (h : IntText s v) : strtol10 s = max (min v (2 ^ 63 - 1)) (- 2 ^ 63) := by
  obtain ⟨bl, sign, ds, rest, rfl, h1, h2, h3, h4, h5, rfl⟩ := h
  obtain ⟨d, ds', rfl⟩ := List.exists_cons_of_ne_nil h3
  have hd := h4 d (by simp)
  obtain ⟨n1, n2, n3⟩ := sign_not_dig hd
  have hn : sign = [] ∨ sign = [43] ∨ sign = [45] := h2
  have key : (bl ++ sign ++ (d :: ds') ++ rest).dropWhile isSpaceC = sign ++ (d :: ds') ++ rest := by
    rw [show bl ++ sign ++ (d :: ds') ++ rest = bl ++ (sign ++ (d :: ds') ++ rest) by simp]
    refine dropWhile_blank h1 fun c hc => ?_
    rcases hn with rfl | rfl | rfl
    · simp at hc; subst hc; exact n3
    · simp at hc; subst hc; unfold Blank; decide
    · simp at hc; subst hc; unfold Blank; decide
  unfold strtol10
  rw [key]
  rcases hn with rfl | rfl | rfl
  all_goals
    have ht := takeWhile_dig (ds := d :: ds') (rest := rest) h4 h5
    have h45 : asc "-" = [45] := rfl
    rw [h45]
    simp only [List.cons_append, List.nil_append] at ht ⊢
  · simp only [n1, n2, or_self, if_false, ht]
    simp
  · simp only [show ((43 : Byte) = 45) = False by simp, or_true, if_true, ht, if_false]
    simp
  · simp only [true_or, if_true, ht]

theorem strtol10_none {s : List Byte} (h : ∀ v, ¬ IntText s v) : strtol10 s = 0 := by
  unfold strtol10
  cases hs : s.dropWhile isSpaceC with
  | nil => rfl
  | cons c t =>
    dsimp only
    have hsp : s = s.takeWhile isSpaceC ++ (c :: t) := by rw [← hs, List.takeWhile_append_dropWhile]
    have hbl : ∀ c ∈ s.takeWhile isSpaceC, Blank c := fun c hc => (blank_iff c).1 ((takeWhile_all _ _).1 c hc)
    generalize s.takeWhile isSpaceC = bl at hsp hbl
    have key : ((if c = 45 ∨ c = 43 then t else c :: t).takeWhile isDigit) = [] := by
      by_cases hsg : c = 45 ∨ c = 43
      · rw [if_pos hsg]
        obtain ⟨g1, rest, g2, g3⟩ := takeWhile_dig' t
        by_cases hne : t.takeWhile isDigit = []
        · exact hne
        · exfalso
          refine h _ ⟨bl, [c], t.takeWhile isDigit, rest, ?_, hbl, ?_, hne, g1, g3, rfl⟩
          · rw [hsp]; simp [← g2]
          · rcases hsg with rfl | rfl
            · exact .inr (.inr rfl)
            · exact .inr (.inl rfl)
      · rw [if_neg hsg]
        obtain ⟨g1, rest, g2, g3⟩ := takeWhile_dig' (c :: t)
        by_cases hne : (c :: t).takeWhile isDigit = []
        · exact hne
        · exfalso
          exact h _ ⟨bl, [], (c :: t).takeWhile isDigit, rest, by rw [hsp]; simp [← g2], hbl, .inl rfl, hne, g1, g3, rfl⟩
    rw [key]
    have : (decimal [] : Int) = 0 := by decide
    rw [this]
    split <;> decide

theorem IntOf_of {v : Int} : IntOf v (toInt32 (max (min v (2 ^ 63 - 1)) (- 2 ^ 63))) := by
  unfold IntOf toInt32
  refine ⟨by omega, by omega, fun h1 h2 => ?_, fun h => by omega, fun h => by omega⟩
  refine ⟨-((v + 2 ^ 31) / 2 ^ 32), ?_⟩
  have : max (min v (2 ^ 63 - 1)) (- 2 ^ 63) = v := by omega
  rw [this]
  omega

theorem IntOf_unique {v x y : Int} (hx : IntOf v x) (hy : IntOf v y) : x = y := by
  obtain ⟨a1, a2, a3, a4, a5⟩ := hx
  obtain ⟨b1, b2, b3, b4, b5⟩ := hy
  by_cases h1 : 2 ^ 63 ≤ v
  · rw [a4 h1, b4 h1]
  by_cases h2 : v < -2 ^ 63
  · rw [a5 h2, b5 h2]
  obtain ⟨k, hk⟩ := a3 (by omega) (by omega)
  obtain ⟨l, hl⟩ := b3 (by omega) (by omega)
  omega

/-- **C90.** What a number given to -N, -H or as a port means: the number at the beginning of the text, in 32 bits; 0 if there is none. -/
theorem C90_number (s : List Byte) (x : Int) :
    atoi s = x ↔ (∃ v, IntText s v ∧ IntOf v x) ∨ ((∀ v, ¬ IntText s v) ∧ x = 0) := by
  unfold atoi
  by_cases h : ∃ v, IntText s v
  · obtain ⟨v, hv⟩ := h
    rw [strtol10_of hv]
    constructor
    · rintro rfl; exact .inl ⟨v, hv, IntOf_of⟩
    · rintro (⟨w, hw, hx⟩ | ⟨hn, _⟩)
      · have e : max (min v (2 ^ 63 - 1)) (- 2 ^ 63) = max (min w (2 ^ 63 - 1)) (- 2 ^ 63) := by rw [← strtol10_of hv, strtol10_of hw]
        rw [e]
        exact IntOf_unique IntOf_of hx
      · exact absurd hv (hn v)
  · have h' : ∀ v, ¬ IntText s v := fun v hv => h ⟨v, hv⟩
    rw [strtol10_none h']
    constructor
    · rintro rfl; exact .inr ⟨h', by decide⟩
    · rintro (⟨w, hw, _⟩ | ⟨_, rfl⟩)
      · exact absurd hw (h' w)
      · decide

/-- **C90.** As a maximum number of messages, a negative number stands for 2^64 and this. -/
theorem C90_as_size (x : Int) (h1 : -2 ^ 31 ≤ x) (h2 : x < 2 ^ 31) : (intToSize x : Int) = if 0 ≤ x then x else 2 ^ 64 + x := by
  unfold intToSize
  split <;> omega

/-- **C90.** Exactly which addresses are accepted, and what they mean: without a colon, all interfaces, and a port; otherwise the text
before the first colon is the host, and the text after it the port. -/
theorem C90_address (resolve : List Byte → Option (List Byte)) (spec : List Byte) (port : Nat) (addr : List Byte) :
    parse_spec resolve spec = some (port, addr) ↔
      1 ≤ port ∧ port ≤ 65535 ∧ ∃ text v, IntText text v ∧ IntOf v port ∧
        ((58 ∉ spec ∧ text = spec ∧ addr = [0, 0, 0, 0]) ∨ (∃ host, spec = host ++ 58 :: text ∧ 58 ∉ host ∧ resolve host = some addr)) := by
  have go : ∀ (p ad : List Byte), ((if atoi p ≤ 0 ∨ atoi p > 65535 then none else some ((atoi p).toNat, ad)) = some (port, addr)) ↔
      1 ≤ port ∧ port ≤ 65535 ∧ (∃ v, IntText p v ∧ IntOf v port) ∧ ad = addr := by
    intro p ad
    by_cases hb : atoi p ≤ 0 ∨ atoi p > 65535
    · rw [if_pos hb]
      constructor
      · intro h; cases h
      · rintro ⟨h1, h2, ⟨v, hv, hx⟩, _⟩
        have := (C90_number p port).2 (.inl ⟨v, hv, hx⟩)
        omega
    · rw [if_neg hb]
      constructor
      · intro h
        cases h
        refine ⟨by omega, by omega, ?_, rfl⟩
        rcases (C90_number p (atoi p)).1 rfl with ⟨v, hv, hx⟩ | ⟨_, h0⟩
        · exact ⟨v, hv, by rw [show (((atoi p).toNat : Nat) : Int) = atoi p by omega]; exact hx⟩
        · omega
      · rintro ⟨h1, h2, ⟨v, hv, hx⟩, rfl⟩
        have := (C90_number p port).2 (.inl ⟨v, hv, hx⟩)
        simp [this]
  unfold parse_spec
  by_cases hc : 58 ∈ spec
  · simp only [if_pos hc]
    obtain ⟨host, text, rfl, hh⟩ := List.append_of_mem hc |> fun ⟨_, _, _⟩ => List.eq_append_cons_of_mem hc
    have htw : (host ++ 58 :: text).takeWhile (fun x => decide (x ≠ 58)) = host := by
      rw [List.takeWhile_append_of_pos (by intro x hx; simp; rintro rfl; exact hh hx)]; simp
    have hdw : (host ++ 58 :: text).dropWhile (fun x => decide (x ≠ 58)) = 58 :: text := by
      rw [List.dropWhile_append_of_pos (by intro x hx; simp; rintro rfl; exact hh hx)]; simp
    rw [htw, hdw, List.drop_one, List.tail_cons]
    have split_unique : ∀ host' text', host ++ 58 :: text = host' ++ 58 :: text' → 58 ∉ host' → host' = host ∧ text' = text := by
      intro host' text' e hh'
      have e1 := congrArg (List.takeWhile (fun x => decide (x ≠ 58))) e
      have e2 := congrArg (List.dropWhile (fun x => decide (x ≠ 58))) e
      rw [htw, List.takeWhile_append_of_pos (by intro x hx; simp; rintro rfl; exact hh' hx)] at e1
      rw [hdw, List.dropWhile_append_of_pos (by intro x hx; simp; rintro rfl; exact hh' hx)] at e2
      simp at e1 e2
      exact ⟨e1.symm, e2.symm⟩
    cases hr : resolve host with
    | none =>
      simp only
      constructor
      · intro h; cases h
      · rintro ⟨_, _, t, v, _, _, ⟨h, _⟩ | ⟨host', e, hh', hr'⟩⟩
        · exact absurd hc h
        · obtain ⟨rfl, rfl⟩ := split_unique _ _ e hh'
          rw [hr] at hr'; cases hr'
    | some ad =>
      simp only
      rw [go text ad]
      constructor
      · rintro ⟨h1, h2, ⟨v, hv, hx⟩, rfl⟩
        exact ⟨h1, h2, text, v, hv, hx, .inr ⟨host, rfl, hh, hr⟩⟩
      · rintro ⟨h1, h2, t, v, hv, hx, ⟨h, _⟩ | ⟨host', e, hh', hr'⟩⟩
        · exact absurd hc h
        · obtain ⟨rfl, rfl⟩ := split_unique _ _ e hh'
          rw [hr] at hr'; cases hr'
          exact ⟨h1, h2, ⟨v, hv, hx⟩, rfl⟩
  · simp only [if_neg hc]
    rw [go spec [0, 0, 0, 0]]
    constructor
    · rintro ⟨h1, h2, ⟨v, hv, hx⟩, rfl⟩
      exact ⟨h1, h2, spec, v, hv, hx, .inl ⟨hc, rfl, rfl⟩⟩
    · rintro ⟨h1, h2, t, v, hv, hx, ⟨_, rfl, rfl⟩ | ⟨host', rfl, _, _⟩⟩
      · exact ⟨h1, h2, ⟨v, hv, hx⟩, rfl⟩
      · exact absurd (by simp) hc

/-- An address with blanks, a sign, a number of more than 32 bits and a comma behind it: port 80. -/
example : parse_spec (fun _ => some [127, 0, 0, 1]) (asc "localhost: +4294967376,") = some (80, [127, 0, 0, 1]) := by
  refine (C90_address _ _ _ _).2 ⟨by omega, by omega, asc " +4294967376,", 4294967376, ⟨asc " ", asc "+", asc "4294967376", asc ",", by decide +kernel, ?_, by decide +kernel, by decide +kernel, ?_, ?_, by decide +kernel⟩, ?_,
    .inr ⟨asc "localhost", by decide +kernel, by decide +kernel, rfl⟩⟩
  · intro c hc; rw [← blank_iff]; revert c; decide +kernel
  · intro c hc; rw [← dig_iff]; revert c; decide +kernel
  · intro c hc; rw [← dig_iff]
    rw [show (asc ",").head? = some 44 from by decide +kernel] at hc
    cases hc; decide
  · exact ⟨by omega, by omega, fun _ _ => ⟨-1, by omega⟩, by omega, by omega⟩

/-! ## Hexadecimal text -/

/-- What the text begins with, read as at most two characters of a hexadecimal number: two digits; one digit, if no other follows (and not the
beginning of "0x"); or a sign and a digit, where a minus is good for zero only.  (`lax`: "0x" counts as zero, as in some versions of glibc.) -/
inductive Hex2 (lax : Bool) : List Byte → Nat → Prop
  | two {c d : Byte} {m n : Nat} (rest : List Byte) : m < 16 → n < 16 → IsHexDigit c m → IsHexDigit d n → Hex2 lax (c :: d :: rest) (16 * m + n)
  | one {c : Byte} {m : Nat} (rest : List Byte) : m < 16 → IsHexDigit c m →
      (∀ d, rest.head? = some d → (∀ n < 16, ¬ IsHexDigit d n) ∧ ¬ (m = 0 ∧ (d = 120 ∨ d = 88))) → Hex2 lax (c :: rest) m
  | plus {c : Byte} {m : Nat} (rest : List Byte) : m < 16 → IsHexDigit c m → Hex2 lax (43 :: c :: rest) m
  | minus (rest : List Byte) : Hex2 lax (45 :: 48 :: rest) 0
  | x {d : Byte} (rest : List Byte) : lax = true → d = 120 ∨ d = 88 → Hex2 lax (48 :: d :: rest) 0

/-- Behind any blanks. -/
def HexAt (lax : Bool) (s : List Byte) (v : Nat) : Prop := ∃ bl t, s = bl ++ t ∧ (∀ c ∈ bl, Blank c) ∧ Hex2 lax t v

/-- Behind any blanks, a minus and a digit other than 0. -/
def MinusAt (s : List Byte) : Prop :=
  ∃ bl c m rest, s = bl ++ 45 :: c :: rest ∧ (∀ c ∈ bl, Blank c) ∧ 0 < m ∧ m < 16 ∧ IsHexDigit c m

theorem hexVal_iff (c : Byte) (n : Nat) : hexVal c = some n ↔ n < 16 ∧ IsHexDigit c n := by
  constructor
  · intro h
    have hn := hexVal_lt c n h
    refine ⟨hn, ?_⟩
    have : ∀ k : Fin 256, ∀ n : Fin 16, hexVal k.val.toUInt8 = some n.val → IsHexDigit k.val.toUInt8 n.val := by decide +kernel
    have h2 := this ⟨c.toNat, c.toNat_lt⟩ ⟨n, hn⟩
    dsimp only at h2
    rw [show c.toNat.toUInt8 = c by simp] at h2
    exact h2 h
  · rintro ⟨h1, h2⟩
    exact (hexVal_of_digit n h1 c h2).1

theorem hexVal_none {c : Byte} : hexVal c = none ↔ ∀ n < 16, ¬ IsHexDigit c n := by
  constructor
  · intro h n hn hd
    rw [(hexVal_iff c n).2 ⟨hn, hd⟩] at h; cases h
  · intro h
    cases hv : hexVal c with
    | none => rfl
    | some n => exact absurd ((hexVal_iff c n).1 hv).2 (h n ((hexVal_iff c n).1 hv).1)

theorem hex_zero {c : Byte} (h : hexVal c = some 0) : c = 48 := by
  have : ∀ k : Fin 256, hexVal k.val.toUInt8 = some 0 → k.val.toUInt8 = 48 := by decide +kernel
  have h2 := this ⟨c.toNat, c.toNat_lt⟩
  dsimp only at h2
  rw [show c.toNat.toUInt8 = c by simp] at h2
  exact h2 h

theorem hex_not_blank {c : Byte} {n : Nat} (hn : n < 16) (h : IsHexDigit c n) : ¬ Blank c ∧ c ≠ 43 ∧ c ≠ 45 ∧ hexVal c = some n ∧ c ≠ 120 ∧ c ≠ 88 := by
  obtain ⟨h1, h2, h3, h4, h5, h6⟩ := hexVal_of_digit n hn c h
  exact ⟨(fun hb => by rw [(blank_iff c).2 hb] at h2; cases h2), h3, h4, h1, h5, h6⟩

/-- `%2x` behind the blanks. -/
def scanT (lax : Bool) : List Byte → Option Nat
  | [] => none
  | c :: t =>
    if c = 43 then t.head?.bind hexVal
    else if c = 45 then (t.head?.bind hexVal).map fun d => (2 ^ 32 - d) % 2 ^ 32
    else match hexVal c with
      | none => none
      | some d =>
        match t with
        | [] => some d
        | c' :: _ =>
          if c = 48 ∧ (c' = 120 ∨ c' = 88) then (if lax then some 0 else none)
          else match hexVal c' with
            | none => some d
            | some d' => some (16 * d + d')

theorem scan2x_eq (lax : Bool) (s : List Byte) : scan2x lax s = scanT lax (s.dropWhile isSpaceC) := by
  unfold scan2x scanT
  cases s.dropWhile isSpaceC <;> rfl

theorem scanT_of {lax : Bool} {t : List Byte} {v : Nat} (h : Hex2 lax t v) :
    scanT lax t = some v ∧ v ≤ 255 ∧ ∀ c, t.head? = some c → ¬ Blank c := by
  cases h with
  | two rest hm hn hc hd =>
    rename_i c d m n
    obtain ⟨b1, b2, b3, b4, _⟩ := hex_not_blank hm hc
    obtain ⟨_, _, _, d4, d5, d6⟩ := hex_not_blank hn hd
    refine ⟨?_, by omega, by rintro _ ⟨⟩; exact b1⟩
    simp [scanT, b2, b3, b4, d4, d5, d6]
  | one rest hm hc hr =>
    rename_i c
    obtain ⟨b1, b2, b3, b4, _⟩ := hex_not_blank hm hc
    refine ⟨?_, by omega, by rintro _ ⟨⟩; exact b1⟩
    cases rest with
    | nil => simp [scanT, b2, b3, b4]
    | cons d rest =>
      obtain ⟨r1, r2⟩ := hr d rfl
      have : ¬ (c = 48 ∧ (d = 120 ∨ d = 88)) := by
        rintro ⟨rfl, h⟩
        have : hexVal 48 = some 0 := by decide
        rw [this] at b4; cases b4
        exact r2 ⟨rfl, h⟩
      simp only [scanT, b2, b3, b4, if_false, if_neg this, hexVal_none.2 r1]
  | plus rest hm hc =>
    obtain ⟨_, _, _, b4, _⟩ := hex_not_blank hm hc
    exact ⟨by simp [scanT, b4], by omega, by rintro _ ⟨⟩; unfold Blank; decide⟩
  | minus rest =>
    exact ⟨by simp [scanT, show hexVal 48 = some 0 by decide], by omega, by rintro _ ⟨⟩; unfold Blank; decide⟩
  | x rest hl hd =>
    refine ⟨?_, by omega, by rintro _ ⟨⟩; unfold Blank; decide⟩
    simp [scanT, show hexVal 48 = some 0 by decide, hd, hl]

theorem scanT_inv {lax : Bool} {t : List Byte} {v : Nat} (h : scanT lax t = some v) :
    (v ≤ 255 ∧ Hex2 lax t v) ∨ (255 < v ∧ ∃ c m rest, t = 45 :: c :: rest ∧ 0 < m ∧ m < 16 ∧ IsHexDigit c m) := by
  cases t with
  | nil => cases h
  | cons c t =>
    unfold scanT at h
    dsimp only at h
    by_cases h1 : c = 43
    · rw [if_pos h1] at h; subst h1
      cases t with
      | nil => cases h
      | cons d t =>
        have hv := (hexVal_iff d v).1 h
        exact .inl ⟨by omega, .plus t hv.1 hv.2⟩
    rw [if_neg h1] at h
    by_cases h2 : c = 45
    · rw [if_pos h2] at h; subst h2
      cases t with
      | nil => cases h
      | cons d t =>
        obtain ⟨m, hm, rfl⟩ := Option.map_eq_some_iff.1 h
        have hm' : hexVal d = some m := hm
        have hv := (hexVal_iff d m).1 hm'
        by_cases h0 : m = 0
        · subst h0
          rw [hex_zero hm']
          exact .inl ⟨by omega, .minus t⟩
        · exact .inr ⟨by omega, d, m, t, rfl, by omega, hv.1, hv.2⟩
    rw [if_neg h2] at h
    left
    cases hc : hexVal c with
    | none => rw [hc] at h; cases h
    | some m =>
      rw [hc] at h
      have hv := (hexVal_iff c m).1 hc
      cases t with
      | nil =>
        cases h
        exact ⟨by omega, .one [] hv.1 hv.2 (by rintro _ ⟨⟩)⟩
      | cons d t =>
        dsimp only at h
        by_cases h3 : c = 48 ∧ (d = 120 ∨ d = 88)
        · rw [if_pos h3] at h
          cases lax with
          | false => cases h
          | true =>
            cases h
            rw [h3.1]
            exact ⟨by omega, .x t rfl h3.2⟩
        · rw [if_neg h3] at h
          cases hd : hexVal d with
          | none =>
            rw [hd] at h; cases h
            refine ⟨by omega, .one (d :: t) hv.1 hv.2 ?_⟩
            rintro _ ⟨⟩
            refine ⟨hexVal_none.1 hd, ?_⟩
            rintro ⟨rfl, h⟩
            exact h3 ⟨hex_zero hc, h⟩
          | some n =>
            rw [hd] at h; cases h
            have hw := (hexVal_iff d n).1 hd
            exact ⟨by omega, .two t hv.1 hw.1 hv.2 hw.2⟩

theorem scan2x_iff (lax : Bool) (s : List Byte) (v : Nat) : (scan2x lax s = some v ∧ v ≤ 255) ↔ HexAt lax s v := by
  rw [scan2x_eq]
  constructor
  · rintro ⟨h, hv⟩
    rcases scanT_inv h with ⟨_, h2⟩ | ⟨h2, _⟩
    · exact ⟨s.takeWhile isSpaceC, _, (List.takeWhile_append_dropWhile ..).symm, fun c hc => (blank_iff c).1 ((takeWhile_all _ _).1 c hc), h2⟩
    · omega
  · rintro ⟨bl, t, rfl, h1, h2⟩
    obtain ⟨g1, g2, g3⟩ := scanT_of h2
    rw [dropWhile_blank h1 g3]
    exact ⟨g1, g2⟩

theorem scan2x_minus (lax : Bool) (s : List Byte) : (∃ v, scan2x lax s = some v ∧ 255 < v) ↔ MinusAt s := by
  rw [scan2x_eq]
  constructor
  · rintro ⟨v, h, hv⟩
    rcases scanT_inv h with ⟨h2, _⟩ | ⟨_, c, m, rest, h2, h3, h4, h5⟩
    · omega
    · exact ⟨s.takeWhile isSpaceC, c, m, rest, by rw [← h2, List.takeWhile_append_dropWhile], fun c hc => (blank_iff c).1 ((takeWhile_all _ _).1 c hc), h3, h4, h5⟩
  · rintro ⟨bl, c, m, rest, rfl, h1, h3, h4, h5⟩
    rw [dropWhile_blank h1 (by rintro _ ⟨⟩; unfold Blank; decide)]
    obtain ⟨_, _, _, b4, _⟩ := hex_not_blank h4 h5
    refine ⟨2 ^ 32 - m, ?_, by omega⟩
    simp [scanT, b4]
    omega

theorem unhexLoop_total (lax : Bool) : ∀ (n k : Nat) (h : List Byte), h.length = 2 * (k + n) →
    (∀ out, unhexLoop lax n (2 * k) h = .ok out ↔
      ∃ bs : List Byte, bs.length = n ∧ out = h.take k ++ bs ∧ ∀ (j : Nat) b, bs[j]? = some b → HexAt lax (h.drop (2 * (k + j))) b.toNat) ∧
    (unhexLoop lax n (2 * k) h = .abort ↔
      ∃ i, i < n ∧ MinusAt (h.drop (2 * (k + i))) ∧ ∀ j < i, ∃ v, HexAt lax (h.drop (2 * (k + j))) v)
  | 0, k, h, hl => by
    rw [unhexLoop, show 2 * k / 2 = k by omega]
    refine ⟨fun out => ?_, ?_⟩
    · constructor
      · rintro ⟨⟩; exact ⟨[], rfl, by simp, by simp⟩
      · rintro ⟨bs, h1, h2, _⟩
        rw [List.length_eq_zero_iff.1 h1, List.append_nil] at h2
        rw [h2]
    · constructor
      · rintro ⟨⟩
      · rintro ⟨i, hi, _⟩; omega
  | n + 1, k, h, hl => by
    rw [unhexLoop]
    cases hs : scan2x lax (h.drop (2 * k)) with
    | none =>
      have n1 : ∀ v, ¬ HexAt lax (h.drop (2 * k)) v := fun v hv => by
        have := ((scan2x_iff lax _ v).2 hv).1
        rw [hs] at this; cases this
      have n2 : ¬ MinusAt (h.drop (2 * k)) := fun hm => by
        obtain ⟨v, h1, _⟩ := (scan2x_minus lax _).2 hm
        rw [hs] at h1; cases h1
      refine ⟨fun out => ⟨(fun e => by cases e), ?_⟩, (fun e => by cases e), ?_⟩
      · rintro ⟨bs, h1, _, h3⟩
        cases bs with
        | nil => cases h1
        | cons b bs => exact absurd (h3 0 b rfl) (n1 _)
      · rintro ⟨i, hi, hm, hj⟩
        cases i with
        | zero => exact absurd hm n2
        | succ i => obtain ⟨v, hv⟩ := hj 0 (by omega); exact absurd hv (n1 v)
    | some u =>
      dsimp only
      by_cases hu : u > 255
      · rw [if_pos hu]
        have n1 : ∀ v, ¬ HexAt lax (h.drop (2 * k)) v := fun v hv => by
          have := (scan2x_iff lax _ v).2 hv
          rw [hs] at this; obtain ⟨⟨⟩, _⟩ := this; omega
        refine ⟨fun out => ⟨(fun e => by cases e), ?_⟩, fun _ => ⟨0, by omega, (scan2x_minus lax _).1 ⟨u, hs, hu⟩, by omega⟩, fun _ => rfl⟩
        rintro ⟨bs, h1, _, h3⟩
        cases bs with
        | nil => cases h1
        | cons b bs => exact absurd (h3 0 b rfl) (n1 _)
      · rw [if_neg hu, show 2 * k / 2 = k by omega, show 2 * k + 2 = 2 * (k + 1) by omega]
        have hat : HexAt lax (h.drop (2 * k)) u := (scan2x_iff lax _ u).1 ⟨hs, by omega⟩
        have nm : ¬ MinusAt (h.drop (2 * k)) := fun hm => by
          obtain ⟨v, h1, h2⟩ := (scan2x_minus lax _).2 hm
          rw [hs] at h1; cases h1; omega
        have hu8 : u.toUInt8.toNat = u := by simp; omega
        have hlen : (h.set k u.toUInt8).length = 2 * (k + 1 + n) := by rw [List.length_set]; omega
        obtain ⟨ih1, ih2⟩ := unhexLoop_total lax n (k + 1) (h.set k u.toUInt8) hlen
        have hdrop : ∀ j, (h.set k u.toUInt8).drop (2 * (k + 1 + j)) = h.drop (2 * (k + (j + 1))) := by
          intro j
          rw [List.drop_set_of_lt (by omega), show k + 1 + j = k + (j + 1) by omega]
        have htake : (h.set k u.toUInt8).take (k + 1) = h.take k ++ [u.toUInt8] := by
          rw [List.take_add_one, List.take_set_of_le (Nat.le_refl _), List.getElem?_set_self (by omega)]; rfl
        refine ⟨fun out => ?_, ?_⟩
        · rw [ih1 out]
          constructor
          · rintro ⟨bs, h1, h2, h3⟩
            refine ⟨u.toUInt8 :: bs, by simp [h1], by rw [h2, htake]; simp, fun j b hb => ?_⟩
            cases j with
            | zero => cases hb; rw [hu8]; exact hat
            | succ j => rw [← hdrop]; exact h3 j b hb
          · rintro ⟨bs, h1, h2, h3⟩
            cases bs with
            | nil => cases h1
            | cons b bs =>
              have h0 := (scan2x_iff lax _ _).2 (h3 0 b rfl)
              rw [Nat.add_zero, hs] at h0
              have hb : b = u.toUInt8 := by
                obtain ⟨e, _⟩ := h0
                have : b.toNat = u := by simpa using e.symm
                rw [← this]; simp
              subst hb
              exact ⟨bs, by simpa using h1, by rw [h2, htake]; simp, fun j b hb => by rw [hdrop]; exact h3 (j + 1) b hb⟩
        · rw [ih2]
          constructor
          · rintro ⟨i, h1, h2, h3⟩
            refine ⟨i + 1, by omega, by rw [← hdrop]; exact h2, fun j hj => ?_⟩
            cases j with
            | zero => exact ⟨u, hat⟩
            | succ j => rw [← hdrop]; exact h3 j (by omega)
          · rintro ⟨i, h1, h2, h3⟩
            cases i with
            | zero => exact absurd h2 nm
            | succ i => exact ⟨i, by omega, by rw [hdrop]; exact h2, fun j hj => by rw [hdrop]; exact h3 (j + 1) (by omega)⟩

/-- **C91.** Exactly which texts `writehex` takes, and what bytes it makes of them: the text has twice as many characters, and each byte is the number at
the beginning of the text from its own two characters on. -/
theorem C91_bytes (lax : Bool) (s bs : List Byte) :
    unhex lax s = .ok bs ↔ bs ≠ [] ∧ s.length = 2 * bs.length ∧ ∀ (i : Nat) b, bs[i]? = some b → HexAt lax (s.drop (2 * i)) b.toNat := by
  unfold unhex
  by_cases h0 : s.length = 0
  · rw [if_pos h0]
    refine ⟨(fun e => by cases e), ?_⟩
    rintro ⟨h1, h2, _⟩
    exact absurd (List.length_eq_zero_iff.1 (by omega)) h1
  rw [if_neg h0]
  by_cases h1 : s.length % 2 = 1
  · rw [if_pos h1]
    refine ⟨(fun e => by cases e), ?_⟩
    rintro ⟨_, h2, _⟩
    omega
  rw [if_neg h1]
  have := (unhexLoop_total lax (s.length / 2) 0 s (by omega)).1 bs
  rw [Nat.mul_zero] at this
  rw [this]
  constructor
  · rintro ⟨bs', g1, g2, g3⟩
    rw [List.take_zero, List.nil_append] at g2
    subst g2
    exact ⟨(fun e => by rw [e] at g1; simp at g1; omega), by omega, fun i b hb => by simpa using g3 i b hb⟩
  · rintro ⟨g1, g2, g3⟩
    exact ⟨bs, by omega, by simp, fun i b hb => by simpa using g3 i b hb⟩

/-- **C91.** Exactly which texts crash it: the first character pair that is no number is a minus (behind blanks) before a digit other than 0. -/
theorem C91_crash (lax : Bool) (s : List Byte) :
    unhex lax s = .abort ↔ s.length % 2 = 0 ∧ ∃ i, 2 * i < s.length ∧ MinusAt (s.drop (2 * i)) ∧ ∀ j < i, ∃ v, HexAt lax (s.drop (2 * j)) v := by
  unfold unhex
  by_cases h0 : s.length = 0
  · rw [if_pos h0]
    refine ⟨(fun e => by cases e), ?_⟩
    rintro ⟨_, i, h2, _⟩
    omega
  rw [if_neg h0]
  by_cases h1 : s.length % 2 = 1
  · rw [if_pos h1]
    refine ⟨(fun e => by cases e), ?_⟩
    rintro ⟨h2, _⟩
    omega
  rw [if_neg h1]
  have := (unhexLoop_total lax (s.length / 2) 0 s (by omega)).2
  rw [Nat.mul_zero] at this
  rw [this]
  constructor
  · rintro ⟨i, g1, g2, g3⟩
    exact ⟨by omega, i, by omega, by simpa using g2, fun j hj => by simpa using g3 j hj⟩
  · rintro ⟨_, i, g1, g2, g3⟩
    exact ⟨i, by omega, by simpa using g2, fun j hj => by simpa using g3 j hj⟩

/-- Blanks are skipped even beyond the pair: the text "  7f" yields two bytes. -/
example (lax : Bool) : unhex lax (asc "  7f") = .ok [0x7f, 0x7f] := by
  refine (C91_bytes lax _ _).2 ⟨by decide, by decide +kernel, ?_⟩
  have h7 : Hex2 lax [55, 102] 127 := .two (m := 7) (n := 15) [] (by omega) (by omega) (by decide +kernel) (by decide +kernel)
  intro i b hb
  match i, hb with
  | 0, hb => cases hb; exact ⟨[32, 32], [55, 102], by decide +kernel, (by intro c hc; rw [← blank_iff]; revert c; decide), h7⟩
  | 1, hb => cases hb; exact ⟨[], [55, 102], by decide +kernel, by simp, h7⟩
  | n + 2, hb => simp at hb

/-! ## What a wait that fails returns (C66) -/

section
variable {a : InitArgs} {ops : List Op} {k : Nat} {s s' : Sys} {outs : List Out} {o : Out} {h : Handle} {env envF : Env}

/-- **C66**, the value itself: a reader that has to wait, and whose wait ends because a descriptor added with `shr_ctl` is ready, returns -3;
if the wait fails, it returns -1. Nothing is delivered, the buffer is as it was. -/
theorem C66_read_returns {buf : List Byte} {niov : Nat} (v : Valid a (ops ++ [.readv k buf niov env]))
    (hrun : (Sys.init a).run ops = .ok (s, outs)) (hstep : s.step (.readv k buf niov env) = .ok (s', o))
    (hk : s.hs k = .live h) (hr : h.flags.has SHR_RDONLY = true) (hnb : h.flags.has SHR_NONBLOCK = false)
    (hb : buf ≠ []) (hn : niov ≠ 0) (hlk : env.lockOk = true) (hno : s.ring.readableBy h = []) :
    (env.waitRc = some .pollfd → o = .read (-3) [] buf) ∧ (env.waitRc = some .error → o = .read (-1) [] buf) := by
  obtain ⟨sp, sh, h', _, _, _, _, _, he, h0, _⟩ := read_cases v hrun hstep hk hr hb hn hlk
  obtain ⟨_, ho⟩ := h0 (he ▸ hno)
  rw [if_neg (by simp [hnb])] at ho
  constructor <;> intro hw <;> rw [hw] at ho <;> exact ho

/-- **C66**, the value itself: a writer (unbuffered) that has to wait, and whose wait ends because a descriptor added with `shr_ctl` is ready,
returns -3; if the wait fails, it returns -1. Nothing has changed. -/
theorem C66_write_returns {iov : List Msg} (v : Valid a ops) (hrun : (Sys.init a).run ops = .ok (s, outs))
    (hk : s.hs k = .live h) (hw : h.flags.has SHR_WRONLY = true) (hub : h.flags.has SHR_BUFFERED = false) (hnb : h.flags.has SHR_NONBLOCK = false)
    (hsz : ∀ b ∈ iov, b.length ≤ SSIZE_MAX) (hc : Checked a.dataSz a.max_msgs iov) (hlk : env.lockOk = true) (hroom : ¬ Room a s iov) :
    (env.waitRc = some .pollfd → s.step (.writev k iov envF env) = .ok (s, .wrote (-3))) ∧
    (env.waitRc = some .error → s.step (.writev k iov envF env) = .ok (s, .wrote (-1))) := by
  have ho := C69_no_room (envF := envF) v hrun hk hw hub hsz hc hlk hroom
  rw [if_neg (by simp [hnb])] at ho
  constructor <;> intro hw <;> rw [hw] at ho <;> exact ho

end

/-- A reader that waits; and a writer that waits because the ring of 10 bytes holds 8. -/
example : lastOut demoA ([opn 0 SHR_RDONLY] ++ [.readv 0 [0, 0] 1 { waitRc := some .pollfd }]) = .read (-3) [] [0, 0] := by
  have v : Valid demoA ([opn 0 SHR_RDONLY] ++ [.readv 0 [0, 0] 1 { waitRc := some .pollfd }]) := valid_of (by decide +kernel)
  exact (C66_read_returns v v.left.runs v.steps (live_handle (by decide +kernel)) (by decide +kernel) (by decide +kernel) (by simp) (by simp) rfl
    (by decide +kernel)).1 rfl

example : (final demoA (demoOps ++ [opn 2 SHR_WRONLY])).step (.writev 2 [[1, 2, 3]] {} { waitRc := some .pollfd }) =
    .ok (final demoA (demoOps ++ [opn 2 SHR_WRONLY]), .wrote (-3)) := by
  have v : Valid demoA (demoOps ++ [opn 2 SHR_WRONLY]) := valid_of (by decide +kernel)
  apply And.left
  refine ⟨(C66_write_returns v v.runs (live_handle (by decide +kernel)) (by decide +kernel) (by decide +kernel) (by decide +kernel) (by simp [SSIZE_MAX])
    (by decide +kernel) rfl (by decide +kernel)).1 rfl, trivial⟩

end Shr
