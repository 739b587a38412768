import Verif.Model.Exit
import Verif.Props.Main
/-! # C87: shr-tool's command line -/
namespace Shr

/-! ## What the manual says -/

/-- The commands. -/
def commandTable : List (List Byte × Mode) :=
  [(asc "status", .status), (asc "create", .create), (asc "mount", .mount), (asc "read", .read), (asc "readhex", .readHex), (asc "write", .write),
   (asc "writefile", .writeFile), (asc "writehex", .writeHex), (asc "pub", .pub), (asc "sub", .sub), (asc "tee", .tee)]

/-- The options without and with an argument. -/
def plainLetters : List Byte := asc "vbuqdP"
def argLetters : List Byte := asc "smANtH"

/-- One piece of a command line after the command: an operand, a word with options without argument ("-vb"), one that ends with an option whose
argument follows in the same word ("-vs10m"), or one whose argument is the next word ("-vs", "10m"). -/
inductive Piece where
  | operand (w : List Byte)
  | plain (cs : List Byte)
  | joined (cs : List Byte) (c : Byte) (arg : List Byte)
  | separate (cs : List Byte) (c : Byte) (arg : List Byte)

def Piece.Ok : Piece → Prop
  | .operand w => w.head? ≠ some 45 ∨ w = [45]
  | .plain cs => cs ≠ [] ∧ ∀ c ∈ cs, c ∈ plainLetters
  | .joined cs c arg => (∀ c ∈ cs, c ∈ plainLetters) ∧ c ∈ argLetters ∧ arg ≠ []
  | .separate cs c _ => (∀ c ∈ cs, c ∈ plainLetters) ∧ c ∈ argLetters

def Piece.words : Piece → List (List Byte)
  | .operand w => [w]
  | .plain cs => [45 :: cs]
  | .joined cs c arg => [45 :: cs ++ c :: arg]
  | .separate cs c arg => [45 :: cs ++ [c], arg]

def Piece.opts : Piece → List (Byte × List Byte)
  | .operand _ => []
  | .plain cs => cs.map fun c => (c, [])
  | .joined cs c arg | .separate cs c arg => cs.map (fun c => (c, [])) ++ [(c, arg)]

def Piece.operands : Piece → List (List Byte)
  | .operand w => [w]
  | _ => []

/-- A command line after the command with these options and operands: pieces, and after a word "--" only operands. -/
def Splits (argv : List (List Byte)) (opts : List (Byte × List Byte)) (operands : List (List Byte)) : Prop :=
  ∃ (ps : List Piece) (tail : Option (List (List Byte))), (∀ p ∈ ps, p.Ok) ∧
    argv = ps.flatMap Piece.words ++ (match tail with | none => [] | some t => [45, 45] :: t) ∧
    opts = ps.flatMap Piece.opts ∧ operands = ps.flatMap Piece.operands ++ tail.getD []

/-! ## getopt -/

theorem optKind_plain (c : Byte) : optKind c = some false ↔ c ∈ plainLetters := by
  have : ∀ n : Fin 256, optKind (UInt8.ofNat n.val) = some false ↔ UInt8.ofNat n.val ∈ plainLetters := by decide +kernel
  have h := this ⟨c.toNat, c.toNat_lt⟩
  simpa using h

theorem optKind_arg (c : Byte) : optKind c = some true ↔ c ∈ argLetters := by
  have : ∀ n : Fin 256, optKind (UInt8.ofNat n.val) = some true ↔ UInt8.ofNat n.val ∈ argLetters := by decide +kernel
  have h := this ⟨c.toNat, c.toNat_lt⟩
  simpa using h

theorem optLetters_plain : ∀ {cs : List Byte}, (∀ c ∈ cs, c ∈ plainLetters) → ∀ (t : List Byte),
    optLetters (cs ++ t) = (optLetters t).map fun x => (cs.map (fun c => (c, [])) ++ x.1, x.2)
  | [], _, t => by cases h : optLetters t <;> simp [h]
  | c :: cs, h, t => by
    rw [List.cons_append, optLetters, (optKind_plain c).mpr (h c (by simp))]
    simp only
    rw [optLetters_plain (fun x hx => h x (by simp [hx])) t]
    cases optLetters t <;> simp

theorem optLetters_inv : ∀ {cs : List Byte} {os : List (Byte × List Byte)} {l : Option Byte}, optLetters cs = some (os, l) →
    (l = none ∧ (∀ c ∈ cs, c ∈ plainLetters) ∧ os = cs.map fun c => (c, [])) ∨
    (∃ fs c arg, l = none ∧ cs = fs ++ c :: arg ∧ (∀ c ∈ fs, c ∈ plainLetters) ∧ c ∈ argLetters ∧ arg ≠ [] ∧ os = fs.map (fun c => (c, [])) ++ [(c, arg)]) ∨
    (∃ fs c, l = some c ∧ cs = fs ++ [c] ∧ (∀ c ∈ fs, c ∈ plainLetters) ∧ c ∈ argLetters ∧ os = fs.map (fun c => (c, [])))
  | [], os, l, h => by cases h; exact .inl ⟨rfl, by simp, rfl⟩
  | c :: cs, os, l, h => by
    rw [optLetters] at h
    cases hk : optKind c with
    | none => rw [hk] at h; cases h
    | some b =>
      rw [hk] at h
      cases b with
      | false =>
        have hc := (optKind_plain c).mp hk
        obtain ⟨⟨os', l'⟩, h1, h2⟩ := Option.map_eq_some_iff.mp h
        cases h2
        rcases optLetters_inv h1 with ⟨e1, e2, e3⟩ | ⟨fs, d, arg, e1, e2, e3, e4, e5, e6⟩ | ⟨fs, d, e1, e2, e3, e4, e5⟩
        · refine .inl ⟨e1, fun x hx => ?_, by simp [e3]⟩
          rcases List.mem_cons.mp hx with rfl | hx
          · exact hc
          · exact e2 x hx
        · refine .inr (.inl ⟨c :: fs, d, arg, e1, by simp [e2], fun x hx => ?_, e4, e5, by simp [e6]⟩)
          rcases List.mem_cons.mp hx with rfl | hx
          · exact hc
          · exact e3 x hx
        · refine .inr (.inr ⟨c :: fs, d, e1, by simp [e2], fun x hx => ?_, e4, by simp [e5]⟩)
          rcases List.mem_cons.mp hx with rfl | hx
          · exact hc
          · exact e3 x hx
      | true =>
        have hc := (optKind_arg c).mp hk
        simp only at h
        by_cases hn : cs = []
        · subst hn; cases h
          exact .inr (.inr ⟨[], c, rfl, rfl, by simp, hc, rfl⟩)
        · rw [if_neg hn] at h; cases h
          exact .inr (.inl ⟨[], c, cs, rfl, rfl, by simp, hc, hn, rfl⟩)

theorem dash_not_letter : (45 : Byte) ∉ plainLetters ∧ (45 : Byte) ∉ argLetters := by decide +kernel

theorem getopt_dash {t : List Byte} (h : t ≠ []) (h2 : t ≠ [45]) (rest : List (List Byte)) :
    getopt ((45 :: t) :: rest) = match optLetters t with
      | none => none
      | some (os, none) => (getopt rest).map fun x => (os ++ x.1, x.2)
      | some (os, some c) =>
        match rest with
        | [] => none
        | arg :: rest' => (getopt rest').map fun x => (os ++ (c, arg) :: x.1, x.2) := by
  rw [getopt, if_neg (by simp [h2]), if_pos (by simp [h])]
  rfl

theorem getopt_piece {p : Piece} (hp : p.Ok) (rest : List (List Byte)) :
    getopt (p.words ++ rest) = (getopt rest).map fun x => (p.opts ++ x.1, p.operands ++ x.2) := by
  cases p with
  | operand w =>
    show getopt (w :: rest) = _
    rw [getopt, if_neg (by rcases hp with h | h <;> rintro rfl <;> simp at h), if_neg (by rcases hp with h | h <;> simp [h])]
    rfl
  | plain cs =>
    obtain ⟨h1, h2⟩ := hp
    show getopt ((45 :: cs) :: rest) = _
    rw [getopt_dash h1 (by rintro rfl; exact dash_not_letter.1 (h2 45 (by simp)))]
    have := optLetters_plain h2 []
    rw [List.append_nil] at this
    rw [this]
    simp [optLetters, Piece.opts, Piece.operands]
  | joined cs c arg =>
    obtain ⟨h1, h2, h3⟩ := hp
    show getopt ((45 :: (cs ++ c :: arg)) :: rest) = _
    rw [getopt_dash (by simp) (by
      cases cs with
      | nil => simp [h3]
      | cons x xs => simp), optLetters_plain h1, optLetters, (optKind_arg c).mpr h2]
    simp [h3, Piece.opts, Piece.operands]
  | separate cs c arg =>
    obtain ⟨h1, h2⟩ := hp
    show getopt ((45 :: (cs ++ [c])) :: arg :: rest) = _
    rw [getopt_dash (by simp) (by
      cases cs with
      | nil => simp; rintro rfl; exact dash_not_letter.2 h2
      | cons x xs => simp), optLetters_plain h1, optLetters, (optKind_arg c).mpr h2]
    simp [Piece.opts, Piece.operands]

theorem getopt_of_splits {argv : List (List Byte)} {opts : List (Byte × List Byte)} {operands : List (List Byte)} (h : Splits argv opts operands) :
    getopt argv = some (opts, operands) := by
  obtain ⟨ps, tail, hok, rfl, rfl, rfl⟩ := h
  induction ps with
  | nil =>
    cases tail with
    | none => rw [getopt.eq_def]; rfl
    | some t => simp [getopt]
  | cons p ps ih =>
    rw [List.flatMap_cons, List.append_assoc, getopt_piece (hok p (by simp)), ih (fun q hq => hok q (by simp [hq]))]
    simp

theorem splits_cons {p : Piece} (hp : p.Ok) {argv : List (List Byte)} {opts : List (Byte × List Byte)} {operands : List (List Byte)}
    (h : Splits argv opts operands) : Splits (p.words ++ argv) (p.opts ++ opts) (p.operands ++ operands) := by
  obtain ⟨ps, tail, hok, rfl, rfl, rfl⟩ := h
  refine ⟨p :: ps, tail, ?_, by simp, by simp, by simp⟩
  intro q hq
  rcases List.mem_cons.mp hq with rfl | hq
  · exact hp
  · exact hok q hq

theorem splits_of_getopt (n : Nat) : ∀ {argv : List (List Byte)} {opts : List (Byte × List Byte)} {operands : List (List Byte)}, argv.length ≤ n →
    getopt argv = some (opts, operands) → Splits argv opts operands := by
  induction n with
  | zero =>
    intro argv opts operands hl h
    cases argv with
    | nil => rw [getopt] at h; cases h; exact ⟨[], none, by simp, rfl, rfl, rfl⟩
    | cons _ _ => simp at hl
  | succ n ih =>
    intro argv opts operands hl h
    cases argv with
    | nil => rw [getopt] at h; cases h; exact ⟨[], none, by simp, rfl, rfl, rfl⟩
    | cons w rest =>
      have hl' : rest.length ≤ n := by simpa using hl
      by_cases hdd : w = [45, 45]
      · subst hdd
        rw [getopt, if_pos rfl] at h; cases h
        exact ⟨[], some _, by simp, rfl, rfl, rfl⟩
      by_cases hd : w.head? = some 45 ∧ w ≠ [45]
      · obtain ⟨t, rfl⟩ : ∃ t, w = 45 :: t := by
          cases w with
          | nil => simp at hd
          | cons x t => simp at hd; exact ⟨t, by rw [hd.1]⟩
        rw [getopt_dash (by simpa using hd.2) (by simpa using hdd)] at h
        cases ho : optLetters t with
        | none => rw [ho] at h; cases h
        | some x =>
          obtain ⟨os, l⟩ := x
          rw [ho] at h
          rcases optLetters_inv ho with ⟨rfl, e2, e3⟩ | ⟨fs, c, arg, rfl, e2, e3, e4, e5, e6⟩ | ⟨fs, c, rfl, e2, e3, e4, e5⟩
          · obtain ⟨⟨o', p'⟩, h1, h2⟩ := Option.map_eq_some_iff.mp h
            cases h2
            have := splits_cons (p := .plain t) ⟨by simpa using hd.2, e2⟩ (ih hl' h1)
            rw [e3]; exact this
          · obtain ⟨⟨o', p'⟩, h1, h2⟩ := Option.map_eq_some_iff.mp h
            cases h2
            have := splits_cons (p := .joined fs c arg) ⟨e3, e4, e5⟩ (ih hl' h1)
            rw [e6, e2]; exact this
          · cases rest with
            | nil => cases h
            | cons arg rest' =>
              obtain ⟨⟨o', p'⟩, h1, h2⟩ := Option.map_eq_some_iff.mp h
              cases h2
              have := splits_cons (p := .separate fs c arg) ⟨e3, e4⟩ (ih (by simp at hl'; omega) h1)
              rw [e5, e2]
              simpa [Piece.words, Piece.opts, Piece.operands] using this
      · rw [getopt, if_neg hdd, if_neg hd] at h
        obtain ⟨⟨o', p'⟩, h1, h2⟩ := Option.map_eq_some_iff.mp h
        cases h2
        refine splits_cons (p := .operand w) ?_ (ih hl' h1)
        show _ ∨ _
        by_cases q : w = [45]
        · exact .inr q
        · exact .inl fun e => hd ⟨e, q⟩

/-- **C87.** The words after the command are accepted exactly if they are options and operands in the form described by `Splits`; and then these are
the options and operands. -/
theorem C87_words (argv : List (List Byte)) (opts : List (Byte × List Byte)) (operands : List (List Byte)) :
    getopt argv = some (opts, operands) ↔ Splits argv opts operands :=
  ⟨splits_of_getopt _ (Nat.le_refl _), getopt_of_splits⟩

/-! ## The command -/

/-- **C87.** The commands are those of the table. -/
theorem C87_commands (cmd : List Byte) (m : Mode) : modeOf cmd = some m ↔ (cmd, m) ∈ commandTable := by
  unfold modeOf commandTable
  simp only [List.mem_cons, List.not_mem_nil, or_false, Prod.mk.injEq]
  constructor
  · intro h
    repeat' split at h
    all_goals first
      | cases h; simp [*]
      | cases h
  · intro h
    rcases h with ⟨rfl, rfl⟩ | ⟨rfl, rfl⟩ | ⟨rfl, rfl⟩ | ⟨rfl, rfl⟩ | ⟨rfl, rfl⟩ | ⟨rfl, rfl⟩ | ⟨rfl, rfl⟩ | ⟨rfl, rfl⟩ | ⟨rfl, rfl⟩ | ⟨rfl, rfl⟩ | ⟨rfl, rfl⟩ <;>
      decide +kernel

/-! ## The size -/

/-- What -s accepts and what it means: white space, a sign, digits, and a letter k, m, g or t (after which anything may follow), each size being the
1024-fold of the one before.  The number is limited to the range of a `long` and then taken modulo 2^64.  If there is nothing but white space,
the option has no effect. -/
def SizeArg (s : List Byte) (old v : Nat) : Prop :=
  ((∀ c ∈ s, isSpaceC c = true) ∧ v = old) ∨
  ∃ sp sign ds tail k, s = sp ++ sign ++ ds ++ tail ∧ (∀ c ∈ sp, isSpaceC c = true) ∧ (sign = [] ∨ sign = [43] ∨ sign = [45]) ∧
    ds ≠ [] ∧ (∀ c ∈ ds, isDigit c = true) ∧ ((tail = [] ∧ k = 0) ∨ ∃ u t, tail = u :: t ∧ (u, k) ∈ suffixes) ∧
    v = ((max (min (if sign = [45] then - (decimal ds : Int) else decimal ds) (2 ^ 63 - 1)) (- 2 ^ 63)) % 2 ^ 64).toNat * 1024 ^ k % 2 ^ 64

theorem scanSize_full (sp sign ds t : List Byte) (hsp : ∀ c ∈ sp, isSpaceC c = true) (hsg : sign = [] ∨ sign = [43] ∨ sign = [45])
    (hd : ∀ c ∈ ds, isDigit c = true) (hne : ds ≠ []) (ht : ∀ c, t.head? = some c → isDigit c = false) :
    scanSize (sp ++ sign ++ ds ++ t) = (if t = [] then 1 else 2,
      max (min (if sign = [45] then - (decimal ds : Int) else decimal ds) (2 ^ 63 - 1)) (- 2 ^ 63), t.head?) := by
  obtain ⟨h1, h2⟩ := takeWhile_app isDigit ds t hd ht
  obtain ⟨c, ds', rfl⟩ : ∃ c ds', ds = c :: ds' := by
    cases ds with
    | nil => exact absurd rfl hne
    | cons c ds => exact ⟨c, ds, rfl⟩
  obtain ⟨f1, f2, f3⟩ := digit_facts (hd c (by simp))
  have hdrop : (sp ++ (sign ++ (c :: ds' ++ t))).dropWhile isSpaceC = sign ++ (c :: ds' ++ t) := by
    refine (takeWhile_app isSpaceC sp _ hsp fun x hx => ?_).2
    rcases hsg with rfl | rfl | rfl
    · simp at hx; rw [← hx]; exact f1
    · simp at hx; rw [← hx]; decide
    · simp at hx; rw [← hx]; decide
  rw [scanSize, List.append_assoc, List.append_assoc, hdrop]
  rcases hsg with rfl | rfl | rfl
  · rw [List.nil_append, List.cons_append]
    dsimp only
    have ht' : (if c = 45 ∨ c = 43 then ds' ++ t else c :: (ds' ++ t)) = c :: ds' ++ t := by
      rw [if_neg (by simp [f2, f3]), List.cons_append]
    rw [ht', h1, h2, if_neg (by simp)]
    simp only [f2, decide_false, Bool.false_eq_true, if_false]
    cases t <;> simp
  · rw [List.cons_append, List.nil_append]
    dsimp only
    have ht' : (if (43 : Byte) = 45 ∨ (43 : Byte) = 43 then c :: ds' ++ t else 43 :: (c :: ds' ++ t)) = c :: ds' ++ t := if_pos (by decide)
    rw [ht', h1, h2, if_neg (by simp)]
    simp only [show ¬ ((43 : Byte) = 45) by decide, decide_false, Bool.false_eq_true, if_false]
    cases t <;> simp
  · rw [List.cons_append, List.nil_append]
    dsimp only
    have ht' : (if (45 : Byte) = 45 ∨ (45 : Byte) = 43 then c :: ds' ++ t else 45 :: (c :: ds' ++ t)) = c :: ds' ++ t := if_pos (by decide)
    rw [ht', h1, h2, if_neg (by simp)]
    simp only [decide_true, if_true]
    cases t <;> simp

theorem takeWhile_all (p : Byte → Bool) (l : List Byte) : (∀ c ∈ l.takeWhile p, p c = true) ∧ (∀ c, (l.dropWhile p).head? = some c → p c = false) := by
  induction l with
  | nil => simp
  | cons x l ih =>
    by_cases h : p x = true
    · simp only [List.takeWhile_cons, List.dropWhile_cons, h, if_true]
      refine ⟨fun c hc => ?_, ih.2⟩
      rcases List.mem_cons.mp hc with rfl | hc
      · exact h
      · exact ih.1 c hc
    · simp [h]

theorem unitPow_iff (u : Byte) (k : Nat) : unitPow u = some k ↔ (u, k) ∈ suffixes := by
  simp only [suffixes, List.mem_cons, List.not_mem_nil, or_false, Prod.mk.injEq]
  unfold unitPow
  constructor
  · intro h
    repeat' split at h
    all_goals simp at h
    all_goals subst h
    all_goals rename_i h'
    all_goals rcases h' with rfl | rfl <;> simp
  · rintro (⟨rfl, rfl⟩ | ⟨rfl, rfl⟩ | ⟨rfl, rfl⟩ | ⟨rfl, rfl⟩ | ⟨rfl, rfl⟩ | ⟨rfl, rfl⟩ | ⟨rfl, rfl⟩ | ⟨rfl, rfl⟩) <;> decide

theorem repeat_1024 : ∀ k x, x < 2 ^ 64 → Nat.repeat (fun x => wmul x 1024) k x = x * 1024 ^ k % 2 ^ 64 := by
  intro k
  induction k with
  | zero => intro x hx; rw [Nat.repeat]; omega
  | succ k ih =>
    intro x hx
    rw [Nat.repeat, ih x hx, Nat.pow_succ 1024 k, ← Nat.mul_assoc x]
    simp only [wmul, W]
    omega

theorem suffix_not_digit {u : Byte} {k : Nat} (hu : (u, k) ∈ suffixes) : isDigit u = false := by
  simp only [suffixes, List.mem_cons, List.not_mem_nil, or_false, Prod.mk.injEq] at hu
  rcases hu with ⟨rfl, _⟩ | ⟨rfl, _⟩ | ⟨rfl, _⟩ | ⟨rfl, _⟩ | ⟨rfl, _⟩ | ⟨rfl, _⟩ | ⟨rfl, _⟩ | ⟨rfl, _⟩ <;> decide

theorem mod64_lt (v : Int) : (v % 2 ^ 64).toNat < 2 ^ 64 := by omega

/-- **C87.** -s: which arguments are accepted, and what they mean. -/
theorem C87_size (s : List Byte) (old v : Nat) : sizeOption s old = some v ↔ SizeArg s old v := by
  constructor
  · intro h
    obtain ⟨hs1, hs2⟩ := takeWhile_all isSpaceC s
    have hs := List.takeWhile_append_dropWhile (p := isSpaceC) (l := s)
    revert hs hs1 hs2
    generalize s.takeWhile isSpaceC = sp
    generalize hr : s.dropWhile isSpaceC = r
    intro hs1 hs2 hs
    cases r with
    | nil =>
      left
      rw [List.append_nil] at hs
      subst hs
      unfold sizeOption scanSize at h
      rw [hr] at h
      exact ⟨hs1, by simpa using h.symm⟩
    | cons c t =>
      right
      obtain ⟨sign, t', hsg, hct⟩ : ∃ sign t', (sign = [] ∨ sign = [43] ∨ sign = [45]) ∧ c :: t = sign ++ t' ∧ (sign = [] → c ≠ 45 ∧ c ≠ 43) := by
        by_cases h1 : c = 45
        · exact ⟨[45], t, .inr (.inr rfl), by rw [h1]; rfl, by simp⟩
        by_cases h2 : c = 43
        · exact ⟨[43], t, .inr (.inl rfl), by rw [h2]; rfl, by simp⟩
        exact ⟨[], c :: t, .inl rfl, rfl, fun _ => ⟨h1, h2⟩⟩
      obtain ⟨hd1, hd2⟩ := takeWhile_all isDigit t'
      have hdd := List.takeWhile_append_dropWhile (p := isDigit) (l := t')
      by_cases hne : t'.takeWhile isDigit = []
      · exfalso
        have : scanSize s = (0, 0, none) := by
          unfold scanSize
          rw [hr]
          rcases hsg with rfl | rfl | rfl
          · simp only [List.nil_append] at hct
            obtain ⟨e, e2⟩ := hct
            subst e
            have e3 := e2 trivial
            simp [e3.1, e3.2, hne]
          · obtain ⟨e, _⟩ := hct
            cases e
            simp [hne]
          · obtain ⟨e, _⟩ := hct
            cases e
            simp [hne]
        unfold sizeOption at h
        rw [this] at h
        simp at h
      · have hsc := scanSize_full sp sign _ _ hs1 hsg hd1 hne hd2
        rw [List.append_assoc, hdd, List.append_assoc, ← hct.1, hs] at hsc
        unfold sizeOption at h
        rw [hsc] at h
        dsimp only at h
        cases htl : t'.dropWhile isDigit with
        | nil =>
          rw [htl] at h hdd
          simp at h
          refine ⟨sp, sign, _, [], 0, by rw [← hs, hct.1, List.append_assoc, List.append_assoc, hdd], hs1, hsg, hne, hd1, .inl ⟨rfl, rfl⟩, ?_⟩
          rw [← h]
          have := mod64_lt (max (min (if sign = [45] then -(decimal (List.takeWhile isDigit t') : Int) else (decimal (List.takeWhile isDigit t'))) (2 ^ 63 - 1)) (-2 ^ 63))
          simp; omega
        | cons u tl =>
          rw [htl] at h hdd
          rw [if_neg (by simp), if_pos (by simp), List.head?_cons] at h
          obtain ⟨k, h1, h2⟩ := Option.map_eq_some_iff.mp h
          rw [repeat_1024 _ _ (mod64_lt _)] at h2
          exact ⟨sp, sign, _, u :: tl, k, by rw [← hs, hct.1, List.append_assoc, List.append_assoc, hdd], hs1, hsg, hne, hd1,
            .inr ⟨u, tl, rfl, (unitPow_iff _ _).mp h1⟩, h2.symm⟩
  · rintro (⟨h, rfl⟩ | ⟨sp, sign, ds, tail, k, rfl, h1, h2, h3, h4, h5, rfl⟩)
    · have : s.dropWhile isSpaceC = [] := by
        cases hx : s.dropWhile isSpaceC with
        | nil => rfl
        | cons c t =>
          have h1 := (takeWhile_all isSpaceC s).2 c (by rw [hx]; rfl)
          rw [h c ((List.dropWhile_sublist _).subset (by rw [hx]; simp))] at h1
          cases h1
      unfold sizeOption scanSize
      rw [this]
      simp
    · have ht : ∀ c, tail.head? = some c → isDigit c = false := by
        rcases h5 with ⟨rfl, _⟩ | ⟨u, t, rfl, hu⟩
        · simp
        · intro c hc
          cases hc
          exact suffix_not_digit hu
      unfold sizeOption
      rw [scanSize_full sp sign ds tail h1 h2 h4 h3 ht]
      dsimp only
      rcases h5 with ⟨rfl, rfl⟩ | ⟨u, t, rfl, hu⟩
      · rw [if_neg (by simp), if_pos (by simp)]
        have := mod64_lt (max (min (if sign = [45] then -(decimal ds : Int) else (decimal ds)) (2 ^ 63 - 1)) (-2 ^ 63))
        simp only [List.head?_nil, Option.some.injEq]
        omega
      · rw [if_neg (by simp), if_pos (by simp), List.head?_cons]
        dsimp only
        rw [(unitPow_iff _ _).mpr hu, Option.map_some, repeat_1024 _ _ (mod64_lt _)]

/-! ## The options -/

/-- An option that is accepted. -/
def GoodOpt (x : Byte × List Byte) : Prop :=
  x.1 ∈ plainLetters ∨ (x.1 ∈ argLetters ∧ (x.1 = 115 → ∃ v, SizeArg x.2 0 v) ∧ (x.1 = 109 → ∀ c ∈ x.2, ∃ g, (c, g) ∈ modeLetters))

/-- The last of the options with one of these letters. -/
def lastOpt (os : List Byte) (opts : List (Byte × List Byte)) : Option Byte :=
  (opts.filter fun x => decide (x.1 ∈ os)).getLast?.map Prod.fst

/-- Was the option given? -/
def Given (o : Byte) (opts : List (Byte × List Byte)) : Prop := ∃ arg, (o, arg) ∈ opts

/-- The argument of the last -s that is not blank. -/
def lastSize (opts : List (Byte × List Byte)) : Option (List Byte) :=
  (opts.filter fun x => x.1 = 115 ∧ ∃ b ∈ x.2, isSpaceC b = false).getLast?.map Prod.snd

/-- What a list of options means: -v counts; -b, -P are switches; -t, -A, -H, -N: the last one counts; so does the last of -d, -u, -q, and the
last -s with a number; the letters of all -m options count.  -H also sets the number of messages as -N does. -/
structure OptMeaning (opts : List (Byte × List Byte)) (file : Option (List Byte)) (c : Cfg) : Prop where
  verbose : c.verbose = (opts.filter fun x => x.1 = 118).length
  block : c.block = true ↔ Given 98 opts
  lenPrefix : c.lenPrefix = false ↔ Given 80 opts
  fsType : c.fsType = (lastArg [116] opts).getD (asc "ramfs")
  mountMode : lastOpt [100, 117, 113] opts = match c.mountMode with
    | .mount => none | .makeSubdirs => some 100 | .unmount => some 117 | .query => some 113
  nrHuge : c.nrHuge = match lastArg [72] opts with | some arg => atoi arg | none => 0
  maxMsgs : c.maxMsgs = match lastArg [72, 78] opts with | some arg => intToSize (atoi arg) | none => 0
  flags : ∀ b, c.flags.has b = true ↔ (∃ l g, (l, g) ∈ modeLetters ∧ ModeGiven l opts ∧ g.has b = true) ∨
    ((Given 72 opts ∨ Given 78 opts) ∧ SHR_MAXMSGS_2.has b = true)
  size : match lastSize opts with | some arg => SizeArg arg 0 c.size | none => c.size = 0
  wfile : c.wfile = match lastArg [65] opts with | some arg => some arg | none => file

theorem given_snoc (b : Byte) (opts : List (Byte × List Byte)) (o : Byte) (arg : List Byte) :
    Given b (opts ++ [(o, arg)]) ↔ Given b opts ∨ o = b := by
  unfold Given
  constructor
  · rintro ⟨a, h⟩
    rcases List.mem_append.mp h with h | h
    · exact .inl ⟨a, h⟩
    · simp at h; exact .inr h.1.symm
  · rintro (⟨a, h⟩ | rfl)
    · exact ⟨a, by simp [h]⟩
    · exact ⟨arg, by simp⟩

theorem lastOpt_snoc (os : List Byte) (opts : List (Byte × List Byte)) (o : Byte) (arg : List Byte) :
    lastOpt os (opts ++ [(o, arg)]) = if o ∈ os then some o else lastOpt os opts := by
  unfold lastOpt
  rw [List.filter_append]
  by_cases h : o ∈ os <;> simp [h]

theorem lastSize_snoc (opts : List (Byte × List Byte)) (o : Byte) (arg : List Byte) :
    lastSize (opts ++ [(o, arg)]) = if o = 115 ∧ ∃ b ∈ arg, isSpaceC b = false then some arg else lastSize opts := by
  unfold lastSize
  rw [List.filter_append]
  by_cases h : o = 115 ∧ ∃ b ∈ arg, isSpaceC b = false
  · rw [if_pos h]
    rw [List.filter_cons_of_pos (by simpa using h)]; simp
  · rw [if_neg h]
    rw [List.filter_cons_of_neg (by simpa using h)]; simp

theorem optStep_cases {c c' : Cfg} {o : Byte} {arg : List Byte} (hs : optStep c o arg = some c') :
    (o = 118 ∧ c' = { c with verbose := c.verbose + 1 }) ∨ (o = 98 ∧ c' = { c with block := true }) ∨
    (o = 80 ∧ c' = { c with lenPrefix := false }) ∨ (o = 116 ∧ c' = { c with fsType := arg }) ∨
    (o = 100 ∧ c' = { c with mountMode := .makeSubdirs }) ∨ (o = 117 ∧ c' = { c with mountMode := .unmount }) ∨
    (o = 113 ∧ c' = { c with mountMode := .query }) ∨
    (o = 72 ∧ c' = { c with nrHuge := atoi arg, flags := c.flags ||| SHR_MAXMSGS_2, maxMsgs := intToSize (atoi arg) }) ∨
    (o = 78 ∧ c' = { c with flags := c.flags ||| SHR_MAXMSGS_2, maxMsgs := intToSize (atoi arg) }) ∨
    (o = 115 ∧ ∃ sz, sizeOption arg c.size = some sz ∧ c' = { c with size := sz }) ∨
    (o = 109 ∧ ∃ f, modeOption arg c.flags = some f ∧ c' = { c with flags := f }) ∨ (o = 65 ∧ c' = { c with wfile := some arg }) := by
  unfold optStep at hs
  by_cases q1 : o = 118
  · rw [if_pos q1] at hs; exact .inl ⟨q1, (Option.some.inj hs).symm⟩
  rw [if_neg q1] at hs; right
  by_cases q2 : o = 98
  · rw [if_pos q2] at hs; exact .inl ⟨q2, (Option.some.inj hs).symm⟩
  rw [if_neg q2] at hs; right
  by_cases q3 : o = 80
  · rw [if_pos q3] at hs; exact .inl ⟨q3, (Option.some.inj hs).symm⟩
  rw [if_neg q3] at hs; right
  by_cases q4 : o = 116
  · rw [if_pos q4] at hs; exact .inl ⟨q4, (Option.some.inj hs).symm⟩
  rw [if_neg q4] at hs; right
  by_cases q5 : o = 100
  · rw [if_pos q5] at hs; exact .inl ⟨q5, (Option.some.inj hs).symm⟩
  rw [if_neg q5] at hs; right
  by_cases q6 : o = 117
  · rw [if_pos q6] at hs; exact .inl ⟨q6, (Option.some.inj hs).symm⟩
  rw [if_neg q6] at hs; right
  by_cases q7 : o = 113
  · rw [if_pos q7] at hs; exact .inl ⟨q7, (Option.some.inj hs).symm⟩
  rw [if_neg q7] at hs; right
  by_cases q8 : o = 72
  · rw [if_pos q8] at hs; exact .inl ⟨q8, (Option.some.inj hs).symm⟩
  rw [if_neg q8] at hs; right
  by_cases q9 : o = 78
  · rw [if_pos q9] at hs; exact .inl ⟨q9, (Option.some.inj hs).symm⟩
  rw [if_neg q9] at hs; right
  by_cases q10 : o = 115
  · rw [if_pos q10] at hs
    obtain ⟨sz, h1, h2⟩ := Option.map_eq_some_iff.mp hs
    exact .inl ⟨q10, sz, h1, h2.symm⟩
  rw [if_neg q10] at hs; right
  by_cases q11 : o = 109
  · rw [if_pos q11] at hs
    obtain ⟨sz, h1, h2⟩ := Option.map_eq_some_iff.mp hs
    exact .inl ⟨q11, sz, h1, h2.symm⟩
  rw [if_neg q11] at hs; right
  by_cases q12 : o = 65
  · rw [if_pos q12] at hs; exact ⟨q12, (Option.some.inj hs).symm⟩
  rw [if_neg q12] at hs; cases hs

theorem sizeArg_nonblank {s : List Byte} {old v : Nat} (h : SizeArg s old v) (hb : ∃ b ∈ s, isSpaceC b = false) : SizeArg s 0 v := by
  rcases h with ⟨h, _⟩ | h
  · obtain ⟨b, h1, h2⟩ := hb
    rw [h b h1] at h2; cases h2
  · exact .inr h

theorem optMeaning_step {opts : List (Byte × List Byte)} {file : Option (List Byte)} {c c' : Cfg} {o : Byte} {arg : List Byte}
    (h : OptMeaning opts file c) (hs : optStep c o arg = some c') : OptMeaning (opts ++ [(o, arg)]) file c' := by
  obtain ⟨v1, v2, v3, v4, v5, v6, v7, v8, v9, v10⟩ := h
  rcases optStep_cases hs with ⟨rfl, rfl⟩ | ⟨rfl, rfl⟩ | ⟨rfl, rfl⟩ | ⟨rfl, rfl⟩ | ⟨rfl, rfl⟩ | ⟨rfl, rfl⟩ | ⟨rfl, rfl⟩ | ⟨rfl, rfl⟩ | ⟨rfl, rfl⟩ |
    ⟨rfl, sz, hz, rfl⟩ | ⟨rfl, f, hf, rfl⟩ | ⟨rfl, rfl⟩
  case inr.inr.inr.inr.inr.inr.inr.inr.inr.inl =>
    refine ⟨?_, ?_, ?_, ?_, ?_, ?_, ?_, ?_, ?_, ?_⟩ <;>
      simp only [List.filter_append, given_snoc, lastOpt_snoc, lastArg_snoc, modeGiven_snoc, lastSize_snoc, List.length_append]
    case refine_9 =>
      rw [C87_size] at hz
      by_cases hb : ∃ b ∈ arg, isSpaceC b = false
      · rw [if_pos (by simpa using hb)]; exact sizeArg_nonblank hz hb
      · rw [if_neg (by simpa using hb)]
        rcases hz with ⟨_, rfl⟩ | ⟨sp, sign, ds, tail, k, rfl, _, _, hne, hd, _⟩
        · exact v9
        · obtain ⟨d, ds, rfl⟩ := List.exists_cons_of_ne_nil hne
          exact absurd ⟨d, by simp, (digit_facts (hd d (by simp))).1⟩ hb
    all_goals simp [*]
  case inr.inr.inr.inr.inr.inr.inr.inr.inr.inr.inl =>
    refine ⟨?_, ?_, ?_, ?_, ?_, ?_, ?_, ?_, ?_, ?_⟩ <;>
      simp only [List.filter_append, given_snoc, lastOpt_snoc, lastArg_snoc, modeGiven_snoc, lastSize_snoc, List.length_append]
    case refine_8 =>
      intro b
      rw [(C61_mode_letters arg c.flags).2 f hf b, v8 b]
      simp only [true_and, show ¬ ((109 : Byte) = 72) by decide, show ¬ ((109 : Byte) = 78) by decide, or_false]
      constructor
      · rintro ((⟨l, g, x, y, z⟩ | h) | ⟨l, x, g, y, z⟩)
        · exact .inl ⟨l, g, x, .inl y, z⟩
        · exact .inr h
        · exact .inl ⟨l, g, y, .inr x, z⟩
      · rintro (⟨l, g, x, y | y, z⟩ | h)
        · exact .inl (.inl ⟨l, g, x, y, z⟩)
        · exact .inr ⟨l, y, g, x, z⟩
        · exact .inl (.inr h)
    case refine_9 => rw [if_neg (by simp)]; exact v9
    all_goals simp [*]
  case inr.inr.inr.inr.inr.inr.inr.inl =>
    refine ⟨?_, ?_, ?_, ?_, ?_, ?_, ?_, ?_, ?_, ?_⟩ <;>
      simp only [List.filter_append, given_snoc, lastOpt_snoc, lastArg_snoc, modeGiven_snoc, lastSize_snoc, List.length_append]
    case refine_8 =>
      intro b
      rw [has_or, Bool.or_eq_true, v8 b]
      simp only [show ¬ ((72 : Byte) = 109) by decide, show ¬ ((72 : Byte) = 78) by decide, or_false, false_and, or_true, true_or, true_and]
      constructor
      · rintro ((h | h) | h)
        · exact .inl h
        · exact .inr h.2
        · exact .inr h
      · rintro (h | h)
        · exact .inl (.inl h)
        · exact .inr h
    case refine_9 => rw [if_neg (by simp)]; exact v9
    all_goals simp [*]
  case inr.inr.inr.inr.inr.inr.inr.inr.inl =>
    refine ⟨?_, ?_, ?_, ?_, ?_, ?_, ?_, ?_, ?_, ?_⟩ <;>
      simp only [List.filter_append, given_snoc, lastOpt_snoc, lastArg_snoc, modeGiven_snoc, lastSize_snoc, List.length_append]
    case refine_8 =>
      intro b
      rw [has_or, Bool.or_eq_true, v8 b]
      simp only [show ¬ ((78 : Byte) = 109) by decide, show ¬ ((78 : Byte) = 72) by decide, or_false, false_and, or_true, true_and]
      constructor
      · rintro ((h | h) | h)
        · exact .inl h
        · exact .inr h.2
        · exact .inr h
      · rintro (h | h)
        · exact .inl (.inl h)
        · exact .inr h
    case refine_9 => rw [if_neg (by simp)]; exact v9
    all_goals simp [*]
  all_goals
    refine ⟨?_, ?_, ?_, ?_, ?_, ?_, ?_, ?_, ?_, ?_⟩ <;>
      simp only [List.filter_append, given_snoc, lastOpt_snoc, lastArg_snoc, modeGiven_snoc, lastSize_snoc, List.length_append]
    case refine_9 => rw [if_neg (by simp)]; exact v9
    all_goals simp [*]

theorem optStep_some (c : Cfg) (o : Byte) (arg : List Byte) : (optStep c o arg).isSome = true ↔ GoodOpt (o, arg) := by
  have hp : plainLetters = [118, 98, 117, 113, 100, 80] := by decide +kernel
  have ha : argLetters = [115, 109, 65, 78, 116, 72] := by decide +kernel
  have mp : ∀ {x : Byte}, x ∈ ([118, 98, 117, 113, 100, 80] : List Byte) → (x, arg).1 ∈ plainLetters := fun h => hp ▸ h
  have ma : ∀ {x : Byte}, x ∈ ([115, 109, 65, 78, 116, 72] : List Byte) → (x, arg).1 ∈ argLetters := fun h => ha ▸ h
  constructor
  · intro h
    obtain ⟨c', h⟩ := Option.isSome_iff_exists.mp h
    rcases optStep_cases h with ⟨rfl, rfl⟩ | ⟨rfl, rfl⟩ | ⟨rfl, rfl⟩ | ⟨rfl, rfl⟩ | ⟨rfl, rfl⟩ | ⟨rfl, rfl⟩ | ⟨rfl, rfl⟩ | ⟨rfl, rfl⟩ | ⟨rfl, rfl⟩ |
      ⟨rfl, sz, hz, rfl⟩ | ⟨rfl, f, hf, rfl⟩ | ⟨rfl, rfl⟩
    · exact .inl (mp (by decide))
    · exact .inl (mp (by decide))
    · exact .inl (mp (by decide))
    · exact .inr ⟨ma (by decide), by simp, by simp⟩
    · exact .inl (mp (by decide))
    · exact .inl (mp (by decide))
    · exact .inl (mp (by decide))
    · exact .inr ⟨ma (by decide), by simp, by simp⟩
    · exact .inr ⟨ma (by decide), by simp, by simp⟩
    · refine .inr ⟨ma (by decide), fun _ => ?_, by simp⟩
      rcases (C87_size _ _ _).mp hz with ⟨h1, h2⟩ | h1
      · exact ⟨0, .inl ⟨h1, rfl⟩⟩
      · exact ⟨sz, .inr h1⟩
    · refine .inr ⟨ma (by decide), by simp, fun _ c hc => ?_⟩
      apply Classical.byContradiction
      intro hn
      rw [(C61_mode_letters arg _).1.mpr ⟨c, hc, fun g hg => hn ⟨g, hg⟩⟩] at hf
      cases hf
    · exact .inr ⟨ma (by decide), by simp, by simp⟩
  · intro h
    rcases h with h | ⟨h, h1, h2⟩
    · rw [hp] at h
      simp only [List.mem_cons, List.not_mem_nil, or_false] at h
      rcases h with rfl | rfl | rfl | rfl | rfl | rfl <;> rfl
    · rw [ha] at h
      simp only [List.mem_cons, List.not_mem_nil, or_false] at h
      rcases h with rfl | rfl | rfl | rfl | rfl | rfl
      · obtain ⟨v, hv⟩ := h1 rfl
        have : ∃ v, SizeArg arg c.size v := by
          rcases hv with ⟨e, _⟩ | e
          · exact ⟨_, .inl ⟨e, rfl⟩⟩
          · exact ⟨v, .inr e⟩
        obtain ⟨v, hv⟩ := this
        show ((sizeOption arg c.size).map _).isSome = true
        rw [(C87_size _ _ _).mpr hv]; rfl
      · show ((modeOption arg c.flags).map _).isSome = true
        cases hm : modeOption arg c.flags with
        | some f => rfl
        | none =>
          obtain ⟨x, hx, hy⟩ := (C61_mode_letters arg c.flags).1.mp hm
          obtain ⟨g, hg⟩ := h2 rfl x hx
          exact absurd hg (hy g)
      all_goals rfl

/-- **C87.** The options are accepted exactly if each of them is, whatever else is given. -/
theorem C87_options_accepted (file : Option (List Byte)) (opts : List (Byte × List Byte)) :
    (∃ c, parseOpts opts { wfile := file } = some c) ↔ ∀ x ∈ opts, GoodOpt x := by
  have : ∀ c, (∃ c', parseOpts opts c = some c') ↔ ∀ x ∈ opts, GoodOpt x := by
    induction opts with
    | nil => intro c; simp [parseOpts]
    | cons x xs ih =>
      intro c
      obtain ⟨o, arg⟩ := x
      rw [parseOpts]
      have h := optStep_some c o arg
      cases hs : optStep c o arg with
      | none =>
        rw [hs] at h
        constructor
        · rintro ⟨_, h⟩; cases h
        · intro h'; exact absurd (h.mpr (h' _ (by simp))) (by simp)
      | some c1 =>
        rw [hs] at h
        rw [Option.bind_some, ih c1]
        constructor
        · intro h' x hx
          rcases List.mem_cons.mp hx with rfl | hx
          · exact h.mp rfl
          · exact h' x hx
        · intro h' x hx; exact h' x (by simp [hx])
  exact this _

/-- **C87.** What the options mean. -/
theorem C87_options (file : Option (List Byte)) (opts : List (Byte × List Byte)) : ∀ c, parseOpts opts { wfile := file } = some c →
    OptMeaning opts file c := by
  induction opts using List.reverseRecOn with
  | nil =>
    intro c h
    simp [parseOpts] at h
    subst h
    refine ⟨rfl, ?_, ?_, rfl, rfl, rfl, rfl, ?_, rfl, rfl⟩ <;> simp [Given, ModeGiven, Flags.has]
  | append_singleton xs x ih =>
    intro c h
    obtain ⟨o, arg⟩ := x
    rw [parseOpts_snoc] at h
    obtain ⟨c1, h1, h2⟩ := Option.bind_eq_some_iff.mp h
    exact optMeaning_step (ih c1 h1) h2

theorem flags_ext {f g : Flags} (h : ∀ b, f.has b = true ↔ g.has b = true) : f = g := by
  apply BitVec.eq_of_getLsbD_eq
  intro i hi
  have key : ∀ x : Flags, x.has (BitVec.twoPow 32 i) = true ↔ x.getLsbD i = true := by
    intro x
    unfold Flags.has
    rw [BitVec.and_twoPow]
    have hnz : BitVec.twoPow 32 i ≠ 0#32 := by
      intro e
      have := congrArg (fun b => BitVec.getLsbD b i) e
      simp [hi] at this
    cases x.getLsbD i <;> simp [hnz]
  rw [Bool.eq_iff_iff, ← key f, ← key g]
  exact h _

theorem optMeaning_unique {opts : List (Byte × List Byte)} {file : Option (List Byte)} {c c' : Cfg} (h : OptMeaning opts file c)
    (h' : OptMeaning opts file c') : c = c' := by
  obtain ⟨v1, v2, v3, v4, v5, v6, v7, v8, v9, v10⟩ := h
  obtain ⟨w1, w2, w3, w4, w5, w6, w7, w8, w9, w10⟩ := h'
  obtain ⟨c1, c2, c3, c4, c5, c6, c7, c8, c9, c10⟩ := c
  obtain ⟨d1, d2, d3, d4, d5, d6, d7, d8, d9, d10⟩ := c'
  dsimp only at *
  have e2 : c2 = d2 := Bool.eq_iff_iff.mpr (v2.trans w2.symm)
  have e3 : c3 = d3 := by
    have := v3.trans w3.symm
    cases c3 <;> cases d3 <;> simp_all
  have e5 : c5 = d5 := by rw [v5] at w5; cases c5 <;> cases d5 <;> simp at w5 ⊢
  have e7 : c7 = d7 := flags_ext fun b => (v8 b).trans (w8 b).symm
  have e9 : c9 = d9 := by
    cases hl : lastSize opts with
    | none => rw [hl] at v9 w9; exact v9.trans w9.symm
    | some arg =>
      rw [hl] at v9 w9
      exact Option.some.inj (((C87_size _ _ _).mpr v9).symm.trans ((C87_size _ _ _).mpr w9))
  rw [v1, w1, e2, e3, v4, w4, e5, v6, w6, e7, v7, w7, e9, v10, w10]

/-! ## The command line as a whole -/

/-- The commands that take an argument before their options. -/
def argCommands : List Mode := [.writeHex, .writeFile, .pub, .sub]

/-- A command line that is accepted, and what it means. -/
def Meant (argv : List (List Byte)) (inv : Invocation) : Prop :=
  ∃ cmd pre rest opts, argv = cmd :: pre ++ rest ∧ (cmd, inv.mode) ∈ commandTable ∧
    pre = (if inv.mode ∈ argCommands then [inv.arg] else []) ∧ (inv.mode ∉ argCommands → inv.arg = []) ∧
    Splits rest opts inv.operands ∧ inv.operands ≠ [] ∧ (∀ x ∈ opts, GoodOpt x) ∧
    OptMeaning opts (if inv.mode = .writeFile then some inv.arg else none) inv.cfg

theorem takesArg_iff (m : Mode) : m.takesArg = true ↔ m ∈ argCommands := by cases m <;> decide

theorem splits_nil {argv : List (List Byte)} {opts : List (Byte × List Byte)} {operands : List (List Byte)} (h : Splits argv opts operands)
    (hne : operands ≠ []) : argv ≠ [] := by
  rintro rfl
  rw [← C87_words, getopt] at h
  cases h
  exact hne rfl

theorem mainArgs_cons (cmd : List Byte) (rest : List (List Byte)) (d : Bool) {m : Mode} (hm : modeOf cmd = some m) :
    mainArgs (cmd :: rest) d =
      if m.takesArg ∧ rest.length < 2 then .error usageExit
      else match getopt (if m.takesArg then rest.drop 1 else rest) with
        | none => .error usageExit
        | some (opts, operands) =>
          match parseOpts opts { wfile := if m = .writeFile then some (if m.takesArg then rest.headD [] else []) else none } with
          | none => .error usageExit
          | some cfg => if operands = [] then .error usageExit else .ok ⟨m, if m.takesArg then rest.headD [] else [], cfg, operands⟩ := by
  unfold mainArgs
  simp only [hm]
  rfl

theorem meant_of_ok {argv : List (List Byte)} {d : Bool} {inv : Invocation} (h : mainArgs argv d = .ok inv) : Meant argv inv := by
  cases argv with
  | nil => cases h
  | cons cmd rest =>
    cases hm : modeOf cmd with
    | none => unfold mainArgs at h; simp only [hm] at h; cases h
    | some m =>
      rw [mainArgs_cons cmd rest d hm] at h
      by_cases hl : m.takesArg = true ∧ rest.length < 2
      · rw [if_pos hl] at h; cases h
      rw [if_neg hl] at h
      cases hg : getopt (if m.takesArg then rest.drop 1 else rest) with
      | none => rw [hg] at h; cases h
      | some x =>
        obtain ⟨opts, operands⟩ := x
        rw [hg] at h
        dsimp only at h
        cases hp : parseOpts opts { wfile := if m = .writeFile then some (if m.takesArg then rest.headD [] else []) else none } with
        | none => rw [hp] at h; cases h
        | some cfg =>
          rw [hp] at h
          dsimp only at h
          by_cases hn : operands = []
          · rw [if_pos hn] at h; cases h
          rw [if_neg hn] at h
          cases h
          have ha := C87_options_accepted (if m = .writeFile then some (if m.takesArg then rest.headD [] else []) else none) opts
          refine ⟨cmd, if m.takesArg then rest.take 1 else [], if m.takesArg then rest.drop 1 else rest, opts, ?_, (C87_commands _ _).mp hm, ?_, ?_,
            (C87_words _ _ _).mp hg, hn, ha.mp ⟨_, hp⟩, C87_options _ _ _ hp⟩
          · cases m.takesArg
            · rfl
            · cases rest <;> rfl
          · have := takesArg_iff m
            cases ht : m.takesArg
            · rw [ht] at this
              simp only [Bool.false_eq_true, if_false]
              rw [if_neg (by simpa using this)]
            · rw [ht] at this
              simp only [if_true]
              rw [if_pos (this.mp rfl)]
              cases rest with
              | nil => rw [ht] at hl; simp at hl
              | cons x xs => rfl
          · intro hna
            have := takesArg_iff m
            cases ht : m.takesArg
            · rfl
            · rw [ht] at this; exact absurd (this.mp rfl) hna

theorem ok_of_meant {argv : List (List Byte)} {inv : Invocation} (h : Meant argv inv) (d : Bool) : mainArgs argv d = .ok inv := by
  obtain ⟨cmd, pre, rest, opts, rfl, hc, hpre, harg, hsp, hne, hgood, hmean⟩ := h
  have hm := (C87_commands _ _).mpr hc
  have hr := splits_nil hsp hne
  have key : mainArgs (cmd :: (pre ++ rest)) d = .ok ⟨inv.mode, inv.arg, inv.cfg, inv.operands⟩ := by
    obtain ⟨cfg, hp⟩ := (C87_options_accepted (if inv.mode = .writeFile then some inv.arg else none) opts).mpr hgood
    obtain rfl : cfg = inv.cfg := optMeaning_unique (C87_options _ _ _ hp) hmean
    have hg := (C87_words _ _ _).mpr hsp
    rw [mainArgs_cons cmd (pre ++ rest) d hm]
    have ht := takesArg_iff inv.mode
    by_cases hmem : inv.mode ∈ argCommands
    · rw [if_pos hmem] at hpre
      subst hpre
      have ht' := ht.mpr hmem
      obtain ⟨r0, rs, rfl⟩ := List.exists_cons_of_ne_nil hr
      rw [if_neg (by simp)]
      simp only [ht', if_true, List.cons_append, List.nil_append, List.drop_succ_cons, List.drop_zero, List.headD_cons, hg, hp, hne, if_false]
    · rw [if_neg hmem] at hpre
      subst hpre
      have ht' : inv.mode.takesArg = false := by
        cases hx : inv.mode.takesArg
        · rfl
        · exact absurd (ht.mp hx) hmem
      have ha := harg hmem
      rw [ha] at hp ⊢
      simp only [ht', Bool.false_eq_true, if_false, false_and, List.nil_append, hg, hp, hne]
  exact key

/-- **C87.** shr-tool carries out a command exactly if its command line is one that the manual allows, and then with this meaning. -/
theorem C87_accepted (argv : List (List Byte)) (d : Bool) (inv : Invocation) : mainArgs argv d = .ok inv ↔ Meant argv inv :=
  ⟨meant_of_ok, fun h => ok_of_meant h d⟩

/-- **C87.** Every other command line ends the program with the usage text and exit status 255, or, if its first word is no command, by
running the delegate of that name. -/
theorem C87_refused {argv : List (List Byte)} {d : Bool} {e : Exit} (h : mainArgs argv d = .error e) :
    e = .status 255 ∨ (e = .exec ∧ d = true ∧ ∃ cmd rest, argv = cmd :: rest ∧ ∀ m, (cmd, m) ∉ commandTable) := by
  have hu : usageExit = .status 255 := by decide
  cases argv with
  | nil => cases h; exact .inl hu
  | cons cmd rest =>
    cases hm : modeOf cmd with
    | none =>
      unfold mainArgs at h
      simp only [hm] at h
      cases d with
      | false => cases h; exact .inl hu
      | true =>
        cases h
        refine .inr ⟨rfl, rfl, cmd, rest, rfl, fun m hmem => ?_⟩
        rw [(C87_commands _ _).mpr hmem] at hm; cases hm
    | some m =>
      rw [mainArgs_cons cmd rest d hm] at h
      split at h
      · cases h; exact .inl hu
      · split at h
        · cases h; exact .inl hu
        · split at h
          · cases h; exact .inl hu
          · split at h
            · cases h; exact .inl hu
            · cases h

/-- `shr-tool writehex 0x41 -vb ring` -/
example : mainArgs [asc "writehex", asc "0x41", asc "-vb", asc "ring"] false =
    .ok ⟨.writeHex, asc "0x41", { verbose := 1, block := true }, [asc "ring"]⟩ := by decide +kernel

/-- `shr-tool create ring1 -s10m -m dk -s "" -- -ring2` -/
example : mainArgs [asc "create", asc "ring1", asc "-s10m", asc "-m", asc "dk", asc "-s", [], asc "--", asc "-ring2"] false =
    .ok ⟨.create, [], { size := 10485760, flags := SHR_DROP ||| SHR_KEEPEXIST }, [asc "ring1", asc "-ring2"]⟩ := by decide +kernel

example : Meant [asc "create", asc "ring1", asc "-s10m", asc "-m", asc "dk", asc "-s", [], asc "--", asc "-ring2"]
    ⟨.create, [], { size := 10485760, flags := SHR_DROP ||| SHR_KEEPEXIST }, [asc "ring1", asc "-ring2"]⟩ :=
  (C87_accepted _ false _).mp (by decide +kernel)

/-- No operand; an unknown option; -s without a number; a missing argument: usage. -/
example : mainArgs [asc "read", asc "-b"] true = .error (.status 255) ∧ mainArgs [asc "read", asc "-x", asc "r"] true = .error (.status 255) ∧
    mainArgs [asc "create", asc "-s", asc "k", asc "r"] true = .error (.status 255) ∧ mainArgs [asc "pub", asc "1234"] true = .error (.status 255) ∧
    mainArgs [asc "foo", asc "x"] true = .error .exec := by decide +kernel

end Shr
