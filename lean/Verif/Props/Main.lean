import Verif.Model.Main
import Verif.Props.ToolHex
import Verif.Props.Write
import Verif.Props.File
import Mathlib.Data.List.Induction
/-!
# C61, C62, C65, C67: shr-tool's options, `status`, addresses, fixed-size buffers
-/
namespace Shr

/-! ## Flags -/

theorem has_or (f g b : Flags) : (f ||| g).has b = (f.has b || g.has b) := by
  unfold Flags.has
  rw [Bool.eq_iff_iff, Bool.or_eq_true]
  simp only [bne_iff_ne, ne_eq, BitVec.and_or_distrib_right, BitVec.or_eq_zero_iff]
  by_cases h1 : f &&& b = 0#32 <;> simp [h1]

/-- The letters of -m and the modes they stand for, as the usage text has it (util/shr-tool.c:137-142). -/
def modeLetters : List (Byte × Flags) :=
  [(100, SHR_DROP), (107, SHR_KEEPEXIST), (102, SHR_FARM), (115, SHR_SYNC), (108, SHR_MLOCK)]

theorem modeOption_cons (c : Byte) (s : List Byte) (f : Flags) :
    (∃ g, (c, g) ∈ modeLetters ∧ modeOption (c :: s) f = modeOption s (f ||| g)) ∨
    ((∀ g, (c, g) ∉ modeLetters) ∧ modeOption (c :: s) f = none) := by
  have e : modeOption (c :: s) f = if c = 100 then modeOption s (f ||| SHR_DROP)
    else if c = 107 then modeOption s (f ||| SHR_KEEPEXIST)
    else if c = 102 then modeOption s (f ||| SHR_FARM)
    else if c = 115 then modeOption s (f ||| SHR_SYNC)
    else if c = 108 then modeOption s (f ||| SHR_MLOCK)
    else none := rfl
  rw [e]
  by_cases h1 : c = 100
  · exact .inl ⟨SHR_DROP, by simp [modeLetters, h1], if_pos h1⟩
  by_cases h2 : c = 107
  · exact .inl ⟨SHR_KEEPEXIST, by simp [modeLetters, h2], by rw [if_neg h1, if_pos h2]⟩
  by_cases h3 : c = 102
  · exact .inl ⟨SHR_FARM, by simp [modeLetters, h3], by rw [if_neg h1, if_neg h2, if_pos h3]⟩
  by_cases h4 : c = 115
  · exact .inl ⟨SHR_SYNC, by simp [modeLetters, h4], by rw [if_neg h1, if_neg h2, if_neg h3, if_pos h4]⟩
  by_cases h5 : c = 108
  · exact .inl ⟨SHR_MLOCK, by simp [modeLetters, h5], by rw [if_neg h1, if_neg h2, if_neg h3, if_neg h4, if_pos h5]⟩
  · exact .inr ⟨fun g => by simp [modeLetters, h1, h2, h3, h4, h5], by rw [if_neg h1, if_neg h2, if_neg h3, if_neg h4, if_neg h5]⟩

theorem modeLetters_inj {c : Byte} {g g' : Flags} (h : (c, g) ∈ modeLetters) (h' : (c, g') ∈ modeLetters) : g = g' := by
  simp only [modeLetters, List.mem_cons, Prod.mk.injEq, List.not_mem_nil, or_false] at h h'
  rcases h with ⟨rfl, rfl⟩ | ⟨rfl, rfl⟩ | ⟨rfl, rfl⟩ | ⟨rfl, rfl⟩ | ⟨rfl, rfl⟩ <;>
    rcases h' with ⟨h, rfl⟩ | ⟨h, rfl⟩ | ⟨h, rfl⟩ | ⟨h, rfl⟩ | ⟨h, rfl⟩ <;> first | rfl | exact absurd h (by decide)

/-- **C61.** The argument of -m: a letter that stands for no mode is refused; otherwise exactly the modes whose letters occur are
added. -/
theorem C61_mode_letters : ∀ (s : List Byte) (f : Flags),
    (modeOption s f = none ↔ ∃ c ∈ s, ∀ g, (c, g) ∉ modeLetters) ∧
    ∀ f', modeOption s f = some f' → ∀ b, f'.has b = true ↔ f.has b = true ∨ ∃ c ∈ s, ∃ g, (c, g) ∈ modeLetters ∧ g.has b = true := by
  intro s
  induction s with
  | nil => intro f; simp [modeOption]
  | cons c s ih =>
    intro f
    rcases modeOption_cons c s f with ⟨g, hg, e⟩ | ⟨hg, e⟩
    · rw [e]
      obtain ⟨h1, h2⟩ := ih (f ||| g)
      refine ⟨?_, fun f' hf b => ?_⟩
      · rw [h1]
        constructor
        · rintro ⟨x, hx, hy⟩; exact ⟨x, by simp [hx], hy⟩
        · rintro ⟨x, hx, hy⟩
          rcases List.mem_cons.mp hx with rfl | hx
          · exact absurd hg (hy g)
          · exact ⟨x, hx, hy⟩
      · rw [h2 f' hf b, has_or, Bool.or_eq_true]
        constructor
        · rintro ((h | h) | ⟨x, hx, hy⟩)
          · exact .inl h
          · exact .inr ⟨c, by simp, g, hg, h⟩
          · exact .inr ⟨x, by simp [hx], hy⟩
        · rintro (h | ⟨x, hx, g', hy, hb⟩)
          · exact .inl (.inl h)
          · rcases List.mem_cons.mp hx with rfl | hx
            · rw [modeLetters_inj hy hg] at hb; exact .inl (.inr hb)
            · exact .inr ⟨x, hx, g', hy, hb⟩
    · rw [e]
      exact ⟨⟨fun _ => ⟨c, by simp, hg⟩, fun _ => rfl⟩, fun f' hf => by cases hf⟩

/-! ## The option loop -/

/-- The argument of the last option among `os`. -/
def lastArg (os : List Byte) (opts : List (Byte × List Byte)) : Option (List Byte) :=
  (opts.filter fun x => decide (x.1 ∈ os)).getLast?.map Prod.snd

/-- A mode letter was given. -/
def ModeGiven (l : Byte) (opts : List (Byte × List Byte)) : Prop := ∃ arg, (109, arg) ∈ opts ∧ l ∈ arg

theorem parseOpts_snoc (opts : List (Byte × List Byte)) (o : Byte) (arg : List Byte) : ∀ (c : Cfg),
    parseOpts (opts ++ [(o, arg)]) c = (parseOpts opts c).bind fun c => optStep c o arg := by
  induction opts with
  | nil => intro c; simp [parseOpts]
  | cons x xs ih =>
    intro c
    obtain ⟨o', arg'⟩ := x
    simp only [List.cons_append, parseOpts]
    cases optStep c o' arg' with
    | none => rfl
    | some c' => simp [ih c']

theorem lastArg_snoc (os : List Byte) (opts : List (Byte × List Byte)) (o : Byte) (arg : List Byte) :
    lastArg os (opts ++ [(o, arg)]) = if o ∈ os then some arg else lastArg os opts := by
  unfold lastArg
  rw [List.filter_append]
  by_cases h : o ∈ os <;> simp [h]

theorem modeGiven_snoc (l : Byte) (opts : List (Byte × List Byte)) (o : Byte) (arg : List Byte) :
    ModeGiven l (opts ++ [(o, arg)]) ↔ ModeGiven l opts ∨ (o = 109 ∧ l ∈ arg) := by
  unfold ModeGiven
  constructor
  · rintro ⟨a, h1, h2⟩
    rcases List.mem_append.mp h1 with h | h
    · exact .inl ⟨a, h, h2⟩
    · simp only [List.mem_singleton, Prod.mk.injEq] at h
      exact .inr ⟨h.1.symm, h.2 ▸ h2⟩
  · rintro (⟨a, h1, h2⟩ | ⟨rfl, h⟩)
    · exact ⟨a, by simp [h1], h2⟩
    · exact ⟨arg, by simp, h⟩

/-- What the option loop keeps. -/
structure OptInv (opts : List (Byte × List Byte)) (c : Cfg) : Prop where
  modes : ∀ b, c.flags.has b = true ↔ (∃ l g, (l, g) ∈ modeLetters ∧ ModeGiven l opts ∧ g.has b = true) ∨
    (lastArg [72, 78] opts ≠ none ∧ SHR_MAXMSGS_2.has b = true)
  max : c.maxMsgs = match lastArg [72, 78] opts with | some arg => intToSize (atoi arg) | none => 0
  size : match lastArg [115] opts with | some arg => ∃ old, sizeOption arg old = some c.size | none => c.size = 0
  wfile : c.wfile = lastArg [65] opts

theorem optStep_inv {opts : List (Byte × List Byte)} {c c' : Cfg} {o : Byte} {arg : List Byte} (h : OptInv opts c)
    (hs : optStep c o arg = some c') : OptInv (opts ++ [(o, arg)]) c' := by
  have plain : ∀ {d : Cfg}, d.flags = c.flags → d.maxMsgs = c.maxMsgs → d.size = c.size → d.wfile = c.wfile →
      o ≠ 109 → o ∉ ([72, 78] : List Byte) → o ∉ ([115] : List Byte) → o ∉ ([65] : List Byte) → OptInv (opts ++ [(o, arg)]) d := by
    intro d e1 e2 e3 e4 n1 n2 n3 n4
    refine ⟨?_, ?_, ?_, ?_⟩
    · intro b; rw [e1, h.modes b, lastArg_snoc, if_neg n2]
      simp only [modeGiven_snoc, n1, false_and, or_false]
    · rw [e2, h.max, lastArg_snoc, if_neg n2]
    · rw [e3, lastArg_snoc, if_neg n3]; exact h.size
    · rw [e4, h.wfile, lastArg_snoc, if_neg n4]
  have maxi : ∀ {d : Cfg}, d.flags = c.flags ||| SHR_MAXMSGS_2 → d.maxMsgs = intToSize (atoi arg) → d.size = c.size → d.wfile = c.wfile →
      o ≠ 109 → o ∈ ([72, 78] : List Byte) → o ∉ ([115] : List Byte) → o ∉ ([65] : List Byte) → OptInv (opts ++ [(o, arg)]) d := by
    intro d e1 e2 e3 e4 n1 n2 n3 n4
    refine ⟨?_, ?_, ?_, ?_⟩
    · intro b; rw [e1, has_or, Bool.or_eq_true, h.modes b, lastArg_snoc, if_pos n2]
      simp only [modeGiven_snoc, n1, false_and, or_false]
      constructor
      · rintro ((h | h) | h)
        · exact .inl h
        · exact .inr ⟨by simp, h.2⟩
        · exact .inr ⟨by simp, h⟩
      · rintro (h | h)
        · exact .inl (.inl h)
        · exact .inr h.2
    · rw [e2, lastArg_snoc, if_pos n2]
    · rw [e3, lastArg_snoc, if_neg n3]; exact h.size
    · rw [e4, h.wfile, lastArg_snoc, if_neg n4]
  unfold optStep at hs
  by_cases q1 : o = 118
  · rw [if_pos q1] at hs; cases hs; exact plain rfl rfl rfl rfl (by rw [q1]; decide) (by rw [q1]; decide) (by rw [q1]; decide) (by rw [q1]; decide)
  rw [if_neg q1] at hs
  by_cases q2 : o = 98
  · rw [if_pos q2] at hs; cases hs; exact plain rfl rfl rfl rfl (by rw [q2]; decide) (by rw [q2]; decide) (by rw [q2]; decide) (by rw [q2]; decide)
  rw [if_neg q2] at hs
  by_cases q3 : o = 80
  · rw [if_pos q3] at hs; cases hs; exact plain rfl rfl rfl rfl (by rw [q3]; decide) (by rw [q3]; decide) (by rw [q3]; decide) (by rw [q3]; decide)
  rw [if_neg q3] at hs
  by_cases q4 : o = 116
  · rw [if_pos q4] at hs; cases hs; exact plain rfl rfl rfl rfl (by rw [q4]; decide) (by rw [q4]; decide) (by rw [q4]; decide) (by rw [q4]; decide)
  rw [if_neg q4] at hs
  by_cases q5 : o = 100
  · rw [if_pos q5] at hs; cases hs; exact plain rfl rfl rfl rfl (by rw [q5]; decide) (by rw [q5]; decide) (by rw [q5]; decide) (by rw [q5]; decide)
  rw [if_neg q5] at hs
  by_cases q6 : o = 117
  · rw [if_pos q6] at hs; cases hs; exact plain rfl rfl rfl rfl (by rw [q6]; decide) (by rw [q6]; decide) (by rw [q6]; decide) (by rw [q6]; decide)
  rw [if_neg q6] at hs
  by_cases q7 : o = 113
  · rw [if_pos q7] at hs; cases hs; exact plain rfl rfl rfl rfl (by rw [q7]; decide) (by rw [q7]; decide) (by rw [q7]; decide) (by rw [q7]; decide)
  rw [if_neg q7] at hs
  by_cases q8 : o = 72
  · rw [if_pos q8] at hs; cases hs; exact maxi rfl rfl rfl rfl (by rw [q8]; decide) (by rw [q8]; decide) (by rw [q8]; decide) (by rw [q8]; decide)
  rw [if_neg q8] at hs
  by_cases q9 : o = 78
  · rw [if_pos q9] at hs; cases hs; exact maxi rfl rfl rfl rfl (by rw [q9]; decide) (by rw [q9]; decide) (by rw [q9]; decide) (by rw [q9]; decide)
  rw [if_neg q9] at hs
  by_cases q10 : o = 115
  · rw [if_pos q10] at hs
    obtain ⟨sz, h1, rfl⟩ := Option.map_eq_some_iff.mp hs
    refine ⟨?_, ?_, ?_, ?_⟩
    · intro b
      show c.flags.has b = true ↔ _
      rw [h.modes b, lastArg_snoc, if_neg (by rw [q10]; decide)]
      simp only [modeGiven_snoc, show ¬ (o = 109) by rw [q10]; decide, false_and, or_false]
    · rw [lastArg_snoc, if_neg (by rw [q10]; decide)]; exact h.max
    · rw [lastArg_snoc, if_pos (by rw [q10]; decide)]; exact ⟨_, h1⟩
    · rw [lastArg_snoc, if_neg (by rw [q10]; decide)]; exact h.wfile
  rw [if_neg q10] at hs
  by_cases q11 : o = 109
  · rw [if_pos q11] at hs
    obtain ⟨f, h1, rfl⟩ := Option.map_eq_some_iff.mp hs
    refine ⟨?_, ?_, ?_, ?_⟩
    · intro b
      show f.has b = true ↔ _
      rw [(C61_mode_letters arg c.flags).2 f h1 b, h.modes b, lastArg_snoc, if_neg (by rw [q11]; decide)]
      simp only [modeGiven_snoc, q11, true_and]
      constructor
      · rintro ((⟨l, g, x, y, z⟩ | h) | ⟨l, x, g, y, z⟩)
        · exact .inl ⟨l, g, x, .inl y, z⟩
        · exact .inr h
        · exact .inl ⟨l, g, y, .inr x, z⟩
      · rintro (⟨l, g, x, y | y, z⟩ | h)
        · exact .inl (.inl ⟨l, g, x, y, z⟩)
        · exact .inr ⟨l, y, g, x, z⟩
        · exact .inl (.inr h)
    · rw [lastArg_snoc, if_neg (by rw [q11]; decide)]; exact h.max
    · rw [lastArg_snoc, if_neg (by rw [q11]; decide)]; exact h.size
    · rw [lastArg_snoc, if_neg (by rw [q11]; decide)]; exact h.wfile
  rw [if_neg q11] at hs
  by_cases q12 : o = 65
  · rw [if_pos q12] at hs; cases hs
    refine ⟨?_, ?_, ?_, ?_⟩
    · intro b
      show c.flags.has b = true ↔ _
      rw [h.modes b, lastArg_snoc, if_neg (by rw [q12]; decide)]
      simp only [modeGiven_snoc, show ¬ (o = 109) by rw [q12]; decide, false_and, or_false]
    · rw [lastArg_snoc, if_neg (by rw [q12]; decide)]; exact h.max
    · rw [lastArg_snoc, if_neg (by rw [q12]; decide)]; exact h.size
    · rw [lastArg_snoc, if_pos (by rw [q12]; decide)]
  rw [if_neg q12] at hs; cases hs

theorem parseOpts_inv (opts : List (Byte × List Byte)) : ∀ c, parseOpts opts {} = some c → OptInv opts c := by
  induction opts using List.reverseRecOn with
  | nil =>
    intro c h
    simp [parseOpts] at h
    subst h
    refine ⟨?_, rfl, rfl, rfl⟩
    intro b
    simp [ModeGiven, lastArg, Flags.has]
  | append_singleton xs x ih =>
    intro c h
    obtain ⟨o, arg⟩ := x
    rw [parseOpts_snoc] at h
    obtain ⟨c1, h1, h2⟩ := Option.bind_eq_some_iff.mp h
    exact optStep_inv (ih c1 h1) h2


/-! ## Numbers -/

theorem decimal_snoc (ds : List Byte) (c : Byte) : decimal (ds ++ [c]) = 10 * decimal ds + (c.toNat - 48) := by
  simp [decimal, List.foldl_append]

theorem digit_of (k : Nat) (h : k < 10) : isDigit (48 + k).toUInt8 = true ∧ ((48 + k).toUInt8 : Byte).toNat - 48 = k := by
  have : ∀ k : Fin 10, isDigit (48 + k.val).toUInt8 = true ∧ ((48 + k.val).toUInt8 : Byte).toNat - 48 = k.val := by decide +kernel
  exact this ⟨k, h⟩

/-- `printf("%zu")` prints the number. -/
theorem decText_spec (n : Nat) : decText n ≠ [] ∧ (∀ c ∈ decText n, isDigit c = true) ∧ decimal (decText n) = n := by
  induction n using Nat.strongRecOn with
  | _ n ih =>
    rw [decText]
    split
    · rename_i h
      have := digit_of n h
      refine ⟨by simp, by simpa using this.1, ?_⟩
      simp [decimal]; exact this.2
    · rename_i h
      obtain ⟨h1, h2, h3⟩ := ih (n / 10) (by omega)
      have := digit_of (n % 10) (by omega)
      refine ⟨by simp, ?_, ?_⟩
      · intro c hc
        rcases List.mem_append.mp hc with hc | hc
        · exact h2 c hc
        · rw [List.mem_singleton.mp hc]; exact this.1
      · rw [decimal_snoc, h3, this.2]; omega

theorem not_nl_of_digits {ds : List Byte} (h : ∀ c ∈ ds, isDigit c = true) : cNL ∉ ds := fun hc => absurd (h _ hc) (by decide)

theorem strtol10_digits (ds t : List Byte) (hd : ∀ c ∈ ds, isDigit c = true) (hne : ds ≠ []) (hN : decimal ds < 2 ^ 63)
    (ht : ∀ c, t.head? = some c → isDigit c = false) : strtol10 (ds ++ t) = decimal ds := by
  obtain ⟨h1, _⟩ := takeWhile_app isDigit ds t hd ht
  rcases ds with _ | ⟨c, ds⟩
  · exact absurd rfl hne
  obtain ⟨f1, f2, f3⟩ := digit_facts (hd c (by simp))
  unfold strtol10
  rw [List.cons_append, List.dropWhile_cons_of_neg (by simp [f1])]
  dsimp only
  have ht' : (if c = 45 ∨ c = 43 then ds ++ t else c :: (ds ++ t)) = c :: ds ++ t := by
    rw [if_neg (by simp [f2, f3]), List.cons_append]
  rw [ht', h1, if_neg f2]
  omega

/-- `atoi` of a decimal number below 2^31, whatever follows it. -/
theorem atoi_digits (ds t : List Byte) (hd : ∀ c ∈ ds, isDigit c = true) (hne : ds ≠ []) (hN : decimal ds < 2 ^ 31)
    (ht : ∀ c, t.head? = some c → isDigit c = false) : atoi (ds ++ t) = decimal ds := by
  unfold atoi toInt32
  rw [strtol10_digits ds t hd hne (by omega) ht]
  omega

/-! ## C61: create -/

/-- **C61.** What is missing: `status` does not show app data among the attributes (`C61_counterexample_appdata`), and -H, an option of
`mount`, is taken for -N (`C61_counterexample_hugepages`).  What holds: whatever the options and their order, `create` makes
the ring with the size of the last -s, the modes whose letters were given with -m and no others, the app data that is in the file given
with the last -A, and the maximum of the last -N (or -H; 0 stands for the default, 100 and a hundredth of the size). -/
theorem C61_create_partial {opts : List (Byte × List Byte)} {c : Cfg} {file : Option (List Byte)} {a : InitArgs}
    (hp : parseOpts opts {} = some c) (hc : createCmd c file = .inits a) :
    (∀ l g, (l, g) ∈ modeLetters → (a.flags.has g = true ↔ ModeGiven l opts)) ∧
    (∃ arg old, lastArg [115] opts = some arg ∧ sizeOption arg old = some (initRing a).n) ∧
    (a.max_msgs < W → (initRing a).mm = match (lastArg [72, 78] opts).map fun arg => intToSize (atoi arg) with
      | some (n + 1) => n + 1
      | _ => (100 + (initRing a).n / 100) % 2 ^ 64) ∧
    (lastArg [65] opts = none → (initRing a).app = []) ∧
    (lastArg [65] opts ≠ none → file = some (initRing a).app ∧ (initRing a).app ≠ []) ∧
    a.flags.toNat < SHR_OPEN_FENCE.toNat := by
  have hi := parseOpts_inv opts c hp
  unfold createCmd at hc
  by_cases hz : c.size = 0
  · rw [if_pos hz] at hc; cases hc
  rw [if_neg hz] at hc
  -- the size
  have hsz : ∃ arg old, lastArg [115] opts = some arg ∧ sizeOption arg old = some c.size := by
    have := hi.size
    cases e : lastArg [115] opts with
    | none => rw [e] at this; exact absurd this hz
    | some arg => rw [e] at this; obtain ⟨old, h⟩ := this; exact ⟨arg, old, rfl, h⟩
  -- bits that no letter sets
  have hnone : ∀ b, (∀ l g, (l, g) ∈ modeLetters → g.has b = false) → SHR_MAXMSGS_2.has b = false → c.flags.has b = false := by
    intro b h1 h2
    rw [← Bool.not_eq_true, hi.modes b]
    rintro (⟨l, g, h3, _, h4⟩ | ⟨_, h4⟩)
    · rw [h1 l g h3] at h4; cases h4
    · rw [h2] at h4; cases h4
  have hbits : ∀ k, 7 ≤ k → k < 32 → c.flags.getLsbD k = false := by
    intro k h1 h2
    rw [← has_shift _ k h2]
    have hs : ∀ k : Fin 32, 7 ≤ k.val → (∀ x ∈ modeLetters, x.2.has (1#32 <<< k.val) = false) ∧ SHR_MAXMSGS_2.has (1#32 <<< k.val) = false := by
      decide +kernel
    obtain ⟨s1, s2⟩ := hs ⟨k, h2⟩ h1
    exact hnone _ (fun l g h => s1 _ h) s2
  have hfence : ∀ f : Flags, (∀ k, 7 ≤ k → k < 32 → f.getLsbD k = false) → f.toNat < SHR_OPEN_FENCE.toNat := by
    intro f h
    have : f = f &&& 0x7f#32 := by
      apply BitVec.eq_of_getLsbD_eq
      intro k hk
      rw [BitVec.getLsbD_and]
      by_cases h7 : 7 ≤ k
      · rw [h k h7 hk]; rfl
      · have : ∀ k : Fin 7, (0x7f#32).getLsbD k.val = true := by decide +kernel
        rw [this ⟨k, by omega⟩, Bool.and_true]
    have h2 : (f &&& 0x7f#32).toNat ≤ 0x7f := by
      rw [BitVec.toNat_and]; exact Nat.and_le_right
    rw [← this] at h2
    exact Nat.lt_of_le_of_lt h2 (by decide)
  have hmode : ∀ l g, (l, g) ∈ modeLetters → (c.flags.has g = true ↔ ModeGiven l opts) := by
    intro l g hlg
    rw [hi.modes g]
    have t1 : ∀ x ∈ modeLetters, SHR_MAXMSGS_2.has x.2 = false := by decide +kernel
    have t2 : ∀ x ∈ modeLetters, ∀ y ∈ modeLetters, y.2.has x.2 = true → y.1 = x.1 := by decide +kernel
    have t3 : ∀ x ∈ modeLetters, x.2.has x.2 = true := by decide +kernel
    constructor
    · rintro (⟨l', g', h1, h2, h3⟩ | ⟨_, h⟩)
      · have := t2 _ hlg _ h1 h3; dsimp only at this; rwa [this] at h2
      · rw [t1 _ hlg] at h; cases h
    · exact fun h => .inl ⟨l, g, hlg, h, t3 _ hlg⟩
  have hmm : c.flags.has SHR_MAXMSGS_2 = (lastArg [72, 78] opts).isSome := by
    rw [Bool.eq_iff_iff, hi.modes]
    have t1 : ∀ x ∈ modeLetters, x.2.has SHR_MAXMSGS_2 = false := by decide +kernel
    constructor
    · rintro (⟨l, g, h1, _, h3⟩ | ⟨h, _⟩)
      · rw [t1 _ h1] at h3; cases h3
      · exact Option.isSome_iff_ne_none.mpr h
    · exact fun h => .inr ⟨Option.isSome_iff_ne_none.mp h, by decide⟩
  have happ : c.flags.has SHR_APPDATA = false := hnone _ (fun l g h => by
    have : ∀ x ∈ modeLetters, x.2.has SHR_APPDATA = false := by decide +kernel
    exact this _ h) (by decide)
  have hmax : ∀ (f : Flags) (app : List Byte), f.has SHR_MAXMSGS_2 = c.flags.has SHR_MAXMSGS_2 →
      (InitArgs.max_msgs { dataSz := c.size, flags := f, app := app, maxMsgs := c.maxMsgs }) =
      match (lastArg [72, 78] opts).map fun arg => intToSize (atoi arg) with
      | some (n + 1) => n + 1
      | _ => (100 + c.size / 100) % 2 ^ 64 := by
    intro f app hf
    unfold InitArgs.max_msgs
    dsimp only
    rw [hf, hmm, hi.max]
    cases lastArg [72, 78] opts with
    | none => simp [wadd, W]
    | some arg =>
      simp only [Option.isSome_some, if_true, Option.map_some]
      cases intToSize (atoi arg) with
      | zero => simp [wadd, W]
      | succ n => simp
  cases hw : c.wfile with
  | none =>
    rw [hw] at hc
    dsimp only at hc
    cases hc
    refine ⟨hmode, hsz, fun _ => hmax _ _ rfl, fun _ => ?_, fun h => ?_, hfence _ hbits⟩
    · show (if c.flags.has SHR_APPDATA_1 = true then _ else _) = _
      rw [show c.flags.has SHR_APPDATA_1 = false from happ]; rfl
    · rw [← hi.wfile, hw] at h; exact absurd rfl h
  | some fn =>
    rw [hw] at hc
    dsimp only at hc
    cases hm : mapFile file with
    | none => rw [hm] at hc; cases hc
    | some b =>
      rw [hm] at hc
      dsimp only at hc
      cases hc
      refine ⟨fun l g hlg => ?_, hsz, fun _ => hmax _ _ ?_, fun h => ?_, fun h => ?_, hfence _ ?_⟩
      · dsimp only
        rw [has_or, Bool.or_eq_true, hmode l g hlg]
        have t1 : ∀ x ∈ modeLetters, SHR_APPDATA.has x.2 = false := by decide +kernel
        rw [t1 _ hlg]; simp
      · rw [has_or]; simp; intro h; exact absurd h (by decide)
      · rw [← hi.wfile, hw] at h; cases h
      · show file = some (if (c.flags ||| SHR_APPDATA).has SHR_APPDATA_1 = true then b else []) ∧ _
        have : (c.flags ||| SHR_APPDATA).has SHR_APPDATA_1 = true := by rw [has_or]; simp; exact .inr (by decide)
        rw [if_pos this]
        show _ ∧ (if (c.flags ||| SHR_APPDATA).has SHR_APPDATA_1 = true then b else []) ≠ []
        rw [if_pos this]
        unfold mapFile at hm
        split at hm
        · cases hm; simp
        · cases hm
      · intro k h1 h2
        dsimp only
        rw [BitVec.getLsbD_or, hbits k h1 h2, Bool.false_or]
        have : ∀ k : Fin 32, 7 ≤ k.val → SHR_APPDATA.getLsbD k.val = false := by decide +kernel
        exact this ⟨k, h2⟩ h1

/-- **C61.** The number given with -N is the maximum, if it is between 1 and 2^31 - 1. -/
theorem C61_max_exact (ds : List Byte) (hd : ∀ c ∈ ds, isDigit c = true) (hne : ds ≠ []) (hN : decimal ds < 2 ^ 31) :
    intToSize (atoi ds) = decimal ds := by
  have := atoi_digits ds [] hd hne hN (by simp)
  rw [List.append_nil] at this
  unfold intToSize
  rw [this]
  omega

/-- **C61.** A ring created with -A has app data, but `status` lists no attribute. -/
theorem C61_counterexample_appdata : ∃ (c : Cfg) (a : InitArgs),
    parseOpts [(115, asc "10"), (65, asc "f")] {} = some c ∧ createCmd c (some (asc "hello")) = .inits a ∧
      (initRing a).app = asc "hello" ∧ attrWords (initRing a).gflags = asc "none" :=
  ⟨_, _, rfl, rfl, by decide +kernel, by decide +kernel⟩

/-- **C61.** The number of huge pages, an option of `mount`, sets the maximum number of messages. -/
theorem C61_counterexample_hugepages : ∃ (c : Cfg) (a : InitArgs),
    parseOpts [(115, asc "10"), (78, asc "7"), (72, asc "3")] {} = some c ∧ createCmd c none = .inits a ∧ (initRing a).mm = 3 :=
  ⟨_, _, rfl, rfl, by decide +kernel⟩

/-- C61: `create -s 2k -m df -N 7 -m l`. -/
example : ∃ (c : Cfg) (a : InitArgs), parseOpts [(115, asc "2k"), (109, asc "df"), (78, asc "7"), (109, asc "l")] {} = some c ∧
    createCmd c none = .inits a ∧ (initRing a).n = 2048 ∧ (initRing a).mm = 7 ∧ attrWords (initRing a).gflags = asc "drop farm mlock " ∧
    a.flags.has SHR_SYNC = false := by
  have h1 : parseOpts [(115, asc "2k"), (109, asc "df"), (78, asc "7"), (109, asc "l")] {} =
      some { flags := SHR_DROP ||| SHR_FARM ||| SHR_MAXMSGS_2 ||| SHR_MLOCK, maxMsgs := 7, size := 2048 } := by decide +kernel
  refine ⟨_, _, h1, rfl, rfl, rfl, by decide +kernel, ?_⟩
  have h := (C61_create_partial h1 (file := none) rfl).1 115 SHR_SYNC (by simp [modeLetters])
  rw [← Bool.not_eq_true, h]
  rintro ⟨arg, h1, h2⟩
  simp at h1
  rcases h1 with h | h <;> subst h <;> exact absurd h2 (by decide +kernel)

/-! ## C62: status -/

/-- What stands behind the word `name` on the lines that begin with it, as words. -/
def field (txt name : List Byte) : List (List (List Byte)) :=
  ((textLines txt).map columns).filterMap fun ws => match ws with
    | [] => none
    | w :: rest => if w = name then some rest else none

/-- The text has one line for `name`, and it gives the number `n` in decimal. -/
def Prints (txt : List Byte) (name : String) (n : Nat) : Prop :=
  ∃ ds, field txt (asc name) = [[ds]] ∧ ds ≠ [] ∧ (∀ c ∈ ds, isDigit c = true) ∧ decimal ds = n

theorem columns_nil : columns [] = [] := rfl

theorem columns_word_sp (w t : List Byte) (hw : cSP ∉ w) (hne : w ≠ []) : columns (w ++ 32 :: t) = w :: columns t := by
  unfold columns
  rw [List.splitOn_append_cons_self, List.splitOn_eq_singleton hw]
  simp [hne]

theorem columns_sp (t : List Byte) : columns (32 :: t) = columns t := by
  unfold columns
  rw [show (32 :: t : List Byte) = [] ++ cSP :: t from rfl, List.splitOn_append_cons_self]
  simp

theorem columns_last (w : List Byte) (hw : cSP ∉ w) (hne : w ≠ []) : columns w = [w] := by
  unfold columns
  rw [List.splitOn_eq_singleton hw]
  simp [hne]

theorem ldText_plain (n : Nat) : ldText n ≠ [] ∧ cSP ∉ ldText n ∧ cNL ∉ ldText n := by
  have key : ∀ n, cSP ∉ decText n ∧ cNL ∉ decText n := fun n =>
    ⟨fun h => absurd ((decText_spec n).2.1 _ h) (by decide), not_nl_of_digits (decText_spec n).2.1⟩
  unfold ldText
  split
  · exact ⟨(decText_spec n).1, key n⟩
  · refine ⟨by simp, ?_, ?_⟩ <;> simp <;> exact ⟨by decide, by first | exact (key _).1 | exact (key _).2⟩

theorem ldText_small {n : Nat} (h : n < 2 ^ 63) : ldText n = decText n := by unfold ldText; rw [if_pos h]

/-- The lines of `statusText`: a name and the words behind it. -/
def statusLines (st : Stat) (appLen : Nat) : List (List Byte × List Byte) :=
  [(asc "bytes-written", ldText st.bw), (asc "bytes-read", ldText st.br), (asc "bytes-dropped", ldText st.bd),
   (asc "messages-written", ldText st.mw), (asc "messages-read", ldText st.mr), (asc "messages-dropped", ldText st.md),
   (asc "ring-size", ldText st.bn), (asc "bytes-ready", ldText st.bu), (asc "max-messages", ldText st.mm),
   (asc "messages-ready", ldText st.mu), (asc "attributes", attrWords st.flags), (asc "app-data", decText appLen)]

theorem attrWords_nl (f : Flags) : cNL ∉ attrWords f := by
  have : ∀ b0 b1 b2 b3 b4 b5 : Bool, cNL ∉ ((if b0 then asc "none" else []) ++ (if b1 then asc "drop " else []) ++
    (if b2 then asc "appdata " else []) ++ (if b3 then asc "farm " else []) ++ (if b4 then asc "mlock " else []) ++
    (if b5 then asc "sync " else [])) := by decide +kernel
  have := this (decide (f = 0#32)) (f.has SHR_DROP) (f.has SHR_APPDATA) (f.has SHR_FARM) (f.has SHR_MLOCK) (f.has SHR_SYNC)
  simpa [attrWords] using this

theorem twelve_lines (x0 x1 x2 x3 x4 x5 x6 x7 x8 x9 x10 x11 y0 y1 y2 y3 y4 y5 y6 y7 y8 y9 y10 y11 : List Byte) :
    (32 :: x0 ++ [32]) ++ y0 ++ [10] ++
    (32 :: x1 ++ [32]) ++ y1 ++ [10] ++
    (32 :: x2 ++ [32]) ++ y2 ++ [10] ++
    (32 :: x3 ++ [32]) ++ y3 ++ [10] ++
    (32 :: x4 ++ [32]) ++ y4 ++ [10] ++
    (32 :: x5 ++ [32]) ++ y5 ++ [10] ++
    (32 :: x6 ++ [32]) ++ y6 ++ [10] ++
    (32 :: x7 ++ [32]) ++ y7 ++ [10] ++
    (32 :: x8 ++ [32]) ++ y8 ++ [10] ++
    (32 :: x9 ++ [32]) ++ y9 ++ [10] ++
    (32 :: x10 ++ [32]) ++ y10 ++ [10] ++
    (32 :: x11 ++ [32]) ++ y11 ++ [10] =
    ([(x0, y0), (x1, y1), (x2, y2), (x3, y3), (x4, y4), (x5, y5), (x6, y6), (x7, y7), (x8, y8), (x9, y9), (x10, y10), (x11, y11)].map
      fun l => 32 :: l.1 ++ 32 :: l.2).flatMap fun l => l ++ [10] := by
  simp only [List.map_cons, List.map_nil, List.flatMap_cons, List.flatMap_nil, List.append_assoc, List.cons_append,
    List.nil_append, List.append_nil]

theorem status_lines (st : Stat) (appLen : Nat) :
    textLines (statusText st appLen) = (statusLines st appLen).map fun l => 32 :: l.1 ++ 32 :: l.2 := by
  have e0 : asc " bytes-written " = 32 :: asc "bytes-written" ++ [32] := by decide +kernel
  have e1 : asc " bytes-read " = 32 :: asc "bytes-read" ++ [32] := by decide +kernel
  have e2 : asc " bytes-dropped " = 32 :: asc "bytes-dropped" ++ [32] := by decide +kernel
  have e3 : asc " messages-written " = 32 :: asc "messages-written" ++ [32] := by decide +kernel
  have e4 : asc " messages-read " = 32 :: asc "messages-read" ++ [32] := by decide +kernel
  have e5 : asc " messages-dropped " = 32 :: asc "messages-dropped" ++ [32] := by decide +kernel
  have e6 : asc " ring-size " = 32 :: asc "ring-size" ++ [32] := by decide +kernel
  have e7 : asc " bytes-ready " = 32 :: asc "bytes-ready" ++ [32] := by decide +kernel
  have e8 : asc " max-messages " = 32 :: asc "max-messages" ++ [32] := by decide +kernel
  have e9 : asc " messages-ready " = 32 :: asc "messages-ready" ++ [32] := by decide +kernel
  have e10 : asc " attributes " = 32 :: asc "attributes" ++ [32] := by decide +kernel
  have e11 : asc " app-data " = 32 :: asc "app-data" ++ [32] := by decide +kernel
  have : statusText st appLen = ((statusLines st appLen).map fun l => 32 :: l.1 ++ 32 :: l.2).flatMap fun l => l ++ [10] := by
    unfold statusText statusLines
    simp only [e0, e1, e2, e3, e4, e5, e6, e7, e8, e9, e10, e11]
    exact twelve_lines ..
  rw [this, textLines_flatMap]
  intro l hl
  obtain ⟨x, hx, rfl⟩ := List.mem_map.mp hl
  have hn : ∀ n, cNL ∉ decText n := fun n => not_nl_of_digits (decText_spec n).2.1
  have hld : ∀ n, cNL ∉ ldText n := fun n => (ldText_plain n).2.2
  have ha := attrWords_nl st.flags
  simp only [statusLines, List.mem_cons, List.not_mem_nil, or_false] at hx
  have key : ∀ a b : List Byte, cNL ∉ a → cNL ∉ b → cNL ∉ 32 :: a ++ 32 :: b := by
    intro a b h1 h2
    simp only [List.cons_append, List.mem_cons, List.mem_append, not_or]
    exact ⟨by decide, h1, by decide, h2⟩
  rcases hx with rfl | rfl | rfl | rfl | rfl | rfl | rfl | rfl | rfl | rfl | rfl | rfl
  all_goals dsimp only
  all_goals exact key _ _ (by decide) (by first | exact hld _ | exact ha | exact hn _)

theorem field_status (st : Stat) (appLen : Nat) (name : List Byte) :
    field (statusText st appLen) name = (statusLines st appLen).filterMap fun l => if l.1 = name then some (columns l.2) else none := by
  have h : ∀ l ∈ statusLines st appLen, columns (32 :: l.1 ++ 32 :: l.2) = l.1 :: columns l.2 := by
    intro l hl
    rw [List.cons_append, columns_sp]
    simp only [statusLines, List.mem_cons, List.not_mem_nil, or_false] at hl
    rcases hl with rfl | rfl | rfl | rfl | rfl | rfl | rfl | rfl | rfl | rfl | rfl | rfl
    all_goals dsimp only
    all_goals exact columns_word_sp _ _ (by decide) (by decide)
  unfold field
  rw [status_lines, List.map_map, List.filterMap_map]
  generalize statusLines st appLen = ls at h
  induction ls with
  | nil => rfl
  | cons l ls ih =>
    rw [List.filterMap_cons, List.filterMap_cons, ih (fun x hx => h x (by simp [hx]))]
    simp only [Function.comp_apply]
    rw [h l (by simp)]

theorem dec_col (n : Nat) : columns (decText n) = [decText n] := by
  refine columns_last _ (fun h => absurd ((decText_spec n).2.1 _ h) (by decide)) (decText_spec n).1

theorem ld_col (n : Nat) : columns (ldText n) = [ldText n] := columns_last _ (ldText_plain n).2.1 (ldText_plain n).1

theorem prints_of {st : Stat} {appLen : Nat} {name : String} {n : Nat}
    (h : ((statusLines st appLen).filterMap fun l => if l.1 = asc name then some (columns l.2) else none) = [columns (decText n)]) :
    Prints (statusText st appLen) name n := by
  refine ⟨decText n, ?_, decText_spec n⟩
  rw [field_status, h, dec_col]

/-- `attrWords` for the values of its tests. -/
def attrText (b0 b1 b2 b3 b4 b5 : Bool) : List Byte :=
  (if b0 then asc "none" else []) ++ (if b1 then asc "drop " else []) ++ (if b2 then asc "appdata " else []) ++
  (if b3 then asc "farm " else []) ++ (if b4 then asc "mlock " else []) ++ (if b5 then asc "sync " else [])

theorem attrWords_bits : ∀ b0 b1 b2 b3 b4 b5 : Bool, (b0 = true → b1 = false ∧ b2 = false ∧ b3 = false ∧ b4 = false ∧ b5 = false) →
    (asc "drop" ∈ columns (attrText b0 b1 b2 b3 b4 b5) ↔ b1 = true) ∧ (asc "appdata" ∈ columns (attrText b0 b1 b2 b3 b4 b5) ↔ b2 = true) ∧
    (asc "farm" ∈ columns (attrText b0 b1 b2 b3 b4 b5) ↔ b3 = true) ∧ (asc "mlock" ∈ columns (attrText b0 b1 b2 b3 b4 b5) ↔ b4 = true) ∧
    (asc "sync" ∈ columns (attrText b0 b1 b2 b3 b4 b5) ↔ b5 = true) := by
  intro b0 b1 b2 b3 b4 b5
  cases b0 <;> cases b1 <;> cases b2 <;> cases b3 <;> cases b4 <;> cases b5 <;> decide +kernel

theorem attrWords_mem (f : Flags) :
    (asc "drop" ∈ columns (attrWords f) ↔ f.has SHR_DROP = true) ∧ (asc "appdata" ∈ columns (attrWords f) ↔ f.has SHR_APPDATA = true) ∧
    (asc "farm" ∈ columns (attrWords f) ↔ f.has SHR_FARM = true) ∧ (asc "mlock" ∈ columns (attrWords f) ↔ f.has SHR_MLOCK = true) ∧
    (asc "sync" ∈ columns (attrWords f) ↔ f.has SHR_SYNC = true) := by
  have h0 : f = 0#32 → f.has SHR_DROP = false ∧ f.has SHR_APPDATA = false ∧ f.has SHR_FARM = false ∧ f.has SHR_MLOCK = false ∧
    f.has SHR_SYNC = false := by rintro rfl; decide
  have := attrWords_bits (decide (f = 0#32)) (f.has SHR_DROP) (f.has SHR_APPDATA) (f.has SHR_FARM) (f.has SHR_MLOCK) (f.has SHR_SYNC)
    (fun h => h0 (of_decide_eq_true h))
  simpa only [attrWords, decide_eq_true_eq, attrText] using this

theorem gflags_mlock (a : InitArgs) : a.gflags.has SHR_MLOCK = a.flags.has SHR_MLOCK := by
  unfold InitArgs.gflags
  dsimp only
  generalize a.flags.has SHR_SYNC = b1
  generalize a.flags.has SHR_DROP = b2
  generalize a.flags.has SHR_FARM = b3
  generalize a.flags.has SHR_MLOCK = b4
  revert b1 b2 b3 b4
  decide +kernel

theorem gflags_sync (a : InitArgs) : a.gflags.has SHR_SYNC = a.flags.has SHR_SYNC := by
  unfold InitArgs.gflags
  dsimp only
  generalize a.flags.has SHR_SYNC = b1
  generalize a.flags.has SHR_DROP = b2
  generalize a.flags.has SHR_FARM = b3
  generalize a.flags.has SHR_MLOCK = b4
  revert b1 b2 b3 b4
  decide +kernel

theorem prints_ld {st : Stat} {appLen : Nat} {name : String} {n m : Nat}
    (h : ((statusLines st appLen).filterMap fun l => if l.1 = asc name then some (columns l.2) else none) = [columns (ldText n)])
    (hn : n < 2 ^ 63) (e : n = m) : Prints (statusText st appLen) name m := by
  subst e
  exact prints_of (h.trans (by rw [ldText_small hn]))

/-- **C62.** `shr-tool status`, from the calls `shr_stat` and `shr_appdata` on an open handle (other processes may make any calls before,
between and after).  What is missing: counters from 2^63 on are printed as negative numbers
(`C62_counterexample_counter`), and app data is not among the attributes of a ring that has it (`C61_counterexample_appdata`).
What holds: the printed limits are those of the ring, the printed unread bytes and messages those in the ring at the time of
`shr_stat`, the printed counters those that `shr_stat` reported, the attributes are exactly those of drop, farm, mlock and sync that
the ring was created with (farm rings also show drop), and the printed size of the app data is the size of the app data. -/
theorem C62_status_partial {a : InitArgs} {ops1 ops2 : List Op} {k1 k2 : Nat} {e1 e2 : Env} {s1 s1' s2 s2' : Sys} {outs1 outs2 : List Out}
    {h1 : Handle} {rc : Int} {st : Stat} {r : AppOut}
    (v1 : Valid a (ops1 ++ [.stat k1 none e1])) (hrun1 : (Sys.init a).run ops1 = .ok (s1, outs1))
    (hstep1 : s1.step (.stat k1 none e1) = .ok (s1', .stat rc (some st))) (hk1 : s1.hs k1 = .live h1)
    (v2 : Valid a (ops2 ++ [.appdata k2 .alloc none 0 e2])) (hrun2 : (Sys.init a).run ops2 = .ok (s2, outs2))
    (hstep2 : s2.step (.appdata k2 .alloc none 0 e2) = .ok (s2', .app r)) :
    Prints (statusText st r.sz) "ring-size" a.dataSz ∧ Prints (statusText st r.sz) "max-messages" a.max_msgs ∧
    Prints (statusText st r.sz) "bytes-ready" (bytesOf s1.ring.unreadMsgs) ∧
    Prints (statusText st r.sz) "messages-ready" s1.ring.unreadMsgs.length ∧
    (st.bw < 2 ^ 63 → Prints (statusText st r.sz) "bytes-written" st.bw) ∧
    (st.br < 2 ^ 63 → Prints (statusText st r.sz) "bytes-read" st.br) ∧
    (st.bd < 2 ^ 63 → Prints (statusText st r.sz) "bytes-dropped" st.bd) ∧
    (st.mw < 2 ^ 63 → Prints (statusText st r.sz) "messages-written" st.mw) ∧
    (st.mr < 2 ^ 63 → Prints (statusText st r.sz) "messages-read" st.mr) ∧
    (st.md < 2 ^ 63 → Prints (statusText st r.sz) "messages-dropped" st.md) ∧
    (∃ ws, field (statusText st r.sz) (asc "attributes") = [ws] ∧
      (asc "drop" ∈ ws ↔ a.flags.has SHR_DROP = true ∨ a.flags.has SHR_FARM = true) ∧ (asc "farm" ∈ ws ↔ a.flags.has SHR_FARM = true) ∧
      (asc "mlock" ∈ ws ↔ a.flags.has SHR_MLOCK = true) ∧ (asc "sync" ∈ ws ↔ a.flags.has SHR_SYNC = true)) ∧
    (e2.lockOk = true → Prints (statusText st r.sz) "app-data" s2.ring.app.length) := by
  have hlk : e1.lockOk = true := by
    obtain ⟨sp, x⟩ := v1.at hrun1 hstep1
    obtain ⟨sh, hsk, _⟩ := x.rel.live hk1
    have ho := x.out
    unfold Spec.step at ho
    simp only [hsk] at ho
    split at ho
    · cases ho
    · rename_i h; simpa using h
  obtain ⟨rc', st', h, hbu, hmu, hbn, hmm, hfl, _⟩ := C05_stat_reports_unread v1 hrun1 hstep1 hk1 hlk
  cases h
  obtain ⟨c1, c2⟩ := C05_capacity v1.left hrun1
  have hi := v1.init
  have hd : a.dataSz < 2 ^ 63 := Nat.lt_of_le_of_lt hi.sz (by decide)
  have hmx : a.max_msgs < 2 ^ 63 := by have := hi.mm; unfold W SIZEOF_MSG at this; omega
  refine ⟨prints_ld rfl (by omega) hbn, prints_ld rfl (by omega) hmm, prints_ld rfl (by omega) hbu, prints_ld rfl (by omega) hmu,
    fun h => prints_ld rfl h rfl, fun h => prints_ld rfl h rfl, fun h => prints_ld rfl h rfl,
    fun h => prints_ld rfl h rfl, fun h => prints_ld rfl h rfl, fun h => prints_ld rfl h rfl, ?_, ?_⟩
  · refine ⟨columns (attrWords st.flags), ?_, ?_⟩
    · rw [field_status]; rfl
    · obtain ⟨m1, _, m3, m4, m5⟩ := attrWords_mem st.flags
      rw [m1, m3, m4, m5, hfl, gflags_drop, gflags_farm, gflags_mlock, gflags_sync, Bool.or_eq_true]
      simp
  · intro hlk2
    obtain ⟨sp, x⟩ := v2.at hrun2 hstep2
    have ho := x.out
    have hz : r.sz = s2.ring.app.length := by
      rw [x.rel.ring.app]
      unfold Spec.step at ho
      dsimp only at ho
      split at ho
      · simp only [Out.app.injEq] at ho
        subst ho
        unfold Spec.appdata
        by_cases h0 : sp.app.length = 0
        · rw [if_pos (.inr h0)]; exact h0.symm
        · rw [if_neg (by simp [hlk2, h0])]
          dsimp only
          split <;> rfl
      · cases ho
    rw [← hz]
    exact prints_of rfl

/-- **C62.** A byte counter of 2^63 (the ring has been written to for long enough) is shown as a negative number. -/
theorem C62_counterexample_counter (st : Stat) (n : Nat) (h : st.bw = 2 ^ 63) :
    field (statusText st n) (asc "bytes-written") = [[asc "-9223372036854775808"]] ∧ ¬ Prints (statusText st n) "bytes-written" st.bw := by
  have e : field (statusText st n) (asc "bytes-written") = [[asc "-9223372036854775808"]] := by
    rw [field_status]
    have : columns (ldText st.bw) = [asc "-9223372036854775808"] := by rw [h]; decide +kernel
    rw [← this]; rfl
  refine ⟨e, ?_⟩
  rintro ⟨ds, h1, _, h3, _⟩
  rw [e] at h1
  cases h1
  exact absurd (h3 45 (by decide)) (by decide)

/-- The text has one line for `name`, and it gives the negative number `-n`. -/
def PrintsMinus (txt : List Byte) (name : String) (n : Nat) : Prop :=
  ∃ ds, field txt (asc name) = [[45 :: ds]] ∧ ds ≠ [] ∧ (∀ c ∈ ds, isDigit c = true) ∧ decimal ds = n

theorem prints_minus {st : Stat} {appLen : Nat} {name : String} {n : Nat}
    (h : ((statusLines st appLen).filterMap fun l => if l.1 = asc name then some (columns l.2) else none) = [columns (ldText n)])
    (hn : 2 ^ 63 ≤ n) : PrintsMinus (statusText st appLen) name (2 ^ 64 - n) := by
  obtain ⟨h1, h2, h3⟩ := decText_spec (2 ^ 64 - n)
  refine ⟨decText (2 ^ 64 - n), ?_, h1, h2, h3⟩
  rw [field_status, h]
  unfold ldText
  rw [if_neg (by omega), columns_last _ ?_ (by simp)]
  intro hm
  rcases List.mem_cons.1 hm with h | h
  · cases h
  · have := h2 _ h; revert this; decide

/-- **C62**, the limit exactly: a counter from 2^63 on is shown as the negative number that is less by 2^64. -/
theorem C62_large_counters (st : Stat) (n : Nat) :
    (2 ^ 63 ≤ st.bw → PrintsMinus (statusText st n) "bytes-written" (2 ^ 64 - st.bw)) ∧
    (2 ^ 63 ≤ st.br → PrintsMinus (statusText st n) "bytes-read" (2 ^ 64 - st.br)) ∧
    (2 ^ 63 ≤ st.bd → PrintsMinus (statusText st n) "bytes-dropped" (2 ^ 64 - st.bd)) ∧
    (2 ^ 63 ≤ st.mw → PrintsMinus (statusText st n) "messages-written" (2 ^ 64 - st.mw)) ∧
    (2 ^ 63 ≤ st.mr → PrintsMinus (statusText st n) "messages-read" (2 ^ 64 - st.mr)) ∧
    (2 ^ 63 ≤ st.md → PrintsMinus (statusText st n) "messages-dropped" (2 ^ 64 - st.md)) :=
  ⟨fun h => prints_minus rfl h, fun h => prints_minus rfl h, fun h => prints_minus rfl h, fun h => prints_minus rfl h,
    fun h => prints_minus rfl h, fun h => prints_minus rfl h⟩

/-- C62: `status` of a ring of 10 bytes with two unread messages of four bytes each. -/
example : ∃ st, Prints (statusText st 0) "bytes-ready" 8 ∧ Prints (statusText st 0) "messages-ready" 2 ∧ Prints (statusText st 0) "ring-size" 10 ∧
    Prints (statusText st 0) "app-data" 0 := by
  have v1 : Valid demoA (demoOps ++ [.stat 1 none {}]) := valid_of (by decide +kernel)
  have v2 : Valid demoA ((demoOps ++ [.stat 1 none {}]) ++ [.appdata 1 .alloc none 0 {}]) := valid_of (by decide +kernel)
  obtain ⟨st, hst⟩ : ∃ st, lastOut demoA (demoOps ++ [.stat 1 none {}]) = .stat 0 (some st) := by
    obtain ⟨rc, st, h1, _, _, _, _, _, h2⟩ := C05_stat_reports_unread v1 v1.left.runs v1.steps (live_handle (by decide +kernel)) rfl
    exact ⟨st, by rw [h1, h2 rfl]⟩
  have ha : lastOut demoA ((demoOps ++ [.stat 1 none {}]) ++ [.appdata 1 .alloc none 0 {}]) = .app ⟨-1, none, 0⟩ := by decide +kernel
  have s1 := v1.steps
  have s2 := v2.steps
  rw [hst] at s1
  rw [ha] at s2
  obtain ⟨h1, _, h3, h4, _, _, _, _, _, _, _, h5⟩ := C62_status_partial v1 v1.left.runs s1 (live_handle (by decide +kernel)) v2 v2.left.runs s2
  refine ⟨st, ?_, ?_, h1, ?_⟩
  · rw [show bytesOf (final demoA demoOps).ring.unreadMsgs = 8 by decide +kernel] at h3; exact h3
  · rw [show (final demoA demoOps).ring.unreadMsgs.length = 2 by decide +kernel] at h4; exact h4
  · have := h5 rfl
    rw [show (final demoA (demoOps ++ [.stat 1 none {}])).ring.app.length = 0 by decide +kernel] at this
    exact this

/-! ## C65: addresses -/

/-- **C65.** Whatever the text, an address that is accepted has a port between 1 and 65535. -/
theorem C65_port_range {resolve : List Byte → Option (List Byte)} {spec addr : List Byte} {port : Nat}
    (h : parse_spec resolve spec = some (port, addr)) : 1 ≤ port ∧ port ≤ 65535 := by
  unfold parse_spec at h
  dsimp only at h
  generalize atoi (if 58 ∈ spec then List.drop 1 (List.dropWhile (fun x => decide (x ≠ 58)) spec) else spec) = p at h
  have key : ∀ ad : List Byte, (if p ≤ 0 ∨ p > 65535 then none else some (p.toNat, ad)) = some (port, addr) → 1 ≤ port ∧ port ≤ 65535 := by
    intro ad h
    split at h
    · cases h
    · cases h; omega
  split at h
  · exact key _ h
  · split at h
    · cases h
    · exact key _ h

/-- **C65.** What is missing: numbers from 2^31 on, and text that is not a number (`C65_counterexample_wrap`, `C65_counterexample_text`).
What holds: "N" stands for port N on all interfaces, and "host:N" for port N on the address of the host, for N from 1 to 65535; other
numbers, and hosts that cannot be resolved, are refused. -/
theorem C65_address_partial (resolve : List Byte → Option (List Byte)) (ds : List Byte) (hd : ∀ c ∈ ds, isDigit c = true) (hne : ds ≠ [])
    (hN : decimal ds < 2 ^ 31) :
    parse_spec resolve ds = (if 1 ≤ decimal ds ∧ decimal ds ≤ 65535 then some (decimal ds, [0, 0, 0, 0]) else none) ∧
    ∀ host, 58 ∉ host → parse_spec resolve (host ++ 58 :: ds) =
      (if 1 ≤ decimal ds ∧ decimal ds ≤ 65535 then (resolve host).map fun ad => (decimal ds, ad) else none) := by
  have ha := atoi_digits ds [] hd hne hN (by simp)
  rw [List.append_nil] at ha
  have hc : (58 : Byte) ∉ ds := fun h => absurd (hd _ h) (by decide)
  have key : ∀ ad : List Byte, (if (decimal ds : Int) ≤ 0 ∨ (decimal ds : Int) > 65535 then none else some ((decimal ds : Int).toNat, ad)) =
      (if 1 ≤ decimal ds ∧ decimal ds ≤ 65535 then some (decimal ds, ad) else none) := by
    intro ad
    by_cases h : 1 ≤ decimal ds ∧ decimal ds ≤ 65535
    · rw [if_neg (by omega), if_pos h, Int.toNat_natCast]
    · rw [if_pos (by omega), if_neg h]
  constructor
  · unfold parse_spec
    simp only [hc, if_false, ha]
    exact key _
  · intro host hh
    have hm : (58 : Byte) ∈ host ++ 58 :: ds := by simp
    obtain ⟨t1, t2⟩ := takeWhile_app (fun x => decide (x ≠ 58)) host (58 :: ds) (fun c hc => by
      simp only [ne_eq, decide_not, Bool.not_eq_eq_eq_not, Bool.not_true, decide_eq_false_iff_not]; rintro rfl; exact hh hc) (by simp)
    unfold parse_spec
    simp only [hm, if_true, t1, t2, List.drop_one, List.tail_cons, ha]
    cases resolve host with
    | none => simp
    | some ad => dsimp only; rw [key ad]; simp

/-- **C65.** A number far above 65535 may be accepted: `atoi` keeps 32 bits of it. -/
theorem C65_counterexample_wrap (resolve : List Byte → Option (List Byte)) :
    parse_spec resolve (asc "4294967376") = some (80, [0, 0, 0, 0]) := by
  have h : atoi (asc "4294967376") = 80 := by decide +kernel
  have hc : (58 : Byte) ∉ asc "4294967376" := by decide +kernel
  unfold parse_spec
  simp only [hc, if_false, h]
  decide

/-- **C65.** Text behind the number is ignored. -/
theorem C65_counterexample_text (resolve : List Byte → Option (List Byte)) :
    parse_spec resolve (asc "80x9") = some (80, [0, 0, 0, 0]) := by
  have h : atoi (asc "80x9") = 80 := by decide +kernel
  have hc : (58 : Byte) ∉ asc "80x9" := by decide +kernel
  unfold parse_spec
  simp only [hc, if_false, h]
  decide

example : parse_spec (fun h => if h = asc "localhost" then some [127, 0, 0, 1] else none) (asc "localhost:9000") = some (9000, [127, 0, 0, 1]) := by
  have h := (C65_address_partial (fun h => if h = asc "localhost" then some [127, 0, 0, 1] else none) (asc "9000") (by decide +kernel) (by decide +kernel)
    (by decide +kernel)).2 (asc "localhost") (by decide +kernel)
  rw [show asc "localhost:9000" = asc "localhost" ++ 58 :: asc "9000" by decide +kernel, h]
  decide +kernel

/-! ## C67: paths in fixed-size buffers -/

theorem cstr_of (p rest : List Byte) (h : 0 ∉ p) : cstr (p ++ 0 :: rest) = p := by
  refine (takeWhile_app (fun x => decide (x ≠ 0)) p (0 :: rest) (fun c hc => ?_) (by simp)).1
  simp only [ne_eq, decide_not, Bool.not_eq_eq_eq_not, Bool.not_true, decide_eq_false_iff_not]
  rintro rfl; exact h hc

/-- **C67.** An overrun is what the word means: a store is refused exactly if it would reach beyond the end of the buffer; one that is
not refused changes the bytes stored to and no others, and the buffer keeps its size. -/
theorem C67_overrun (buf : List Byte) (off : Nat) (bs : List Byte) :
    (bufPut buf off bs = none ↔ buf.length < off + bs.length) ∧
    ∀ b, bufPut buf off bs = some b → b.length = buf.length ∧ (∀ k, k < bs.length → b[off + k]? = bs[k]?) ∧
      ∀ k, k < off ∨ off + bs.length ≤ k → b[k]? = buf[k]? := by
  unfold bufPut
  by_cases h : off + bs.length ≤ buf.length
  · rw [if_pos h]
    refine ⟨by simp; omega, ?_⟩
    intro b e
    cases e
    have h0 : (buf.take off).length = off := by simp; omega
    refine ⟨by simp; omega, ?_, ?_⟩
    · intro k hk
      rw [List.append_assoc, List.getElem?_append_right (by omega), h0, Nat.add_sub_cancel_left, List.getElem?_append_left hk]
    · rintro k (hk | hk)
      · rw [List.append_assoc, List.getElem?_append_left (by omega), List.getElem?_take, if_pos hk]
      · rw [List.getElem?_append_right (by simp; omega), List.getElem?_drop]
        congr 1
        simp
        omega
  · rw [if_neg h]
    exact ⟨by simp; omega, fun b e => by cases e⟩

/-- A store behind a prefix of the buffer. -/
theorem bufPut_at (p rest bs : List Byte) (h : bs.length ≤ rest.length) : bufPut (p ++ rest) p.length bs = some (p ++ bs ++ rest.drop bs.length) := by
  unfold bufPut
  rw [if_pos (by simp; omega), List.take_left, List.drop_append]
  simp

/-- **C67.** The name of the delegate program is put together inside of its buffer, whatever the length of the program's own
path, of the subcommand, and whatever the buffer held before; it is the program's path, a hyphen and the subcommand; and it is refused
exactly when there is no path or no room for it. -/
theorem C67_delegate_path (buf : List Byte) (link : Option (List Byte)) (sub : List Byte) (hs : 0 ∉ sub) (hl : ∀ l, link = some l → 0 ∉ l) :
    delegatePath buf link sub ≠ .overrun ∧
    (∀ b, delegatePath buf link sub = .ok b → ∃ l, link = some l ∧ b.length = buf.length ∧ cstr b = l ++ asc "-" ++ sub) ∧
    (delegatePath buf link sub = .fail ↔ ∀ l, link = some l → l = [] ∨ buf.length < l.length + sub.length + 2) := by
  cases link with
  | none => simp [delegatePath]
  | some l =>
    have hl := hl l rfl
    by_cases hc : l = [] ∨ buf.length < l.length + sub.length + 2
    · have hf : delegatePath buf (some l) sub = .fail := by
        unfold delegatePath
        dsimp only
        have hb : bufPut buf 0 (l.take buf.length) = some (buf.take 0 ++ l.take buf.length ++ buf.drop (0 + (l.take buf.length).length)) := by
          unfold bufPut; rw [if_pos (by simp)]
        rw [hb]
        dsimp only
        by_cases h1 : min l.length buf.length = buf.length ∨ min l.length buf.length = 0
        · rw [if_pos h1]
        · rw [if_neg h1, if_pos]
          rcases hc with rfl | hc
          · simp at h1
          · omega
      rw [hf]
      refine ⟨by simp, by simp, by simp only [true_iff]; rintro _ ⟨rfl⟩; exact hc⟩
    · have hne : l ≠ [] := fun h => hc (.inl h)
      have hlen : l.length + sub.length + 2 ≤ buf.length := by omega
      have hp : 0 < l.length := List.length_pos_iff.mpr hne
      have e0 : bufPut buf 0 (l.take buf.length) = some (l ++ buf.drop l.length) := by
        rw [List.take_of_length_le (by omega)]
        exact bufPut_at [] buf l (by omega)
      have e1 : bufPut (l ++ buf.drop l.length) l.length [45] = some (l ++ [45] ++ buf.drop (l.length + 1)) := by
        rw [bufPut_at _ _ _ (by simp; omega), List.drop_drop]; rfl
      have e2 : bufPut (l ++ [45] ++ buf.drop (l.length + 1)) (l.length + 1) sub = some (l ++ [45] ++ sub ++ buf.drop (l.length + 1 + sub.length)) := by
        have := bufPut_at (l ++ [45]) (buf.drop (l.length + 1)) sub (by simp; omega)
        rw [List.drop_drop] at this
        simpa using this
      have e3 : bufPut (l ++ [45] ++ sub ++ buf.drop (l.length + 1 + sub.length)) (l.length + 1 + sub.length) [0] =
          some (l ++ [45] ++ sub ++ [0] ++ buf.drop (l.length + 1 + sub.length + 1)) := by
        have := bufPut_at (l ++ [45] ++ sub) (buf.drop (l.length + 1 + sub.length)) [0] (by simp; omega)
        have hL : (l ++ [45] ++ sub).length = l.length + 1 + sub.length := by simp; omega
        rw [List.drop_drop, hL] at this
        exact this
      have hok : delegatePath buf (some l) sub = .ok (l ++ [45] ++ sub ++ [0] ++ buf.drop (l.length + 1 + sub.length + 1)) := by
        unfold delegatePath
        dsimp only
        rw [e0]
        dsimp only
        rw [Nat.min_eq_left (by omega), if_neg (by omega), if_neg (by omega), e1]
        dsimp only
        rw [e2]
        dsimp only
        rw [e3]
      rw [hok]
      refine ⟨by simp, ?_, ?_⟩
      · intro b hb
        cases hb
        refine ⟨l, rfl, by simp; omega, ?_⟩
        have : l ++ [45] ++ sub ++ [0] ++ buf.drop (l.length + 1 + sub.length + 1) = (l ++ asc "-" ++ sub) ++ 0 :: buf.drop (l.length + 1 + sub.length + 1) := by
          rw [show asc "-" = [45] by decide]; simp
        rw [this]
        refine cstr_of _ _ ?_
        rw [show asc "-" = [45] by decide]
        simp [hl, hs]
      · constructor
        · intro h; cases h
        · intro h; exact absurd (h l rfl) hc

/-- **C67.** Likewise for the path of the parent directory of a mount point. -/
theorem C67_parent_path (buf dir : List Byte) (hb : buf.length = 4096) (hd : 0 ∉ dir) :
    parentPath buf dir ≠ .overrun ∧ (∀ b, parentPath buf dir = .ok b → b.length = 4096 ∧ cstr b = dir ++ asc "/..") ∧
    (parentPath buf dir = .fail ↔ 4096 < (dir ++ asc "/..").length + 1) := by
  have h3 : (asc "/..").length = 3 := by decide
  by_cases hc : dir.length + 4 > PATH_MAX
  · have : parentPath buf dir = .fail := by unfold parentPath; rw [if_pos hc]
    rw [this]
    refine ⟨by simp, by simp, ?_⟩
    unfold PATH_MAX at hc
    simp [h3]; omega
  · have hl : dir.length + 4 ≤ 4096 := by unfold PATH_MAX at hc; omega
    have e1 : bufPut buf 0 (dir ++ [0]) = some (dir ++ ([0] ++ buf.drop (dir.length + 1))) := by
      have := bufPut_at [] buf (dir ++ [0]) (by simp; omega)
      simpa using this
    have e2 : bufPut (dir ++ ([0] ++ buf.drop (dir.length + 1))) dir.length (asc "/.." ++ [0]) =
        some (dir ++ (asc "/.." ++ [0]) ++ (buf.drop (dir.length + 1)).drop 3) := by
      rw [bufPut_at _ _ _ (by simp [h3]; omega)]
      simp [h3]
    have hok : parentPath buf dir = .ok ((dir ++ asc "/..") ++ 0 :: (buf.drop (dir.length + 1)).drop 3) := by
      unfold parentPath
      rw [if_neg hc, e1]
      dsimp only
      rw [e2]
      simp
    rw [hok]
    refine ⟨by simp, ?_, ?_⟩
    · intro b h
      cases h
      refine ⟨by simp [h3]; omega, cstr_of _ _ ?_⟩
      have : (0 : Byte) ∉ asc "/.." := by decide
      simp [hd, this]
    · simp [h3]; omega

example : delegatePath (List.replicate 12 9) (some (asc "/b/shr")) (asc "tee") = .ok (asc "/b/shr-tee" ++ [0, 9]) ∧
    delegatePath (List.replicate 10 9) (some (asc "/b/shr")) (asc "tee") = .fail := by
  constructor <;> decide +kernel

end Shr
