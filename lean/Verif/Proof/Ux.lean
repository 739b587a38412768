import Verif.Model.Ux
import Mathlib.Tactic.SplitIfs
import Mathlib.Tactic.Ring
/-! Lemmas about the /proc parsers. -/
namespace Shr

theorem columns_nil : columns [] = [] := by simp [columns]

theorem columns_word {w : List Byte} (h : w ≠ []) (hs : cSP ∉ w) : columns w = [w] := by
  rw [columns, List.splitOn_eq_singleton hs]; simp [h]

theorem columns_append_sp (a b : List Byte) : columns (a ++ cSP :: b) = columns a ++ columns b := by
  rw [columns, List.splitOn_append_cons_self, List.filter_append]; rfl

theorem columns_snoc_sp (a : List Byte) : columns (a ++ [cSP]) = columns a := by
  rw [columns_append_sp, columns_nil, List.append_nil]

theorem columns_word_post {w post : List Byte} (h : w ≠ []) (hs : cSP ∉ w)
    (hp : post = [] ∨ post.head? = some cSP) : columns (w ++ post) = w :: columns post := by
  rcases post with _ | ⟨c, post⟩
  · rw [List.append_nil, columns_word h hs, columns_nil]
  · have : c = cSP := by simpa using hp
    subst this
    rw [columns_append_sp, columns_word h hs]
    have := columns_append_sp [] post
    rw [columns_nil] at this
    simp only [List.nil_append] at this
    rw [this]; rfl

theorem columns_split {pre w post : List Byte} (h : w ≠ []) (hs : cSP ∉ w)
    (hpre : pre = [] ∨ pre.getLast? = some cSP) (hp : post = [] ∨ post.head? = some cSP) :
    columns (pre ++ w ++ post) = columns pre ++ w :: columns post := by
  rcases hpre with rfl | hpre
  · rw [columns_nil, List.nil_append, List.nil_append, columns_word_post h hs hp]
  · obtain ⟨pre', rfl⟩ : ∃ p, pre = p ++ [cSP] := by
      rcases List.eq_nil_or_concat pre with rfl | ⟨p, c, rfl⟩
      · simp at hpre
      · refine ⟨p, ?_⟩; simpa using hpre
    rw [columns_snoc_sp, List.append_assoc, List.append_assoc]
    show columns (pre' ++ cSP :: (w ++ post)) = _
    rw [columns_append_sp, columns_word_post h hs hp]

theorem IsColumn.get {line : List Byte} {k s : Nat} {w : List Byte} (h : IsColumn line k s w) :
    (columns line)[k - 1]? = some w ∧ (line.drop s).take w.length = w ∧ s + w.length ≤ line.length := by
  obtain ⟨pre, post, rfl, rfl, hw, hs, hpre, hpost, hk⟩ := h
  rw [columns_split hw hs hpre hpost]
  subst hk
  refine ⟨by simp, by simp [List.append_assoc], by simp⟩

theorem columns_start_lt {pre pre' w w' post post' : List Byte} (hw : w ≠ []) (hs : cSP ∉ w)
    (hpre : pre = [] ∨ pre.getLast? = some cSP) (hpre' : pre' = [] ∨ pre'.getLast? = some cSP)
    (hpost : post = [] ∨ post.head? = some cSP) (e : pre ++ w ++ post = pre' ++ w' ++ post')
    (h : pre.length < pre'.length) : (columns pre).length < (columns pre').length := by
  have hpfx : pre <+: pre' :=
    List.prefix_of_prefix_length_le ⟨w ++ post, by rw [← List.append_assoc]⟩
      ⟨w' ++ post', by rw [← List.append_assoc]; exact e.symm⟩ (Nat.le_of_lt h)
  obtain ⟨x, rfl⟩ := hpfx
  have hx0 : x ≠ [] := by rintro rfl; simp at h
  have hxl : x.getLast? = some cSP := by
    rcases hpre' with h' | h'
    · exact absurd (List.append_eq_nil_iff.mp h').2 hx0
    · obtain ⟨x', c, rfl⟩ := (List.eq_nil_or_concat x).resolve_left hx0
      simpa [← List.append_assoc] using h'
  have hxm : cSP ∈ x := List.mem_of_getLast? hxl
  rw [List.append_assoc, List.append_assoc, List.append_assoc] at e
  have e2 := List.append_cancel_left e
  have hlt : w.length < x.length := by
    by_contra hle
    have : x <+: w := List.prefix_of_prefix_length_le ⟨w' ++ post', e2.symm⟩ ⟨post, rfl⟩ (by omega)
    exact hs (this.subset hxm)
  have : w <+: x := List.prefix_of_prefix_length_le ⟨post, e2⟩ ⟨w' ++ post', rfl⟩ (by omega)
  obtain ⟨y, rfl⟩ := this
  have hy0 : y ≠ [] := by rintro rfl; simp at hlt
  rw [List.append_assoc] at e2
  have e3 := List.append_cancel_left e2
  have hyh : y.head? = some cSP := by
    rcases hpost with h' | h'
    · subst h'
      have := List.append_eq_nil_iff.mp e3.symm
      exact absurd this.1 hy0
    · rw [e3] at h'
      cases y with
      | nil => exact absurd rfl hy0
      | cons c y => simpa using h'
  rw [← List.append_assoc, columns_split hw hs hpre (Or.inr hyh)]
  simp

theorem columns_start_unique {pre pre' w post post' : List Byte} (hw : w ≠ []) (hs : cSP ∉ w)
    (hpre : pre = [] ∨ pre.getLast? = some cSP) (hpre' : pre' = [] ∨ pre'.getLast? = some cSP)
    (hpost : post = [] ∨ post.head? = some cSP) (hpost' : post' = [] ∨ post'.head? = some cSP)
    (e : pre ++ w ++ post = pre' ++ w ++ post') (hc : (columns pre).length = (columns pre').length) :
    pre.length = pre'.length := by
  rcases Nat.lt_trichotomy pre.length pre'.length with h | h | h
  · have := columns_start_lt hw hs hpre hpre' hpost e h; omega
  · exact h
  · have := columns_start_lt hw hs hpre' hpre hpost' e.symm h; omega

/-- What the loop of `get_col` finds. -/
theorem getColLoop_spec (col : Nat) (hcol : 0 < col) : ∀ (r p w : List Byte) (num : Nat) (start : Option Nat),
    cSP ∉ w → (p = [] ∨ p.getLast? = some cSP) →
    (w = [] → num = (columns p).length ∧ num < col) →
    (w ≠ [] → num = (columns p).length + 1 ∧ num ≤ col ∧ start = some p.length) →
    ∀ n l st, getColLoop col r (p.length + w.length) num w.length start = (n, l, st) →
    ((l ≠ 0 ∧ n = col) → ∃ s v, st = some s ∧ l = v.length ∧ IsColumn (p ++ w ++ firstLine r) col s v) ∧
    (¬ (l ≠ 0 ∧ n = col) → (columns (p ++ w ++ firstLine r)).length < col) := by
  intro r
  induction r with
  | nil =>
    intro p w num start hw hp h0 h1 n l st hrun
    simp only [getColLoop, Prod.mk.injEq] at hrun
    obtain ⟨rfl, rfl, rfl⟩ := hrun
    by_cases hw0 : w = []
    · subst hw0
      obtain ⟨ha, hb⟩ := h0 rfl
      refine ⟨fun h => absurd rfl h.1, fun _ => ?_⟩
      simpa [firstLine, ← ha] using hb
    · obtain ⟨ha, hb, hc⟩ := h1 hw0
      refine ⟨fun h => ⟨p.length, w, hc, rfl, p, [], by simp [firstLine], rfl, hw0, hw, hp, Or.inl rfl, ?_⟩,
        fun h => ?_⟩
      · omega
      · have hne : num ≠ col := fun e => h ⟨by simpa using hw0, e⟩
        rw [columns_split hw0 hw hp (Or.inl (by simp [firstLine]))]
        simp only [firstLine, List.takeWhile_nil, columns_nil, List.length_append, List.length_cons, List.length_nil]
        omega
  | cons c r ih =>
    intro p w num start hw hp h0 h1 n l st hrun
    rw [getColLoop] at hrun
    by_cases hbr : c = 32 ∧ num = col
    · rw [if_pos hbr] at hrun
      simp only [Prod.mk.injEq] at hrun
      obtain ⟨rfl, rfl, rfl⟩ := hrun
      obtain ⟨rfl, rfl⟩ := hbr
      have hw0 : w ≠ [] := fun e => by have := (h0 e).2; omega
      obtain ⟨ha, hb, hc⟩ := h1 hw0
      refine ⟨fun _ => ⟨p.length, w, hc, rfl, p, firstLine (32 :: r), rfl, rfl, hw0, hw, hp, Or.inr ?_, ha.symm⟩,
        fun h => absurd ⟨by simpa using hw0, rfl⟩ h⟩
      rfl
    rw [if_neg hbr] at hrun
    by_cases hnl : c = 10
    · subst hnl
      rw [if_pos rfl] at hrun
      simp only [Prod.mk.injEq] at hrun
      obtain ⟨rfl, rfl, rfl⟩ := hrun
      have hfl : firstLine (10 :: r) = [] := rfl
      rw [hfl]
      by_cases hw0 : w = []
      · subst hw0
        obtain ⟨ha, hb⟩ := h0 rfl
        refine ⟨fun h => absurd rfl h.1, fun _ => ?_⟩
        simpa [← ha] using hb
      · obtain ⟨ha, hb, hc⟩ := h1 hw0
        refine ⟨fun h => ⟨p.length, w, hc, rfl, p, [], by simp, rfl, hw0, hw, hp, Or.inl rfl, ?_⟩,
          fun h => ?_⟩
        · omega
        · have hne : num ≠ col := fun e => h ⟨by simpa using hw0, e⟩
          rw [columns_split hw0 hw hp (Or.inl rfl)]
          simp only [columns_nil, List.length_append, List.length_cons, List.length_nil]
          omega
    rw [if_neg hnl] at hrun
    have hfl : firstLine (c :: r) = c :: firstLine r := by
      simp [firstLine, hnl]
    rw [hfl]
    by_cases hsp : c = 32
    · subst hsp
      have hne : num ≠ col := fun e => hbr ⟨rfl, e⟩
      simp only [if_true, ne_eq, not_true, false_and, decide_false, Bool.false_eq_true, if_false] at hrun
      have hcp : (columns (p ++ w ++ [cSP])).length = num ∧ num < col := by
        rw [columns_snoc_sp]
        by_cases hw0 : w = []
        · subst hw0; have := h0 rfl; rw [List.append_nil]; omega
        · obtain ⟨ha, hb, _⟩ := h1 hw0
          have := columns_split (post := []) hw0 hw hp (Or.inl rfl)
          rw [List.append_nil] at this
          rw [this, columns_nil]; simp; omega
      have := ih (p ++ w ++ [cSP]) [] num start (by simp) (Or.inr (by simp))
        (fun _ => ⟨hcp.1.symm, hcp.2⟩) (fun h => absurd rfl h) n l st
        (by simpa [Nat.add_assoc] using hrun)
      simpa [List.append_assoc] using this
    · simp only [hsp, if_false, ne_eq, not_false_iff, true_and, if_true] at hrun
      have := ih p (w ++ [c]) (if w = [] then num + 1 else num) (if w = [] then some p.length else start)
        (by simp only [List.mem_append, List.mem_singleton, not_or]; exact ⟨hw, fun e => hsp e.symm⟩) hp
        (fun h => absurd h (by simp))
        (fun _ => by
          by_cases hw0 : w = []
          · have := h0 hw0; simp only [hw0, if_true]; refine ⟨by omega, by omega, trivial⟩
          · have := h1 hw0; simp only [hw0, if_false]; exact this)
        n l st (by
          rw [← hrun]
          by_cases hw0 : w = []
          · subst hw0; simp
          · have : w.length ≠ 0 := by simpa using hw0
            simp [hw0, Nat.add_assoc])
      simpa [List.append_assoc] using this

theorem get_col_some {k : Nat} (hk : 0 < k) {buf : List Byte} {s l : Nat} (h : get_col k buf = some (s, l)) :
    ∃ w, l = w.length ∧ IsColumn (firstLine buf) k s w := by
  unfold get_col at h
  rcases hz : getColLoop k buf 0 0 0 none with ⟨n, l', st⟩
  rw [hz] at h
  dsimp only at h
  have sp := getColLoop_spec k hk buf [] [] 0 none (by simp) (Or.inl rfl)
    (fun _ => ⟨by simp [columns_nil], hk⟩) (fun h => absurd rfl h) n l' st (by simpa using hz)
  split_ifs at h with hc
  · obtain ⟨s', v, hst, hl, hcol⟩ := sp.1 hc
    rw [hst] at h
    simp only [Option.map_some, Option.some.injEq, Prod.mk.injEq] at h
    obtain ⟨rfl, rfl⟩ := h
    exact ⟨v, hl, by simpa using hcol⟩

theorem get_col_none {k : Nat} (hk : 0 < k) {buf : List Byte} (h : get_col k buf = none) :
    (columns (firstLine buf)).length < k := by
  unfold get_col at h
  rcases hz : getColLoop k buf 0 0 0 none with ⟨n, l', st⟩
  rw [hz] at h
  dsimp only at h
  have sp := getColLoop_spec k hk buf [] [] 0 none (by simp) (Or.inl rfl)
    (fun _ => ⟨by simp [columns_nil], hk⟩) (fun h => absurd rfl h) n l' st (by simpa using hz)
  split_ifs at h with hc
  · obtain ⟨s', v, hst, hl, hcol⟩ := sp.1 hc
    rw [hst] at h
    simp at h
  · simpa using sp.2 hc

/-! ## Lines -/

theorem firstLine_append (t : List Byte) : firstLine t ++ t.dropWhile (· ≠ cNL) = t :=
  List.takeWhile_append_dropWhile

theorem nl_not_mem_firstLine (t : List Byte) : cNL ∉ firstLine t := by
  intro h
  have := List.all_eq_true.mp (List.all_takeWhile (p := fun x : Byte => decide (x ≠ cNL)) (l := t)) _ h
  simp at this

theorem line_cases (t : List Byte) :
    (t = firstLine t ∧ nextLine t = []) ∨ t = firstLine t ++ cNL :: nextLine t := by
  rcases hd : t.dropWhile (· ≠ cNL) with _ | ⟨c, d⟩
  · left
    have h := firstLine_append t
    rw [hd, List.append_nil] at h
    refine ⟨h.symm, ?_⟩
    show (t.dropWhile (· ≠ cNL)).drop 1 = []
    rw [hd]; rfl
  · right
    have h := firstLine_append t
    have hc : c = cNL := by
      have := List.head_dropWhile_not (fun x : Byte => decide (x ≠ cNL)) (l := t) (by rw [hd]; simp)
      simp only [hd, List.head_cons] at this
      simpa using this
    subst hc
    have hn : nextLine t = d := by
      show (t.dropWhile (· ≠ cNL)).drop 1 = d
      rw [hd]; rfl
    rw [hn, ← hd]; exact h.symm

theorem textLines_nil : textLines [] = [] := by simp [textLines]

theorem textLines_cons {t : List Byte} (h : t ≠ []) : textLines t = firstLine t :: textLines (nextLine t) := by
  rcases line_cases t with ⟨h1, h2⟩ | h1
  · rw [h2, textLines_nil]
    have hs : t.splitOn cNL = [t] := List.splitOn_eq_singleton (by rw [h1]; exact nl_not_mem_firstLine t)
    rw [textLines, hs, ← h1]
    simp [h]
  · have hs : t.splitOn cNL = firstLine t :: (nextLine t).splitOn cNL := by
      conv_lhs => rw [h1]
      rw [List.splitOn_append_cons_self, List.splitOn_eq_singleton (nl_not_mem_firstLine t)]; rfl
    have hne := List.splitOn_ne_nil cNL (nextLine t)
    rw [textLines, hs, textLines]
    rcases hq : (nextLine t).splitOn cNL with _ | ⟨a, q⟩
    · exact absurd hq hne
    · simp only [List.getLast?_cons_cons, List.dropLast_cons_cons]
      split_ifs <;> rfl

theorem nextLine_drop {t : List Byte} {n : Nat} (h : n ≤ (firstLine t).length) :
    nextLine (t.drop n) = nextLine t := by
  show ((t.drop n).dropWhile (· ≠ cNL)).drop 1 = _
  have : (t.drop n).dropWhile (· ≠ cNL) = t.dropWhile (· ≠ cNL) := by
    conv_lhs => rw [← firstLine_append t]
    rw [List.drop_append_of_le_length h, List.dropWhile_append_of_pos]
    · cases hd : t.dropWhile (· ≠ cNL) with
      | nil => rfl
      | cons c d =>
        have hc := List.head_dropWhile_not (fun x : Byte => decide (x ≠ cNL)) (l := t) (by rw [hd]; simp)
        simp only [hd, List.head_cons] at hc
        rw [List.dropWhile_cons_of_neg (by simpa using hc)]
    · intro x hx
      have := List.mem_of_mem_drop hx
      have hne : x ≠ cNL := fun e => nl_not_mem_firstLine t (e ▸ this)
      simpa using hne
  rw [this]; rfl

theorem firstLine_prefix (t : List Byte) {s l : Nat} (h : s + l ≤ (firstLine t).length) :
    (t.drop s).take l = ((firstLine t).drop s).take l := by
  conv_lhs => rw [← firstLine_append t]
  rw [List.drop_append_of_le_length (by omega), List.take_append_of_le_length]
  rw [List.length_drop]; omega

/-! ## Numbers -/

theorem parseDec_some : ∀ (ds : List Byte) (acc : Nat), (∀ c ∈ ds, isDigit c = true) →
    parseDec ds (acc % W) = some (ds.foldl (fun a c => 10 * a + (c.toNat - 48)) acc % W) := by
  intro ds
  induction ds with
  | nil => intro acc _; rfl
  | cons c ds ih =>
    intro acc h
    have hc := h c (by simp)
    simp only [isDigit, Bool.and_eq_true, decide_eq_true_eq] at hc
    rw [parseDec, if_neg (by rintro (h' | h') <;> [exact absurd h' (UInt8.not_lt.mpr hc.1); exact absurd h' (UInt8.not_lt.mpr hc.2)])]
    have hw : wadd (wmul (acc % W) 10) (c.toNat - 48) = (10 * acc + (c.toNat - 48)) % W := by
      unfold wadd wmul W; omega
    rw [hw, ih _ (fun x hx => h x (by simp [hx]))]
    rfl

theorem parseDec_none : ∀ (ds : List Byte) (acc : Nat), ¬ (∀ c ∈ ds, isDigit c = true) →
    parseDec ds acc = none := by
  intro ds
  induction ds with
  | nil => intro acc h; exact absurd (by simp) h
  | cons c ds ih =>
    intro acc h
    rw [parseDec]
    by_cases hc : c < 48 ∨ c > 57
    · rw [if_pos hc]
    · rw [if_neg hc]
      apply ih
      intro h'
      apply h
      intro x hx
      rcases List.mem_cons.mp hx with rfl | hx
      · rw [not_or] at hc
        simp only [isDigit, Bool.and_eq_true, decide_eq_true_eq]
        exact ⟨UInt8.not_lt.mp hc.1, UInt8.not_lt.mp hc.2⟩
      · exact h' x hx

theorem parseDec_eq {ds : List Byte} {n : Nat} :
    parseDec ds 0 = some n ↔ (∀ c ∈ ds, isDigit c = true) ∧ n = decimal ds % W := by
  have h0 : (0 : Nat) = 0 % W := rfl
  constructor
  · intro h
    by_cases hd : ∀ c ∈ ds, isDigit c = true
    · rw [h0, parseDec_some ds 0 hd] at h
      exact ⟨hd, (Option.some.inj h).symm⟩
    · rw [parseDec_none ds 0 hd] at h; cases h
  · rintro ⟨hd, rfl⟩
    rw [h0, parseDec_some ds 0 hd]; rfl

/-! ## Rows -/

/-- The row has an inode number and a name. -/
def RowReadable (row : List Byte) : Prop := ∃ ino name, RowShows row ino name

/-- The row shows the given name and one of the given inodes. -/
def RowMatches (inodes : List Nat) (name row : List Byte) : Prop :=
  ∃ ino, RowShows row ino name ∧ ino % W ∈ inodes

theorem get_col_none_iff {k : Nat} (hk : 0 < k) {buf : List Byte} :
    get_col k buf = none ↔ (columns (firstLine buf))[k - 1]? = none := by
  constructor
  · intro h
    have := get_col_none hk h
    rw [List.getElem?_eq_none_iff]; omega
  · intro h
    cases hg : get_col k buf with
    | none => rfl
    | some x =>
      obtain ⟨w, _, hw⟩ := get_col_some hk (s := x.1) (l := x.2) hg
      rw [hw.get.1] at h; cases h

theorem get_col_text {k : Nat} (hk : 0 < k) {buf : List Byte} {s l : Nat} (h : get_col k buf = some (s, l)) :
    (columns (firstLine buf))[k - 1]? = some ((buf.drop s).take l) ∧ s + l ≤ (firstLine buf).length ∧
      ((buf.drop s).take l).length = l := by
  obtain ⟨w, rfl, hw⟩ := get_col_some hk h
  obtain ⟨h1, h2, h3⟩ := hw.get
  rw [firstLine_prefix buf h3, h2]
  exact ⟨h1, h3, rfl⟩

open Classical in
theorem rowLoop_step (inodes : List Nat) (name t : List Byte) (h : t ≠ []) :
    rowLoop inodes name t =
      if RowReadable (firstLine t) then
        if RowMatches inodes name (firstLine t) then 1 else rowLoop inodes name (nextLine t)
      else -1 := by
  rw [rowLoop, dif_neg h]
  cases h7 : get_col 7 t with
  | none =>
    have hn := (get_col_none_iff (by decide)).mp h7
    have : ¬ RowReadable (firstLine t) := by
      rintro ⟨_, _, d, hd, _⟩; rw [hn] at hd; cases hd
    simp only [if_neg this]
  | some x =>
    obtain ⟨s, l⟩ := x
    obtain ⟨hc7, _, _⟩ := get_col_text (by decide) h7
    dsimp only
    cases hp : parseDec ((t.drop s).take l) 0 with
    | none =>
      have : ¬ RowReadable (firstLine t) := by
        rintro ⟨_, _, d, hd, hdig, _⟩
        rw [hc7] at hd
        cases hd
        have := (parseDec_eq (n := _)).mpr ⟨hdig, rfl⟩
        rw [hp] at this; cases this
      simp only [if_neg this]
    | some inum =>
      obtain ⟨hdig, hinum⟩ := parseDec_eq.mp hp
      dsimp only
      cases h8 : get_col 8 t with
      | none =>
        have hn := (get_col_none_iff (by decide)).mp h8
        have : ¬ RowReadable (firstLine t) := by
          rintro ⟨_, _, d, _, _, _, hd⟩; rw [hn] at hd; cases hd
        simp only [if_neg this]
      | some y =>
        obtain ⟨s2, l2⟩ := y
        obtain ⟨hc8, hle, hl2⟩ := get_col_text (by decide) h8
        dsimp only
        have hr : RowReadable (firstLine t) := ⟨_, _, _, hc7, hdig, rfl, hc8⟩
        rw [if_pos hr]
        by_cases hm : l2 = name.length ∧ (t.drop s2).take l2 = name ∧ inum ∈ inodes
        · rw [if_pos hm]
          have : RowMatches inodes name (firstLine t) :=
            ⟨_, ⟨_, hc7, hdig, rfl, hm.2.1 ▸ hc8⟩, hinum ▸ hm.2.2⟩
          rw [if_pos this]
        · rw [if_neg hm]
          have : ¬ RowMatches inodes name (firstLine t) := by
            rintro ⟨ino, ⟨d, hd7, _, hd, hd8⟩, hin⟩
            rw [hc7] at hd7; cases hd7
            rw [hc8] at hd8
            have e := Option.some.inj hd8
            refine hm ⟨?_, e, ?_⟩
            · rw [← e, hl2]
            · rw [hinum, hd]; exact hin
          rw [if_neg this, nextLine_drop hle]

/-- The result of a scan of rows, in words: stop at the first row that matches or cannot be read. -/
theorem rowLoop_spec (inodes : List Nat) (name : List Byte) : ∀ (n : Nat) (t : List Byte), t.length ≤ n →
    (rowLoop inodes name t = 1 ∧ ∃ pre row post, textLines t = pre ++ row :: post ∧
        (∀ x ∈ pre, RowReadable x ∧ ¬ RowMatches inodes name x) ∧ RowMatches inodes name row) ∨
    (rowLoop inodes name t = 0 ∧ ∀ x ∈ textLines t, RowReadable x ∧ ¬ RowMatches inodes name x) ∨
    (rowLoop inodes name t = -1 ∧ ∃ pre row post, textLines t = pre ++ row :: post ∧
        (∀ x ∈ pre, RowReadable x ∧ ¬ RowMatches inodes name x) ∧ ¬ RowReadable row) := by
  intro n
  induction n with
  | zero =>
    intro t ht
    have : t = [] := List.eq_nil_of_length_eq_zero (by omega)
    subst this
    right; left
    refine ⟨by rw [rowLoop, dif_pos rfl], by rw [textLines_nil]; simp⟩
  | succ n ih =>
    intro t ht
    by_cases h : t = []
    · subst h
      right; left
      refine ⟨by rw [rowLoop, dif_pos rfl], by rw [textLines_nil]; simp⟩
    have hlt := nextLine_lt t 0 h
    rw [List.drop_zero] at hlt
    rw [rowLoop_step inodes name t h, textLines_cons h]
    by_cases hr : RowReadable (firstLine t)
    · rw [if_pos hr]
      by_cases hm : RowMatches inodes name (firstLine t)
      · rw [if_pos hm]
        left; exact ⟨rfl, [], _, _, rfl, by simp, hm⟩
      · rw [if_neg hm]
        rcases ih (nextLine t) (by omega) with ⟨h1, pre, row, post, h2, h3, h4⟩ | ⟨h1, h2⟩ |
          ⟨h1, pre, row, post, h2, h3, h4⟩
        · left
          refine ⟨h1, firstLine t :: pre, row, post, by rw [h2]; rfl, ?_, h4⟩
          intro x hx
          rcases List.mem_cons.mp hx with rfl | hx
          · exact ⟨hr, hm⟩
          · exact h3 x hx
        · right; left
          refine ⟨h1, ?_⟩
          intro x hx
          rcases List.mem_cons.mp hx with rfl | hx
          · exact ⟨hr, hm⟩
          · exact h2 x hx
        · right; right
          refine ⟨h1, firstLine t :: pre, row, post, by rw [h2]; rfl, ?_, h4⟩
          intro x hx
          rcases List.mem_cons.mp hx with rfl | hx
          · exact ⟨hr, hm⟩
          · exact h3 x hx
    · rw [if_neg hr]
      right; right
      exact ⟨rfl, [], _, _, rfl, by simp, hr⟩

theorem tableRows_eq (t : List Byte) : tableRows t = textLines (nextLine t) := by
  by_cases h : t = []
  · subst h; simp [tableRows, textLines, nextLine]
  · rw [tableRows, textLines_cons h]; rfl

/-! ## /proc/<pid>/fd -/

theorem sockPrefix_eq : sockPrefix = asc "socket:[" := by decide +kernel
theorem bracket_eq : asc "]" = [93] := by decide +kernel

theorem takeWhile_digits {d : List Byte} (h : ∀ c ∈ d, isDigit c = true) :
    (d ++ [93]).takeWhile (· ≠ 93) = d := by
  rw [List.takeWhile_append_of_pos]
  · simp
  · intro x hx
    have := h x hx
    simp only [isDigit, Bool.and_eq_true, decide_eq_true_eq] at this
    have hne : x ≠ 93 := by rintro rfl; exact absurd this.2 (by decide)
    simpa using hne

/-- What a link to a socket contributes. -/
theorem link_num {t : List Byte} {i : Nat} (h : SockLink t i) (hlen : t.length < 100) :
    (t.take 100) = t ∧ 8 ≤ t.length ∧ t.take 8 = sockPrefix ∧
      parseDec ((t.drop 8).takeWhile (· ≠ 93)) 0 = some (i % W) := by
  obtain ⟨d, rfl, hd, rfl⟩ := h
  rw [← sockPrefix_eq, bracket_eq] at *
  have h8 : sockPrefix.length = 8 := rfl
  refine ⟨List.take_of_length_le (by omega), by simp only [List.length_append]; omega, ?_, ?_⟩
  · rw [List.append_assoc, List.take_append_of_le_length (by rw [h8]), List.take_of_length_le (by rw [h8])]
  · rw [List.append_assoc, List.drop_append_of_le_length (by rw [h8]), List.drop_of_length_le (by rw [h8]),
      List.nil_append, takeWhile_digits hd]
    exact parseDec_eq.mpr ⟨hd, rfl⟩

/-- A successful scan: every link was readable and every number found comes from a link. -/
theorem inodeLoop_spec (pidLen max : Nat) : ∀ (ds : List DirEnt) (acc L : List Nat),
    inodeLoop pidLen max ds acc = some L →
    (∃ new, L = acc ++ new ∧
      (∀ i ∈ new, ∃ d ∈ ds, d.lnk = true ∧ ∃ t, d.target = some t ∧ t.length < 100 ∧ sockPrefix <+: t ∧
        ∀ j, SockLink t j → i = j % W) ∧
      (∀ d ∈ ds, d.lnk = true → ∃ t, d.target = some t ∧
        ∀ j, SockLink t j → t.length < 100 → j % W ∈ new)) ∧ (acc.length ≤ max → L.length ≤ max) := by
  intro ds
  induction ds with
  | nil =>
    intro acc L h
    simp only [inodeLoop, Option.some.injEq] at h
    subst h
    exact ⟨⟨[], by simp, by simp, by simp⟩, id⟩
  | cons d ds ih =>
    intro acc L h
    rw [inodeLoop] at h
    -- the cases in which the entry contributes nothing
    have skip : inodeLoop pidLen max ds acc = some L →
        (d.lnk = true → ∃ t, d.target = some t ∧ ∀ j, SockLink t j → t.length < 100 → False) →
        (∃ new, L = acc ++ new ∧
          (∀ i ∈ new, ∃ d' ∈ d :: ds, d'.lnk = true ∧ ∃ t, d'.target = some t ∧ t.length < 100 ∧ sockPrefix <+: t ∧
            ∀ j, SockLink t j → i = j % W) ∧
          (∀ d' ∈ d :: ds, d'.lnk = true → ∃ t, d'.target = some t ∧
            ∀ j, SockLink t j → t.length < 100 → j % W ∈ new)) ∧ (acc.length ≤ max → L.length ≤ max) := by
      intro h hd
      obtain ⟨⟨new, h1, h2, h3⟩, h4⟩ := ih acc L h
      refine ⟨⟨new, h1, ?_, ?_⟩, h4⟩
      · intro i hi
        obtain ⟨d', hd', r⟩ := h2 i hi
        exact ⟨d', List.mem_cons_of_mem _ hd', r⟩
      · intro d' hd' hl
        rcases List.mem_cons.mp hd' with rfl | hd'
        · obtain ⟨t, ht, hf⟩ := hd hl
          exact ⟨t, ht, fun j hj hlen => (hf j hj hlen).elim⟩
        · exact h3 d' hd' hl
    by_cases hl : d.lnk = false
    · rw [if_pos hl] at h
      exact skip h (fun h' => by rw [hl] at h'; cases h')
    rw [if_neg hl] at h
    have hl' : d.lnk = true := by simpa using hl
    by_cases hpath : fdPathLen pidLen d.name.length ≥ 100
    · rw [if_pos hpath] at h; cases h
    rw [if_neg hpath] at h
    cases ht : d.target with
    | none => rw [ht] at h; cases h
    | some t =>
      rw [ht] at h
      dsimp only at h
      by_cases c1 : (t.take 100).length = 100
      · rw [if_pos c1] at h
        refine skip h (fun _ => ⟨t, ht, fun j _ hlen => ?_⟩)
        rw [List.length_take] at c1; omega
      rw [if_neg c1] at h
      have hshort : t.length < 100 := by rw [List.length_take] at c1; omega
      have htake : t.take 100 = t := List.take_of_length_le (by omega)
      rw [htake] at h
      by_cases c2 : t.length < 8
      · rw [if_pos c2] at h
        refine skip h (fun _ => ⟨t, ht, fun j hj hlen => ?_⟩)
        have := (link_num hj hlen).2.1; omega
      rw [if_neg c2] at h
      by_cases c3 : t.take 8 ≠ sockPrefix
      · rw [if_pos c3] at h
        exact skip h (fun _ => ⟨t, ht, fun j hj hlen => c3 (link_num hj hlen).2.2.1⟩)
      rw [if_neg c3] at h
      have c3' : t.take 8 = sockPrefix := not_not.mp c3
      cases hp : parseDec ((t.drop 8).takeWhile (· ≠ 93)) 0 with
      | none => rw [hp] at h; cases h
      | some i =>
        rw [hp] at h
        dsimp only at h
        by_cases hmax : acc.length = max
        · rw [if_pos hmax] at h; cases h
        rw [if_neg hmax] at h
        obtain ⟨⟨new, h1, h2, h3⟩, h4⟩ := ih _ L h
        refine ⟨⟨i :: new, by rw [h1]; simp, ?_, ?_⟩, fun ha => h4 (by simp; omega)⟩
        · intro i' hi'
          rcases List.mem_cons.mp hi' with rfl | hi'
          · refine ⟨d, by simp, hl', t, ht, hshort, ⟨t.drop 8, by rw [← c3']; exact List.take_append_drop 8 t⟩, ?_⟩
            intro j hj
            have := (link_num hj hshort).2.2.2
            rw [hp] at this
            exact Option.some.inj this
          · obtain ⟨d', hd', r⟩ := h2 i' hi'
            exact ⟨d', List.mem_cons_of_mem _ hd', r⟩
        · intro d' hd' hl2
          rcases List.mem_cons.mp hd' with rfl | hd'
          · refine ⟨t, ht, fun j hj hlen => ?_⟩
            have := (link_num hj hlen).2.2.2
            rw [hp] at this
            rw [Option.some.inj this]; simp
          · obtain ⟨t', ht', hj'⟩ := h3 d' hd' hl2
            exact ⟨t', ht', fun j hj hlen => List.mem_cons_of_mem _ (hj' j hj hlen)⟩

/-- The scan succeeds if every link can be read and its name is short enough, every socket link is well formed, and there
are at most `max` of them. -/
theorem inodeLoop_total (pidLen max : Nat) : ∀ (ds : List DirEnt) (acc : List Nat),
    (∀ d ∈ ds, d.lnk = true → fdPathLen pidLen d.name.length < 100 ∧ ∃ t, d.target = some t ∧
      (sockPrefix <+: t → t.length < 100 → ∃ j, SockLink t j)) →
    acc.length + ds.length ≤ max → ∃ L, inodeLoop pidLen max ds acc = some L := by
  intro ds
  induction ds with
  | nil => intro acc _ _; exact ⟨acc, rfl⟩
  | cons d ds ih =>
    intro acc hds hlen
    have hrest := ih acc (fun d' hd' => hds d' (List.mem_cons_of_mem _ hd')) (by simp at hlen; omega)
    rw [inodeLoop]
    by_cases hl : d.lnk = false
    · rw [if_pos hl]; exact hrest
    rw [if_neg hl]
    obtain ⟨hpath, t, ht, hj⟩ := hds d (by simp) (by simpa using hl)
    rw [if_neg (by omega), ht]
    dsimp only
    by_cases c1 : (t.take 100).length = 100
    · rw [if_pos c1]; exact hrest
    rw [if_neg c1]
    have hshort : t.length < 100 := by rw [List.length_take] at c1; omega
    have htake : t.take 100 = t := List.take_of_length_le (by omega)
    rw [htake]
    by_cases c2 : t.length < 8
    · rw [if_pos c2]; exact hrest
    rw [if_neg c2]
    by_cases c3 : t.take 8 ≠ sockPrefix
    · rw [if_pos c3]; exact hrest
    rw [if_neg c3]
    have c3' : t.take 8 = sockPrefix := not_not.mp c3
    obtain ⟨j, hj⟩ := hj ⟨t.drop 8, by rw [← c3']; exact List.take_append_drop 8 t⟩ hshort
    rw [(link_num hj hshort).2.2.2]
    dsimp only
    rw [if_neg (by simp at hlen; omega)]
    exact ih _ (fun d' hd' => hds d' (List.mem_cons_of_mem _ hd')) (by simp at hlen ⊢; omega)

/-! ## slurp_special -/

theorem slurpLoop_done (memOk : Nat → Bool) : ∀ (rs : List (Option Nat)) (file : List Byte) (sz : Nat) (buf out : List Byte),
    buf.length < sz → slurpLoop memOk rs file sz buf = .done out → out = buf ++ file := by
  intro rs
  induction rs with
  | nil => intro file sz buf out _ h; simp [slurpLoop] at h
  | cons r rs ih =>
    intro file sz buf out hsz h
    cases r with
    | none => simp [slurpLoop] at h
    | some k =>
      rw [slurpLoop] at h
      have hcat : buf ++ file.take (min (min (k + 1) (sz - buf.length)) file.length) ++
          file.drop (min (min (k + 1) (sz - buf.length)) file.length) = buf ++ file := by
        rw [List.append_assoc, List.take_append_drop]
      have hlen : (buf ++ file.take (min (min (k + 1) (sz - buf.length)) file.length)).length ≤ sz := by
        rw [List.length_append, List.length_take]; omega
      split_ifs at h with h1 h2 h3
      · rw [ih _ _ _ _ (by omega) h, hcat]
      · have hf : file = [] := by
          apply List.eq_nil_of_length_eq_zero; omega
        subst hf
        simp only [List.take_nil] at h
        cases h; rfl
      · rw [ih _ _ _ _ (by rw [List.length_append, List.length_take]; omega) h, hcat]

theorem slurpLoop_total (memOk : Nat → Bool) (hm : ∀ n, memOk n = true) :
    ∀ (rs : List (Option Nat)) (file : List Byte) (sz : Nat) (buf : List Byte),
    buf.length < sz → (∀ r ∈ rs, r ≠ none) → file.length < rs.length →
    slurpLoop memOk rs file sz buf = .done (buf ++ file) := by
  intro rs
  induction rs with
  | nil => intro file sz buf _ _ h; simp at h
  | cons r rs ih =>
    intro file sz buf hsz hr hlen
    cases r with
    | none => exact absurd rfl (hr none (by simp))
    | some k =>
      rw [slurpLoop]
      have hcat : buf ++ file.take (min (min (k + 1) (sz - buf.length)) file.length) ++
          file.drop (min (min (k + 1) (sz - buf.length)) file.length) = buf ++ file := by
        rw [List.append_assoc, List.take_append_drop]
      have hrs : ∀ r ∈ rs, r ≠ none := fun x hx => hr x (List.mem_cons_of_mem _ hx)
      simp only [List.length_cons] at hlen
      split_ifs with h1 h2 h3
      · rw [ih _ _ _ (by rw [List.length_append, List.length_take]; omega) hrs
          (by rw [List.length_drop]; omega), hcat]
      · exact absurd (hm _) h2
      · have hf : file = [] := by
          apply List.eq_nil_of_length_eq_zero; omega
        subst hf; simp
      · rw [ih _ _ _ (by rw [List.length_append, List.length_take]; omega) hrs
          (by rw [List.length_drop]; omega), hcat]

end Shr
