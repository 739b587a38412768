import Verif.Props.Safe
import Verif.Props.OpenAny
/-!
# C107: what deaths can do to the file

C105 is about the ring; here the same for the file it lies in, byte by byte, and for `shr_open`, which looks at little of it.
-/
namespace Shr

theorem Op.Fair.small {al : Nat} {op : Op} (h : op.Fair al) : op.Small := by
  have hS : SSIZE_MAX < W := SSIZE_MAX_lt
  cases op with
  | writev k iov e1 e2 => exact fun b hb => Nat.lt_of_le_of_lt (h b hb) hS
  | stat k r env =>
    cases r with
    | none => trivial
    | some t => exact h
  | readv => trivial
  | «open» => trivial
  | flush => trivial
  | close => trivial
  | farmStat => trivial
  | appdata => trivial

section
variable {a : InitArgs} {s : Sys}

theorem Wrecked.cache (ha : a.WF) (h : Wrecked a s) (k : Nat) : ∀ hd, s.hs k = .live hd → hd.c.buf.length < W := fun hd e => by
  have hc := ((h.safe ha).hs k hd e).c
  have := hc.sz
  have := hc.szb
  have hS : SSIZE_MAX < W := SSIZE_MAX_lt
  omega

theorem Wrecked.file (ha : a.WF) (h : Wrecked a s) {f : List Byte} (hl : LayoutOk f) (hd : decode f = initRing a) :
    ∃ g, FSteps f g ∧ decode g = s.ring := by
  induction h with
  | new => exact ⟨f, .refl f, hd⟩
  | call h hf hs ih =>
    obtain ⟨g, h1, h2⟩ := ih
    obtain ⟨g', h3, h4⟩ := points_files hf.small (h.cache ha _) (h1.layout hl).2 h2 _ (step_points hs)
    exact ⟨g', h1.trans h3, h4⟩
  | death h hf hp ih =>
    obtain ⟨g, h1, h2⟩ := ih
    obtain ⟨g', h3, h4⟩ := points_files hf.small (h.cache ha _) (h1.layout hl).2 h2 _ hp
    exact ⟨g', h1.trans h3, h4⟩

/-- **C107.** A ring is made by `shr_init`; then come any calls, and any deaths in the course of calls.  At every moment, also inside the next
call, the file is what single stores of the library made of it, each of them inside its own region: it has its length, the
magic and the sizes it was created with, and every byte that is not in a counter, a position, the statistics, the message vector, the
data or the application data.  Of the checks of `shr_open` only one can fail, that of the number of unread bytes. -/
theorem C107_file {env : InitEnv} {fs fs' : FS} (ha : a.WF) (hs : SizesOk a) (he : env.WF a) (hf : fs.WF) (hi : Inits a env fs 0 fs')
    (hnew : fs.path = none ∨ a.flags.has SHR_KEEPEXIST = false)
    (h : Wrecked a s) {op : Op} (hop : op.Fair a.appsize) :
    ∃ ino, fs'.path = some ino ∧ ∀ p ∈ s.points op, ∃ g, FSteps (fs'.files ino) g ∧ decode g = p ∧
      g.length = (fs'.files ino).length ∧ (∀ k, Fixed (fs'.files ino) k → g[k]? = (fs'.files ino)[k]?) ∧
      (Accepted g ↔ p.u ≤ p.n) ∧ (p.n < p.u → validate_ring g g.length = -5) := by
  have e := hi.end_ hs he hf
  rcases e.ok rfl with ⟨_, h1, h2⟩ | ⟨_, hp, hw, _⟩
  · rcases hnew with hn | hn
    · rw [hn] at h1; cases h1
    · rw [hn] at h2; cases h2
  obtain ⟨g1, g2, g3, g4, _⟩ := whole_fields hw
  have hL : a.fileSz ≤ env.trunc.len a.fileSz := by
    unfold Trunc.len; split
    · rename_i l h; exact he _ h
    · exact Nat.le_refl _
  have hl : LayoutOk (fs'.files fs.next) := by
    unfold LayoutOk appOff mvOff
    rw [g1, g2, g3, g4, hw.1, hs.mv]
    have hsz := hs.fileSz
    omega
  refine ⟨fs.next, hp, fun p hpt => ?_⟩
  obtain ⟨f, k1, k2⟩ := h.file ha hl hw.2.2
  obtain ⟨g, k3, k4⟩ := points_files hop.small (h.cache ha _) (k1.layout hl).2 k2 p hpt
  obtain ⟨j1, j2, j3, j4⟩ := C19_fixed_bytes hl (k1.trans k3)
  have hsane := (step_safe (InitArgs.sizes ha) (h.safe ha) op hop).pts p hpt
  have hn : p.n = ld64 g OFF_N := by rw [← k4]; rfl
  have hpos : 0 < ld64 g OFF_N := by rw [← hn, hsane.n]; exact ha.pos
  have hmag : ld g 0 8 = MAGIC := by
    have : ld g 0 8 = ld (fs'.files fs.next) 0 8 := by
      apply List.ext_getElem?
      intro k
      rw [ld_getElem?, ld_getElem?]
      split
      · exact j4 _ (.inl (by unfold OFF_I; omega))
      · rfl
    rw [this]; exact hw.2.1
  have hlay : SIZEOF_CTRL + ld64 g OFF_N + ld64 g OFF_PAD_LEN + ld64 g OFF_MV_LEN + ld64 g OFF_APP_LEN ≤ g.length := by
    unfold LayoutOk appOff mvOff at j2; exact j2
  have hcr : SIZEOF_CTRL < g.length := by omega
  have hiv : (decode g).i < (decode g).n := by rw [k4, hsane.n]; exact hsane.i
  have hrv : (decode g).r < (decode g).mm := by rw [k4, hsane.mm]; exact hsane.r
  have hunder : ¬ (headerSize g < 2 ^ 63 ∧ g.length < headerSize g) := by
    intro hx
    have := Nat.mod_le (SIZEOF_CTRL + ld64 g OFF_N + ld64 g OFF_PAD_LEN + ld64 g OFF_MV_LEN + ld64 g OFF_APP_LEN) (2 ^ 64)
    unfold headerSize at hx
    omega
  refine ⟨g, k1.trans k3, k4, j1, j4, ⟨fun hA => by have := hA.u; rw [k4] at this; exact this, fun hu => ?_⟩, fun hu => ?_⟩
  · exact ⟨hcr, hmag, fun hx => Nat.le_of_not_lt fun hy => hunder ⟨hx, hy⟩, by rw [k4]; exact hu, hiv, hrv⟩
  · exact (C71_reason g).2.2.2.1.mpr ⟨by omega, (fun hx => hx hmag), hunder, by rw [k4]; exact hu⟩

/-- **C107, opening.** So a program whose system calls succeed gets a handle on the ring in such a state exactly if not more bytes are counted as unread than
the ring has. -/
theorem C107_opens_iff {env : InitEnv} {fs fs' : FS} (ha : a.WF) (hs : SizesOk a) (he : env.WF a) (hf : fs.WF) (hi : Inits a env fs 0 fs')
    (hnew : fs.path = none ∨ a.flags.has SHR_KEEPEXIST = false)
    (h : Wrecked a s) {op : Op} (hop : op.Fair a.appsize) :
    ∃ ino, fs'.path = some ino ∧ ∀ p ∈ s.points op, ∃ g, FSteps (fs'.files ino) g ∧ decode g = p ∧
      ∀ flags oe, (flags.has SHR_RDONLY = true ∨ flags.has SHR_WRONLY = true) → (∀ b < 12, flags.getLsbD b = false) → oe.good →
        oe.env.lockOk = true → oe.env.mlockOk = true → oe.env.bwOpenOk = true → oe.env.mallocOk = true → oe.env.syncOk = true →
        ((∃ x, shr_open { fs' with files := upd fs'.files ino g } flags oe = some x) ↔ p.u ≤ p.n) := by
  obtain ⟨ino, h1, h2⟩ := C107_file ha hs he hf hi hnew h hop
  refine ⟨ino, h1, fun p hp => ?_⟩
  obtain ⟨g, g1, g2, g3, g4, g5, g6⟩ := h2 p hp
  refine ⟨g, g1, g2, fun flags oe m1 m2 m3 m4 m5 m6 m7 m8 => ?_⟩
  rw [C71_opens_iff _ flags oe]
  have eu : upd fs'.files ino g ino = g := by unfold upd; rw [if_pos rfl]
  constructor
  · rintro ⟨_, _, j, hj, hA, _⟩
    have hj' : j = ino := by
      have : fs'.path = some j := hj
      rw [h1] at this; cases this; rfl
    subst hj'
    dsimp only at hA
    rw [eu] at hA
    exact g5.mp hA
  · intro hu
    refine ⟨⟨m1, m2⟩, m3, ino, h1, ?_, m4, fun _ => m5, m6, fun _ _ => m7, fun _ => m8⟩
    show Accepted (upd fs'.files ino g ino)
    rw [eu]
    exact g5.mpr hu

end

/-! ## Both cases occur -/

theorem unA_wf : unA.WF := (valid_of (by decide +kernel) : Valid unA unOps).init
theorem unAfter_wrecked : Wrecked unA unAfter := by
  have v : Valid unA unOps := valid_of (by decide +kernel)
  have h0 : Wrecked unA (final unA unOps) := Wrecked.calls .new (by
    intro op hop
    simp only [unOps, opn, wr, rd, List.mem_cons, List.not_mem_nil, or_false] at hop
    rcases hop with rfl | rfl | rfl | rfl | rfl | rfl
    · trivial
    · trivial
    · trivial
    · intro b hb; rw [List.mem_singleton.mp hb]; decide
    · show (List.replicate 10 (0 : Byte)).length < W; decide
    · intro b hb; rw [List.mem_singleton.mp hb]; decide) v.runs
  have hr : (rd 1 10 1).Fair unA.appsize := by show (List.replicate 10 (0 : Byte)).length < W; decide
  refine Wrecked.calls (h0.death (op := rd 1 10 1) hr C33_counterexample_unopenable.1) ?_ C33_counterexample_unopenable.2.1
  intro op hop
  rw [List.mem_singleton.mp hop]
  show (List.replicate 10 (0 : Byte)).length < W
  decide

theorem unA_sizes : SizesOk unA := ⟨by decide, by decide, by decide⟩
theorem wrA_sizes : SizesOk wrA := ⟨by decide, by decide, by decide⟩

/-- A ring that nobody can open any more: a reader died and another one read. -/
example : ∃ ino, (afterInit unA {} emptyFS).path = some ino ∧ ∃ g, decode g = unAfter.ring ∧ validate_ring g g.length = -5 ∧
    ¬ ∃ x, shr_open { (afterInit unA {} emptyFS) with files := upd (afterInit unA {} emptyFS).files ino g } SHR_RDONLY {} = some x := by
  have hi : Inits unA {} emptyFS 0 (afterInit unA {} emptyFS) := inits_of (by decide +kernel)
  have hu : unAfter.ring.n < unAfter.ring.u := by rw [C33_counterexample_unopenable.2.2.1]; decide +kernel
  have hpt : unAfter.ring ∈ unAfter.points (.flush 3 false {}) := by decide +kernel
  obtain ⟨ino, h1, h2⟩ := C107_file unA_wf unA_sizes (env := {}) (fun _ h => nomatch h) emptyFS_wf hi (.inl rfl) unAfter_wrecked
    (op := .flush 3 false {}) trivial
  obtain ⟨g, g1, g2, g3, g4, g5, g6⟩ := h2 _ hpt
  refine ⟨ino, h1, g, g2, g6 hu, fun hx => ?_⟩
  obtain ⟨_, _, j, hj, hA, _⟩ := (C71_opens_iff _ _ _).mp hx
  have hj' : j = ino := by
    dsimp only at hj
    rw [h1] at hj; cases hj; rfl
  subst hj'
  dsimp only at hA
  have := g5.mp (by unfold upd at hA; rw [if_pos rfl] at hA; exact hA)
  omega

/-- A ring that is not in working order, and opens. -/
example : ¬ wrA2.ring.Consistent ∧ ∃ ino g, decode g = wrA2.ring ∧
    ∃ x, shr_open { (afterInit wrA {} emptyFS) with files := upd (afterInit wrA {} emptyFS).files ino g } SHR_RDONLY {} = some x := by
  refine ⟨by decide +kernel, ?_⟩
  have hi : Inits wrA {} emptyFS 0 (afterInit wrA {} emptyFS) := inits_of (by decide +kernel)
  have hpt : wrA2.ring ∈ wrA2.points (.flush 3 false {}) := by decide +kernel
  obtain ⟨ino, h1, h2⟩ := C107_opens_iff wrA_wf wrA_sizes (env := {}) (fun _ h => nomatch h) emptyFS_wf hi (.inl rfl) wrA2_wrecked
    (op := .flush 3 false {}) trivial
  obtain ⟨g, g1, g2, g3⟩ := h2 _ hpt
  exact ⟨ino, g, g2, (g3 SHR_RDONLY {} (.inl rfl) (by decide) ⟨rfl, rfl, rfl, rfl⟩ rfl rfl rfl rfl rfl).mpr (by decide +kernel)⟩

end Shr
