import Verif.Proof.Ux
import Verif.Model.Bw
/-!
# C41, C42, C58: the /proc parsers of lib/ux.c

`columns`, `textLines`, `RowShows`, `SockLink`: `Spec/Text.lean`.
-/
namespace Shr

/-! ## C42 -/

/-- C42: `get_col(k)` returns column `k` of the first line of the buffer (`IsColumn`: a maximal run of
non-spaces, with `k - 1` columns before it), whatever the buffer. -/
theorem C42_get_col_found (buf : List Byte) (k s l : Nat) (hk : 1 ≤ k) (h : get_col k buf = some (s, l)) :
    IsColumn (firstLine buf) k s ((buf.drop s).take l) ∧ ((buf.drop s).take l).length = l ∧
      s + l ≤ (firstLine buf).length := by
  obtain ⟨w, rfl, hw⟩ := get_col_some hk h
  obtain ⟨_, h2, h3⟩ := hw.get
  rw [firstLine_prefix buf h3, h2]
  exact ⟨hw, rfl, h3⟩

/-- C42: it fails iff the line has fewer than `k` columns. -/
theorem C42_get_col_fails_iff (buf : List Byte) (k : Nat) (hk : 1 ≤ k) :
    get_col k buf = none ↔ (columns (firstLine buf)).length < k := by
  rw [get_col_none_iff hk, List.getElem?_eq_none_iff]; omega

/-- C42: a column number, an offset and a length are found iff they are those of a column. -/
theorem C42_get_col_iff (buf : List Byte) (k s l : Nat) (hk : 1 ≤ k) :
    get_col k buf = some (s, l) ↔ ∃ w, w.length = l ∧ IsColumn (firstLine buf) k s w := by
  constructor
  · intro h
    obtain ⟨w, hl, hw⟩ := get_col_some hk h
    exact ⟨w, hl.symm, hw⟩
  · rintro ⟨w, rfl, hw⟩
    cases hg : get_col k buf with
    | none => rw [get_col_none_iff hk, hw.get.1] at hg; cases hg
    | some x =>
      obtain ⟨s', l'⟩ := x
      obtain ⟨w', rfl, hw'⟩ := get_col_some hk hg
      have hww : w' = w := Option.some.inj (hw'.get.1.symm.trans hw.get.1)
      subst hww
      -- two columns with the same number start at the same place
      obtain ⟨pre, post, e, rfl, hw0, hs, hpre, hpost, hcount⟩ := hw
      obtain ⟨pre', post', e', rfl, _, _, hpre', hpost', hcount'⟩ := hw'
      have : pre.length = pre'.length := columns_start_unique hw0 hs hpre hpre' hpost hpost' (e.symm.trans e') (by omega)
      rw [this]


/-- A line of /proc/net/unix with a padded inode number. -/
def procLine : List Byte := asc "0: 2 0 1 1 01    66 @0000a\nx"

example : get_col 7 procLine = some (17, 2) ∧ get_col 8 procLine = some (20, 6) ∧ get_col 9 procLine = none := by
  decide +kernel

/-! ## C41 -/

/-- The rows that `has_socket_name` gets past: readable, and not a match. -/
def RowPassed (inodes : List Nat) (name row : List Byte) : Prop :=
  (∃ ino nm, RowShows row ino nm) ∧ ¬ ∃ ino, RowShows row ino name ∧ ino % 2 ^ 64 ∈ inodes

/-- C41, for every text whatsoever: the search stops at the first row that is a match or that has no inode
number or no name; it answers 1, −1, or (at the end of the table) 0. -/
theorem C41_scan_exact (inodes : List Nat) (text name : List Byte) :
    (has_socket_name inodes (some text) name = 1 ∧ ∃ pre row post, tableRows text = pre ++ row :: post ∧
        (∀ x ∈ pre, RowPassed inodes name x) ∧ ∃ ino, RowShows row ino name ∧ ino % 2 ^ 64 ∈ inodes) ∨
    (has_socket_name inodes (some text) name = 0 ∧ ∀ x ∈ tableRows text, RowPassed inodes name x) ∨
    (has_socket_name inodes (some text) name = -1 ∧ ∃ pre row post, tableRows text = pre ++ row :: post ∧
        (∀ x ∈ pre, RowPassed inodes name x) ∧ ¬ ∃ ino nm, RowShows row ino nm) := by
  rw [tableRows_eq]
  exact rowLoop_spec inodes name _ (nextLine text) (Nat.le_refl _)

/-- Process `p` has a socket with this inode among its descriptors. -/
def HasSocket (p : ProcPid) (ino : Nat) : Prop :=
  ∃ dir, p.dir = some dir ∧ ∃ d ∈ dir, d.lnk = true ∧ ∃ t, d.target = some t ∧ SockLink t ino

/-- What the kernel guarantees about the links in /proc/<pid>/fd: those that begin with "socket:[" are links
to sockets, and inode numbers are below 2^64 (so such a target is shorter than 100 bytes). -/
def ProcPid.Sane (p : ProcPid) : Prop :=
  ∀ dir, p.dir = some dir → ∀ d ∈ dir, ∀ t, d.target = some t → asc "socket:[" <+: t →
    t.length < 100 ∧ ∃ ino, SockLink t ino ∧ ino < 2 ^ 64

/-- C41: `has_pid_socket` answers 0 only if the process does not exist, or both tables could be read and no row shows
both the name and a socket of the process. -/
theorem C41_no_is_true (p : ProcPid) (hp : p.Sane) (table : Option (List Byte)) (name : List Byte)
    (h : uxHasPidSocket p table name = 0) :
    p.gone = true ∨ ∃ text, table = some text ∧
      ∀ row ∈ tableRows text, ∀ ino, RowShows row ino name → ¬ HasSocket p ino := by
  unfold uxHasPidSocket at h
  by_cases hg : p.gone = true
  · exact Or.inl hg
  right
  rw [if_neg hg] at h
  cases hi : get_socket_inodes p.pidLen p.dir with
  | none => rw [hi] at h; simp at h
  | some L =>
    rw [hi] at h
    dsimp only at h
    cases table with
    | none => simp [has_socket_name] at h
    | some text =>
      refine ⟨text, rfl, ?_⟩
      rcases C41_scan_exact L text name with ⟨h', _⟩ | ⟨_, hall⟩ | ⟨h', _⟩
      · rw [h] at h'; cases h'
      · rintro row hrow ino hshow ⟨dir, hdir, d, hd, hl, t, ht, hlink⟩
        refine (hall row hrow).2 ⟨ino, hshow, ?_⟩
        rw [hdir] at hi
        have hsp := inodeLoop_spec p.pidLen MAX_INODES dir [] L hi
        obtain ⟨⟨new, hL, _, h3⟩, _⟩ := hsp
        obtain ⟨t', ht', hj⟩ := h3 d hd hl
        rw [ht] at ht'; cases ht'
        have hpre : asc "socket:[" <+: t := by
          obtain ⟨d', rfl, _⟩ := hlink; exact ⟨d' ++ asc "]", by rw [List.append_assoc]⟩
        rw [hL]
        exact hj ino hlink (hp dir hdir d hd t ht hpre).1
      · rw [h] at h'; cases h'

/-- C41: it answers 1 only if the process exists and a row shows the name and a socket of the process.  (The table
shows inode numbers below 2^64.) -/
theorem C41_yes_is_true (p : ProcPid) (hp : p.Sane) (table : Option (List Byte)) (name : List Byte)
    (h64 : ∀ text, table = some text → ∀ row ∈ tableRows text, ∀ ino nm, RowShows row ino nm → ino < 2 ^ 64)
    (h : uxHasPidSocket p table name = 1) :
    p.gone = false ∧ ∃ text, table = some text ∧
      ∃ row ∈ tableRows text, ∃ ino, RowShows row ino name ∧ HasSocket p ino := by
  unfold uxHasPidSocket at h
  by_cases hg : p.gone = true
  · rw [if_pos hg] at h; cases h
  rw [if_neg hg] at h
  refine ⟨by simpa using hg, ?_⟩
  cases hi : get_socket_inodes p.pidLen p.dir with
  | none => rw [hi] at h; simp at h
  | some L =>
    rw [hi] at h
    dsimp only at h
    cases table with
    | none => simp [has_socket_name] at h
    | some text =>
      refine ⟨text, rfl, ?_⟩
      rcases C41_scan_exact L text name with ⟨_, pre, row, post, hrows, _, ino, hshow, hin⟩ | ⟨h', _⟩ | ⟨h', _⟩
      · have hrow : row ∈ tableRows text := by rw [hrows]; simp
        refine ⟨row, hrow, ino, hshow, ?_⟩
        cases hdir : p.dir with
        | none => rw [hdir] at hi; simp [get_socket_inodes] at hi
        | some dir =>
          rw [hdir] at hi
          obtain ⟨⟨new, hL, h2, _⟩, _⟩ := inodeLoop_spec p.pidLen MAX_INODES dir [] L hi
          rw [hL, List.nil_append] at hin
          obtain ⟨d, hd, hl, t, ht, hlen, hpre, hj⟩ := h2 _ hin
          rw [sockPrefix_eq] at hpre
          obtain ⟨_, ino', hlink, hlt⟩ := hp dir hdir d hd t ht hpre
          have e := hj ino' hlink
          have hlt' := h64 text rfl row hrow ino name hshow
          have : ino = ino' := by
            rw [Nat.mod_eq_of_lt hlt'] at e
            rw [e]; exact Nat.mod_eq_of_lt hlt
          exact ⟨dir, hdir, d, hd, hl, t, ht, this ▸ hlink⟩
      · rw [h] at h'; cases h'
      · rw [h] at h'; cases h'

/-- C41: when does it answer at all?  If the descriptors of the process can be listed and read, there are at most
1000 of them, the table can be read, and *every* socket in the table has a name, the answer is definite. -/
theorem C41_definite (p : ProcPid) (hp : p.Sane) (dir : List DirEnt) (hdir : p.dir = some dir)
    (hlen : dir.length ≤ 1000)
    (hread : ∀ d ∈ dir, d.lnk = true → (asc "/proc/").length + p.pidLen + (asc "/fd/").length + d.name.length < 100 ∧ ∃ t, d.target = some t)
    (text name : List Byte) (hnamed : ∀ row ∈ tableRows text, ∃ ino nm, RowShows row ino nm) :
    uxHasPidSocket p (some text) name = 0 ∨ uxHasPidSocket p (some text) name = 1 := by
  unfold uxHasPidSocket
  by_cases hg : p.gone = true
  · rw [if_pos hg]; exact Or.inl rfl
  rw [if_neg hg]
  obtain ⟨L, hL⟩ := inodeLoop_total p.pidLen MAX_INODES dir [] (fun d hd hl => by
    obtain ⟨h1, t, ht⟩ := hread d hd hl
    refine ⟨h1, t, ht, fun hpre _ => ?_⟩
    rw [sockPrefix_eq] at hpre
    obtain ⟨_, ino, hlink, _⟩ := hp dir hdir d hd t ht hpre
    exact ⟨ino, hlink⟩) (by simpa [MAX_INODES] using hlen)
  have : get_socket_inodes p.pidLen p.dir = some L := by rw [hdir]; exact hL
  rw [this]
  dsimp only
  rcases C41_scan_exact L text name with ⟨h', _⟩ | ⟨h', _⟩ | ⟨_, pre, row, post, hrows, _, hbad⟩
  · exact Or.inr h'
  · exact Or.inl h'
  · exact absurd (hnamed row (by rw [hrows]; simp)) hbad

/-- C41: if a name in the directory is too long for the path buffer of 100 bytes, there is no answer (rather than a wrong one). -/
theorem C41_long_path (p : ProcPid) (hg : p.gone = false) (dir : List DirEnt) (hdir : p.dir = some dir) (d : DirEnt) (hd : d ∈ dir) (hl : d.lnk = true)
    (hlong : 100 ≤ (asc "/proc/").length + p.pidLen + (asc "/fd/").length + d.name.length) (table : Option (List Byte)) (name : List Byte) :
    uxHasPidSocket p table name = -1 := by
  have key : ∀ (ds : List DirEnt) (acc : List Nat), d ∈ ds → inodeLoop p.pidLen MAX_INODES ds acc = none := by
    intro ds
    induction ds with
    | nil => intro _ h; cases h
    | cons x ds ih =>
      intro acc h
      rw [inodeLoop]
      rcases List.mem_cons.1 h with rfl | h
      · have h6 : (asc "/proc/").length = 6 := by decide +kernel
        have h4 : (asc "/fd/").length = 4 := by decide +kernel
        rw [if_neg (by simp [hl]), if_pos (by unfold fdPathLen; omega)]
      · cases x.target with
        | none =>
          dsimp only
          repeat' split
          all_goals first | rfl | exact ih _ h
        | some t =>
          dsimp only
          repeat' split
          all_goals first | rfl | exact ih _ h
  unfold uxHasPidSocket
  rw [if_neg (by simp [hg]), hdir]
  unfold get_socket_inodes
  dsimp only
  rw [key dir [] hd]

/-- C41: the answer is yes (1), no (0) or "cannot tell" (-1); for a process that exists it is -1 if /proc/net/unix or its list of descriptors cannot be read. -/
theorem C41_values (p : ProcPid) (table : Option (List Byte)) (name : List Byte) :
    (uxHasPidSocket p table name = 1 ∨ uxHasPidSocket p table name = 0 ∨ uxHasPidSocket p table name = -1) ∧
    (p.gone = true → uxHasPidSocket p table name = 0) ∧
    (p.gone = false → table = none ∨ p.dir = none → uxHasPidSocket p table name = -1) := by
  unfold uxHasPidSocket
  refine ⟨?_, fun h => if_pos h, fun h ht => ?_⟩
  · split
    · exact .inr (.inl rfl)
    · split
      · exact .inr (.inr rfl)
      · cases table with
        | none => exact .inr (.inr rfl)
        | some t => rcases C41_scan_exact ‹_› t name with h | h | h
                    · exact .inl h.1
                    · exact .inr (.inl h.1)
                    · exact .inr (.inr h.1)
  · rw [if_neg (by simp [h])]
    split
    · rfl
    · next hi =>
      rcases ht with rfl | hd
      · rfl
      · rw [hd] at hi; cases hi

/-- C41, the limit of `C41_definite`: as long as the table contains one socket without a name (any process
can create one with `socketpair`), the answer for a process that exists is never "no". -/
theorem C41_nameless_row_blocks_no (p : ProcPid) (hg : p.gone = false) (text name row : List Byte) (ino : Nat)
    (hrow : row ∈ tableRows text) (hn : RowShowsNameless row ino) :
    uxHasPidSocket p (some text) name ≠ 0 := by
  intro h
  unfold uxHasPidSocket at h
  rw [hg] at h
  simp only [Bool.false_eq_true, if_false] at h
  cases hi : get_socket_inodes p.pidLen p.dir with
  | none => rw [hi] at h; simp at h
  | some L =>
    rw [hi] at h
    dsimp only at h
    rcases C41_scan_exact L text name with ⟨h', _⟩ | ⟨_, hall⟩ | ⟨h', _⟩
    · rw [h] at h'; cases h'
    · obtain ⟨⟨i, nm, d, _, _, _, h8⟩, _⟩ := hall row hrow
      obtain ⟨_, _, _, _, h8'⟩ := hn
      rw [h8'] at h8; cases h8
    · rw [h] at h'; cases h'

/-- C41, what it is for: on a kernel state `k` of `Model/Bw.lean` that /proc shows correctly, the parser is one of
the two answers that the model of `prune_handle` and `open_socket` allows: the truth, or "cannot tell".
`nm` writes names as text, `ino` gives inode numbers. -/
theorem C41_refines_bw (k : Kern) (pid name : Nat) (nm : Nat → List Byte) (ino : Nat → Nat)
    (p : ProcPid) (hp : p.Sane) (text : List Byte)
    (h64 : ∀ row ∈ tableRows text, ∀ i n, RowShows row i n → i < 2 ^ 64)
    (hgone : p.gone = true → ∀ s ∈ k.socks, s.pid ≠ pid)
    (hshown : ∀ s ∈ k.socks, ∃ row ∈ tableRows text, RowShows row (ino s.sid) (nm s.name))
    (hfd : ∀ s ∈ k.socks, s.pid = pid → HasSocket p (ino s.sid))
    (hreal : ∀ row ∈ tableRows text, ∀ i, RowShows row i (nm name) → HasSocket p i →
      ∃ s ∈ k.socks, s.name = name ∧ s.pid = pid) :
    ∃ known, uxHasPidSocket p (some text) (nm name) = has_pid_socket k pid name known := by
  have hcases : uxHasPidSocket p (some text) (nm name) = -1 ∨ uxHasPidSocket p (some text) (nm name) = 0 ∨
      uxHasPidSocket p (some text) (nm name) = 1 := by
    unfold uxHasPidSocket
    split
    · exact Or.inr (Or.inl rfl)
    · cases get_socket_inodes p.pidLen p.dir with
      | none => exact Or.inl rfl
      | some L =>
        rcases C41_scan_exact L text (nm name) with ⟨h', _⟩ | ⟨h', _⟩ | ⟨h', _⟩
        · exact Or.inr (Or.inr h')
        · exact Or.inr (Or.inl h')
        · exact Or.inl h'
  rcases hcases with h | h | h
  · exact ⟨false, by rw [h]; rfl⟩
  · refine ⟨true, ?_⟩
    rw [h, has_pid_socket]
    have : k.held pid name = false := by
      rw [Kern.held, List.any_eq_false]
      intro s hs hsp
      simp only [Bool.and_eq_true, beq_iff_eq] at hsp
      rcases C41_no_is_true p hp _ _ h with hg | ⟨text', ht, hno⟩
      · exact hgone hg s hs hsp.2
      · cases ht
        obtain ⟨row, hrow, hshow⟩ := hshown s hs
        rw [hsp.1] at hshow
        exact hno row hrow _ hshow (hfd s hs hsp.2)
    rw [this]; rfl
  · refine ⟨true, ?_⟩
    rw [h, has_pid_socket]
    have : k.held pid name = true := by
      obtain ⟨_, text', ht, row, hrow, i, hshow, hhas⟩ := C41_yes_is_true p hp (some text) (nm name)
        (fun t ht => by cases ht; exact h64) h
      cases ht
      obtain ⟨s, hs, h1, h2⟩ := hreal row hrow i hshow hhas
      rw [Kern.held, List.any_eq_true]
      exact ⟨s, hs, by simp [h1, h2]⟩
    rw [this]; rfl

/-! ### A concrete /proc -/

/-- Two named sockets. -/
def demoTable : List Byte :=
  asc "Num RefCount Protocol Flags Type St Inode Path\n0: 2 0 1 1 01    66 @0000a\n0: 2 0 1 2 01 13474 /run/x\n"
/-- The same with a socket that has no name in front. -/
def demoTableNameless : List Byte :=
  asc "Num RefCount Protocol Flags Type St Inode Path\n0: 2 0 1 1 01 5\n0: 2 0 1 1 01    66 @0000a\n"
/-- A process with a terminal and two sockets. -/
def demoProc : ProcPid :=
  { dir := some [{ lnk := false, target := none }, { target := some (asc "/dev/pts/0") },
      { target := some (asc "socket:[77]") }, { target := some (asc "socket:[66]") }] }

example : uxHasPidSocket demoProc (some demoTable) (asc "@0000a") = 1 := by decide +kernel
example : uxHasPidSocket demoProc (some demoTable) (asc "@0000b") = 0 := by decide +kernel
example : uxHasPidSocket demoProc (some demoTable) (asc "/run/x") = 0 := by decide +kernel
example : uxHasPidSocket { demoProc with gone := true } (some demoTable) (asc "@0000a") = 0 := by decide +kernel

/-- C41, the finding: the process is alive and does have the socket, but because of one nameless socket in
the table the answer is "cannot tell". -/
theorem C41_counterexample_nameless :
    uxHasPidSocket demoProc (some demoTableNameless) (asc "@0000a") = -1 ∧
      uxHasPidSocket demoProc (some demoTableNameless) (asc "@0000b") = -1 := by
  decide +kernel

theorem demoTable_rows : tableRows demoTable = [asc "0: 2 0 1 1 01    66 @0000a", asc "0: 2 0 1 2 01 13474 /run/x"] := by
  decide +kernel

/-- The hypotheses of `C41_definite` hold of the concrete /proc. -/
example : (∀ row ∈ tableRows demoTable, ∃ ino nm, RowShows row ino nm) ∧ demoProc.Sane ∧
    (∀ dir, demoProc.dir = some dir → ∀ d ∈ dir, d.lnk = true →
      (asc "/proc/").length + demoProc.pidLen + (asc "/fd/").length + d.name.length < 100 ∧ ∃ t, d.target = some t) := by
  refine ⟨?_, ?_, ?_⟩
  · rw [demoTable_rows]
    intro row hrow
    simp only [List.mem_cons, List.not_mem_nil, or_false] at hrow
    rcases hrow with rfl | rfl
    · exact ⟨66, asc "@0000a", asc "66", by decide +kernel, by decide +kernel, by decide +kernel, by decide +kernel⟩
    · exact ⟨13474, asc "/run/x", asc "13474", by decide +kernel, by decide +kernel, by decide +kernel, by decide +kernel⟩
  · intro dir hdir d hd t ht hpre
    cases hdir
    simp only [List.mem_cons, List.not_mem_nil, or_false] at hd
    rcases hd with rfl | rfl | rfl | rfl <;> cases ht
    · exact absurd hpre (by decide +kernel)
    · exact ⟨by decide +kernel, 77, ⟨asc "77", by decide +kernel, by decide +kernel, by decide +kernel⟩, by decide⟩
    · exact ⟨by decide +kernel, 66, ⟨asc "66", by decide +kernel, by decide +kernel, by decide +kernel⟩, by decide⟩
  · intro dir hdir d hd hl
    cases hdir
    simp only [List.mem_cons, List.not_mem_nil, or_false] at hd
    rcases hd with rfl | rfl | rfl | rfl
    · cases hl
    all_goals exact ⟨by decide, _, rfl⟩

/-- The hypotheses of `C41_refines_bw` hold of the concrete /proc: process 9 owns socket 66. -/
example : ∃ known, uxHasPidSocket demoProc (some demoTable) (asc "@0000a") =
    has_pid_socket { socks := [{ sid := 66, name := 0, pid := 9, q := 0 }] } 9 0 known := by
  have shows : RowShows (asc "0: 2 0 1 1 01    66 @0000a") 66 (asc "@0000a") :=
    ⟨asc "66", by decide +kernel, by decide +kernel, by decide +kernel, by decide +kernel⟩
  have shows2 : RowShows (asc "0: 2 0 1 2 01 13474 /run/x") 13474 (asc "/run/x") :=
    ⟨asc "13474", by decide +kernel, by decide +kernel, by decide +kernel, by decide +kernel⟩
  have det : ∀ {row i n i' n'}, RowShows row i n → RowShows row i' n' → i = i' ∧ n = n' := by
    rintro row i n i' n' ⟨d, h1, _, h2, h3⟩ ⟨d', h1', _, h2', h3'⟩
    rw [h1] at h1'; cases h1'
    rw [h3] at h3'; cases h3'
    exact ⟨h2.symm.trans h2', rfl⟩
  refine C41_refines_bw { socks := [{ sid := 66, name := 0, pid := 9, q := 0 }] } 9 0
    (fun n => if n = 0 then asc "@0000a" else asc "@0000b") id demoProc ?_ demoTable ?_ ?_ ?_ ?_ ?_
  · intro dir hdir d hd t ht hpre
    cases hdir
    simp only [List.mem_cons, List.not_mem_nil, or_false] at hd
    rcases hd with rfl | rfl | rfl | rfl <;> cases ht
    · exact absurd hpre (by decide +kernel)
    · exact ⟨by decide +kernel, 77, ⟨asc "77", by decide +kernel, by decide +kernel, by decide +kernel⟩, by decide⟩
    · exact ⟨by decide +kernel, 66, ⟨asc "66", by decide +kernel, by decide +kernel, by decide +kernel⟩, by decide⟩
  · rw [demoTable_rows]
    intro row hrow i n h
    simp only [List.mem_cons, List.not_mem_nil, or_false] at hrow
    rcases hrow with rfl | rfl
    · rw [← (det shows h).1]; decide
    · rw [← (det shows2 h).1]; decide
  · intro h; cases h
  · intro s hs
    simp only [List.mem_cons, List.not_mem_nil, or_false] at hs
    subst hs
    exact ⟨_, by rw [demoTable_rows]; simp, shows⟩
  · intro s hs _
    simp only [List.mem_cons, List.not_mem_nil, or_false] at hs
    subst hs
    exact ⟨_, rfl, { target := some (asc "socket:[66]") }, by simp, rfl, _, rfl, asc "66", by decide +kernel,
      by decide +kernel, by decide +kernel⟩
  · intro row hrow i h _
    exact ⟨{ sid := 66, name := 0, pid := 9, q := 0 }, by simp, rfl, rfl⟩

/-! ## C58 -/

/-- C58: whatever pieces `read` returns, if `slurp_special` returns a buffer it holds the whole content. -/
theorem C58_slurp_whole (openOk : Bool) (memOk : Nat → Bool) (file : List Byte) (reads : List (Option Nat))
    (buf : List Byte) (h : slurp_special openOk memOk file reads = .done buf) : buf = file := by
  unfold slurp_special at h
  split_ifs at h
  exact slurpLoop_done memOk reads file 10000 [] buf (by decide) h

/-- C58: it does return it, after at most one `read` per byte and one more, unless the file cannot be opened, a
`read` fails, or memory runs out. -/
theorem C58_slurp_terminates (memOk : Nat → Bool) (hm : ∀ n, memOk n = true) (file : List Byte)
    (reads : List (Option Nat)) (hr : ∀ r ∈ reads, r ≠ none) (hlen : file.length < reads.length) :
    slurp_special true memOk file reads = .done file := by
  rw [slurp_special, if_neg (by decide), if_neg (by simp [hm])]
  exact slurpLoop_total memOk hm reads file 10000 [] (by decide) hr hlen

example : slurp_special true (fun _ => true) [1, 2, 3] [some 0, some 7, some 0, some 0] = .done [1, 2, 3] := by
  decide +kernel

end Shr
