import Verif.Model.Query
import Verif.Props.Exit
import Verif.Props.Main
/-!
# C104: what `shr-tool mount -q` says about a directory
-/
namespace Shr

/-- The directory is a mount point, of a file system of type `t`. -/
def MountedAs (i : DirInfo) (t : Nat) : Prop :=
  ∃ dev pdev, i.self = some (true, dev) ∧ i.parent = some pdev ∧ pdev ≠ dev ∧ i.fsType = some t

/-- `txt` is the number `n` in decimal. -/
def SaysNumber (txt : List Byte) (n : Nat) : Prop :=
  txt ≠ [] ∧ (∀ c ∈ txt, isDigit c = true) ∧ decimal txt = n

/-- `f_type` of the three file systems (statfs(2)). -/
def tmpfsType : Nat := 0x01021994
def ramfsType : Nat := 0x858458F6
def hugefsType : Nat := 0x958458F6

theorem suitable_mounted {dir : List Byte} {i : DirInfo} (hd : dir.length + 4 ≤ 4096) :
    suitable dir i = -2 ↔ MountedAs i tmpfsType ∨ MountedAs i ramfsType ∨ MountedAs i hugefsType := by
  rw [suitable_ramdisk hd]
  unfold IsRamdisk MountedAs
  constructor
  · rintro ⟨dev, pdev, t, h1, h2, h3, h4, rfl | rfl | rfl⟩
    · exact .inl ⟨dev, pdev, h1, h2, h4, h3⟩
    · exact .inr (.inl ⟨dev, pdev, h1, h2, h4, h3⟩)
    · exact .inr (.inr ⟨dev, pdev, h1, h2, h4, h3⟩)
  · rintro (⟨dev, pdev, h1, h2, h4, h3⟩ | ⟨dev, pdev, h1, h2, h4, h3⟩ | ⟨dev, pdev, h1, h2, h4, h3⟩)
    · exact ⟨dev, pdev, _, h1, h2, h3, h4, .inl rfl⟩
    · exact ⟨dev, pdev, _, h1, h2, h3, h4, .inr (.inl rfl)⟩
    · exact ⟨dev, pdev, _, h1, h2, h3, h4, .inr (.inr rfl)⟩

theorem intText_nat (n : Nat) : intText (n : Int) = decText n := by
  unfold intText
  rw [if_neg (by omega)]
  rfl

theorem says_intText (n : Nat) : SaysNumber (intText (n : Int)) n := by
  rw [intText_nat]
  exact decText_spec n

/-- **C104.** A directory that is not the root of a ramdisk (or whose name is too long, or about which the system says nothing) is said not to be
one. -/
theorem C104_not_a_ramdisk {dir : List Byte} {i : DirInfo} (u : FsUse)
    (h : dir.length + 4 > 4096 ∨ ¬ (MountedAs i tmpfsType ∨ MountedAs i ramfsType ∨ MountedAs i hugefsType)) :
    queryRamdisk dir i u = some (dir ++ asc ": not a ramdisk\n", -1) := by
  have hs : suitable dir i ≠ -2 := by
    by_cases hd : dir.length + 4 > 4096
    · unfold suitable; rw [if_pos (show _ > PATH_MAX from hd)]; decide
    · rw [Ne, suitable_mounted (by omega)]
      rcases h with h | h
      · exact absurd h hd
      · exact h
  unfold queryRamdisk
  rw [if_pos hs]

/-- **C104.** The ramdisks without a size of their own. -/
theorem C104_unbounded {dir : List Byte} {i : DirInfo} (u : FsUse) (hd : dir.length + 4 ≤ 4096) :
    (MountedAs i ramfsType → queryRamdisk dir i u = some (dir ++ asc ": ramfs (unbounded size)\n", 0)) ∧
    (MountedAs i hugefsType → queryRamdisk dir i u = some (dir ++ asc ": hugetlbfs (unbounded size)\n", 0)) := by
  constructor <;> intro h <;> unfold queryRamdisk
  · rw [if_neg (fun x => x ((suitable_mounted hd).mpr (.inr (.inl h))))]
    obtain ⟨_, _, _, _, _, e⟩ := h
    rw [if_pos (show i.fsType = some RAMFS_MAGIC from e)]
  · rw [if_neg (fun x => x ((suitable_mounted hd).mpr (.inr (.inr h))))]
    obtain ⟨_, _, _, _, _, e⟩ := h
    rw [if_neg (by rw [e]; decide), if_pos (show i.fsType = some HUGEFS_MAGIC from e)]

/-- The units in which a size is given. -/
def sizeUnits : List (Nat × List Byte) :=
  [(1, asc "bytes"), (1024, asc "kb"), (1024 ^ 2, asc "mb"), (1024 ^ 3, asc "gb")]

theorem sizeText_spec (bytes : Nat) : ∃ n unit name num, (unit, name) ∈ sizeUnits ∧ SaysNumber num n ∧
    sizeText (bytes : Int) = num ++ asc " " ++ name ∧ n * unit ≤ bytes ∧ bytes < (n + 1) * unit ∧
    (unit = 1 ∨ unit ≤ bytes) ∧ (unit = 1024 ^ 3 ∨ bytes < 1024 * unit) := by
  have hdiv : ∀ k : Nat, 0 < k → bytes / k * k ≤ bytes ∧ bytes < (bytes / k + 1) * k := by
    intro k hk
    have := Nat.div_add_mod bytes k
    have := Nat.mod_lt bytes hk
    rw [Nat.add_mul, Nat.one_mul, Nat.mul_comm (bytes / k) k]
    omega
  unfold sizeText
  split
  · exact ⟨bytes, 1, asc "bytes", intText (bytes : Int), by simp [sizeUnits], says_intText bytes, by rw [List.append_assoc]; rfl, by omega, by omega, .inl rfl,
      .inr (by omega)⟩
  split
  · exact ⟨bytes / 1024, 1024, asc "kb", intText ((bytes / 1024 : Nat) : Int), by simp [sizeUnits], says_intText _, by rw [List.append_assoc]; rfl,
      (hdiv _ (by decide)).1, (hdiv _ (by decide)).2, .inr (by omega), .inr (by omega)⟩
  split
  · exact ⟨bytes / (1024 * 1024), 1024 ^ 2, asc "mb", intText ((bytes / (1024 * 1024) : Nat) : Int), by simp [sizeUnits], says_intText _,
      by rw [List.append_assoc]; rfl, (hdiv _ (by decide)).1, (hdiv _ (by decide)).2, .inr (by omega), .inr (by omega)⟩
  · exact ⟨bytes / (1024 * 1024 * 1024), 1024 ^ 3, asc "gb", intText ((bytes / (1024 * 1024 * 1024) : Nat) : Int), by simp [sizeUnits],
      says_intText _, by rw [List.append_assoc]; rfl, (hdiv _ (by decide)).1, (hdiv _ (by decide)).2, .inr (by omega), .inl rfl⟩

theorem usedPct_spec {u : FsUse} (hb : 0 < u.blocks) (hf : u.bfree ≤ u.blocks) : ∃ p : Nat, usedPct u = some (p : Int) ∧
    p ≤ 100 ∧ p * u.blocks ≤ 100 * (u.blocks - u.bfree) ∧ 100 * (u.blocks - u.bfree) < (p + 1) * u.blocks := by
  have hmod := Nat.div_add_mod (100 * (u.blocks - u.bfree)) u.blocks
  have hlt := Nat.mod_lt (100 * (u.blocks - u.bfree)) hb
  refine ⟨100 * (u.blocks - u.bfree) / u.blocks, ?_, ?_, ?_, ?_⟩
  · unfold usedPct
    rw [if_neg (by omega)]
    have : (100 * ((u.blocks : Int) - u.bfree)) = ((100 * (u.blocks - u.bfree) : Nat) : Int) := by omega
    rw [this]
    rfl
  · refine Nat.le_trans (Nat.div_le_div_right (c := u.blocks) (show _ ≤ 100 * u.blocks by omega)) ?_
    rw [Nat.mul_div_cancel _ hb]
  · rw [Nat.mul_comm _ u.blocks]; omega
  · rw [Nat.add_mul, Nat.one_mul, Nat.mul_comm _ u.blocks]; omega

/-- **C104 (partial).** Of a tmpfs of less than 2^63 bytes, and which has a limit, it tells the size in the largest unit up to gigabytes
that is not larger, and the used share of its blocks in percent, both rounded down. -/
theorem C104_tmpfs_partial {dir : List Byte} {i : DirInfo} {u : FsUse} (hd : dir.length + 4 ≤ 4096) (h : MountedAs i tmpfsType)
    (hs : u.bsize * u.blocks < 2 ^ 63) (hb : 0 < u.blocks) (hf : u.bfree ≤ u.blocks) :
    ∃ n unit name num p pct, (unit, name) ∈ sizeUnits ∧ SaysNumber num n ∧ SaysNumber pct p ∧
      queryRamdisk dir i u = some (dir ++ asc ": tmpfs of size " ++ (num ++ asc " " ++ name) ++ asc " (" ++ pct ++ asc "% used)\n", 0) ∧
      n * unit ≤ u.bsize * u.blocks ∧ u.bsize * u.blocks < (n + 1) * unit ∧
      (unit = 1 ∨ unit ≤ u.bsize * u.blocks) ∧ (unit = 1024 ^ 3 ∨ u.bsize * u.blocks < 1024 * unit) ∧
      p * u.blocks ≤ 100 * (u.blocks - u.bfree) ∧ 100 * (u.blocks - u.bfree) < (p + 1) * u.blocks := by
  obtain ⟨n, unit, name, num, h1, h2, h3, h4⟩ := sizeText_spec (u.bsize * u.blocks)
  obtain ⟨p, q1, _, q2⟩ := usedPct_spec hb hf
  refine ⟨n, unit, name, num, p, intText (p : Int), h1, h2, says_intText p, ?_, h4.1, h4.2.1, h4.2.2.1, h4.2.2.2, q2⟩
  have hl : toLong (u.bsize * u.blocks) = ((u.bsize * u.blocks : Nat) : Int) := by unfold toLong; omega
  unfold queryRamdisk
  rw [if_neg (fun x => x ((suitable_mounted hd).mpr (.inl h)))]
  obtain ⟨_, _, _, _, _, e⟩ := h
  rw [if_neg (by rw [e]; decide), if_neg (by rw [e]; decide), q1, hl, h3]

/-- A tmpfs mounted on a directory. -/
def tmpfsAt : DirInfo := ⟨some (true, 40), some 2, some tmpfsType⟩
theorem tmpfsAt_mounted : MountedAs tmpfsAt tmpfsType := ⟨40, 2, rfl, rfl, by decide, rfl⟩

/-- 100 MB in pages of 4096 bytes, of which a third and a bit is used. -/
example : MountedAs tmpfsAt tmpfsType ∧ queryRamdisk (asc "/mnt/r") tmpfsAt ⟨4096, 25600, 17000⟩ =
    some (asc "/mnt/r: tmpfs of size 100 mb (33% used)\n", 0) := ⟨tmpfsAt_mounted, by decide +kernel⟩

/-- A directory of an ordinary file system, and one of a tmpfs that is not its root. -/
example : queryRamdisk (asc "/mnt/r") ⟨some (true, 2), some 2, some 0xEF53⟩ ⟨4096, 100, 50⟩ = some (asc "/mnt/r: not a ramdisk\n", -1) ∧
    queryRamdisk (asc "/mnt/r/a") ⟨some (true, 40), some 40, some tmpfsType⟩ ⟨4096, 100, 50⟩ = some (asc "/mnt/r/a: not a ramdisk\n", -1) ∧
    queryRamdisk (asc "/mnt/r") ⟨some (true, 41), some 2, some ramfsType⟩ ⟨4096, 0, 0⟩ = some (asc "/mnt/r: ramfs (unbounded size)\n", 0) := by
  decide +kernel

/-- **C104 (counterexample).** A tmpfs without a limit (mounted with size=0) has zero blocks: the percentage is 0.0/0.0, whose conversion
to `int` is undefined. -/
theorem C104_counterexample_unlimited (dir : List Byte) (i : DirInfo) (bsize bfree : Nat) (hd : dir.length + 4 ≤ 4096)
    (h : MountedAs i tmpfsType) : queryRamdisk dir i ⟨bsize, 0, bfree⟩ = none := by
  unfold queryRamdisk
  rw [if_neg (fun x => x ((suitable_mounted hd).mpr (.inl h)))]
  obtain ⟨_, _, _, _, _, e⟩ := h
  rw [if_neg (by rw [e]; decide), if_neg (by rw [e]; decide)]
  rfl

/-- **C104 (counterexample).** A tmpfs of 8 exabytes is said to have a negative size. -/
theorem C104_counterexample_huge : queryRamdisk (asc "/mnt/r") tmpfsAt ⟨4096, 2 ^ 51, 2 ^ 51⟩ =
    some (asc "/mnt/r: tmpfs of size -9223372036854775808 bytes (0% used)\n", 0) := by decide +kernel

/-- **C104 (counterexample).** The exit status does not tell: it is 0 also if the directory is no ramdisk. -/
theorem C104_counterexample_status : ∃ (dir : List Byte) (c : Cfg) (i : DirInfo) (u : FsUse), c.mountMode = .query ∧
    queryRamdisk dir i u = some (dir ++ asc ": not a ramdisk\n", -1) ∧ (mountCmd c dir [] { info := i }).2 = .status 0 :=
  ⟨asc "/mnt/r", { mountMode := .query }, ⟨some (true, 2), some 2, some 0xEF53⟩, ⟨4096, 100, 50⟩, rfl, by decide +kernel, by decide +kernel⟩

end Shr
