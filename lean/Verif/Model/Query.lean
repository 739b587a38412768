import Verif.Model.Exit
/-!
# util/shr-tool.c: `query_ramdisk`, what `mount -q` prints
-/
namespace Shr

/-- `struct statfs`: `f_bsize`, `f_blocks`, `f_bfree` (here not negative). -/
structure FsUse where
  bsize : Nat
  blocks : Nat
  bfree : Nat
  deriving DecidableEq, Repr

/-- `printf("%d")`. -/
def intText (v : Int) : List Byte := if v < 0 then 45 :: decText v.natAbs else decText v.natAbs

/-- `szb` in `query_ramdisk`, util/shr-tool.c:390-395: `bytes` is `sf.f_bsize*sf.f_blocks`, computed as `unsigned long`, as a `long`.
`snprintf` cuts nothing off: 19 digits, a sign, and a unit fit into 100 bytes. -/
def sizeText (bytes : Int) : List Byte :=
  if bytes < 1024 then intText bytes ++ asc " bytes"
  else if bytes < 1024 * 1024 then intText (bytes / 1024) ++ asc " kb"
  else if bytes < 1024 * 1024 * 1024 then intText (bytes / (1024 * 1024)) ++ asc " mb"
  else intText (bytes / (1024 * 1024 * 1024)) ++ asc " gb"

/-- A product of `unsigned long`s, as a `long`. -/
def toLong (n : Nat) : Int := ((n : Int) + 2 ^ 63) % 2 ^ 64 - 2 ^ 63

/-- `used_pct`, util/shr-tool.c:396: `none` if the conversion to `int` is undefined (0.0/0.0, or infinite).  Simplification: exact
numbers instead of `double`; the conversion cuts off toward zero. -/
def usedPct (u : FsUse) : Option Int :=
  if u.blocks = 0 then none else some (Int.tdiv (100 * ((u.blocks : Int) - u.bfree)) u.blocks)

/-- `query_ramdisk`, util/shr-tool.c:371-399: what it prints, and what it returns (which `main` ignores, util/shr-tool.c:1069);
`none`: undefined. -/
def queryRamdisk (dir : List Byte) (i : DirInfo) (u : FsUse) : Option (List Byte × Int) :=
  if suitable dir i ≠ -2 then some (dir ++ asc ": not a ramdisk\n", -1)
  else if i.fsType = some RAMFS_MAGIC then some (dir ++ asc ": ramfs (unbounded size)\n", 0)
  else if i.fsType = some HUGEFS_MAGIC then some (dir ++ asc ": hugetlbfs (unbounded size)\n", 0)
  else match usedPct u with
    | none => none
    | some p => some (dir ++ asc ": tmpfs of size " ++ sizeText (toLong (u.bsize * u.blocks)) ++ asc " (" ++ intText p ++ asc "% used)\n", 0)

end Shr
