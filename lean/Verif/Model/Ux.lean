import Verif.Spec.Text
/-!
# lib/ux.c: is a process alive and does it have a socket of a given name?

Texts are lists of bytes; a C buffer with a length is such a list.  The contents of /proc (directory
entries, link targets, what `read` returns) are arguments.  C `int` counters (`num` in `get_col`) are
unbounded here: everything is about lines of fewer than 2^31 columns.
-/
namespace Shr

/-- The loop of `get_col`, lib/ux.c:209-221; the list is what is left of the buffer from `b` on (`b` counts
from `buf`).  Result: `num`, `*len`, `start`. -/
def getColLoop (col : Nat) : List Byte → Nat → Nat → Nat → Option Nat → Nat × Nat × Option Nat
  | [], _, num, len, start => (num, len, start)
  | c :: rest, b, num, len, start =>
    if c = 32 ∧ num = col then (num, len, start)
    else if c = 10 then (num, len, start)
    else
      let len := if c = 32 then 0 else len
      let new : Bool := c ≠ 32 ∧ len = 0
      let num := if new then num + 1 else num
      let start := if new then some b else start
      let len := if c ≠ 32 then len + 1 else len
      getColLoop col rest (b + 1) num len start

/-- `get_col`, lib/ux.c:199-225: offset and length of the column. -/
def get_col (col : Nat) (buf : List Byte) : Option (Nat × Nat) :=
  match getColLoop col buf 0 0 0 none with
  | (num, len, start) => if len ≠ 0 ∧ num = col then start.map fun s => (s, len) else none

/-- The digit loops of lib/ux.c:263-270 and 102-109 (without the test for ']'): `none` on a character that
is not a digit. -/
def parseDec : List Byte → Nat → Option Nat
  | [], acc => some acc
  | c :: cs, acc => if c < 48 ∨ c > 57 then none else parseDec cs (wadd (wmul acc 10) (c.toNat - 48))

/-- Advance to the next line, lib/ux.c:253-255 and 290-292. -/
def nextLine (t : List Byte) : List Byte := (t.dropWhile (· ≠ 10)).drop 1

theorem nextLine_lt (t : List Byte) (n : Nat) (h : t ≠ []) : (nextLine (t.drop n)).length < t.length := by
  have h1 : ((t.drop n).dropWhile (· ≠ 10)).length ≤ (t.drop n).length :=
    (List.dropWhile_suffix _).length_le
  have h2 : 0 < t.length := List.length_pos_iff.mpr h
  simp only [nextLine, List.length_drop] at *
  omega

/-- The loop over the rows of the table, lib/ux.c:257-293; `t` is what is left of the buffer from `line` on.
(That `get_col` stays within the buffer is C42.) -/
def rowLoop (inodes : List Nat) (name : List Byte) (t : List Byte) : Int :=
  if h : t = [] then 0
  else match get_col 7 t with
    | none => -1
    | some (s, l) =>
      match parseDec ((t.drop s).take l) 0 with
      | none => -1
      | some inum =>
        match get_col 8 t with
        | none => -1
        | some (s, l) =>
          if l = name.length ∧ (t.drop s).take l = name ∧ inum ∈ inodes then 1
          else rowLoop inodes name (nextLine (t.drop (s + l)))
termination_by t.length
decreasing_by exact nextLine_lt t _ h

/-- `has_socket_name`, lib/ux.c:243-300.  `table` is the content of /proc/net/unix, `none` if it could not be
read; `name` is `sockname` up to its terminator. -/
def has_socket_name (inodes : List Nat) (table : Option (List Byte)) (name : List Byte) : Int :=
  match table with
  | none => -1
  | some t => rowLoop inodes name (nextLine t)

/-- An entry of /proc/<pid>/fd: is it reported as a symbolic link, its name, and what it points to
(`none`: `readlink` fails). -/
structure DirEnt where
  lnk : Bool := true
  name : List Byte := [48]
  target : Option (List Byte)

/-- "socket:[" -/
def sockPrefix : List Byte := [115, 111, 99, 107, 101, 116, 58, 91]

/-- Length of "/proc/%u/fd/%s", lib/ux.c:84; `pidLen` is the number of digits of the pid. -/
def fdPathLen (pidLen nameLen : Nat) : Nat := 6 + pidLen + 4 + nameLen

/-- The loop of `get_socket_inodes`, lib/ux.c:80-118: the inodes found, `none` for the error return. -/
def inodeLoop (pidLen max : Nat) : List DirEnt → List Nat → Option (List Nat)
  | [], acc => some acc
  | d :: ds, acc =>
    if d.lnk = false then inodeLoop pidLen max ds acc
    else if fdPathLen pidLen d.name.length ≥ 100 then none
    else match d.target with
      | none => none
      | some target =>
        let t := target.take 100                          -- what `readlink` stores
        if t.length = 100 then inodeLoop pidLen max ds acc
        else if t.length < 8 then inodeLoop pidLen max ds acc
        else if t.take 8 ≠ sockPrefix then inodeLoop pidLen max ds acc
        else match parseDec ((t.drop 8).takeWhile (· ≠ 93)) 0 with
          | none => none
          | some i => if acc.length = max then none else inodeLoop pidLen max ds (acc ++ [i])

/-- lib/ux.c:27. -/
def MAX_INODES : Nat := 1000

/-- `get_socket_inodes`, lib/ux.c:58-125; `dir` is `none` if `opendir` fails.  (On the error exits inside
the loop the C code does not close the directory.) -/
def get_socket_inodes (pidLen : Nat) (dir : Option (List DirEnt)) : Option (List Nat) :=
  match dir with
  | none => none
  | some ds => inodeLoop pidLen MAX_INODES ds []

/-- What /proc says about a process: does `kill(pid, 0)` fail with ESRCH, and /proc/<pid>/fd. -/
structure ProcPid where
  gone : Bool := false
  pidLen : Nat := 5
  dir : Option (List DirEnt)

/-- `has_pid_socket`, lib/ux.c:28-41. -/
def uxHasPidSocket (p : ProcPid) (table : Option (List Byte)) (name : List Byte) : Int :=
  if p.gone then 0
  else match get_socket_inodes p.pidLen p.dir with
    | none => -1
    | some inodes => has_socket_name inodes table name

/-! ## slurp_special -/

/-- Outcome of `slurp_special`: the buffer, NULL, or it is still waiting for more data. -/
inductive Slurp where
  | done (buf : List Byte) | null | more
  deriving DecidableEq, Repr

/-- The two loops of `slurp_special`, lib/ux.c:146-178.  `file` is what is left to read, `sz` the size of the
buffer, `buf` the bytes in it (`br` of them).  The list says what the calls of `read` do: fail, or return some
number of bytes, which is at least one and at most the `sz - br` asked for and the bytes left, or zero at the
end of the file.  `memOk`: does `realloc` to this size succeed?  (Simplification: `sz *= 2` does not wrap.) -/
def slurpLoop (memOk : Nat → Bool) : List (Option Nat) → List Byte → Nat → List Byte → Slurp
  | [], _, _, _ => .more
  | none :: _, _, _, _ => .null
  | some k :: rs, file, sz, buf =>
    let l := sz - buf.length
    let nr := min (min (k + 1) l) file.length
    let buf' := buf ++ file.take nr
    if l - nr = 0 then
      if memOk (2 * sz) then slurpLoop memOk rs (file.drop nr) (2 * sz) buf' else .null
    else if nr = 0 then .done buf'
    else slurpLoop memOk rs (file.drop nr) sz buf'

/-- `slurp_special`, lib/ux.c:131-187. -/
def slurp_special (openOk : Bool) (memOk : Nat → Bool) (file : List Byte) (reads : List (Option Nat)) : Slurp :=
  if openOk = false then .null
  else if memOk 10000 = false then .null
  else slurpLoop memOk reads file 10000 []

end Shr
