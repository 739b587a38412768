import Verif.CSem
/-!
# Text, as the specifications of the /proc parsers and of shr-tool see it

Nothing here is taken from the C code.  `List.splitOn` is the standard library's.
-/
namespace Shr

/-- The space, newline and zero digit characters. -/
abbrev cSP : Byte := 32
abbrev cNL : Byte := 10

/-- The columns of a line: its maximal runs of non-space characters. -/
def columns (line : List Byte) : List (List Byte) := (line.splitOn cSP).filter (· ≠ [])

/-- The first line of a text, without its newline. -/
def firstLine (t : List Byte) : List Byte := t.takeWhile (· ≠ cNL)

/-- The lines of a text: a newline ends a line, so a final newline does not begin another one. -/
def textLines (t : List Byte) : List (List Byte) :=
  if (t.splitOn cNL).getLast? = some [] then (t.splitOn cNL).dropLast else t.splitOn cNL

/-- Is it an ASCII decimal digit? -/
def isDigit (c : Byte) : Bool := 48 ≤ c && c ≤ 57

/-- The number a string of decimal digits denotes. -/
def decimal (ds : List Byte) : Nat := ds.foldl (fun a c => 10 * a + (c.toNat - 48)) 0

/-- `w` is column number `k` (counted from 1) of `line`, at offset `s`. -/
def IsColumn (line : List Byte) (k s : Nat) (w : List Byte) : Prop :=
  ∃ pre post, line = pre ++ w ++ post ∧ s = pre.length ∧ w ≠ [] ∧ cSP ∉ w ∧
    (pre = [] ∨ pre.getLast? = some cSP) ∧ (post = [] ∨ post.head? = some cSP) ∧
    (columns pre).length + 1 = k

end Shr

namespace Shr

/-! ## /proc -/

/-- A row of /proc/net/unix shows a socket with this inode and name: columns 7 and 8. -/
def RowShows (row : List Byte) (ino : Nat) (name : List Byte) : Prop :=
  ∃ d, (columns row)[6]? = some d ∧ (∀ c ∈ d, isDigit c = true) ∧ decimal d = ino ∧ (columns row)[7]? = some name

/-- A row for a socket that has no name: there is no column 8. -/
def RowShowsNameless (row : List Byte) (ino : Nat) : Prop :=
  ∃ d, (columns row)[6]? = some d ∧ (∀ c ∈ d, isDigit c = true) ∧ decimal d = ino ∧ (columns row)[7]? = none

/-- The rows of the table: the header line is not one. -/
def tableRows (t : List Byte) : List (List Byte) := (textLines t).tail

end Shr

namespace Shr

/-- The text of a C string literal (ASCII). -/
def asc (s : String) : List Byte := s.toList.map fun c => c.toNat.toUInt8

/-- The target of a link in /proc/<pid>/fd that stands for a socket: "socket:[" inode "]". -/
def SockLink (target : List Byte) (ino : Nat) : Prop :=
  ∃ d, target = asc "socket:[" ++ d ++ asc "]" ∧ (∀ c ∈ d, isDigit c = true) ∧ decimal d = ino

end Shr

namespace Shr

/-! ## The pub/sub stream -/

/-- A frame: the length of the message as four bytes, least significant first, then the message. -/
def frameOf (m : Msg) : List Byte := ((List.range 4).map fun i => (m.length / 256 ^ i % 256).toUInt8) ++ m

/-- The stream for a sequence of messages. -/
def framesOf (ms : List Msg) : List Byte := ms.flatMap frameOf

end Shr

namespace Shr

/-! ## Hexadecimal -/

/-- `c` is the hexadecimal digit (of either case) for `n`. -/
def IsHexDigit (c : Byte) (n : Nat) : Prop :=
  (asc "0123456789abcdef")[n]? = some c ∨ (asc "0123456789ABCDEF")[n]? = some c

instance (c : Byte) (n : Nat) : Decidable (IsHexDigit c n) := inferInstanceAs (Decidable (_ ∨ _))

/-- `s` is `bs` written in hexadecimal: two digits a byte, the high one first. -/
inductive HexText : List Byte → List Byte → Prop
  | nil : HexText [] []
  | cons {c d : Byte} {b : Byte} {s bs : List Byte} : IsHexDigit c (b.toNat / 16) → IsHexDigit d (b.toNat % 16) →
      HexText s bs → HexText (c :: d :: s) (b :: bs)

/-- The number that a string of hexadecimal digits stands for, the most significant digit first. -/
inductive HexNumber : List Byte → Nat → Prop
  | nil : HexNumber [] 0
  | snoc {s : List Byte} {c : Byte} {n d : Nat} : HexNumber s n → IsHexDigit c d → HexNumber (s ++ [c]) (16 * n + d)

end Shr
