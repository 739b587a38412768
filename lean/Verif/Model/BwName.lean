import Verif.Spec.Text
/-!
# Socket names, lib/bw.c:52-87

`Model/Bw.lean` treats the name of a socket as a number.  Here are the bytes: the 8 byte field `name` of a slot, and
the address the kernel sees.
-/
namespace Shr

/-- lib/bw.h:24. -/
def BW_NAMELEN : Nat := 8

/-- `struct sockaddr_un` with its length: `sun_path` (108 bytes) and `addrlen`. -/
structure SockAddr where
  path : List Byte
  len : Nat
  deriving DecidableEq, Repr

/-- `asc2sock`, lib/bw.c:62-68.  `name` is the 8 byte field.  `sizeof(sa_family_t)` is 2; `strlen(name+1)` of a field
without terminator would read past it (`none`). -/
def asc2sock (name : List Byte) : Option SockAddr :=
  let rest := (name.drop 1).take (BW_NAMELEN - 1)
  let path := (0 :: rest) ++ List.replicate (108 - 1 - rest.length) 0
  if (0 : Byte) ∈ rest then some ⟨path, 2 + 1 + (rest.takeWhile (· ≠ 0)).length⟩ else none

/-- `sock2asc`, lib/bw.c:80-87; `none` is the failed assertion.  (`len` is an `int`: an address without a name,
`addrlen` 2, would make it negative; the kernel does not return one for a bound socket.) -/
def sock2asc (a : SockAddr) : Option (List Byte) :=
  let len := a.len - 2 - 1
  if len + 2 ≤ BW_NAMELEN then
    some (64 :: ((a.path.drop 1).take len) ++ [0] ++ List.replicate (BW_NAMELEN - (len + 2)) 0)
  else none

/-- The address of a socket bound to the abstract name `n` (without the leading NUL), as `getsockname` fills it in. -/
def abstractAddr (n : List Byte) : SockAddr :=
  ⟨(0 :: n) ++ List.replicate (108 - 1 - n.length) 0, 2 + 1 + n.length⟩

end Shr
