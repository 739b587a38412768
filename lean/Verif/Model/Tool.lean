import Verif.Spec.Text
/-!
# util/shr-tool.c: what the command line tool does with bytes

The calls into the library and the system calls are arguments (their results) and outputs (the bytes
handed over).  Messages are byte lists; `cfg.buf` is the list of the bytes in use.
-/
namespace Shr

/-- util/shr-tool.c:36-37, 42. -/
def BUFLEN : Nat := 1000000
def NUMIOV : Nat := 1024 * 1024
def MAX_FRAME : Nat := 1024 * 1024

/-! ## Subscriber -/

/-- `memcpy(&blen, c, sizeof(uint32_t))` on a little-endian machine. -/
def le32 : List Byte → Nat
  | b0 :: b1 :: b2 :: b3 :: _ => b0.toNat + 256 * b1.toNat + 65536 * b2.toNat + 16777216 * b3.toNat
  | _ => 0

/-- The loop of `decode_frames`, util/shr-tool.c:459-473.  `t` is what is left of the buffer from `c` on, `used` is
`iov_used`.  Result: `none` for an overlong frame, else the frames found and what is left from `c` on.  As in the C code,
`c` is not advanced past the frame that fills the last iov entry. -/
def decodeLoop (used : Nat) (t : List Byte) : Option (List Msg × List Byte) :=
  if _h : t.length < 4 then some ([], t)
  else
    let blen := le32 t
    if blen > MAX_FRAME then none
    else if 4 + blen > t.length then some ([], t)
    else
      let body := (t.drop 4).take blen
      if used + 1 = NUMIOV then some ([body], t)
      else (decodeLoop (used + 1) (t.drop (4 + blen))).map fun r => (body :: r.1, r.2)
termination_by t.length
decreasing_by simp only [List.length_drop]; omega

/-- What a step of the subscriber does: goes on, exits with an error, or dies of a failed assertion. -/
inductive SubRes where
  | run (buf : List Byte) (handed : List Msg)
  | exit (handed : List Msg)
  | abort
  deriving DecidableEq, Repr

/-- `decode_frames`, util/shr-tool.c:448-494, on the buffer `buf`.  `writev` is what `shr_writev` returns for a list of
frames.  The second argument of the result is the list given to `shr_writev` (empty if it is not called). -/
def decode_frames (writev : List Msg → Int) (buf : List Byte) : SubRes :=
  match decodeLoop 0 buf with
  | none => .exit []
  | some ([], _) => .run buf []
  | some (fs, rest) => if writev fs < 0 then .exit fs else .run rest fs

/-- `do_subscriber`, util/shr-tool.c:501-532.  `read` is given the space in the buffer and returns the bytes read
(`none`: error; no bytes: end of file). -/
def do_subscriber (writev : List Msg → Int) (read : Nat → Option (List Byte)) (buf : List Byte) : SubRes :=
  if ¬ (buf.length < BUFLEN) then .abort
  else match read (BUFLEN - buf.length) with
    | none => .exit []
    | some [] => .exit []
    | some chunk => decode_frames writev (buf ++ chunk)

/-- The main loop of a subscriber, util/shr-tool.c:1290-1300, on an incoming byte stream: `reads` says how many bytes each
`read` returns (at least one, at most the space in the buffer and the bytes that have not been read).
`handed` collects the lists given to `shr_writev`; `writev i` is what its call number `i` returns.  Result: the final status, what was handed over, and the unread rest
of the stream. -/
def subRun (writev : Nat → List Msg → Int) : List Nat → List Byte → List Byte → List (List Msg) → SubRes × List (List Msg) × List Byte
  | [], stream, buf, handed => (.run buf [], handed, stream)
  | k :: ks, stream, buf, handed =>
    if stream = [] then (.run buf [], handed, stream)
    else
      let n := min (k + 1) (BUFLEN - buf.length)
      match do_subscriber (writev handed.length) (fun avail => some (stream.take (min (k + 1) avail))) buf with
      | .run buf' fs => subRun writev ks (stream.drop n) buf' (if fs = [] then handed else handed ++ [fs])
      | .exit fs => (.exit fs, if fs = [] then handed else handed ++ [fs], stream.drop n)
      | .abort => (.abort, handed, stream)

/-! ## Publisher -/

/-- The four bytes of a `uint32_t` on a little-endian machine. -/
def put32 (n : Nat) : List Byte :=
  [(n % 256).toUInt8, (n / 256 % 256).toUInt8, (n / 65536 % 256).toUInt8, (n / 16777216 % 256).toUInt8]

/-- What a step of the publisher does: the bytes it wrote to the client, and whether it goes on with the client, dropped the
client, or died of a failed assertion. -/
inductive PubRes where
  | sent (bytes : List Byte)
  | dropped (bytes : List Byte)
  | abort (bytes : List Byte)
  | more (bytes : List Byte)
  deriving DecidableEq, Repr

/-- The loop that writes the frame body, util/shr-tool.c:728-739; `ws` are the results of `write`: an error, or how many of
the bytes it takes (at most `len`).  `out` is what is left from `out` on, `acc` what was written before.  `more`: it still waits for `write`. -/
def pubBody : List (Option Nat) → List Byte → List Byte → PubRes
  | [], _, acc => .more acc
  | none :: _, _, acc => .dropped acc
  | some k :: ws, out, acc =>
    let n := min k out.length
    if out.length - n > 0 then pubBody ws (out.drop n) (acc ++ out.take n) else .sent (acc ++ out.take n)

/-- `handle_io` in pub mode after `shr_read` returned the nonempty message `m`, util/shr-tool.c:704-740, with length
prefixes.  `pre` is the result of the first `write`.  (`m` is at most BUFLEN bytes, so that the test against UINT32_MAX is void.) -/
def pubFrame (pre : Option Nat) (ws : List (Option Nat)) (m : Msg) : PubRes :=
  match pre with
  | none => .dropped []
  | some k =>
    let n := min k 4
    if n ≠ 4 then .abort ((put32 m.length).take n) else pubBody ws m (put32 m.length)

/-! ## Reader -/

/-- What `shr-tool read` does with a message: written out, killed by an endless loop or still writing. -/
inductive ReadRes where
  | done (out : List Byte)
  | more (out : List Byte)
  deriving DecidableEq, Repr

/-- The loop `do … while (nr > 0)` of util/shr-tool.c:687-696.  `buf` is all of `cfg.buf` (the message is its beginning); `ws`
are the results of `write`.  As in the C code, `out` starts at `cfg.buf` in every iteration, and `nw` is unsigned, so that an
error (−1) is not noticed and `nr -= nw` adds one. -/
def printLoop (buf : List Byte) : List (Option Nat) → Nat → List Byte → ReadRes
  | [], _, acc => .more acc
  | none :: ws, nr, acc => printLoop buf ws (nr + 1) acc
  | some k :: ws, nr, acc =>
    let n := min k nr
    if nr - n > 0 then printLoop buf ws (nr - n) (acc ++ buf.take n) else .done (acc ++ buf.take n)

/-! ## Hexadecimal -/

/-- The hexadecimal digit characters. -/
def hexVal (c : Byte) : Option Nat :=
  if 48 ≤ c ∧ c ≤ 57 then some (c.toNat - 48)
  else if 97 ≤ c ∧ c ≤ 102 then some (c.toNat - 87)
  else if 65 ≤ c ∧ c ≤ 70 then some (c.toNat - 55)
  else none

/-- `isspace` in the C locale. -/
def isSpaceC (c : Byte) : Bool := c = 32 || (9 ≤ c && c ≤ 13)

/-- `sscanf(s, "%2x", &u)`: skip white space, then at most two characters of an optionally signed hexadecimal number (C11
7.21.6.2).  `none`: the conversion failed or the string ended.  `lax`: "0x" without a digit counts as 0 (glibc does this, against
the standard). -/
def scan2x (lax : Bool) (s : List Byte) : Option Nat :=
  match s.dropWhile isSpaceC with
  | [] => none
  | c :: t =>
    if c = 43 then t.head?.bind hexVal                                            -- '+', one digit
    else if c = 45 then (t.head?.bind hexVal).map fun d => (2 ^ 32 - d) % 2 ^ 32   -- '-', one digit, negated
    else match hexVal c with
      | none => none
      | some d =>
        match t with
        | [] => some d
        | c' :: _ =>
          if c = 48 ∧ (c' = 120 ∨ c' = 88) then (if lax then some 0 else none)    -- "0x"
          else match hexVal c' with
            | none => some d
            | some d' => some (16 * d + d')

/-- Result of `unhex`. -/
inductive UnhexRes where
  | ok (bytes : List Byte) | reject | abort
  deriving DecidableEq, Repr

/-- The loop of `unhex`, util/shr-tool.c:199-204, on the buffer `h` (the string without its terminator), at index `i`. The first argument
is the number of iterations left. -/
def unhexLoop (lax : Bool) : Nat → Nat → List Byte → UnhexRes
  | 0, i, h => .ok (h.take (i / 2))
  | n + 1, i, h =>
    match scan2x lax (h.drop i) with
    | none => .reject
    | some u => if u > 255 then .abort else unhexLoop lax n (i + 2) (h.set (i / 2) u.toUInt8)

/-- `unhex`, util/shr-tool.c:191-215; `h` has no NUL. -/
def unhex (lax : Bool) (h : List Byte) : UnhexRes :=
  if h.length = 0 then .reject
  else if h.length % 2 = 1 then .reject
  else unhexLoop lax (h.length / 2) 0 h

/-- A hexadecimal digit, lower case. -/
def hexDigit (n : Nat) : Byte := if n < 10 then (48 + n).toUInt8 else (87 + n).toUInt8

/-- `fprintf("%08x")` of a number below 2^32. -/
def hex8 (n : Nat) : List Byte := (List.range 8).map fun i => hexDigit (n / 16 ^ (7 - i) % 16)

/-- `fprintf("%.2x")` of a byte. -/
def hex2 (c : Byte) : List Byte := [hexDigit (c.toNat / 16), hexDigit (c.toNat % 16)]

/-- Columns of a line of `hexdump`, util/shr-tool.c:174-178: a byte, or (behind the end of the message) three spaces. -/
def hexCell : Option Byte → List Byte
  | some c => hex2 c ++ [32]
  | none => [32, 32, 32]

/-- The 16 hexadecimal columns of a line of `hexdump`, util/shr-tool.c:174-178. -/
def hexCols (buf : Msg) (n : Nat) : List Byte := (List.range 16).flatMap fun i => hexCell buf[n + i]?

/-- One of the characters at the end of a line of `hexdump`, util/shr-tool.c:180-182. -/
def ascCell : Option Byte → Byte
  | some c => if c < 32 ∨ c > 126 then 46 else c
  | none => 32

/-- The 16 characters at the end of a line of `hexdump`, util/shr-tool.c:179-183. -/
def ascCols (buf : Msg) (n : Nat) : List Byte := (List.range 16).map fun i => ascCell buf[n + i]?

/-- One line of `hexdump`, util/shr-tool.c:173-184: offset `n`, `buf` is the whole message. -/
def hexdumpLine (buf : Msg) (n : Nat) : List Byte :=
  hex8 n ++ [32] ++ hexCols buf n ++ ascCols buf n ++ [10]

/-- `hexdump`, util/shr-tool.c:169-187. -/
def hexdump (buf : Msg) : List Byte :=
  (List.range ((buf.length + 15) / 16)).flatMap fun k => hexdumpLine buf (16 * k)

/-! ## Options -/

/-- `sscanf(s, "%ld%c", &size, &unit)`: how many conversions succeeded (−1: the string ended first), the number and the character.
`strtol` saturates. -/
def scanSize (s : List Byte) : Int × Int × Option Byte :=
  match s.dropWhile isSpaceC with
  | [] => (-1, 0, none)
  | c :: t =>
    let neg : Bool := c = 45
    let t := if c = 45 ∨ c = 43 then t else c :: t
    let ds := t.takeWhile isDigit
    if ds = [] then (0, 0, none)
    else
      let v : Int := if neg then - (decimal ds : Int) else decimal ds
      let v := max (min v (2 ^ 63 - 1)) (- 2 ^ 63)
      match t.dropWhile isDigit with
      | [] => (1, v, none)
      | u :: _ => (2, v, some u)

/-- How many times the size is multiplied by 1024, util/shr-tool.c:983-989. -/
def unitPow (u : Byte) : Option Nat :=
  if u = 116 ∨ u = 84 then some 4
  else if u = 103 ∨ u = 71 then some 3
  else if u = 109 ∨ u = 77 then some 2
  else if u = 107 ∨ u = 75 then some 1
  else none

/-- `case 's'` of `main`, util/shr-tool.c:979-991: the new `cfg.size` (a `size_t`), `none` if usage() ends the program.  `old` is `cfg.size`
before. -/
def sizeOption (s : List Byte) (old : Nat) : Option Nat :=
  match scanSize s with
  | (sc, v, u) =>
    if sc = 0 then none
    else
      let sz := if sc ≥ 1 then (v % 2 ^ 64).toNat else old
      match u with
      | none => some sz
      | some u => (unitPow u).map fun k => k.repeat (fun x => wmul x 1024) sz

/-! ## write -/

/-- `fgets(line, 1000, stdin)`, util/shr-tool.c:1165: the bytes stored and the rest of the input; up to 999 bytes, ending with
a newline if there is one among them. -/
def fgets1000 (input : List Byte) : List Byte × List Byte :=
  let n := min 999 ((input.takeWhile (· ≠ 10)).length + 1)
  (input.take n, input.drop n)

/-- The argument of `shr_write` for the bytes stored by `fgets`, util/shr-tool.c:1166-1168: cut at the first NUL
(`strlen`), then a final newline removed. -/
def lineMsg (line : List Byte) : Msg :=
  let s := line.takeWhile (· ≠ 0)
  if s.getLast? = some 10 then s.dropLast else s

/-- The loop of `shr-tool write`, util/shr-tool.c:1165-1172: the messages given to `shr_write`, and whether all calls
succeeded.  `write i m` is what call number `i` of `shr_write` returns for the message `m`. -/
def writeLoop (write : Nat → Msg → Int) (i : Nat) (input : List Byte) : List Msg × Bool :=
  if _h : input = [] then ([], true)
  else
    let line := (fgets1000 input).1
    let rest := (fgets1000 input).2
    if write i (lineMsg line) < 0 then ([lineMsg line], false)
    else (lineMsg line :: (writeLoop write (i + 1) rest).1, (writeLoop write (i + 1) rest).2)
termination_by input.length
decreasing_by
  all_goals
    have : 0 < input.length := List.length_pos_iff.mpr _h
    simp only [fgets1000, List.length_drop]; omega

end Shr
