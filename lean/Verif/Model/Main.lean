import Verif.Model.Tool
import Verif.Model.Sys
/-!
# util/shr-tool.c: `main`

The command line as `getopt` splits it (options with their arguments), what the commands do with the library's results, the
publisher's event loop and the printing loop.  System calls and library calls are arguments (their results).  `getopt` itself is in `Model/Exit.lean`;
the printing of error messages, and `mount`/`umount`/`mkdir` are not modelled.
-/
namespace Shr

/-! ## Numbers -/

/-- `strtol(s, NULL, 10)` as in glibc on LP64: white space, a sign, digits; saturating; 0 if there are no digits. -/
def strtol10 (s : List Byte) : Int :=
  match s.dropWhile isSpaceC with
  | [] => 0
  | c :: t =>
    let ds := (if c = 45 ∨ c = 43 then t else c :: t).takeWhile isDigit
    let v : Int := if c = 45 then - (decimal ds : Int) else decimal ds
    max (min v (2 ^ 63 - 1)) (- 2 ^ 63)

/-- Conversion of a `long` to `int`, as gcc does it: modulo 2^32. -/
def toInt32 (v : Int) : Int := (v + 2 ^ 31) % 2 ^ 32 - 2 ^ 31

/-- `atoi`: glibc's is `(int) strtol(s, NULL, 10)`. -/
def atoi (s : List Byte) : Int := toInt32 (strtol10 s)

/-- `printf("%zu")`, and `printf("%ld")` of a number below 2^63. -/
def decText (n : Nat) : List Byte :=
  if h : n < 10 then [(48 + n).toUInt8] else decText (n / 10) ++ [(48 + n % 10).toUInt8]
termination_by n
decreasing_by omega

/-- `printf("%ld", x)` of a `size_t` on LP64: numbers from 2^63 on come out negative. -/
def ldText (n : Nat) : List Byte := if n < 2 ^ 63 then decText n else 45 :: decText (2 ^ 64 - n)

/-! ## Options -/

/-- `cfg.mount_mode`, util/shr-tool.c:77-80. -/
inductive MountMode where
  | mount | makeSubdirs | unmount | query
  deriving DecidableEq, Repr

/-- The part of `cfg` that options set, util/shr-tool.c:44-106, with its initial values. -/
structure Cfg where
  verbose : Nat := 0
  block : Bool := false
  lenPrefix : Bool := true
  fsType : List Byte := asc "ramfs"
  mountMode : MountMode := .mount
  nrHuge : Int := 0
  flags : Flags := 0#32
  maxMsgs : Nat := 0
  size : Nat := 0
  wfile : Option (List Byte) := none
  deriving DecidableEq, Repr

/-- The loop for the argument of -m, util/shr-tool.c:992-1005; `none`: usage() ends the program. -/
def modeOption : List Byte → Flags → Option Flags
  | [], f => some f
  | c :: s, f =>
    if c = 100 then modeOption s (f ||| SHR_DROP)
    else if c = 107 then modeOption s (f ||| SHR_KEEPEXIST)
    else if c = 102 then modeOption s (f ||| SHR_FARM)
    else if c = 115 then modeOption s (f ||| SHR_SYNC)
    else if c = 108 then modeOption s (f ||| SHR_MLOCK)
    else none

/-- `cfg.max_msgs = atoi(optarg)`: an `int` stored in a `size_t`. -/
def intToSize (v : Int) : Nat := (v % 2 ^ 64).toNat

/-- One iteration of the option loop, util/shr-tool.c:965-1007, for the option character `o` with argument `arg` (the empty
string if the option takes none).  `none`: usage().  As in the C code, -H runs into -N. -/
def optStep (c : Cfg) (o : Byte) (arg : List Byte) : Option Cfg :=
  if o = 118 then some { c with verbose := c.verbose + 1 }            -- v
  else if o = 98 then some { c with block := true }                    -- b
  else if o = 80 then some { c with lenPrefix := false }               -- P
  else if o = 116 then some { c with fsType := arg }                   -- t
  else if o = 100 then some { c with mountMode := .makeSubdirs }       -- d
  else if o = 117 then some { c with mountMode := .unmount }           -- u
  else if o = 113 then some { c with mountMode := .query }             -- q
  else if o = 72 then                                                    -- H, falls through
    some { c with nrHuge := atoi arg, flags := c.flags ||| SHR_MAXMSGS_2, maxMsgs := intToSize (atoi arg) }
  else if o = 78 then                                                    -- N
    some { c with flags := c.flags ||| SHR_MAXMSGS_2, maxMsgs := intToSize (atoi arg) }
  else if o = 115 then (sizeOption arg c.size).map fun sz => { c with size := sz }      -- s
  else if o = 109 then (modeOption arg c.flags).map fun f => { c with flags := f }      -- m
  else if o = 65 then some { c with wfile := some arg }                -- A
  else none

/-- The option loop of `main`, util/shr-tool.c:965-1008. -/
def parseOpts : List (Byte × List Byte) → Cfg → Option Cfg
  | [], c => some c
  | (o, arg) :: rest, c => (optStep c o arg).bind (parseOpts rest)

/-! ## create -/

/-- `map`, util/shr-tool.c:404-441: the content of a file, `none` if it cannot be opened or mapped or is empty. -/
def mapFile (content : Option (List Byte)) : Option (List Byte) :=
  match content with
  | some (b :: bs) => some (b :: bs)
  | _ => none

/-- What `create` does: shows the usage text, stops because the file given with -A cannot be mapped, or calls `shr_init` with these
arguments for every ring named. -/
inductive CreateRes where
  | usage | nofile | inits (a : InitArgs)
  deriving DecidableEq, Repr

/-- `case mode_create` of `main`, util/shr-tool.c:1078-1096; `file` is the content of the file given with -A, if it can be read. -/
def createCmd (c : Cfg) (file : Option (List Byte)) : CreateRes :=
  if c.size = 0 then .usage
  else match c.wfile with
    | some _ =>
      match mapFile file with
      | none => .nofile
      | some b => .inits { dataSz := c.size, flags := c.flags ||| SHR_APPDATA, app := b, maxMsgs := c.maxMsgs }
    | none => .inits { dataSz := c.size, flags := c.flags, maxMsgs := c.maxMsgs }

/-! ## status -/

/-- The words after " attributes " that `status` prints, util/shr-tool.c:1117-1124. -/
def attrWords (f : Flags) : List Byte :=
  (if f = 0#32 then asc "none" else []) ++
  (if f.has SHR_DROP then asc "drop " else []) ++
  (if f.has SHR_APPDATA then asc "appdata " else []) ++
  (if f.has SHR_FARM then asc "farm " else []) ++
  (if f.has SHR_MLOCK then asc "mlock " else []) ++
  (if f.has SHR_SYNC then asc "sync " else [])

/-- What `status` prints, util/shr-tool.c:1098-1128 (without -v), for what `shr_stat` reported and what `shr_appdata`, called with
`*sz` = 0, left in `*sz`. -/
def statusText (st : Stat) (appLen : Nat) : List Byte :=
  asc " bytes-written " ++ ldText st.bw ++ [10] ++
  asc " bytes-read " ++ ldText st.br ++ [10] ++
  asc " bytes-dropped " ++ ldText st.bd ++ [10] ++
  asc " messages-written " ++ ldText st.mw ++ [10] ++
  asc " messages-read " ++ ldText st.mr ++ [10] ++
  asc " messages-dropped " ++ ldText st.md ++ [10] ++
  asc " ring-size " ++ ldText st.bn ++ [10] ++
  asc " bytes-ready " ++ ldText st.bu ++ [10] ++
  asc " max-messages " ++ ldText st.mm ++ [10] ++
  asc " messages-ready " ++ ldText st.mu ++ [10] ++
  asc " attributes " ++ attrWords st.flags ++ [10] ++
  asc " app-data " ++ decText appLen ++ [10]

/-! ## read, readhex -/

/-- What is done with one message: `read` or `readhex`. -/
inductive ToolOut where
  | raw (m : Msg) | hex (m : Msg)
  deriving DecidableEq, Repr

/-- How `read` goes on after one call of `handle_io`. -/
inductive ReadSt where
  | run (nread : Nat) | done
  deriving DecidableEq, Repr

/-- `handle_io` in the modes read and readhex, util/shr-tool.c:655-701.  `r` is what `shr_read` returns: a negative number, or the
bytes in the buffer.  Printing is as in `printLoop` and `hexdump`; here a message printed is one output. -/
def readStep (hex block : Bool) (maxMsgs nread : Nat) (r : Except Int Msg) : List ToolOut × ReadSt :=
  match r with
  | .error _ => ([], .done)
  | .ok m =>
    if m = [] ∧ block then ([], .run nread)
    else if m = [] then ([], .done)
    else (if hex then [.hex m] else [.raw m],
      if maxMsgs > 0 ∧ nread + 1 ≥ maxMsgs then .done else .run (nread + 1))

/-- The main loop in the modes read and readhex: `rs` are the results of the successive calls of `shr_read`.  Result: what is
printed. -/
def readRun (hex block : Bool) (maxMsgs : Nat) : Nat → List (Except Int Msg) → List ToolOut
  | _, [] => []
  | nread, r :: rs =>
    match readStep hex block maxMsgs nread r with
    | (o, .done) => o
    | (o, .run n) => o ++ readRun hex block maxMsgs n rs

/-! ## pub -/

/-- The publisher between two events: the connected client (connections are numbered in the order in which `accept` returns
them), whether the ring's descriptor is polled, how many connections were accepted, and the bytes written to each. -/
structure Pub where
  client : Option Nat := none
  polled : Bool := false
  next : Nat := 0
  stream : Nat → List Byte := fun _ => []

/-- What `epoll_wait` reports to a publisher, and the results of the system calls that follow.  `modOk`: `epoll_ctl` (in
`mod_epoll`) succeeds. -/
inductive PubEv where
  /-- The listening socket is readable; does `accept` succeed? -/
  | accept (ok modOk : Bool)
  /-- The ring's descriptor is readable; the result of `shr_read` and of the calls of `write`. -/
  | ring (r : Except Int Msg) (pre : Option Nat) (ws : List (Option Nat)) (modOk : Bool)
  /-- The client's socket is readable; `recv` fails, or returns this many bytes (0: end of file). -/
  | client (nr : Option Nat) (modOk : Bool)
  /-- A signal; is it SIGALRM? -/
  | signal (alarm : Bool)

/-- How an event ends: the loop goes on, the program exits, a failed assertion, or it hangs in `write`. -/
inductive PubEnd where
  | run | exit | abort | hang
  deriving DecidableEq, Repr

/-- Can `epoll_wait` report the event?  The ring's descriptor is polled with EPOLLIN or with no events (a datagram socket raises
neither EPOLLERR nor EPOLLHUP). -/
def Pub.enabled (p : Pub) : PubEv → Prop
  | .accept _ _ => True
  | .ring _ _ _ _ => p.polled = true
  | .client _ _ => p.client ≠ none
  | .signal _ => True

/-- `close_client`, util/shr-tool.c:534-549; it returns -1 if `modOk` is false. -/
def Pub.close (p : Pub) (modOk : Bool) : Pub := { p with client := none, polled := if modOk then false else p.polled }

/-- Writing the message `m` to connection `c`, util/shr-tool.c:709-739, with or without length prefix. -/
def pubWrite (lenPrefix : Bool) (pre : Option Nat) (ws : List (Option Nat)) (m : Msg) : PubRes :=
  if lenPrefix then pubFrame pre ws m else pubBody ws m []

/-- One event in pub mode: `accept_client`, util/shr-tool.c:587-620, `handle_io`, 655-672 and 703-740, `handle_client`, 556-579,
`handle_signal`, 622-648.  The list: the message taken from the ring, and the connection to which it is written.  (-b is not
given: with -b an empty read goes on before the assertion on the client.) -/
def pubStep (lenPrefix : Bool) (p : Pub) : PubEv → Pub × PubEnd × List (Nat × Msg)
  | .accept ok modOk =>
    if ok = false then (p, .exit, [])
    else if p.client ≠ none then ({ p with next := p.next + 1 }, .run, [])
    else if modOk then ({ p with client := some p.next, next := p.next + 1, polled := true }, .run, [])
    else ({ p with client := some p.next, next := p.next + 1 }, .exit, [])
  | .ring r pre ws modOk =>
    match r with
    | .error _ => (p, .exit, [])
    | .ok m =>
      match p.client with
      | none => (p, .abort, [])
      | some c =>
        if m = [] then (p, .run, [])
        else
          let add (b : List Byte) : Pub := { p with stream := fun i => if i = c then p.stream i ++ b else p.stream i }
          match pubWrite lenPrefix pre ws m with
          | .sent b => (add b, .run, [(c, m)])
          | .dropped b => ((add b).close modOk, if modOk then .run else .exit, [(c, m)])
          | .abort b => (add b, .abort, [(c, m)])
          | .more b => (add b, .hang, [(c, m)])
  | .client nr modOk =>
    match nr with
    | none => (p.close modOk, .exit, [])
    | some 0 => (p.close modOk, .run, [])
    | some _ => (p, .run, [])
  | .signal alarm => (p, if alarm then .run else .exit, [])

/-- A publisher so far: its state, whether it still runs, and the messages it has taken from the ring, in order, each with the connection
to which it was written. -/
structure PubRun where
  p : Pub
  ending : PubEnd := .run
  taken : List (Nat × Msg) := []

/-! ## Addresses -/

/-- `parse_spec`, util/shr-tool.c:263-301: port and address.  `resolve` is `gethostbyname` (`none`: it fails or
has no address).  -/
def parse_spec (resolve : List Byte → Option (List Byte)) (spec : List Byte) : Option (Nat × List Byte) :=
  let host := if 58 ∈ spec then some (spec.takeWhile (· ≠ 58)) else none
  let p := if 58 ∈ spec then (spec.dropWhile (· ≠ 58)).drop 1 else spec
  let go (addr : List Byte) : Option (Nat × List Byte) :=
    let port := atoi p
    if port ≤ 0 ∨ port > 65535 then none else some (port.toNat, addr)
  match host with
  | none => go [0, 0, 0, 0]
  | some h =>
    match resolve h with
    | none => none
    | some a => go a

/-! ## Fixed-size buffers -/

/-- `PATH_MAX` -/
def PATH_MAX : Nat := 4096

/-- Storing `bs` at offset `off` of a buffer; `none`: outside of the buffer. -/
def bufPut (buf : List Byte) (off : Nat) (bs : List Byte) : Option (List Byte) :=
  if off + bs.length ≤ buf.length then some (buf.take off ++ bs ++ buf.drop (off + bs.length)) else none

/-- Outcome of a function that stores into a fixed-size buffer. -/
inductive BufRes where
  | fail | ok (buf : List Byte) | overrun
  deriving DecidableEq, Repr

/-- The path computation of `try_delegate`, util/shr-tool.c:859-894: `buf` is `path`, `link` the target of
/proc/self/exe (`none`: `readlink` fails), of which `readlink` stores at most `sizeof(path)` bytes. -/
def delegatePath (buf : List Byte) (link : Option (List Byte)) (subcmd : List Byte) : BufRes :=
  match link with
  | none => .fail
  | some l =>
    match bufPut buf 0 (l.take buf.length) with
    | none => .overrun
    | some b1 =>
      let nr := min l.length buf.length
      if nr = buf.length ∨ nr = 0 then .fail
      else if nr + 1 + subcmd.length + 1 > buf.length then .fail
      else
        match bufPut b1 nr [45] with
        | none => .overrun
        | some b2 =>
          match bufPut b2 (nr + 1) subcmd with
          | none => .overrun
          | some b3 =>
            match bufPut b3 (nr + 1 + subcmd.length) [0] with
            | none => .overrun
            | some b4 => .ok b4

/-- The path of the parent directory in `suitable_mountpoint`, util/shr-tool.c:318-343: `buf` is `cfg.parent`. -/
def parentPath (buf : List Byte) (dir : List Byte) : BufRes :=
  if dir.length + 4 > PATH_MAX then .fail
  else
    match bufPut buf 0 (dir ++ [0]) with
    | none => .overrun
    | some b1 =>
      match bufPut b1 dir.length (asc "/.." ++ [0]) with
      | none => .overrun
      | some b2 => .ok b2

/-- A C string in a buffer: the bytes up to the first NUL. -/
def cstr (buf : List Byte) : List Byte := buf.takeWhile (· ≠ 0)

end Shr
