import Verif.CSem
/-!
# Data structures: `struct msg`, `shr_ctrl`, `struct shr_stat`, `struct cache`, `struct shr`
-/
namespace Shr

/-- A flag word (`unsigned`, 32 bits). -/
abbrev Flags := BitVec 32

/-! src/shr.h:72-84 -/
def SHR_KEEPEXIST  : Flags := 1#32 <<< 0
def SHR_DROP       : Flags := 1#32 <<< 1
def SHR_APPDATA_1  : Flags := 1#32 <<< 2
def SHR_FARM       : Flags := 1#32 <<< 3
def SHR_MAXMSGS_2  : Flags := 1#32 <<< 4
def SHR_SYNC       : Flags := 1#32 <<< 5
def SHR_MLOCK      : Flags := 1#32 <<< 6
def SHR_OPEN_FENCE : Flags := 1#32 <<< 12
def SHR_RDONLY     : Flags := 1#32 <<< 13
def SHR_WRONLY     : Flags := 1#32 <<< 14
def SHR_NONBLOCK   : Flags := 1#32 <<< 15
def SHR_BUFFERED   : Flags := 1#32 <<< 16
def SHR_POLLFD     : Flags := 1#32 <<< 17
/-- src/shr.h:86 -/
def SHR_APPDATA    : Flags := SHR_APPDATA_1

/-- The C test `flags & bit` used as a condition. -/
def Flags.has (f b : Flags) : Bool := (f &&& b) != 0#32

/-- `struct msg`, src/shr.c:25-28: one slot of the message vector. -/
structure Slot where
  pos : Nat
  len : Nat
  deriving DecidableEq, Repr, Inhabited

/-- `struct timeval` (seconds, microseconds). -/
abbrev Timeval := Nat × Nat

/-- `struct shr_stat`, src/shr.h:26-54. -/
structure Stat where
  start : Timeval := (0, 0)
  bw : Nat := 0
  br : Nat := 0
  mw : Nat := 0
  mr : Nat := 0
  md : Nat := 0
  bd : Nat := 0
  bn : Nat := 0
  bu : Nat := 0
  mu : Nat := 0
  mm : Nat := 0
  cn : Nat := 0
  cm : Nat := 0
  cb : Nat := 0
  flags : Flags := 0#32
  deriving DecidableEq, Repr

/-- `shr_ctrl`, src/shr.c:36-55, together with the regions that follow it in the file
(data, padding, message vector, app data; src/internals.txt).  The regions are separate typed
arrays here: an access outside its own region is `ub` in the model even where the C code would hit a
neighbouring region.  The two `bw_handle`s embedded in the struct are modelled in `Model/Bw.lean`. -/
structure Ring where
  gflags : Flags
  n : Nat            -- allocd size
  i : Nat            -- offset for next write
  u : Nat            -- unread bytes
  m : Nat            -- unread messages
  mp : Nat           -- messages present
  r : Nat            -- slot for next read
  e : Nat            -- slot of eldest message
  q : Nat            -- sequence number of eldest
  stat : Stat
  mm : Nat           -- number of slots
  mv_len : Nat
  pad_len : Nat
  app_len : Nat
  d : List Byte      -- data region
  mv : List Slot     -- message vector
  app : List Byte    -- app data region
  deriving DecidableEq, Repr

/-- The two fields of `struct shr` that reads change (src/shr.c:73-74). -/
structure RCur where
  q : Nat            -- next unread seqno (farm)
  md : Nat           -- messages missed (farm)
  deriving DecidableEq, Repr

/-- `struct cache`, src/shr.c:57-64. `iov` (an array of `vt` entries) holds (offset into `buf`,
length); C keeps the address `buf + offset`. -/
structure Cache where
  buf : List Byte := []
  sz : Nat := 0
  n : Nat := 0
  iov : List (Nat × Nat) := []
  vt : Nat := 0
  vm : Nat := 0
  deriving DecidableEq, Repr

/-- `struct shr`, src/shr.c:68-84 (without descriptors and mapping addresses; the block/wake handles
are in `Model/Bw.lean`, here only whether `r2w` is open). -/
structure Handle where
  flags : Flags
  cur : RCur
  c : Cache
  n : Nat            -- copy of r->n
  mm : Nat           -- copy of r->mm
  hasR2w : Bool      -- s->r2w != NULL
  deriving DecidableEq, Repr

/-- Ways in which `bw_wait_ul` returns without having been woken, lib/bw.c:556-594. -/
inductive WaitErr where
  | error     -- -1: epoll_wait or reading the socket failed
  | pollfd    -- -3: a descriptor added with shr_ctl is ready
  deriving DecidableEq, Repr

/-- The return value, lib/bw.c:558,581. -/
def WaitErr.rc : WaitErr → Int
  | .error => -1
  | .pollfd => -3

/-- Outcomes of operating-system services inside one call, chosen by the environment: `lock` (fcntl),
`bw_wake`, `msync`, `bw_open`, `malloc`/`calloc`, `mlock`; `waitRc` tells
whether `bw_wait_ul` returned something other than 0; `none` means that the call is still waiting or
was woken and will attempt again. -/
structure Env where
  lockOk : Bool := true
  wakeOk : Bool := true
  syncOk : Bool := true
  bwOpenOk : Bool := true
  mallocOk : Bool := true
  mlockOk : Bool := true
  waitRc : Option WaitErr := none
  deriving DecidableEq, Repr

end Shr
