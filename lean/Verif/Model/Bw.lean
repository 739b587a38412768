import Verif.Model.Sys
/-!
# The block/wake library, lib/bw.c

A *waiter* registers in one of the `BW_WAITMAX` slots of a shared `bw_handle`: it binds a datagram
socket to a name chosen by the kernel and stores its pid and the name in the slot.  A *waker* keeps
one connected socket per slot and sends one datagram to each.  All functions except `bw_ready_ul`,
`bw_wait_ul` and `bw_ctl` run while the caller holds the lock on the handle, so each is one atomic
step here.

The kernel is a list of bound sockets.  What it may refuse to do is supplied by an oracle `Os`; the
functions `has_pid_socket`, `connect`, `sendmsg` below filter the oracle so that it can fail but
cannot lie.

Simplifications: names are numbers instead of 8 bytes (`Model/BwName.lean` has the bytes); `seqno` is
an unbounded integer (in C an `int`, so that everything here is about fewer than 2^31 registrations);
BW_TRACE output is left out; wake-mode and wait-mode `bw_t` are two types, which is why the mode
assertions of lib/bw.c do not appear here (`Model/Ring.lean` has the one that can fail).  The mode check of `bw_open`
(lib/bw.c:348-351, `^` on the two flag bits) would let both modes at once pass; src/shr.c and lib/bw-tool.c never ask for that.
A `drain_msgs` that fails takes nothing here; in C it may have taken some datagrams before the failing `recvmmsg`.
-/
namespace Shr

/-- lib/bw.h:25. -/
def BW_WAITMAX : Nat := 64

/-- A bound datagram socket: its identity, its abstract name, its owner and its queue length. -/
structure Sock where
  sid : Nat
  name : Nat
  pid : Nat
  q : Nat
  deriving DecidableEq, Repr

/-- The kernel's table of bound sockets; `next` is the next unused identity. -/
structure Kern where
  socks : List Sock := []
  next : Nat := 0
  deriving DecidableEq, Repr

namespace Kern
/-- The socket bound to a name. -/
def lookup (k : Kern) (name : Nat) : Option Nat := (k.socks.find? fun s => s.name == name).map Sock.sid
/-- Does process `pid` have a socket bound to `name`? -/
def held (k : Kern) (pid name : Nat) : Bool := k.socks.any fun s => s.name == name && s.pid == pid
/-- Is the socket still open? -/
def isOpen (k : Kern) (sid : Nat) : Bool := k.socks.any fun s => s.sid == sid
/-- Number of datagrams queued at a socket (0 if closed). -/
def pending (k : Kern) (sid : Nat) : Nat := ((k.socks.find? fun s => s.sid == sid).map Sock.q).getD 0
/-- Apply a function to the queue length of a socket. -/
def onQ (k : Kern) (sid : Nat) (f : Nat → Nat) : Kern :=
  { k with socks := k.socks.map fun s => if s.sid = sid then { s with q := f s.q } else s }
/-- Close a socket. -/
def close (k : Kern) (sid : Nat) : Kern := { k with socks := k.socks.filter fun s => s.sid != sid }
/-- All sockets of an exiting process are closed. -/
def exit (k : Kern) (pid : Nat) : Kern := { k with socks := k.socks.filter fun s => s.pid != pid }
end Kern

/-- Result of a non-blocking `sendmsg`: sent, EWOULDBLOCK/EAGAIN, any other error. -/
inductive SendRes where
  | sent | again | fail
  deriving DecidableEq, Repr

/-- What the operating system does during one bw call; functions are indexed by the slot number. -/
structure Os where
  /-- `has_pid_socket` can determine the answer (in `prune_handle`, in `open_socket`). -/
  pidKnown : Nat → Bool := fun _ => true
  pidKnown' : Nat → Bool := fun _ => true
  /-- `socket`, `connect` in `open_socket`. -/
  sockOk : Nat → Bool := fun _ => true
  connOk : Nat → Bool := fun _ => true
  /-- `sendmsg` in `wake_one`. -/
  send : Nat → SendRes := fun _ => .sent
  /-- `calloc` in `bw_open`. -/
  allocOk : Bool := true
  /-- `socket`, `bind`, `setsockopt`, `getsockname` in `make_socket`, and the name `bind` picks. -/
  bindOk : Bool := true
  bindName : Nat := 0
  /-- `socket`, `connect` in `connect_self`; `epoll_create`; `epoll_ctl`. -/
  selfOk : Bool := true
  epollOk : Bool := true
  /-- in `bw_force`: `ioctl`; `calloc` and `recvmmsg` in `drain_msgs`; `send`. -/
  ioctlOk : Bool := true
  drainOk : Bool := true
  selfSendOk : Bool := true
  /-- `recvmsg` in `bw_ready_ul` fails with an error other than EAGAIN. -/
  recvOk : Bool := true

/-- One slot of a `bw_handle`, lib/bw.h:28-31. -/
structure WSlot where
  pid : Nat := 0
  name : Nat := 0
  deriving DecidableEq, Repr

/-- `struct bw_handle`, lib/bw.h:26-32. -/
structure BwH where
  seqno : Int := 0
  wr : Nat → WSlot := fun _ => {}

/-- A wake-mode `bw_t`, lib/bw.c:26-30. -/
structure WakeT where
  seqno : Int := -1
  fd : Nat → Option Nat := fun _ => none
  name : Nat → Nat := fun _ => 0

/-- A wait-mode `bw_t`, lib/bw.c:32-38: its slot, the socket `listenfd`, and the socket `selffd` is
connected to. -/
structure WaitT where
  slotno : Nat
  sid : Nat
  selfTo : Nat
  deriving DecidableEq, Repr

/-- `has_pid_socket`, lib/ux.c:28-41: positive, zero or negative.  (Its parsing of /proc is modelled in
`Model/Ux.lean`; that it answers correctly or fails is C41.) -/
def has_pid_socket (k : Kern) (pid name : Nat) (known : Bool) : Int :=
  if known = false then -1 else if k.held pid name then 1 else 0

/-- `h->wr[n].pid = 0; h->seqno++`, the way slots are released. -/
def BwH.release (h : BwH) (n : Nat) : BwH :=
  { seqno := h.seqno + 1, wr := upd h.wr n { h.wr n with pid := 0 } }

/-- One iteration of `prune_handle`, lib/bw.c:101-107. -/
def pruneSlot (k : Kern) (os : Os) (h : BwH) (n : Nat) : BwH :=
  if (h.wr n).pid = 0 then h
  else if has_pid_socket k (h.wr n).pid (h.wr n).name (os.pidKnown n) = 0 then h.release n
  else h

/-- `prune_handle`, lib/bw.c:97-111. -/
def prune_handle (k : Kern) (os : Os) (h : BwH) : BwH := (List.range BW_WAITMAX).foldl (pruneSlot k os) h

/-- `connect` to an abstract name: the socket bound to it, if any. -/
def connect (k : Kern) (name : Nat) (ok : Bool) : Option Nat := if ok then k.lookup name else none

/-- `open_socket`, lib/bw.c:128-167; the Boolean is `rc == 0`. -/
def open_socket (k : Kern) (os : Os) (h : BwH) (w : WakeT) (n : Nat) : BwH × WakeT × Bool :=
  if os.sockOk n = false then (h, w, false)
  else match connect k (w.name n) (os.connOk n) with
    | some sid => (h, { w with fd := upd w.fd n (some sid) }, true)
    | none =>
      if has_pid_socket k (h.wr n).pid (w.name n) (os.pidKnown' n) = 0 then (h.release n, w, true)
      else (h, w, false)

/-- One iteration of the loop of `bw_sync`, lib/bw.c:185-197. -/
def syncSlot (k : Kern) (os : Os) (h : BwH) (w : WakeT) (n : Nat) : BwH × WakeT × Bool :=
  let w := if w.fd n ≠ none ∧ ((h.wr n).pid = 0 ∨ (h.wr n).name ≠ w.name n)
    then { w with fd := upd w.fd n none } else w
  if (h.wr n).pid ≠ 0 ∧ w.fd n = none then
    open_socket k os h { w with name := upd w.name n (h.wr n).name } n
  else (h, w, true)

/-- The loop of `bw_sync`, lib/bw.c:183-198: stops at the first failure. -/
def syncLoop (k : Kern) (os : Os) : List Nat → BwH → WakeT → BwH × WakeT × Bool
  | [], h, w => (h, w, true)
  | n :: ns, h, w =>
    match syncSlot k os h w n with
    | (h', w', true) => syncLoop k os ns h' w'
    | (h', w', false) => (h', w', false)

/-- `bw_sync`, lib/bw.c:173-205. -/
def bw_sync (k : Kern) (os : Os) (h : BwH) (w : WakeT) : BwH × WakeT × Bool :=
  if w.seqno = h.seqno then (h, w, true)
  else match syncLoop k os (List.range BW_WAITMAX) h w with
    | (h', w', true) => (h', { w' with seqno := h'.seqno }, true)
    | (h', w', false) => (h', w', false)

/-- `make_socket`, lib/bw.c:207-249: the kernel binds a name that is not in use; the name is stored in
slot `n`. -/
def make_socket (k : Kern) (os : Os) (pid : Nat) (h : BwH) (n : Nat) : Kern × BwH × Option Nat :=
  if os.bindOk = false then (k, h, none)
  else if (k.lookup os.bindName).isSome then (k, h, none)
  else ({ socks := k.socks ++ [⟨k.next, os.bindName, pid, 0⟩], next := k.next + 1 },
        { h with wr := upd h.wr n { h.wr n with name := os.bindName } }, some k.next)

/-- The first free slot, lib/bw.c:258-265. -/
def freeSlot (h : BwH) : Option Nat := (List.range BW_WAITMAX).find? fun n => (h.wr n).pid == 0

/-- `bw_reserve`, lib/bw.c:252-281: slot and listening socket. -/
def bw_reserve (k : Kern) (os : Os) (pid : Nat) (h : BwH) : Kern × BwH × Option (Nat × Nat) :=
  match freeSlot h with
  | none => (k, h, none)
  | some n =>
    match make_socket k os pid h n with
    | (k', h', none) => (k', h', none)
    | (k', h', some sid) =>
      (k', { seqno := h'.seqno + 1, wr := upd h'.wr n { h'.wr n with pid := pid } }, some (n, sid))

/-- `bw_open(BW_WAKE, h)`, lib/bw.c:340-433 with the wake branch 373-380.  (If `bw_sync` fails the
descriptors opened so far are not closed: they leak, but no process waits for them.) -/
def bw_open_wake (k : Kern) (os : Os) (h : BwH) : BwH × Option WakeT :=
  if os.allocOk = false then (h, none)
  else match bw_sync k os (prune_handle k os h) {} with
    | (h', w, true) => (h', some w)
    | (h', _, false) => (h', none)

/-- The error exit of `bw_open`, lib/bw.c:421-430, in wait mode after the slot was reserved: note that
`seqno` is not incremented. -/
def bwOpenUndo (k : Kern) (h : BwH) (n sid : Nat) : Kern × BwH × Option WaitT :=
  (k.close sid, { h with wr := upd h.wr n { h.wr n with pid := 0 } }, none)

/-- `bw_open(BW_WAIT, h, &fd)`, lib/bw.c:340-433 with the wait branch 382-417 and `connect_self`,
lib/bw.c:291-322. -/
def bw_open_wait (k : Kern) (os : Os) (pid : Nat) (h : BwH) : Kern × BwH × Option WaitT :=
  if os.allocOk = false then (k, h, none)
  else match bw_reserve k os pid (prune_handle k os h) with
    | (k', h', none) => (k', h', none)
    | (k', h', some (n, sid)) =>
      match connect k' (h'.wr n).name os.selfOk with
      | none => bwOpenUndo k' h' n sid
      | some to => if os.epollOk = false then bwOpenUndo k' h' n sid else (k', h', some ⟨n, sid, to⟩)

/-- `bw_close` of a wait-mode handle, lib/bw.c:454-473.  (Of a wake-mode handle it only closes
descriptors of the calling process, lib/bw.c:447-452.) -/
def bw_close_wait (k : Kern) (h : BwH) (w : WaitT) : Kern × BwH := (k.close w.sid, h.release w.slotno)

/-- `sendmsg` with MSG_DONTWAIT on a socket connected to `sid`: fails if the peer was closed; EAGAIN
only if the peer's queue is not empty. -/
def sendmsg (k : Kern) (sid : Nat) (o : SendRes) : Kern × SendRes :=
  if k.isOpen sid then
    match o with
    | .fail => (k, .fail)
    | .sent => (k.onQ sid (· + 1), .sent)
    | .again => if k.pending sid = 0 then (k.onQ sid (· + 1), .sent) else (k, .again)
  else (k, .fail)

/-- `wake_one`, lib/bw.c:601-619, and the test before its call, lib/bw.c:639. -/
def wakeSlot (os : Os) (x : Kern × BwH × WakeT) (n : Nat) : Kern × BwH × WakeT :=
  match x.2.2.fd n with
  | none => x
  | some sid =>
    match sendmsg x.1 sid (os.send n) with
    | (k, .fail) => (k, x.2.1.release n, { x.2.2 with fd := upd x.2.2.fd n none })
    | (k, _) => (k, x.2.1, x.2.2)

/-- `bw_wake`, lib/bw.c:632-647; the Boolean is `rc == 0`. -/
def bw_wake (k : Kern) (os : Os) (h : BwH) (w : WakeT) : Kern × BwH × WakeT × Bool :=
  match bw_sync k os h w with
  | (h', w', false) => (k, h', w', false)
  | (h', w', true) =>
    let x := (List.range BW_WAITMAX).foldl (wakeSlot os) (k, h', w')
    (x.1, x.2.1, x.2.2, true)

/-- `bw_force`, lib/bw.c:708-738, with `drain_msgs`, lib/bw.c:653-687; the Boolean is `rc == 0`. -/
def bw_force (k : Kern) (os : Os) (w : WaitT) (want : Bool) : Kern × Bool :=
  if os.ioctlOk = false then (k, false)
  else if want = false ∧ k.pending w.sid > 0 then
    if os.drainOk = false then (k, false) else (k.onQ w.sid (fun _ => 0), true)
  else if want = true ∧ k.pending w.sid = 0 then
    if os.selfSendOk = false then (k, false) else (k.onQ w.selfTo (· + 1), true)
  else (k, true)

/-- `bw_ready_ul`, lib/bw.c:510-534: consumes one datagram if there is one. -/
def bw_ready_ul (k : Kern) (os : Os) (w : WaitT) : Kern × Bool :=
  if os.recvOk = false then (k, false) else (k.onQ w.sid (· - 1), true)

/-! ## All users of block/wake handles -/

/-- An open `bw_t`: the shared handle it belongs to, its process, and the mode. -/
inductive BwT where
  | wake (hi pid : Nat) (w : WakeT)
  | wait (hi pid : Nat) (w : WaitT)

/-- The kernel, the shared handles and the `bw_t`s of all processes. -/
structure BSys where
  kern : Kern := {}
  hd : Nat → BwH := fun _ => {}
  ts : Nat → Option BwT := fun _ => none

/-- Library calls, and the death of a process.  The first argument of a call identifies the `bw_t`. -/
inductive BOp where
  | openWake (i hi pid : Nat) (os : Os)
  | openWait (i hi pid : Nat) (os : Os)
  | close (i : Nat)
  | wake (i : Nat) (os : Os)
  | force (i : Nat) (want : Bool) (os : Os)
  | ready (i : Nat) (os : Os)
  | exit (pid : Nat)

namespace BSys

def openWake (s : BSys) (i hi pid : Nat) (os : Os) : BSys × Bool :=
  match bw_open_wake s.kern os (s.hd hi) with
  | (h, some w) => (⟨s.kern, upd s.hd hi h, upd s.ts i (some (.wake hi pid w))⟩, true)
  | (h, none) => (⟨s.kern, upd s.hd hi h, s.ts⟩, false)

def openWait (s : BSys) (i hi pid : Nat) (os : Os) : BSys × Bool :=
  match bw_open_wait s.kern os pid (s.hd hi) with
  | (k, h, some w) => (⟨k, upd s.hd hi h, upd s.ts i (some (.wait hi pid w))⟩, true)
  | (k, h, none) => (⟨k, upd s.hd hi h, s.ts⟩, false)

/-- `bw_close` and `free`. -/
def close (s : BSys) (i : Nat) : BSys :=
  match s.ts i with
  | some (.wake _ _ _) => { s with ts := upd s.ts i none }
  | some (.wait hi _ w) =>
    ⟨(bw_close_wait s.kern (s.hd hi) w).1, upd s.hd hi (bw_close_wait s.kern (s.hd hi) w).2, upd s.ts i none⟩
  | none => s

def wake (s : BSys) (i : Nat) (os : Os) : BSys × Bool :=
  match s.ts i with
  | some (.wake hi pid w) =>
    match bw_wake s.kern os (s.hd hi) w with
    | (k, h, w', ok) => (⟨k, upd s.hd hi h, upd s.ts i (some (.wake hi pid w'))⟩, ok)
  | _ => (s, false)

def force (s : BSys) (i : Nat) (want : Bool) (os : Os) : BSys × Bool :=
  match s.ts i with
  | some (.wait _ _ w) => ({ s with kern := (bw_force s.kern os w want).1 }, (bw_force s.kern os w want).2)
  | _ => (s, false)

def ready (s : BSys) (i : Nat) (os : Os) : BSys × Bool :=
  match s.ts i with
  | some (.wait _ _ w) => ({ s with kern := (bw_ready_ul s.kern os w).1 }, (bw_ready_ul s.kern os w).2)
  | _ => (s, false)

/-- A process exits or is killed: its sockets and its `bw_t`s vanish, its slots stay. -/
def exit (s : BSys) (pid : Nat) : BSys :=
  { s with kern := s.kern.exit pid, ts := fun i =>
      match s.ts i with
      | some (.wake hi p w) => if p = pid then none else some (.wake hi p w)
      | some (.wait hi p w) => if p = pid then none else some (.wait hi p w)
      | none => none }

/-- One step.  The client opens only with an unused identifier (and has a nonzero pid). -/
def step (s : BSys) : BOp → BSys × Bool
  | .openWake i hi pid os => if (s.ts i).isSome ∨ pid = 0 then (s, false) else s.openWake i hi pid os
  | .openWait i hi pid os => if (s.ts i).isSome ∨ pid = 0 then (s, false) else s.openWait i hi pid os
  | .close i => (s.close i, true)
  | .wake i os => s.wake i os
  | .force i want os => s.force i want os
  | .ready i os => s.ready i os
  | .exit pid => (s.exit pid, true)

/-- A sequence of steps. -/
def runs (s : BSys) : List BOp → BSys
  | [] => s
  | op :: ops => (s.step op).1.runs ops

/-- Datagrams pending at a waiter. -/
def pending (s : BSys) (i : Nat) : Nat :=
  match s.ts i with
  | some (.wait _ _ w) => s.kern.pending w.sid
  | _ => 0

/-- The two events against which lib/bw.c is not protected do not happen in this step: the kernel gives
a new socket a name to which some waker still has an open connection (to an earlier socket of that
name), or `sendmsg` to an open socket fails for another reason than a full queue. -/
def Clean (s : BSys) : BOp → Prop
  | .openWait _ _ _ os => ∀ j hi pid w n, n < BW_WAITMAX → s.ts j = some (.wake hi pid w) → w.fd n ≠ none → w.name n ≠ os.bindName
  | .wake _ os => ∀ n, os.send n ≠ .fail
  | _ => True

/-- States reachable by clean steps. -/
inductive Reach : BSys → Prop
  | init : Reach {}
  | step {s : BSys} (op : BOp) : Reach s → s.Clean op → Reach (s.step op).1

end BSys

end Shr
