import Verif.Model.Wake
/-!
# The program lib/bw-tool.c

The test program of the block/wake library: `make` creates a file with an empty `bw_handle`, `wake` opens it, pauses and calls
`bw_wake`, `wait` opens it and waits once.  One run is written as a function of what the system answers and of what other processes
do meanwhile; its result is the sequence of all block/wake calls (its own and those of the others) made during the run, and the exit
status.  When the process ends the kernel closes its sockets: `BOp.exit`.

Simplifications: the calls the program makes with the lock held are not atomic here: the others may do anything between any two of its
calls (this allows more than the lock does); messages on standard error, `-v` and the lengths of the pauses are left out; a signal
is a Boolean: it waits at the signalfd from the moment it comes (all signals are blocked).  Both select calls also look at
the epoll set which contains the listening socket and the signalfd.  `map` does not compare the size of the file with that of a `bw_handle`;
here the file has one.
-/
namespace Shr

/-- The command, lib/bw-tool.c:204-264.  Any other word does nothing and the program exits with status 0. -/
inductive BtWord where
  | make | wake | wait | other
  deriving DecidableEq, Repr

/-- Options and identity: the identifier of the `bw_t`, the handle in the file, the process. -/
structure BtCfg where
  i : Nat
  hi : Nat
  pid : Nat
  /-- `-w`, `-f`, `-c` -/
  useApi : Bool := false
  forceReady : Bool := false
  forceClear : Bool := false

/-- Why the wait ended: error of select or epoll_wait, the signalfd, the socket. -/
inductive BtLook where
  | fail | signal | wakeup
  deriving DecidableEq, Repr

/-- What the system does during a run. -/
structure BtEnv where
  sigFdOk : Bool := true
  mapOk : Bool := true
  lockOk : Nat → Bool := fun _ => true
  unlockOk : Nat → Bool := fun _ => true
  ctlOk : Bool := true
  /-- what the system answers in each block/wake call -/
  os : Nat → Os := fun _ => {}
  /-- what the other processes do between the calls -/
  others : Nat → List BOp := fun _ => []
  /-- the blocking select or epoll_wait -/
  look : BtLook := .wakeup
  /-- a signal has come when it returns -/
  sig1 : Bool := false
  /-- the select without blocking does not fail -/
  look2Ok : Bool := true
  /-- a signal has come when it looks at the signalfd -/
  sig2 : Bool := false

/-- The status of a process whose `main` returns -1. -/
def BT_ERR : Nat := 255

/-- `wake`, lib/bw-tool.c:217-229.  `bw_close` of the waker is `BOp.close`. -/
def btWake (c : BtCfg) (e : BtEnv) (s : BSys) : List BOp × Nat :=
  let t1 := e.others 0 ++ [.openWake c.i c.hi c.pid (e.os 0)]
  let t2 := t1 ++ e.others 1
  let t3 := t2 ++ [.wake c.i (e.os 1)]
  if e.mapOk = false ∨ e.lockOk 0 = false then ([], BT_ERR)
  else if ((s.runs (e.others 0)).step (.openWake c.i c.hi c.pid (e.os 0))).2 = false then (t1, BT_ERR)
  else if e.unlockOk 0 = false then (t1, BT_ERR)
  else if e.lockOk 1 = false then (t2, BT_ERR)
  else if ((s.runs t2).step (.wake c.i (e.os 1))).2 = false then (t3, BT_ERR)
  else (t3 ++ e.others 2 ++ [.close c.i], if e.unlockOk 1 = false then BT_ERR else 0)

/-- `bw_wait_ul`, lib/bw.c:556-594: 0, -1 or -3, in state `s` after epoll_wait returned. -/
def btWaitUl (c : BtCfg) (e : BtEnv) (s : BSys) : List BOp × Int :=
  match e.look with
  | .fail => ([], -1)
  | .signal => ([], -3)
  | .wakeup => ([.ready c.i (e.os 1)], if (s.step (.ready c.i (e.os 1))).2 = false then -1 else 0)

/-- `await_readiness`, lib/bw-tool.c:128-155, blocking: the Boolean is `rc == 0`. -/
def btAwait (e : BtEnv) : Bool := decide (e.look = .wakeup)

/-- `await_readiness` without blocking. -/
def btAwait2 (e : BtEnv) : Bool := e.look2Ok && ! e.sig2

/-- The end of `wait`, lib/bw-tool.c:258-263, after the calls `t`. -/
def btWaitEnd (c : BtCfg) (e : BtEnv) (t : List BOp) : List BOp × Nat :=
  let t1 := t ++ e.others 2
  let t2 := t1 ++ (if c.forceReady then [.force c.i true (e.os 2)] else []) ++ (if c.forceClear then [.force c.i false (e.os 3)] else [])
  if e.lockOk 1 = false then (t1, BT_ERR)
  else if btAwait2 e = false then (t2, BT_ERR)
  else (t2 ++ e.others 3 ++ [.close c.i], if e.unlockOk 1 = false then BT_ERR else 0)

/-- The calls until the wait ends. -/
def btLooked (c : BtCfg) (e : BtEnv) : List BOp := e.others 0 ++ [.openWait c.i c.hi c.pid (e.os 0)] ++ e.others 1

/-- `wait`, lib/bw-tool.c:232-264.  Note the test `sc == -2`, lib/bw-tool.c:246, for a value `bw_wait_ul` does not return. -/
def btWait (c : BtCfg) (e : BtEnv) (s : BSys) : List BOp × Nat :=
  let t1 := e.others 0 ++ [.openWait c.i c.hi c.pid (e.os 0)]
  let t2 := btLooked c e
  if e.mapOk = false ∨ e.lockOk 0 = false then ([], BT_ERR)
  else if ((s.runs (e.others 0)).step (.openWait c.i c.hi c.pid (e.os 0))).2 = false then (t1, BT_ERR)
  else if e.unlockOk 0 = false then (t1, BT_ERR)
  else if e.ctlOk = false then (t2, BT_ERR)
  else if c.useApi = true then
    let w := btWaitUl c e (s.runs t2)
    if w.2 = -2 then
      if e.lockOk 1 = false then (t2 ++ w.1, BT_ERR) else (t2 ++ w.1 ++ e.others 2 ++ [.close c.i], BT_ERR)
    else btWaitEnd c e (t2 ++ w.1)
  else if btAwait e = false then (t2, BT_ERR)
  else
    let t3 := t2 ++ [.ready c.i (e.os 1)]
    if ((s.runs t2).step (.ready c.i (e.os 1))).2 = false then (t3, BT_ERR) else btWaitEnd c e t3

/-- `main` from the signalfd on, lib/bw-tool.c:196-277, for the commands that use the handle. -/
def btMain (c : BtCfg) (e : BtEnv) (s : BSys) (w : BtWord) : List BOp × Nat :=
  if e.sigFdOk = false then ([], BT_ERR)
  else match w with
    | .wake => btWake c e s
    | .wait => btWait c e s
    | _ => ([], 0)

/-- What the process leaves behind. -/
def btAfter (c : BtCfg) (e : BtEnv) (s : BSys) (w : BtWord) : BSys := s.runs ((btMain c e s w).1 ++ [.exit c.pid])

/-- `sizeof(bw_handle)`, lib/bw.h:26-32: an int, and 64 slots of an int and 8 bytes. -/
def sizeofBwHandle : Nat := 4 + BW_WAITMAX * (4 + 8)

/-- `ftruncate`: cut off, or filled up with zero bytes. -/
def ftruncateBytes (f : List Nat) (n : Nat) : List Nat := f.take n ++ List.replicate (n - f.length) 0

/-- `make`, lib/bw-tool.c:204-214: the file before (if it exists) and after; the status.  An existing file is not emptied. -/
def btMake (sigFdOk openOk truncOk : Bool) (f : Option (List Nat)) : Option (List Nat) × Nat :=
  if sigFdOk = false ∨ openOk = false then (f, BT_ERR)
  else if truncOk = false then (some (f.getD []), BT_ERR)
  else (some (ftruncateBytes (f.getD []) sizeofBwHandle), 0)

end Shr
