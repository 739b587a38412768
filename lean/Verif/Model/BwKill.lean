import Verif.CSem
import Verif.Model.Bw
/-!
# lib/bw.c store by store: processes killed inside a call

`Model/Bw.lean` makes every call one atomic step, which is right as long as the caller lives: it holds
the lock.  But the lock of a killed process is released by the kernel, in whatever state the handle is.
Here the same functions are written as sequences of single effects on what other processes can see: the
stores to the shared `bw_handle`, and the system calls that change sockets.  The trace of a run (`CSem.lean`)
then has every state in which a killed process can leave the handle and the kernel.
`C84_points_end_in_step` shows that a run that is not interrupted is the atomic step of `Model/Bw.lean`.

Simplifications: a store to `pid` or `seqno` is one effect (both are aligned `int`s); `sock2asc` stores the
name byte by byte, so the name passes through arbitrary intermediate values `gs`, one per byte stored; when
`make_socket` fails after `bind` the short life of its socket is left out (the socket belongs to the caller).
-/
namespace Shr

/-- What a call can change: the kernel's sockets and the shared handle. -/
abbrev Shared := Kern × BwH

/-- `h->wr[n].pid = v`. -/
def putPid (n v : Nat) : M Shared Unit := M.store fun x => (x.1, { x.2 with wr := upd x.2.wr n { x.2.wr n with pid := v } })
/-- `h->seqno++`. -/
def incSeq : M Shared Unit := M.store fun x => (x.1, { x.2 with seqno := x.2.seqno + 1 })
/-- One store to the bytes of `h->wr[n].name`. -/
def putName (n v : Nat) : M Shared Unit := M.store fun x => (x.1, { x.2 with wr := upd x.2.wr n { x.2.wr n with name := v } })
/-- A system call that changes sockets. -/
def sysK (f : Kern → Kern) : M Shared Unit := M.store fun x => (f x.1, x.2)

/-- The slot is released with two stores, lib/bw.c:106-107 and lib/bw.c:158-159. -/
def releaseM (n : Nat) : M Shared Unit := do putPid n 0; incSeq

/-- One iteration of `prune_handle`, lib/bw.c:101-107. -/
def pruneSlotM (os : Os) (n : Nat) : M Shared Unit := do
  let x ← M.get
  if (x.2.wr n).pid = 0 then pure ()
  else if has_pid_socket x.1 (x.2.wr n).pid (x.2.wr n).name (os.pidKnown n) = 0 then releaseM n
  else pure ()

/-- The loop of `prune_handle`, lib/bw.c:100-108. -/
def pruneLoopM (os : Os) : List Nat → M Shared Unit
  | [] => pure ()
  | n :: ns => do pruneSlotM os n; pruneLoopM os ns

/-- `prune_handle`, lib/bw.c:97-111. -/
def pruneM (os : Os) : M Shared Unit := pruneLoopM os (List.range BW_WAITMAX)

/-- `open_socket`, lib/bw.c:128-167; the connected socket is private. -/
def openSocketM (os : Os) (w : WakeT) (n : Nat) : M Shared (WakeT × Bool) := do
  let x ← M.get
  if os.sockOk n = false then pure (w, false)
  else match connect x.1 (w.name n) (os.connOk n) with
    | some sid => pure ({ w with fd := upd w.fd n (some sid) }, true)
    | none =>
      if has_pid_socket x.1 (x.2.wr n).pid (w.name n) (os.pidKnown' n) = 0 then do releaseM n; pure (w, true)
      else pure (w, false)

/-- One iteration of the loop of `bw_sync`, lib/bw.c:185-197. -/
def syncSlotM (os : Os) (w : WakeT) (n : Nat) : M Shared (WakeT × Bool) := do
  let x ← M.get
  let w := if w.fd n ≠ none ∧ ((x.2.wr n).pid = 0 ∨ (x.2.wr n).name ≠ w.name n)
    then { w with fd := upd w.fd n none } else w
  if (x.2.wr n).pid ≠ 0 ∧ w.fd n = none then openSocketM os { w with name := upd w.name n (x.2.wr n).name } n
  else pure (w, true)

/-- The loop of `bw_sync`, lib/bw.c:183-198. -/
def syncLoopM (os : Os) : List Nat → WakeT → M Shared (WakeT × Bool)
  | [], w => pure (w, true)
  | n :: ns, w => do
    let r ← syncSlotM os w n
    match r.2 with
    | true => syncLoopM os ns r.1
    | false => pure r

/-- `bw_sync`, lib/bw.c:173-205; `w->seqno` is private. -/
def syncM (os : Os) (w : WakeT) : M Shared (WakeT × Bool) := do
  let x ← M.get
  if w.seqno = x.2.seqno then pure (w, true)
  else do
    let r ← syncLoopM os (List.range BW_WAITMAX) w
    match r.2 with
    | true => do
      let y ← M.get
      pure ({ r.1 with seqno := y.2.seqno }, true)
    | false => pure r

/-- `bw_open(BW_WAKE, h)`, lib/bw.c:340-433 with the wake branch 373-380. -/
def openWakeM (os : Os) : M Shared (Option WakeT) :=
  if os.allocOk = false then pure none
  else do
    pruneM os
    let r ← syncM os {}
    match r.2 with
    | true => pure (some r.1)
    | false => pure none

/-- `sock2asc` into the slot's name, lib/ux.c and lib/bw.c:242: the intermediate values `gs`, then the name. -/
def nameM (n : Nat) : List Nat → Nat → M Shared Unit
  | [], v => putName n v
  | g :: gs, v => do putName n g; nameM n gs v

/-- `make_socket`, lib/bw.c:207-249: `bind`, then the name is stored. -/
def makeSocketM (os : Os) (pid : Nat) (gs : List Nat) (n : Nat) : M Shared (Option Nat) := do
  let x ← M.get
  if os.bindOk = false then pure none
  else if (x.1.lookup os.bindName).isSome then pure none
  else do
    sysK fun k => { socks := k.socks ++ [⟨k.next, os.bindName, pid, 0⟩], next := k.next + 1 }
    nameM n gs os.bindName
    pure (some x.1.next)

/-- `bw_reserve`, lib/bw.c:252-281: name, then pid, then `seqno`. -/
def reserveM (os : Os) (pid : Nat) (gs : List Nat) : M Shared (Option (Nat × Nat)) := do
  let x ← M.get
  match freeSlot x.2 with
  | none => pure none
  | some n => do
    let r ← makeSocketM os pid gs n
    match r with
    | none => pure none
    | some sid => do
      putPid n pid
      incSeq
      pure (some (n, sid))

/-- The error exit of `bw_open`, lib/bw.c:421-430. -/
def undoM (n sid : Nat) : M Shared (Option WaitT) := do
  putPid n 0
  sysK fun k => k.close sid
  pure none

/-- `bw_open(BW_WAIT, h, &fd)`, lib/bw.c:340-433 with the wait branch 382-417 and `connect_self`. -/
def openWaitM (os : Os) (pid : Nat) (gs : List Nat) : M Shared (Option WaitT) :=
  if os.allocOk = false then pure none
  else do
    pruneM os
    let r ← reserveM os pid gs
    match r with
    | none => pure none
    | some (n, sid) => do
      let x ← M.get
      match connect x.1 (x.2.wr n).name os.selfOk with
      | none => undoM n sid
      | some to => if os.epollOk = false then undoM n sid else pure (some ⟨n, sid, to⟩)

/-- `bw_close` of a wait-mode handle, lib/bw.c:454-473: the socket first, then the slot. -/
def closeWaitM (w : WaitT) : M Shared Unit := do
  sysK fun k => k.close w.sid
  putPid w.slotno 0
  incSeq

/-- `wake_one`, lib/bw.c:601-619, and the test before its call, lib/bw.c:639.  Here `seqno` is incremented before
the slot is cleared. -/
def wakeSlotM (os : Os) (w : WakeT) (n : Nat) : M Shared WakeT :=
  match w.fd n with
  | none => pure w
  | some sid => do
    let x ← M.get
    sysK fun k => (sendmsg k sid (os.send n)).1
    match (sendmsg x.1 sid (os.send n)).2 with
    | .fail => do
      incSeq
      putPid n 0
      pure { w with fd := upd w.fd n none }
    | _ => pure w

/-- The loop of `bw_wake`, lib/bw.c:638-641. -/
def wakeLoopM (os : Os) : List Nat → WakeT → M Shared WakeT
  | [], w => pure w
  | n :: ns, w => do
    let w' ← wakeSlotM os w n
    wakeLoopM os ns w'

/-- `bw_wake`, lib/bw.c:632-647. -/
def wakeM (os : Os) (w : WakeT) : M Shared (WakeT × Bool) := do
  let r ← syncM os w
  match r.2 with
  | false => pure (r.1, false)
  | true => do
    let w' ← wakeLoopM os (List.range BW_WAITMAX) r.1
    pure (w', true)

/-- `bw_force`, lib/bw.c:708-738: it changes only the caller's own queue, once.  (`drain_msgs` empties the queue in
chunks of 1024; the states in between differ from the first and the last only in the caller's own queue.) -/
def forceM (os : Os) (w : WaitT) (want : Bool) : M Shared Bool := do
  let x ← M.get
  sysK fun k => (bw_force k os w want).1
  pure (bw_force x.1 os w want).2

/-- `bw_ready_ul`, lib/bw.c:510-534. -/
def readyM (os : Os) (w : WaitT) : M Shared Bool := do
  let x ← M.get
  sysK fun k => (bw_ready_ul k os w).1
  pure (bw_ready_ul x.1 os w).2

namespace BSys

/-- The handle a call works on, the process that makes it, and all states in which the handle and the sockets can be while
the call runs: before each effect, and at its end.  `gs` are the values through which the name of a new waiter passes. -/
def points (s : BSys) (gs : List Nat) : BOp → Option (Nat × Nat × List Shared)
  | .openWake i hi pid os =>
    if (s.ts i).isSome ∨ pid = 0 then none else some (hi, pid, (openWakeM os (s.kern, s.hd hi)).points)
  | .openWait i hi pid os =>
    if (s.ts i).isSome ∨ pid = 0 then none else some (hi, pid, (openWaitM os pid gs (s.kern, s.hd hi)).points)
  | .close i =>
    match s.ts i with
    | some (.wake hi pid _) => some (hi, pid, [(s.kern, s.hd hi)])
    | some (.wait hi pid w) => some (hi, pid, (closeWaitM w (s.kern, s.hd hi)).points)
    | none => none
  | .wake i os =>
    match s.ts i with
    | some (.wake hi pid w) => some (hi, pid, (wakeM os w (s.kern, s.hd hi)).points)
    | _ => none
  | .force i want os =>
    match s.ts i with
    | some (.wait hi pid w) => some (hi, pid, (forceM os w want (s.kern, s.hd hi)).points)
    | _ => none
  | .ready i os =>
    match s.ts i with
    | some (.wait hi pid w) => some (hi, pid, (readyM os w (s.kern, s.hd hi)).points)
    | _ => none
  | .exit _ => none

/-- `s'` is what is left if the process that makes the call `op` in `s` is killed while the call runs. -/
def Killed (s : BSys) (op : BOp) (s' : BSys) : Prop :=
  ∃ gs hi pid pts x, s.points gs op = some (hi, pid, pts) ∧ x ∈ pts ∧ s' = BSys.exit ⟨x.1, upd s.hd hi x.2, s.ts⟩ pid

/-- The process that makes a call. -/
def caller (s : BSys) : BOp → Nat
  | .openWake _ _ pid _ => pid
  | .openWait _ _ pid _ => pid
  | .exit pid => pid
  | .close i | .wake i _ | .force i _ _ | .ready i _ =>
    match s.ts i with
    | some (.wake _ pid _) => pid
    | some (.wait _ pid _) => pid
    | none => 0

/-- States reachable by clean calls, any of which may be cut short by the death of the caller. -/
inductive KReach : BSys → Prop
  | init : KReach {}
  | step {s : BSys} (op : BOp) : KReach s → s.Clean op → KReach (s.step op).1
  | kill {s s' : BSys} (op : BOp) : KReach s → s.Clean op → s.Killed op s' → KReach s'

end BSys
end Shr
