import Verif.Model.Bw
import Verif.Model.Conc
/-!
# The ring together with its block/wake handles

`Model/Sys.lean` says which block/wake calls a library call makes (through `WrOut` and `RdOut`) but takes
their results from the environment; `Model/Bw.lean` models those calls.  Here both run together: the
embedded `bw_handle`s `r->w2r` and `r->r2w` (src/shr.c:52-53) are handles 0 and 1, and the `bw_t`s `s->w2r`
and `s->r2w` of the ring handle `k` have the identifiers `2k` and `2k+1`.  A call that has to wait is
suspended; it goes on when a datagram arrives at its socket.

Each critical section is one step, and so is the reception of a datagram in `bw_wait_ul`
(lib/bw.c:556-594), which happens outside the lock.

Simplifications: a buffered write that must flush first is made as a flush followed by the write
(`C31_buffered_write_splits`); each process uses a handle in one thread.
-/
namespace Shr

/-- The block/wake calls made inside the critical section of a read or write: whether `bw_wake` is called
(by a writer on w2r, src/shr.c:1004; by a reader on r2w, src/shr.c:849), and the argument of the `bw_force`
that a reader makes after that (src/shr.c:807, 851). -/
structure Sig where
  wake : Bool := false
  force : Option Bool := none
  deriving DecidableEq, Repr

def WrOut.sig : WrOut → Sig
  | .ret _ w => ⟨w, none⟩
  | .wait => {}

def RdOut.sig : RdOut → Sig
  | .ret _ _ _ f w => ⟨w, f⟩
  | .wait => {}

/-- The block/wake calls made by a library call: `Sys.step` runs the same functions and keeps what they
return to the caller. -/
def Sys.signal (s : Sys) : Op → Sig
  | .writev k iov envF env =>
    match s.hs k with
    | .live h =>
      if h.flags.has SHR_WRONLY = false then {}
      else match exec (shr_writev h iov envF env) s.ring with
        | .error _ => {}
        | .ok ((_, o), _) => o.sig
    | _ => {}
  | .readv k buf niov env =>
    match s.hs k with
    | .live h =>
      if h.flags.has SHR_RDONLY = false then {}
      else match exec (shr_readv h buf buf.length niov env) s.ring with
        | .error _ => {}
        | .ok ((_, o), _) => o.sig
    | _ => {}
  | .flush k wait env =>
    match s.hs k with
    | .live h =>
      if h.flags.has SHR_WRONLY = false then {}
      else match exec (shr_flush h wait env) s.ring with
        | .error _ => {}
        | .ok ((_, o), _) => o.sig
    | _ => {}
  | .close k env =>
    match s.hs k with
    | .live h =>
      match exec (shr_close h env) s.ring with
      | .error _ => {}
      | .ok (o, _) => o.sig
    | _ => {}
  | _ => {}

/-- What the operating system does during one call: in its up to three block/wake calls, and whether
`shr_close` gets the lock to close the block/wake handles. -/
structure WOs where
  o1 : Os := {}
  o2 : Os := {}
  o3 : Os := {}
  lock2 : Bool := true

/-- `open_blockwake`, src/shr.c:444-474: the block/wake calls it makes, and whether it succeeds.  `u` is
`r->u`; `needR2w` is `need_r2w`.  (For one of the two modes; a handle opened for both is outside the model, see
`C18_counterexample_both_modes`.) -/
def open_blockwake (b : BSys) (k pid : Nat) (flags : Flags) (needR2w : Bool) (u : Nat) (os : WOs) : List BOp × Bool :=
  if flags.has SHR_RDONLY then
    let o1 := BOp.openWait (2 * k) 0 pid os.o1
    let x1 := b.step o1
    let o2 := BOp.openWake (2 * k + 1) 1 pid os.o2
    let x2 := x1.1.step o2
    if x1.2 = false ∨ x2.2 = false then ([o1, o2, .close (2 * k + 1), .close (2 * k)], false)
    else
      let o3 := BOp.force (2 * k) (decide (u ≠ 0)) os.o3
      let x3 := x2.1.step o3
      if x3.2 = false then ([o1, o2, o3, .close (2 * k + 1), .close (2 * k)], false)
      else ([o1, o2, o3], true)
  else
    let o1 := BOp.openWake (2 * k) 0 pid os.o1
    let x1 := b.step o1
    if x1.2 = false then ([o1], false)
    else if needR2w then
      let o2 := BOp.openWait (2 * k + 1) 1 pid os.o2
      if (x1.1.step o2).2 = false then ([o1, o2, .close (2 * k)], false) else ([o1, o2], true)
    else ([o1], true)

/-- The ring, the block/wake state, and the suspended calls: `some (op, woken)`; `woken` means that
`bw_wait_ul` has returned 0 and the call is about to take the lock again. -/
structure WSys where
  sys : Sys
  b : BSys := {}
  blk : Nat → Option (Op × Bool) := fun _ => none

/-- Handles for which `D` holds disappear together with their caches (their process dies, or `shr_close`
gives up its final flush). -/
def Sys.discard (s : Sys) (D : Nat → Bool) : Sys :=
  { s with hs := fun k => match s.hs k with
      | .live h => if D k then .gone () else .live h
      | l => l }

/-- The environment of a suspended call when it goes on. -/
def Op.withEnv (e : Env) : Op → Op
  | .open k flags _ => .open k flags e
  | .writev k iov envF _ => .writev k iov envF e
  | .readv k buf niov _ => .readv k buf niov e
  | .flush k wait _ => .flush k wait e
  | .close k _ => .close k e
  | .stat k reset _ => .stat k reset e
  | .farmStat k reset => .farmStat k reset
  | .appdata k get set sz _ => .appdata k get set sz e

/-- The `bw_t` on which a call waits: readers on w2r (src/shr.c:814), writers on r2w (src/shr.c:944). -/
def Op.waitsOn : Op → Nat
  | .readv k _ _ _ => 2 * k
  | op => 2 * op.handle + 1

/-- The calls that put messages into the ring, and so can wait for space (src/shr.c:877-1014, 1104-1142, 1156-1177). -/
def Op.writes : Op → Bool
  | .writev _ _ _ _ => true
  | .flush _ _ _ => true
  | .close _ _ => true
  | _ => false

namespace WSys

/-- Does `shr_open` get as far as `open_blockwake`? src/shr.c:549-609.  (`k` is a new handle number.) -/
def opens (w : WSys) (k : Nat) (flags : Flags) (env : Env) : Bool :=
  match w.sys.hs k with
  | .never => validate_flags flags && env.lockOk && !(w.sys.ring.gflags.has SHR_MLOCK && !env.mlockOk)
  | _ => false

/-- `need_r2w`, src/shr.c:460-461. -/
def needR2w (w : WSys) (flags : Flags) : Bool := !flags.has SHR_NONBLOCK && !w.sys.ring.gflags.has SHR_DROP

/-- Does `shr_flush` open the r2w handle first? src/shr.c:1110-1126. -/
def flushOpens (w : WSys) (k : Nat) (wait : Bool) (env : Env) : Bool :=
  match w.sys.hs k with
  | .live h => h.flags.has SHR_WRONLY && decide (h.c.n ≠ 0) && (h.flags.has SHR_NONBLOCK && wait) && !h.hasR2w && env.lockOk
  | _ => false

/-- The block/wake calls that a flush makes before it writes. -/
def flushPre (w : WSys) (pid : Nat → Nat) (k : Nat) (wait : Bool) (env : Env) (os : WOs) : List BOp :=
  if w.flushOpens k wait env then [.openWait (2 * k + 1) 1 (pid k) os.o2] else []

/-- The call with the results of its block/wake calls filled in.  (It does not return early from waiting: that is
the step `interrupt`.) -/
def fill (w : WSys) (pid : Nat → Nat) (os : WOs) : Op → Op
  | .open k flags env =>
    .open k flags { env with bwOpenOk := (open_blockwake w.b k (pid k) flags (w.needR2w flags) w.sys.ring.u os).2 }
  | .writev k iov envF env =>
    .writev k iov envF { env with wakeOk := (w.b.step (.wake (2 * k) os.o1)).2, waitRc := none }
  | .readv k buf niov env => .readv k buf niov { env with waitRc := none }
  | .flush k wait env =>
    .flush k wait { env with
      bwOpenOk := (w.b.step (.openWait (2 * k + 1) 1 (pid k) os.o2)).2
      wakeOk := ((w.b.runs (w.flushPre pid k wait env os)).step (.wake (2 * k) os.o1)).2
      waitRc := none }
  | .close k env => .close k { env with wakeOk := (w.b.step (.wake (2 * k) os.o1)).2, waitRc := none }
  | op => op

/-- The block/wake calls a call makes, in order; `o` is what the call returns. -/
def bops (w : WSys) (pid : Nat → Nat) (os : WOs) (o : Out) : Op → List BOp
  | .open k flags env =>
    if w.opens k flags env then (open_blockwake w.b k (pid k) flags (w.needR2w flags) w.sys.ring.u os).1 else []
  | .writev k iov envF env =>
    if (w.sys.signal (.writev k iov envF env)).wake then [.wake (2 * k) os.o1] else []
  | .readv k buf niov env =>
    (if (w.sys.signal (.readv k buf niov env)).wake then [.wake (2 * k + 1) os.o1] else []) ++
    (match (w.sys.signal (.readv k buf niov env)).force with
     | some f => [.force (2 * k) f os.o2]
     | none => [])
  | .flush k wait env =>
    w.flushPre pid k wait env os ++
    (if (w.sys.signal (.flush k wait env)).wake then [.wake (2 * k) os.o1] else [])
  | .close k env =>
    (if (w.sys.signal (.close k env)).wake then [.wake (2 * k) os.o1] else []) ++
    (if o = .closed ∧ os.lock2 = true then [.close (2 * k), .close (2 * k + 1)] else [])
  | _ => []

end WSys

/-- The steps: a call up to its return or to the point where it waits; the reception of a datagram by a waiting
call; its second and later attempts; its early return because `bw_wait_ul` failed (-1) or a descriptor added with
`shr_ctl` became ready (-3); the death of a process. -/
inductive WOp where
  | call (op : Op) (os : WOs)
  | wakeup (k : Nat) (os : Os)
  | resume (k : Nat) (env : Env) (os : WOs)
  | interrupt (k : Nat) (e : WaitErr) (os : WOs)
  | kill (p : Nat)

namespace WSys

/-- One attempt of a call. -/
def attempt (w : WSys) (pid : Nat → Nat) (op : Op) (os : WOs) : Option (WSys × Out × List BOp) :=
  match w.sys.step (w.fill pid os op) with
  | .error _ => none
  | .ok (s', o) =>
    let ops := w.bops pid os o (w.fill pid os op)
    some ({ sys := s', b := w.b.runs ops, blk := upd w.blk op.handle (if o = .blocked then some (op, false) else none) }, o, ops)

/-- The client may make this call: the handle is not in use by a waiting call, and `shr_open` creates a new
handle. -/
def Callable (w : WSys) (op : Op) : Prop :=
  w.blk op.handle = none ∧ needsFlush (w.sys.hs op.handle) op = false ∧
  ∀ k flags env, op = .open k flags env → w.b.ts (2 * k) = none ∧ w.b.ts (2 * k + 1) = none

/-- What a call that gives up waiting returns. -/
def gaveUp (e : WaitErr) : Op → Out
  | .readv _ buf _ _ => .read e.rc [] buf
  | .close _ _ => .closed
  | _ => .wrote e.rc

/-- One step; also what the call returns, and the block/wake calls made. `pid k` is the process that uses handle `k`. -/
inductive Step (pid : Nat → Nat) : WSys → WOp → WSys → Out → List BOp → Prop where
  | call {w w' : WSys} {op : Op} {os : WOs} {o : Out} {ops : List BOp} : w.Callable op → w.attempt pid op os = some (w', o, ops) →
      Step pid w (.call op os) w' o ops
  /-- `epoll_wait` reports the socket readable and `bw_ready_ul` takes a datagram, lib/bw.c:571-590. -/
  | wakeup {w : WSys} {k : Nat} {op : Op} {os : Os} : w.blk k = some (op, false) → 1 ≤ w.b.pending op.waitsOn →
      (w.b.step (.ready op.waitsOn os)).2 = true →
      Step pid w (.wakeup k os) { w with b := w.b.runs [.ready op.waitsOn os], blk := upd w.blk k (some (op, true)) } .blocked
        [.ready op.waitsOn os]
  /-- src/shr.c:798-801, 925-926: back to the head of the loop. -/
  | resume {w w' : WSys} {k : Nat} {op : Op} {env : Env} {os : WOs} {o : Out} {ops : List BOp} : w.blk k = some (op, true) →
      w.attempt pid (op.withEnv env) os = some (w', o, ops) → Step pid w (.resume k env os) w' o ops
  /-- src/shr.c:815-818, 945; `shr_close` ignores that its flush failed, src/shr.c:1159. -/
  | interrupt {w : WSys} {k : Nat} {op : Op} {e : WaitErr} {os : WOs} {ops : List BOp} : w.blk k = some (op, false) →
      ops = (if gaveUp e op = .closed ∧ os.lock2 = true then [.close (2 * k), .close (2 * k + 1)] else []) →
      Step pid w (.interrupt k e os)
        { sys := if gaveUp e op = .closed then w.sys.discard (fun j => j == k) else w.sys
          b := w.b.runs ops
          blk := upd w.blk k none } (gaveUp e op) ops
  | kill {w : WSys} {p : Nat} :
      Step pid w (.kill p)
        { sys := w.sys.discard (fun j => pid j == p)
          b := w.b.runs [.exit p]
          blk := fun j => match w.sys.hs j with
            | .live _ => if pid j = p then none else w.blk j
            | _ => w.blk j } .misuse [.exit p]

/-- A new ring. -/
def init (a : InitArgs) : WSys := { sys := Sys.init a }

end WSys

/-- All of these block/wake calls are clean (`BSys.Clean`). -/
def BSys.CleanRun : BSys → List BOp → Prop
  | _, [] => True
  | b, op :: ops => b.Clean op ∧ BSys.CleanRun (b.step op).1 ops

/-- A wake-up through the embedded handle `c`: 0 is "writer to reader" (identifiers `2k`), 1 is "reader to writer" (identifiers `2k+1`). -/
def BOp.wakes (c : Nat) : BOp → Bool
  | .wake i _ => i % 2 == c
  | _ => false

/-- The waiter `i` sets its own readiness. -/
def BOp.forces (i : Nat) : BOp → Bool
  | .force j _ _ => j == i
  | _ => false

/-- All calls among these that `S` selects succeed. -/
def BSys.Succeed (S : BOp → Bool) : BSys → List BOp → Prop
  | _, [] => True
  | b, op :: ops => (S op = true → (b.step op).2 = true) ∧ BSys.Succeed S (b.step op).1 ops

/-- One of these calls is a successful `bw_wake` on handle `c`. -/
def BSys.Woke (c : Nat) : BSys → List BOp → Prop
  | _, [] => False
  | b, op :: ops => ((∃ i os, op = .wake i os ∧ i % 2 = c) ∧ (b.step op).2 = true) ∨ BSys.Woke c (b.step op).1 ops

/-- A call of `shr_open`. -/
def WOp.isOpen : WOp → Bool
  | .call (.open _ _ _) _ => true
  | _ => false

/-- The calls issued by a step (a resumed call counts again), for bounding the number of messages. -/
def WOp.issued (w : WSys) : WOp → List Op
  | .call op _ => [op]
  | .resume k _ _ => (match w.blk k with
    | some (op, _) => [op]
    | none => [])
  | _ => []

end Shr
