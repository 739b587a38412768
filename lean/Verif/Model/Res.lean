import Verif.Model.Api
/-!
# What a process holds: descriptors, mappings, memory

The library calls again, reduced to what they acquire and release.  A ledger gives every descriptor, mapping and block of memory a number of
its own when it is acquired; releasing one that is not held at that time (closing or freeing twice) is recorded as `bad`.  The outcomes
of all system calls, and what the code reads from the ring and from /proc, are arguments, one for each call: they are not related to each
other, so this allows more than can happen.
-/
namespace Shr

/-- What the process holds; `next` is the number of the next acquisition. -/
structure Led where
  live : List Nat := []
  next : Nat := 0
  bad : Bool := false
  deriving DecidableEq, Repr

/-- Computations on the ledger. -/
abbrev RM (α : Type) : Type := Led → α × Led

instance : Monad RM where
  pure a := fun s => (a, s)
  bind x f := fun s => f (x s).1 (x s).2

/-- `open`, `socket`, `epoll_create`, `opendir`, `mmap`, `malloc`, `calloc` that succeed. -/
def acquire : RM Nat := fun s => (s.next, { s with live := s.next :: s.live, next := s.next + 1 })

/-- `close`, `closedir`, `munmap`, `free`. -/
def release (i : Nat) : RM Unit := fun s => ((), { s with live := s.live.erase i, bad := s.bad || decide (i ∉ s.live) })

/-- `if (x != -1) close(x)`, `if (p) free(p)`. -/
def releaseOpt : Option Nat → RM Unit
  | none => pure ()
  | some i => release i

/-! ## lib/ux.c -/

/-- Outcomes in `has_pid_socket`. -/
structure PidEnv where
  /-- `kill(pid, 0)` does not fail with ESRCH -/
  alive : Bool := true
  opendirOk : Bool := true
  /-- every entry of /proc/PID/fd could be read and parsed, and there are at most 1000 sockets -/
  walkOk : Bool := true
  openOk : Bool := true
  /-- for every round of the outer loop of `slurp_special`: does `realloc` succeed, do all `read`s; the last round reaches the end -/
  first : Bool × Bool := (true, true)
  rounds : List (Bool × Bool) := []
  /-- what the comparison with the rows of /proc/net/unix yields -/
  answer : Int := 1
  deriving DecidableEq, Repr

/-- `get_socket_inodes`, lib/ux.c:58-125.  The error exits inside the loop do not close the directory. -/
def getInodesR (e : PidEnv) : RM Bool :=
  if e.opendirOk = false then pure false
  else do
    let d ← acquire
    if e.walkOk = false then pure false
    else do
      release d
      pure true

/-- `realloc(buf, sz)` that succeeds. -/
def reallocR (buf : Option Nat) : RM Nat := do
  releaseOpt buf
  acquire

/-- The outer loop of `slurp_special`, lib/ux.c:146-178: the buffer, and whether the end was reached. -/
def slurpLoopR (buf : Option Nat) : List (Bool × Bool) → RM (Option Nat × Bool)
  | [] => pure (buf, true)
  | (reallocOk, readOk) :: rest =>
    if reallocOk = false then pure (buf, false)
    else do
      let b ← reallocR buf
      if readOk = false then pure (some b, false) else slurpLoopR (some b) rest

/-- `slurp_special`, lib/ux.c:131-187. -/
def slurpR (e : PidEnv) : RM (Option Nat) :=
  if e.openOk = false then pure none
  else do
    let fd ← acquire
    let (buf, ok) ← slurpLoopR none (e.first :: e.rounds)
    release fd
    if ok = false then do
      releaseOpt buf
      pure none
    else pure buf

/-- `has_socket_name`, lib/ux.c:243-300. -/
def hasNameR (e : PidEnv) : RM Int := do
  match ← slurpR e with
  | none => pure (-1)
  | some b => do
    release b
    pure e.answer

/-- `has_pid_socket`, lib/ux.c:28-41. -/
def hasPidR (e : PidEnv) : RM Int :=
  if e.alive = false then pure 0
  else do
    if (← getInodesR e) = false then pure (-1) else hasNameR e

/-! ## lib/bw.c -/

/-- What a block/wake handle holds: itself, in wake mode the sockets `w->fd[]`, in wait mode `listenfd`, `selffd`, `epollfd`, and the
buffer of `drain_msgs`. -/
structure BwR where
  mem : Nat
  fds : List (Option Nat)
  wait : Option (Nat × Nat × Nat) := none
  drain : Option Nat := none
  deriving DecidableEq, Repr

/-- Outcomes for one slot in `bw_sync`. -/
structure SlotEnv where
  /-- `h->wr[n].pid != 0` -/
  used : Bool := true
  /-- the name is the one to which the socket was connected -/
  same : Bool := true
  sockOk : Bool := true
  connOk : Bool := true
  pid : PidEnv := {}
  deriving DecidableEq, Repr

/-- `prune_handle`, lib/bw.c:97-111: one test for every slot in use. -/
def pruneR : List PidEnv → RM Unit
  | [] => pure ()
  | e :: es => do
    let _ ← hasPidR e
    pruneR es

/-- `open_socket`, lib/bw.c:128-167: the new value of `w->fd[n]`, and whether it returns 0. -/
def openSocketR (e : SlotEnv) : RM (Option Nat × Bool) :=
  if e.sockOk = false then pure (none, false)
  else do
    let fd ← acquire
    if e.connOk then pure (some fd, true)
    else do
      release fd
      let sc ← hasPidR e.pid
      pure (none, decide (sc = 0))

/-- The loop of `bw_sync`, lib/bw.c:183-198.  (No environments: the sequence numbers are equal, lib/bw.c:178-181.) -/
def syncR : List (Option Nat) → List SlotEnv → RM (List (Option Nat) × Bool)
  | f :: fs, e :: es => do
    let f1 ← (if f.isSome ∧ (e.used = false ∨ e.same = false) then do
        releaseOpt f
        pure none
      else pure f : RM (Option Nat))
    let (f2, ok) ← (if e.used ∧ f1 = none then openSocketR e else pure (f1, true) : RM (Option Nat × Bool))
    if ok = false then pure (f2 :: fs, false)
    else do
      let (rest, ok) ← syncR fs es
      pure (f2 :: rest, ok)
  | fs, _ => pure (fs, true)

/-- Outcomes in `bw_open`. -/
structure BwEnv where
  callocOk : Bool := true
  prune : List PidEnv := []
  slots : List SlotEnv := []
  /-- a slot is free -/
  slotFree : Bool := true
  sockOk : Bool := true
  bindOk : Bool := true
  nameOk : Bool := true
  selfSockOk : Bool := true
  selfConnOk : Bool := true
  epollOk : Bool := true
  addOk : Bool := true
  deriving DecidableEq, Repr

/-- `make_socket`, lib/bw.c:207-249 (without BW_TRACE). -/
def makeSocketR (e : BwEnv) : RM (Option Nat) :=
  if e.sockOk = false then pure none
  else do
    let fd ← acquire
    if e.bindOk = false ∨ e.nameOk = false then do
      release fd
      pure none
    else pure (some fd)

/-- `connect_self`, lib/bw.c:291-322. -/
def connectSelfR (e : BwEnv) : RM (Option Nat) :=
  if e.selfSockOk = false then pure none
  else do
    let fd ← acquire
    if e.selfConnOk = false then do
      release fd
      pure none
    else pure (some fd)

/-- `bw_open(BW_WAKE)`, lib/bw.c:340-380 and 419-433: the sockets in `w->fd[]` are not closed after an error. -/
def bwOpenWakeR (e : BwEnv) : RM (Option BwR) :=
  if e.callocOk = false then pure none
  else do
    let mem ← acquire
    pruneR e.prune
    let (fds, ok) ← syncR (List.replicate 64 none) e.slots
    if ok = false then do
      release mem
      pure none
    else pure (some { mem := mem, fds := fds })

/-- `bw_open(BW_WAIT)`, lib/bw.c:340-372 and 382-433, with `bw_reserve`, 252-281. -/
def bwOpenWaitR (e : BwEnv) : RM (Option BwR) :=
  if e.callocOk = false then pure none
  else do
    let mem ← acquire
    pruneR e.prune
    let fail (l s p : Option Nat) : RM (Option BwR) := do
      releaseOpt l
      releaseOpt s
      releaseOpt p
      release mem
      pure none
    if e.slotFree = false then fail none none none
    else do
      match ← makeSocketR e with
      | none => fail none none none
      | some l => do
        match ← connectSelfR e with
        | none => fail (some l) none none
        | some s =>
          if e.epollOk = false then fail (some l) (some s) none
          else do
            let p ← acquire
            if e.addOk = false then fail (some l) (some s) (some p)
            else pure (some { mem := mem, fds := List.replicate 64 none, wait := some (l, s, p) })

/-- `for(n=0; n < BW_WAITMAX; n++) if (w->fd[n] != -1) close(w->fd[n])` -/
def closeAllR : List (Option Nat) → RM Unit
  | [] => pure ()
  | f :: fs => do
    releaseOpt f
    closeAllR fs

/-- `bw_close`, lib/bw.c:444-473 (in wait mode all of `w->fd[]` are -1, in wake mode `wait` and `drain` are empty). -/
def bwCloseR (w : BwR) : RM Unit := do
  closeAllR w.fds
  (match w.wait with
  | none => pure ()
  | some (l, s, p) => do
    release l
    release s
    release p
    releaseOpt w.drain : RM Unit)
  release w.mem

/-- The loop of `bw_wake`, lib/bw.c:638-641, with `wake_one`, 601-619; for every slot: does `sendmsg` not fail hard? -/
def wakeAllR : List (Option Nat) → List Bool → RM (List (Option Nat))
  | some f :: fs, false :: sends => do
    release f
    let rest ← wakeAllR fs sends
    pure (none :: rest)
  | f :: fs, _ :: sends => do
    let rest ← wakeAllR fs sends
    pure (f :: rest)
  | fs, _ => pure fs

/-- Outcomes in `bw_wake`. -/
structure WakeEnv where
  slots : List SlotEnv := []
  sends : List Bool := []
  deriving DecidableEq, Repr

/-- `bw_wake`, lib/bw.c:632-647.  (On a handle in wait mode the process aborts, lib/bw.c:635; here nothing happens.) -/
def bwWakeR (w : BwR) (e : WakeEnv) : RM BwR :=
  if w.wait ≠ none then pure w
  else do
    let (fds, ok) ← syncR w.fds e.slots
    if ok = false then pure { w with fds := fds }
    else do
      let fds ← wakeAllR fds e.sends
      pure { w with fds := fds }

/-- `bw_force`, lib/bw.c:708-738, with `drain_msgs`, 653-687: `drains` tells whether datagrams are to be discarded.
(On a handle in wake mode the process aborts; here nothing happens.) -/
def bwForceR (w : BwR) (drains callocOk : Bool) : RM BwR :=
  if w.wait ≠ none ∧ drains ∧ w.drain = none ∧ callocOk then do
    let d ← acquire
    pure { w with drain := some d }
  else pure w

/-! ## src/shr.c -/

/-- What a ring handle holds. -/
structure ShrR where
  flags : Flags
  mem : Nat
  ringFd : Nat
  map : Nat
  w2r : Option BwR := none
  r2w : Option BwR := none
  cbuf : Option Nat := none
  ciov : Option Nat := none
  deriving DecidableEq, Repr

/-- `shr_init`, src/shr.c:202-300: `fd` and `buf`. -/
def initR (valid keeps unlinkOk openOk lockOk truncOk mmapOk : Bool) : RM Int :=
  if valid = false then pure (-1)
  else if keeps then pure 0
  else if unlinkOk = false then pure (-1)
  else if openOk = false then pure (-1)
  else do
    let fd ← acquire
    if lockOk = false ∨ truncOk = false ∨ mmapOk = false then do
      release fd
      pure (-1)
    else do
      let buf ← acquire
      release fd
      release buf
      pure 0

/-- Outcomes in `shr_open`. -/
structure OpenREnv where
  callocOk : Bool := true
  openOk : Bool := true
  fstatOk : Bool := true
  mmapOk : Bool := true
  lockOk : Bool := true
  /-- `validate_ring` -/
  validOk : Bool := true
  mlockOk : Bool := true
  /-- the two calls of `bw_open` of a reader -/
  rdWait : BwEnv := {}
  rdWake : BwEnv := {}
  /-- `bw_force`: must it drain, does its `calloc` succeed, does it return 0 -/
  drains : Bool := false
  drainCallocOk : Bool := true
  forceOk : Bool := true
  /-- the two calls of `bw_open` of a writer -/
  wrWake : BwEnv := {}
  wrWait : BwEnv := {}
  bufOk : Bool := true
  iovOk : Bool := true
  syncOk : Bool := true
  deriving DecidableEq, Repr

/-- `if (rc && s->r2w) bw_close(s->r2w)` -/
def bwCloseOptR : Option BwR → RM Unit
  | none => pure ()
  | some w => bwCloseR w

/-- The reader's part of `open_blockwake`, src/shr.c:447-454: `w2r`, `r2w`, and whether it goes on. -/
def blockwakeRdR (e : OpenREnv) : RM (Option BwR × Option BwR × Bool) := do
  let w2r ← bwOpenWaitR e.rdWait
  let r2w ← bwOpenWakeR e.rdWake
  match w2r, r2w with
  | some w, some r => do
    let w ← bwForceR w e.drains e.drainCallocOk
    pure (some w, some r, e.forceOk)
  | _, _ => pure (w2r, r2w, false)

/-- The writer's part, src/shr.c:456-466; `w2r`, `r2w` are the values so far (not NULL if the handle is for reading as well), of which
`w2r` is overwritten. -/
def blockwakeWrR (flags gflags : Flags) (e : OpenREnv) (r2w : Option BwR) : RM (Option BwR × Option BwR × Bool) := do
  match ← bwOpenWakeR e.wrWake with
  | none => pure (none, r2w, false)
  | some w =>
    if flags.has SHR_NONBLOCK = false ∧ gflags.has SHR_DROP = false then do
      let r2w ← bwOpenWaitR e.wrWait
      pure (some w, r2w, r2w.isSome)
    else pure (some w, r2w, true)

/-- `open_blockwake`, src/shr.c:444-474: `w2r` and `r2w` if it returns 0. -/
def blockwakeR (flags gflags : Flags) (e : OpenREnv) : RM (Option (Option BwR × Option BwR)) := do
  let (w2r, r2w, ok) ← (if flags.has SHR_RDONLY then blockwakeRdR e else pure (none, none, true) : RM (Option BwR × Option BwR × Bool))
  let (w2r, r2w, ok) ← (if ok ∧ flags.has SHR_WRONLY then blockwakeWrR flags gflags e r2w else pure (w2r, r2w, ok) : RM (Option BwR × Option BwR × Bool))
  if ok = false then do
    bwCloseOptR r2w
    bwCloseOptR w2r
    pure none
  else pure (some (w2r, r2w))

/-- `init_cache`, src/shr.c:495-529: `c.buf` and `c.iov` if it returns 0. -/
def cacheR (flags : Flags) (e : OpenREnv) : RM (Option (Option Nat × Option Nat)) :=
  if flags.has SHR_WRONLY = false ∨ flags.has SHR_BUFFERED = false then pure (some (none, none))
  else if e.bufOk = false then pure none
  else do
    let b ← acquire
    if e.iovOk = false then do
      release b
      pure none
    else do
      let v ← acquire
      pure (some (some b, some v))

/-- `shr_open`, src/shr.c:549-624.  The exit after an error releases the handle, the descriptor and the mapping, nothing else. -/
def openR (flags gflags : Flags) (e : OpenREnv) : RM (Option ShrR) :=
  if validate_flags flags = false then pure none
  else if e.callocOk = false then pure none
  else do
    let mem ← acquire
    if e.openOk = false then do
      release mem
      pure none
    else do
      let fd ← acquire
      if e.fstatOk = false ∨ e.mmapOk = false then do
        release fd
        release mem
        pure none
      else do
        let map ← acquire
        let fail : RM (Option ShrR) := do
          release fd
          release map
          release mem
          pure none
        if e.lockOk = false ∨ e.validOk = false ∨ (gflags.has SHR_MLOCK ∧ e.mlockOk = false) then fail
        else do
          match ← blockwakeR flags gflags e with
          | none => fail
          | some (w2r, r2w) => do
            match ← cacheR flags e with
            | none => fail
            | some (b, v) =>
              if gflags.has SHR_SYNC ∧ e.syncOk = false then fail
              else pure (some ⟨flags, mem, fd, map, w2r, r2w, b, v⟩)

/-- `bw_wake` on a handle that may be NULL. -/
def wakeOptR (w : Option BwR) (e : WakeEnv) : RM (Option BwR) :=
  match w with
  | none => pure none
  | some w => do
    let w ← bwWakeR w e
    pure (some w)

/-- What a call of `shr_readv` does with the two handles, src/shr.c:784-858: `wake` if something was read, `force` if it got that
far. -/
def readR (s : ShrR) (wake : Option WakeEnv) (force : Option (Bool × Bool)) : RM ShrR := do
  let s ← (match wake with
    | none => pure s
    | some e => do
      let w ← wakeOptR s.r2w e
      pure { s with r2w := w } : RM ShrR)
  (match force, s.w2r with
    | some (drains, callocOk), some w => do
      let w ← bwForceR w drains callocOk
      pure { s with w2r := some w }
    | _, _ => pure s : RM ShrR)

/-- What a call of `shr_writev` does with them, src/shr.c:877-1014: a wake-up for every batch that was written. -/
def writeR (s : ShrR) : List WakeEnv → RM ShrR
  | [] => pure s
  | e :: es => do
    let w ← wakeOptR s.w2r e
    writeR { s with w2r := w } es

/-- `shr_flush`, src/shr.c:1104-1142; `cached`: is something in the cache? -/
def flushR (s : ShrR) (wait cached lockOk : Bool) (b : BwEnv) (wakes : List WakeEnv) : RM ShrR :=
  if cached = false then pure s
  else if s.flags.has SHR_NONBLOCK ∧ wait ∧ s.r2w = none then
    if lockOk = false then pure s
    else do
      match ← bwOpenWaitR b with
      | none => pure s
      | some w => writeR { s with r2w := some w } wakes
  else writeR s wakes

/-- `shr_close`, src/shr.c:1156-1177. -/
def closeR (s : ShrR) (cached lockOk : Bool) (wakes : List WakeEnv) : RM Unit := do
  let s ← flushR s false cached true {} wakes
  (if lockOk then do
    bwCloseOptR s.w2r
    bwCloseOptR s.r2w
  else pure () : RM Unit)
  releaseOpt s.cbuf
  releaseOpt s.ciov
  release s.map
  release s.ringFd
  release s.mem

/-! ## A process -/

/-- The process: its ledger, its ring handles, and the memory that `shr_appdata` gave to the caller. -/
structure PRes where
  led : Led := {}
  hs : Nat → Option ShrR := fun _ => none
  given : List Nat := []

/-- A call, with the outcomes of what happens inside. -/
inductive ROp where
  | init (valid keeps unlinkOk openOk lockOk truncOk mmapOk : Bool)
  | open (k : Nat) (flags gflags : Flags) (e : OpenREnv)
  | read (k : Nat) (wake : Option WakeEnv) (force : Option (Bool × Bool))
  | write (k : Nat) (wakes : List WakeEnv)
  | flush (k : Nat) (wait cached lockOk : Bool) (b : BwEnv) (wakes : List WakeEnv)
  /-- `shr_appdata` with `*get == NULL`; does it come to `malloc` (src/shr.c:1054), and does this succeed? -/
  | appdata (k : Nat) (mallocOk : Bool)
  | close (k : Nat) (cached lockOk : Bool) (wakes : List WakeEnv)
  /-- `shr_stat`, `shr_farm_stat`, `shr_ctl`, `shr_get_selectable_fd`, and `shr_appdata` otherwise -/
  | other (k : Nat)

/-- One call.  (A handle must be open for calls other than `shr_open`, and a new handle gets a number not in use.) -/
def PRes.step (p : PRes) : ROp → PRes
  | .init a b c d e f g => { p with led := (initR a b c d e f g p.led).2 }
  | .open k flags gflags e =>
    match p.hs k with
    | some _ => p
    | none => { p with led := (openR flags gflags e p.led).2, hs := fun j => if j = k then (openR flags gflags e p.led).1 else p.hs j }
  | .read k w f =>
    match p.hs k with
    | none => p
    | some s => { p with led := (readR s w f p.led).2, hs := fun j => if j = k then some (readR s w f p.led).1 else p.hs j }
  | .write k ws =>
    match p.hs k with
    | none => p
    | some s => { p with led := (writeR s ws p.led).2, hs := fun j => if j = k then some (writeR s ws p.led).1 else p.hs j }
  | .flush k w c l b ws =>
    match p.hs k with
    | none => p
    | some s => { p with led := (flushR s w c l b ws p.led).2, hs := fun j => if j = k then some (flushR s w c l b ws p.led).1 else p.hs j }
  | .appdata k mallocOk =>
    match p.hs k with
    | none => p
    | some _ =>
      if mallocOk then { p with led := (acquire p.led).2, given := (acquire p.led).1 :: p.given } else p
  | .close k c l ws =>
    match p.hs k with
    | none => p
    | some s => { p with led := (closeR s c l ws p.led).2, hs := fun j => if j = k then none else p.hs j }
  | .other _ => p

/-- Any number of calls. -/
def PRes.run (p : PRes) (ops : List ROp) : PRes := ops.foldl PRes.step p

end Shr
