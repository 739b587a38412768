import Verif.Model.Types
/-!
# The ring: critical sections of `shr_readv` and `shr_writev`, `drop_unread`, `next_msg_info`
-/
namespace Shr
open M

/-- The loop of `drop_unread`, src/shr.c:655-660.  `smm` is `s->mm`.  The fuel bounds the number of
iterations; running out of it is the outcome `hang`.  (The loop is deterministic and its state is two 64-bit counters
and a slot number, so with the fuel that `drop_unread` gives it, it has then come back to a state it was in before and
never ends.) -/
def dropLoop (mv : List Slot) (smm am ab niov need : Nat) :
    Nat → Nat → Nat → Nat → Except Fault (Nat × Nat × Nat)
  | 0, _, _, _ => .error .hang
  | fuel + 1, i, z, p =>
    if niov > wadd am i ∨ need > wadd ab z then
      match mv[p]? with
      | none => .error .ub
      | some s =>
        dropLoop mv smm am ab niov need fuel (wadd i 1) (wadd z s.len)
          (if wadd p 1 = smm then 0 else wadd p 1)
    else .ok (i, z, p)

/-- `drop_unread`, src/shr.c:634-670. -/
def drop_unread (smm need niov : Nat) : M Ring Unit := do
  let r ← M.get
  let ab := wsub r.n r.u
  let am := wsub r.mm r.m
  assert (r.gflags.has SHR_DROP)
  assert (decide (r.mm ≥ niov))
  assert (decide (r.m ≤ r.mp))
  assert (decide (r.m ≤ r.mm))
  assert (decide (r.mp ≠ 0))
  let izp ← lift (dropLoop r.mv smm am ab niov need (W * W * (r.mm + 1)) 0 0 r.r)
  store fun r => { r with r := izp.2.2 }
  store fun r => { r with u := wsub r.u izp.2.1 }
  store fun r => { r with m := wsub r.m izp.1 }
  store fun r => { r with stat := { r.stat with bd := wadd r.stat.bd izp.2.1 } }
  store fun r => { r with stat := { r.stat with md := wadd r.stat.md izp.1 } }
  let r ← M.get
  assert (decide (wsub r.n r.u ≥ need))
  assert (decide (wsub r.mm r.m ≥ niov))

/-- What `next_msg_info` reports through its four out-parameters: `m1` as an offset into the data
region, `l1`, `l2`; `m2` is the start of the data region whenever `l2 > 0`. -/
structure MsgInfo where
  m1 : Nat
  l1 : Nat
  l2 : Nat
  deriving DecidableEq, Repr

/-- First part of `next_msg_info`, src/shr.c:734-739: a farm reader that was overtaken advances to
the eldest message and counts what it missed. -/
def farmCatchUp (r : Ring) (c : RCur) : RCur :=
  if r.gflags.has SHR_FARM ∧ c.q < r.q then
    { q := r.q, md := wadd c.md (wsub r.q c.q) }
  else c

/-- `msg_ready` of `next_msg_info`, src/shr.c:741-744. -/
def msgReady (r : Ring) (c : RCur) : Bool :=
  if r.gflags.has SHR_FARM then decide (c.q < wadd r.q r.mp) else decide (r.m ≠ 0)

/-- `next_msg_info`, src/shr.c:725-762.  `s->q % r->mm` with `mm = 0` is undefined. -/
def next_msg_info (r : Ring) (c0 : RCur) : Except Fault (RCur × Option MsgInfo) :=
  let c := farmCatchUp r c0
  if msgReady r c = false then .ok (c, none)
  else if r.gflags.has SHR_FARM ∧ r.mm = 0 then .error .ub
  else
    let slot := if r.gflags.has SHR_FARM then c.q % r.mm else r.r
    match r.mv[slot]? with
    | none => .error .ub
    | some s =>
      let wraps := wadd s.pos s.len > r.n
      let l1 := if wraps then wsub r.n s.pos else s.len
      let l2 := if wraps then wsub s.len l1 else 0
      .ok (c, some ⟨s.pos, l1, l2⟩)

/-- Local variables of the copy loop of `shr_readv`: the reader's cursor, the caller's buffer, the
advancing `buf` pointer as an offset, remaining `len`, `nr`, and the iov entries filled in so far
(offset into the caller's buffer, length); `mc` is the length of `iov`. -/
structure RdSt where
  cur : RCur
  buf : List Byte
  off : Nat
  len : Nat
  nr : Nat
  iov : List (Nat × Nat)
  deriving DecidableEq, Repr

/-- One iteration body of the copy loop, src/shr.c:825-842: copy one message out, fill its iov entry,
advance the read position. -/
def readOne (st : RdSt) (mi : MsgInfo) : M Ring RdSt := do
  let r ← M.get
  let b1 ← lift (memRead r.d mi.m1 mi.l1)
  let buf1 ← lift (memWrite st.buf st.off b1)
  let buf2 ← if mi.l2 ≠ 0 then do
      let b2 ← lift (memRead r.d 0 mi.l2)
      lift (memWrite buf1 (wadd st.off mi.l1) b2)
    else pure buf1
  let L := wadd mi.l1 mi.l2
  let st' : RdSt := { st with
    buf := buf2, off := wadd st.off L, len := wsub st.len L, nr := wadd st.nr L,
    iov := st.iov ++ [(st.off, L)] }
  if r.gflags.has SHR_FARM then
    pure { st' with cur := { st.cur with q := wadd st.cur.q 1 } }
  else if r.mm = 0 then
    lift (.error .ub)
  else do
    store fun r => { r with r := wadd r.r 1 % r.mm }
    store fun r => { r with u := wsub r.u L }
    store fun r => { r with m := wsub r.m 1 }
    pure st'

/-- The copy loop of `shr_readv`, src/shr.c:822-845.  The first argument is `*niov`; the result says
whether `msg_ready` is set on exit. -/
def readLoop : Nat → RdSt → MsgInfo → M Ring (RdSt × Bool)
  | 0, st, _ => pure (st, true)
  | niov + 1, st, mi =>
    if wadd mi.l1 mi.l2 > st.len then pure (st, true)
    else do
      let st' ← readOne st mi
      let r ← M.get
      let x ← lift (next_msg_info r st'.cur)
      match x.2 with
      | none => pure ({ st' with cur := x.1 }, false)
      | some mi' => readLoop niov { st' with cur := x.1 } mi'

/-- What one attempt of `shr_readv` does: return to the caller, or wait in `bw_wait_ul`.
`force` is the argument of the `bw_force(s->w2r, _)` call if one was made, `wake` whether
`bw_wake(s->r2w)` was called. -/
inductive RdOut where
  | ret (rc : Int) (iov : List (Nat × Nat)) (buf : List Byte) (force : Option Bool) (wake : Bool)
  | wait
  deriving DecidableEq, Repr

/-- The part of `shr_readv` executed under the lock once a message is available,
src/shr.c:821-857 (`rc` already decided when `shr_sync` runs, so its outcome does not matter).
The last assertion is the one in `bw_force` (lib/bw.c:713, and in `bw_wake`, 635): on a handle opened with
SHR_RDONLY|SHR_WRONLY `s->w2r` was overwritten by a wake-mode handle (src/shr.c:448, 457). -/
def readvBody (flags : Flags) (cur : RCur) (buf : List Byte) (len niov : Nat) (mi : MsgInfo) :
    M Ring (RCur × RdOut) := do
  let x ← readLoop niov ⟨cur, buf, 0, len, 0, []⟩ mi
  let st := x.1
  store fun r => { r with stat := { r.stat with br := wadd r.stat.br st.nr } }
  store fun r => { r with stat := { r.stat with mr := wadd r.stat.mr st.iov.length } }
  let rc : Int := if st.iov.length > 0 then (st.nr : Int) else -2
  assert (!flags.has SHR_WRONLY)
  pure (st.cur, .ret rc st.iov st.buf (some x.2) (decide (st.nr > 0)))

/-- One attempt of `shr_readv`, src/shr.c:784-858: argument checks, then one pass of the
availability loop (797-819) and, if a message is available, the copy.  A blocking reader that finds
nothing leaves the critical section to wait (`.wait`) and later attempts again, or returns what
`bw_wait_ul` returned if that is not 0.  (For the second assertion see `readvBody`: `bw_force` and
`bw_wait_ul` assert that `s->w2r` is a wait-mode handle.) -/
def readvAttempt (flags : Flags) (cur : RCur) (buf : List Byte) (len0 niov : Nat) (env : Env) :
    M Ring (RCur × RdOut) := do
  assert (flags.has SHR_RDONLY)
  if len0 = 0 then pure (cur, .ret (-1) [] buf none false)
  else if niov = 0 then pure (cur, .ret (-1) [] buf none false)
  else
    let len := if len0 > SSIZE_MAX then SSIZE_MAX else len0
    if env.lockOk = false then pure (cur, .ret (-1) [] buf none false)
    else do
      let r ← M.get
      let x ← lift (next_msg_info r cur)
      match x.2 with
      | some mi => readvBody flags x.1 buf len niov mi
      | none => do
        assert (!flags.has SHR_WRONLY)
        if flags.has SHR_NONBLOCK then pure (x.1, .ret 0 [] buf (some false) false)
        else match env.waitRc with
          | some sc => pure (x.1, .ret sc.rc [] buf none false)
          | none => pure (x.1, .wait)

/-- The argument-check loop of `shr_writev`, src/shr.c:888-894, on the iov lengths.
`none` means `goto done` with `rc = -1`. -/
def lenLoop (sn smm niov : Nat) : List Nat → Nat → Option Nat
  | [], len => some len
  | l :: ls, len =>
    let len' := wadd len l
    if len' = 0 then none
    else if len' > SSIZE_MAX then none
    else if len' > sn then none
    else if niov > smm then none
    else lenLoop sn smm niov ls len'

/-- Argument check of `shr_writev`, src/shr.c:888-895. -/
def lenCheck (sn smm : Nat) (lens : List Nat) : Option Nat :=
  match lenLoop sn smm lens.length lens 0 with
  | none => none
  | some len => if len = 0 then none else some len

/-- The loop that advances the eldest position, src/shr.c:960-973.  Arguments: `mp`, `e`, `a`;
result `(e, a, mp)`. -/
def eldestLoop (mv : List Slot) (n i smm len niov : Nat) :
    Nat → Nat → Nat → Except Fault (Nat × Nat × Nat)
  | 0, e, a => .ok (e, a, 0)
  | mp + 1, e, a =>
    match mv[e]? with
    | none => .error .ub
    | some s =>
      let l := if i > s.pos then wadd (wsub n i) s.pos else wsub s.pos i
      if len ≤ l ∧ wsub smm (mp + 1) ≥ niov then .ok (e, a, mp + 1)
      else eldestLoop mv n i smm len niov mp
        (if wadd e 1 = smm then 0 else wadd e 1) (wadd a 1)

/-- Copying one message into the ring, src/shr.c:982-997, at slot `p`; returns the next slot. -/
def copyOne (b : Msg) (p : Nat) : M Ring Nat := do
  assert (decide (b.length > 0))
  let r ← M.get
  if p < r.mv.length then pure () else lift (.error .ub)
  store fun r => { r with mv := r.mv.modify p fun s => { s with pos := r.i } }
  store fun r => { r with mv := r.mv.modify p fun s => { s with len := b.length } }
  let r ← M.get
  let wraps := wadd r.i b.length > r.n
  let l1 := if wraps then wsub r.n r.i else b.length
  let l2 := if wraps then wsub b.length l1 else 0
  if l1 ≤ b.length then pure () else lift (.error .ub)
  memcpyShared Ring.d (fun d r => { r with d := d }) r.i (b.take l1)
  if l2 ≠ 0 then
    memcpyShared Ring.d (fun d r => { r with d := d }) 0 ((b.drop l1).take l2)
  else pure ()
  if r.n = 0 then lift (.error .ub) else pure ()
  store fun r => { r with i := wadd r.i b.length % r.n }
  let r ← M.get
  pure (if wadd p 1 = r.mm then 0 else wadd p 1)

/-- The copy loop of `shr_writev`, src/shr.c:981-998. -/
def copyLoop : List Msg → Nat → M Ring Unit
  | [], _ => pure ()
  | b :: bs, p => do
    let p' ← copyOne b p
    copyLoop bs p'

/-- `shr_writev` from the point where free space is available to the point where the messages are
committed, src/shr.c:948-1002. -/
def writevCommit (smm : Nat) (iov : List Msg) (len : Nat) : M Ring Unit := do
  let niov := iov.length
  let r ← M.get
  assert (decide (wsub r.n r.u ≥ len))
  assert (decide (wadd r.m niov ≤ r.mm))
  assert (decide (r.mp ≤ r.mm))
  let x ← lift (eldestLoop r.mv r.n r.i smm len niov r.mp r.e 0)
  store fun r => { r with e := x.1 }
  store fun r => { r with q := wadd r.q x.2.1 }
  store fun r => { r with mp := x.2.2 }
  let r ← M.get
  if r.mm = 0 then lift (.error .ub) else pure ()
  copyLoop iov (wadd r.e r.mp % r.mm)
  store fun r => { r with u := wadd r.u len }
  store fun r => { r with mp := wadd r.mp niov }
  store fun r => { r with m := wadd r.m niov }

/-- What one attempt of an unbuffered `shr_writev` does.  `wake` tells whether `bw_wake(s->w2r)` was
called. -/
inductive WrOut where
  | ret (rc : Int) (wake : Bool)
  | wait
  deriving DecidableEq, Repr

/-- `shr_writev` after the commit, src/shr.c:1004-1013.  `wakeOk`: `bw_wake` returned 0;
`syncOk`: `msync` returned 0 (only called in SHR_SYNC mode). -/
def writevFinish (len niov : Nat) (env : Env) : M Ring WrOut := do
  if env.wakeOk = false then pure (.ret (-1) true)
  else do
    store fun r => { r with stat := { r.stat with bw := wadd r.stat.bw len } }
    store fun r => { r with stat := { r.stat with mw := wadd r.stat.mw niov } }
    let r ← M.get
    if r.gflags.has SHR_SYNC ∧ env.syncOk = false then pure (.ret (-1) true)
    else pure (.ret (len : Int) true)

/-- One pass of the space loop of `shr_writev` and what follows, src/shr.c:925-1013.
A blocking writer on a non-DROP ring without enough space leaves to wait (`.wait`). -/
def writevAttempt (flags : Flags) (smm : Nat) (iov : List Msg) (len : Nat) (env : Env) :
    M Ring WrOut := do
  if env.lockOk = false then pure (.ret (-1) false)
  else do
    let r ← M.get
    if wsub r.n r.u ≥ len ∧ wsub r.mm r.m ≥ iov.length then do
      writevCommit smm iov len
      writevFinish len iov.length env
    else if r.gflags.has SHR_DROP then do
      drop_unread smm len iov.length
      writevCommit smm iov len
      writevFinish len iov.length env
    else if flags.has SHR_NONBLOCK then pure (.ret 0 false)
    else match env.waitRc with
      | some sc => pure (.ret sc.rc false)
      | none => pure .wait

/-- `shr_writev` on a handle that is not (or temporarily not) SHR_BUFFERED, src/shr.c:877-1014 with
the loop 897-923 skipped; `sn` and `smm` are `s->n` and `s->mm`. -/
def writevDirect (flags : Flags) (sn smm : Nat) (iov : List Msg) (env : Env) : M Ring WrOut := do
  assert (flags.has SHR_WRONLY)
  match lenCheck sn smm (iov.map List.length) with
  | none => pure (.ret (-1) false)
  | some len => writevAttempt flags smm iov len env

end Shr
