import Verif.Model.Main
import Verif.Spec.Observe
/-!
# shr-tool and the rings it works on

A tool is a process that makes one library call after another, each on one of its rings; what it does next depends on the
results.  Between its calls, and while one of its calls waits, other processes make any calls on the same rings with their own handles.  A call
that waits (`blocked`) is issued again, as in `Model/Api.lean`.

The tools below are the modes of `main` and `handle_io` in util/shr-tool.c; the opening of the rings comes before.
-/
namespace Shr

/-- A ring as the tool finds it, and what has happened since: `pre` is the history of calls before. -/
structure RingLog where
  a : InitArgs
  pre : List Op
  sys : Sys
  ops : List Op := []
  outs : List Out := []

def RingLog.add (l : RingLog) (s : Sys) (op : Op) (o : Out) : RingLog :=
  { l with sys := s, ops := l.ops ++ [op], outs := l.outs ++ [o] }

/-- A program that uses rings.  `own i`: the number of its handle on ring `i` and the flags it was opened with; `call`: in this state,
it makes this call on ring number `i`; `ret`: how it goes on after the call has returned; `event`: it makes a step without calling the library. -/
structure Proc (τ : Type) where
  own : Nat → Option (Nat × Flags)
  call : τ → Nat → Op → Prop
  ret : τ → Op → Out → τ → Prop
  event : τ → τ → Prop

structure World (τ : Type) where
  rings : Nat → RingLog
  tool : τ

/-- One step: a call by another process, a call by the tool, or a step of the tool by itself. -/
inductive World.Step {τ : Type} (P : Proc τ) : World τ → World τ → Prop
  | other {w : World τ} {i : Nat} {op : Op} {s : Sys} {o : Out} :
      (∀ k f, P.own i = some (k, f) → op.handle ≠ k) → (w.rings i).sys.step op = .ok (s, o) →
      World.Step P w { w with rings := upd w.rings i ((w.rings i).add s op o) }
  | call {w : World τ} {i : Nat} {op : Op} {s : Sys} {o : Out} {t : τ} :
      P.call w.tool i op → (w.rings i).sys.step op = .ok (s, o) → P.ret w.tool op o t →
      World.Step P w { rings := upd w.rings i ((w.rings i).add s op o), tool := t }
  | event {w : World τ} {t : τ} : P.event w.tool t → World.Step P w { w with tool := t }

/-- Any number of steps. -/
inductive World.Reach {τ : Type} (P : Proc τ) (w0 : World τ) : World τ → Prop
  | refl : World.Reach P w0 w0
  | step {w w' : World τ} : World.Reach P w0 w → World.Step P w w' → World.Reach P w0 w'

/-- What a call of `shr_read` gives the tool: a negative number, or that many bytes of the buffer. -/
def readResult (rc : Int) (buf : List Byte) : Except Int Msg := if rc < 0 then .error rc else .ok (buf.take rc.toNat)

/-- `shr_read(s, cfg.buf, BUFLEN)`, util/shr-tool.c:662; src/shr.c:704-708: `shr_readv` with one iov entry.  The buffer may hold anything. -/
def ReadCall (k : Nat) (op : Op) : Prop := ∃ buf env, buf.length = BUFLEN ∧ op = .readv k buf 1 env

/-- `shr_write(s, buf, len)`, src/shr.c:685-688: `shr_writev` with one message; and `shr_writev`. -/
def WriteCall (k : Nat) (ms : List Msg) (op : Op) : Prop := ∃ envF env, op = .writev k ms envF env

/-- The flags with which the tool opens the rings it reads and those it writes, util/shr-tool.c:1155, 1206 and 1163, 1176, 1189, 1211, 1217. -/
def READER : Flags := SHR_RDONLY ||| SHR_NONBLOCK
def WRITER : Flags := SHR_WRONLY

/-! ## read, readhex -/

/-- `handle_io` and the main loop in the modes read and readhex; the state: what has been printed. -/
def readProc (k : Nat) (hex block : Bool) (maxMsgs : Nat) : Proc (ReadSt × List ToolOut) where
  own i := if i = 0 then some (k, READER) else none
  call t i op := i = 0 ∧ (∃ n, t.1 = .run n) ∧ ReadCall k op
  ret t _ o t' := match t.1, o with
    | .run n, .read rc _ buf =>
      t' = ((readStep hex block maxMsgs n (readResult rc buf)).2, t.2 ++ (readStep hex block maxMsgs n (readResult rc buf)).1)
    | _, _ => t' = t
  event _ _ := False

/-! ## write, writehex, writefile -/

/-- What is left to write; `failed`: a call of `shr_write` returned a negative number. -/
inductive WriterSt where
  | run (rest : List Msg) | failed
  deriving DecidableEq, Repr

/-- The loop of `shr-tool write`, util/shr-tool.c:1163-1172 (the messages are those of the lines, `lineMsg`), and the single call in the
modes writehex and writefile, 1176-1183, 1189-1196. -/
def writeProc (k : Nat) : Proc WriterSt where
  own i := if i = 0 then some (k, WRITER) else none
  call t i op := i = 0 ∧ ∃ m rest, t = .run (m :: rest) ∧ WriteCall k [m] op
  ret t _ o t' := match t, o with
    | .run (_ :: rest), .wrote rc => t' = if rc < 0 then .failed else .run rest
    | _, _ => t' = t
  event _ _ := False

/-! ## tee -/

/-- Where a running `tee` is: waiting for ring A, in the call that writes to B, in the call that writes to C; or it has stopped. -/
inductive TeeSt where
  | idle | toB (m : Msg) | toC (m : Msg) | stopped
  deriving DecidableEq, Repr

/-- `handle_io` in tee mode, util/shr-tool.c:655-672, 742-756, one library call after the other. -/
def teeRet : TeeSt → Out → TeeSt
  | .idle, .read rc _ buf => if rc < 0 then .stopped else if rc = 0 then .idle else .toB (buf.take rc.toNat)
  | .toB m, .wrote rc => if rc < 0 then .stopped else .toC m
  | .toC _, .wrote rc => if rc < 0 then .stopped else .idle
  | t, _ => t

/-- `shr-tool tee A B C`: ring 0 is A, ring 1 is B, ring 2 is C (they must not be the same ring). -/
def teeProc (kA kB kC : Nat) : Proc TeeSt where
  own i := if i = 0 then some (kA, READER) else if i = 1 then some (kB, WRITER) else if i = 2 then some (kC, WRITER) else none
  call t i op := match t with
    | .idle => i = 0 ∧ ReadCall kA op
    | .toB m => i = 1 ∧ WriteCall kB [m] op
    | .toC m => i = 2 ∧ WriteCall kC [m] op
    | .stopped => False
  ret t _ o t' := t' = teeRet t o
  event _ _ := False

/-! ## pub -/

/-- `shr-tool pub`: the events of `pubStep`; the one for the ring is a call of `shr_read` (the descriptor is polled). -/
def pubProc (k : Nat) (lenPrefix : Bool) : Proc PubRun where
  own i := if i = 0 then some (k, READER) else none
  call t i op := i = 0 ∧ t.ending = .run ∧ t.p.polled = true ∧ ReadCall k op
  ret t _ o t' := match o with
    | .read rc _ buf => ∃ pre ws modOk, t' =
        ⟨(pubStep lenPrefix t.p (.ring (readResult rc buf) pre ws modOk)).1, (pubStep lenPrefix t.p (.ring (readResult rc buf) pre ws modOk)).2.1,
          t.taken ++ (pubStep lenPrefix t.p (.ring (readResult rc buf) pre ws modOk)).2.2⟩
    | _ => t' = t
  event t t' := ∃ ev, t.ending = .run ∧ t.p.enabled ev ∧ (∀ r pre ws modOk, ev ≠ .ring r pre ws modOk) ∧
    t' = ⟨(pubStep lenPrefix t.p ev).1, (pubStep lenPrefix t.p ev).2.1, t.taken ++ (pubStep lenPrefix t.p ev).2.2⟩

/-! ## sub -/

/-- A subscriber: waiting for its socket with `buf` received and not decoded, in the call of `shr_writev` that hands over `fs`, or
stopped (`aborted`: by a failed assertion). -/
inductive SubSt where
  | idle (buf : List Byte) | hand (fs : List Msg) (rest : List Byte) | exited | aborted
  deriving DecidableEq, Repr

/-- `do_subscriber` up to the call of `shr_writev`, util/shr-tool.c:501-527 and 448-478: `chunk` is what `read` returned (`none`: an
error; no bytes: end of file). -/
def subRecv (buf : List Byte) (chunk : Option (List Byte)) : SubSt :=
  if ¬ (buf.length < BUFLEN) then .aborted
  else match chunk with
    | none => .exited
    | some [] => .exited
    | some chunk =>
      match decodeLoop 0 (buf ++ chunk) with
      | none => .exited
      | some ([], _) => .idle (buf ++ chunk)
      | some (fs, rest) => .hand fs rest

/-- The rest of `do_subscriber` and `decode_frames`, util/shr-tool.c:479-494, 527-532. -/
def subRet : SubSt → Out → SubSt
  | .hand _ rest, .wrote rc => if rc < 0 then .exited else .idle rest
  | t, _ => t

/-! ## A publisher and a subscriber connected by TCP -/

/-- The publisher, the subscriber, the number of its connection, and how many bytes of that connection it has read. -/
structure PubSub where
  pub : PubRun
  sub : SubSt := .idle []
  conn : Nat
  nread : Nat := 0

/-- `shr-tool pub` on ring 0 and `shr-tool sub` on ring 1; the subscriber is the client that the publisher accepted as number `conn`.  TCP
delivers to it a prefix of what the publisher wrote, in any pieces (at most the space in the buffer); and at any time `read` may fail or report the end. -/
def pubSubProc (kA kB : Nat) : Proc PubSub where
  own i := if i = 0 then some (kA, READER) else if i = 1 then some (kB, WRITER) else none
  call t i op := (pubProc kA true).call t.pub i op ∨ (i = 1 ∧ ∃ fs rest, t.sub = .hand fs rest ∧ WriteCall kB fs op)
  ret t op o t' := match o with
    | .wrote _ => t' = { t with sub := subRet t.sub o }
    | _ => ∃ p', (pubProc kA true).ret t.pub op o p' ∧ t' = { t with pub := p' }
  event t t' :=
    (∃ p', (pubProc kA true).event t.pub p' ∧ t' = { t with pub := p' }) ∨
    (∃ buf n, t.sub = .idle buf ∧ 0 < n ∧ t.nread + n ≤ (t.pub.p.stream t.conn).length ∧ n ≤ BUFLEN - buf.length ∧
      t' = { t with sub := subRecv buf (some (((t.pub.p.stream t.conn).drop t.nread).take n)), nread := t.nread + n }) ∨
    (∃ buf, t.sub = .idle buf ∧ (t' = { t with sub := subRecv buf none } ∨ t' = { t with sub := subRecv buf (some []) }))

end Shr
