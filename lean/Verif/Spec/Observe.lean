import Verif.Model.Sys
import Verif.Spec.Queue
/-!
# What a user can observe

Vocabulary for stating the properties: the messages a call delivered or accepted, and the messages
stored in ring memory as the file format (src/internals.txt, src/shr.c:30-55) defines them.
-/
namespace Shr

/-! ## Memory format -/

/-- The message a slot denotes: `len` bytes from `pos`, continuing at the start of the data area. -/
def Ring.msgAt (r : Ring) (s : Slot) : Msg :=
  (List.range s.len).map fun t => r.d.getD ((s.pos + t) % r.n) 0

/-- `cnt` messages from slot `first` on, circularly. -/
def Ring.msgsFrom (r : Ring) (first cnt : Nat) : List Msg :=
  (List.range cnt).map fun j => r.msgAt (r.mv.getD ((first + j) % r.mm) ⟨0, 0⟩)

/-- The unread messages: `m` of them from slot `r`. -/
def Ring.unreadMsgs (r : Ring) : List Msg := r.msgsFrom r.r r.m

/-- All messages present (read or not): `mp` of them from slot `e`. -/
def Ring.presentMsgs (r : Ring) : List Msg := r.msgsFrom r.e r.mp

/-- The messages a reader has yet to read: on a farm ring those present from its own sequence number
on, otherwise the unread ones. -/
def Ring.readableBy (r : Ring) (h : Handle) : List Msg :=
  if r.gflags.has SHR_FARM then r.presentMsgs.drop (h.cur.q - r.q) else r.unreadMsgs

/-- The messages in a handle's write cache. -/
def Cache.msgs (c : Cache) : List Msg := (c.iov.take c.vm).map fun e => (c.buf.drop e.1).take e.2

/-! ## Calls and results -/

/-- Message delimited by the iov entry `e` in the caller's buffer. -/
def sliceOf (buf : List Byte) (e : Nat × Nat) : Msg := (buf.drop e.1).take e.2

/-- Messages delivered by a call. -/
def Out.msgs : Out → List Msg
  | .read _ iov buf => iov.map (sliceOf buf)
  | _ => []

/-- Messages delivered by a history, to whichever reader, in order. -/
def delivered (outs : List Out) : List Msg := (outs.map Out.msgs).flatten

/-- The handle a call is made on. -/
def Op.handle : Op → Nat
  | .open k _ _ => k
  | .writev k _ _ _ => k
  | .readv k _ _ _ => k
  | .flush k _ _ => k
  | .close k _ => k
  | .stat k _ _ => k
  | .farmStat k _ => k
  | .appdata k _ _ _ _ => k

/-- Messages delivered to handle `k`. -/
def deliveredTo (k : Nat) : List Op → List Out → List Msg
  | op :: ops, o :: outs => (if op.handle = k then o.msgs else []) ++ deliveredTo k ops outs
  | _, _ => []

/-- Messages of a call that were accepted: a write that returned a positive count. -/
def acceptedBy (op : Op) (o : Out) : List Msg :=
  match op, o with
  | .writev _ iov _ _, .wrote rc => if rc > 0 then iov else []
  | _, _ => []

/-- Messages accepted by a history, in order. -/
def accepted : List Op → List Out → List Msg
  | op :: ops, o :: outs => acceptedBy op o ++ accepted ops outs
  | _, _ => []

/-- Messages accepted from handle `k`. -/
def acceptedFrom (k : Nat) : List Op → List Out → List Msg
  | op :: ops, o :: outs => (if op.handle = k then acceptedBy op o else []) ++ acceptedFrom k ops outs
  | _, _ => []

/-- Number of messages offered for writing. -/
def offered : List Op → Nat
  | .writev _ iov _ _ :: ops => iov.length + offered ops
  | _ :: ops => offered ops
  | [] => 0

/-- The history opens no handle in buffered mode. -/
def Unbuffered (ops : List Op) : Prop :=
  ∀ op ∈ ops, ∀ k flags env, op = .open k flags env → flags.has SHR_BUFFERED = false

/-- The messages in handle `k`'s write cache. -/
def Sys.cached (s : Sys) (k : Nat) : List Msg :=
  match s.hs k with
  | .live h => h.c.msgs
  | _ => []

/-- In a list of messages tagged with their writers: those of writer `k`, in order. -/
def byHandle (k : Nat) (l : List (Nat × Msg)) : List Msg := (l.filter fun e => e.1 == k).map Prod.snd

/-! ## Fates of messages

A list of messages, each marked `true` (delivered) or `false` (lost). -/

def kept (X : List (Msg × Bool)) : List Msg := (X.filter fun e => e.2).map Prod.fst
def lostIn (X : List (Msg × Bool)) : List Msg := (X.filter fun e => !e.2).map Prod.fst

/-- The messages `new` that one call put into the ring: those it accepted, or, if the call is a write
that returned -1, possibly all it was given. -/
def EnteredBy (op : Op) (o : Out) (new : List Msg) : Prop :=
  new = acceptedBy op o ∨ ∃ k iov e1 e2, op = .writev k iov e1 e2 ∧ o = .wrote (-1) ∧ new = iov

/-- The messages a history put into the ring, call by call. -/
def Entered : List Op → List Out → List Msg → Prop
  | [], [], l => l = []
  | op :: ops, o :: outs, l => ∃ a b, l = a ++ b ∧ EnteredBy op o a ∧ Entered ops outs b
  | _, _, _ => False

/-- What a `shr_stat` call that resets the counters reported, as selected by `f`. -/
def reportedBy (f : Stat → Nat) (op : Op) (o : Out) : Nat :=
  match op, o with
  | .stat _ (some _) _, .stat _ (some st) => f st
  | _, _ => 0

/-- The sum of what all such calls reported. -/
def reported (f : Stat → Nat) : List Op → List Out → Nat
  | op :: ops, o :: outs => reportedBy f op o + reported f ops outs
  | _, _ => 0

/-- What a `shr_farm_stat` call on handle `k` that resets the counter reported as missed. -/
def missedBy (k : Nat) (op : Op) (o : Out) : Nat :=
  match op, o with
  | .farmStat j true, .farm n => if j = k then n else 0
  | _, _ => 0

/-- The sum of what all such calls reported. -/
def missedReported (k : Nat) : List Op → List Out → Nat
  | op :: ops, o :: outs => missedBy k op o + missedReported k ops outs
  | _, _ => 0

/-- The app data after a call, as a user sees it: a successful `set` (or get-and-set) replaces it. -/
def appAfter (v : List Byte) (op : Op) (o : Out) : List Byte :=
  match op, o with
  | .appdata _ get (some b) sz _, .app r => if r.rc = 0 ∧ get ≠ .alloc then b.take sz else v
  | _, _ => v

/-- The app data after a history. -/
def appValue : List Byte → List Op → List Out → List Byte
  | v, op :: ops, o :: outs => appValue (appAfter v op o) ops outs
  | v, _, _ => v

/-- Wake-ups and msync succeed in this environment. -/
def Env.good (e : Env) : Prop := e.wakeOk = true ∧ e.syncOk = true

/-- Wake-ups and msync succeed in this call. -/
def Op.good : Op → Prop
  | .open _ _ e => e.good
  | .writev _ _ e1 e2 => e1.good ∧ e2.good
  | .readv _ _ _ e => e.good
  | .flush _ _ e => e.good
  | .close _ e => e.good
  | .stat _ _ e => e.good
  | .farmStat _ _ => True
  | .appdata _ _ _ _ e => e.good

end Shr
