import Verif.Model.Sys
import Verif.Spec.Queue
/-!
# The specification machine

The behaviour a user relies on, in terms of lists of messages: a log of everything ever accepted into
the ring, the index of the first unread message, the index of the first message that is still
retained, one position per farm reader, one list of cached messages per buffered writer.
There are no offsets, slots or wrap-around here, and nothing can fault.
-/
namespace Shr

/-- Specification of a handle. -/
structure SHandle where
  flags : Flags
  /-- farm readers: number of log entries this reader is past -/
  pos : Nat
  /-- farm readers: messages missed since the last reset -/
  missed : Nat
  /-- buffered writers: accepted but not yet in the ring -/
  pend : List Msg
  csz : Nat
  cvt : Nat
  /-- can wait for space -/
  canWait : Bool

/-- Counters of a statistics period. -/
structure SStat where
  start : Timeval := (0, 0)
  bw : Nat := 0
  br : Nat := 0
  mw : Nat := 0
  mr : Nat := 0
  md : Nat := 0
  bd : Nat := 0

structure Spec where
  cap : Nat
  maxm : Nat
  gflags : Flags
  /-- every message ever put into the ring, with the handle that put it there, oldest first -/
  tlog : List (Nat × Msg)
  /-- number of messages that are no longer retained -/
  base : Nat
  /-- number of messages that were consumed or dropped -/
  first : Nat
  st : SStat
  app : List Byte
  hs : Nat → Life SHandle (List Msg)

namespace Spec

def log (sp : Spec) : List Msg := sp.tlog.map Prod.snd
def farm (sp : Spec) : Bool := sp.gflags.has SHR_FARM
def drop (sp : Spec) : Bool := sp.gflags.has SHR_DROP
/-- Messages not yet consumed. -/
def unread (sp : Spec) : List Msg := sp.log.drop sp.first
/-- Messages still stored (consumed or not). -/
def retained (sp : Spec) : List Msg := sp.log.drop sp.base

/-- Put `new` into the ring: drop as few unread messages as necessary, forget as few retained ones as
necessary, append.  `counted`: the write counters are updated. -/
def commit (sp : Spec) (who : Nat) (new : List Msg) (counted : Bool) : Spec :=
  let d := evictCount sp.cap sp.maxm new sp.unread
  { sp with
    tlog := sp.tlog ++ new.map (fun m => (who, m))
    base := sp.base + evictCount sp.cap sp.maxm new sp.retained
    first := sp.first + d
    st := { sp.st with
      md := sp.st.md + d
      bd := sp.st.bd + bytesOf (sp.unread.take d)
      bw := if counted then sp.st.bw + bytesOf new else sp.st.bw
      mw := if counted then sp.st.mw + new.length else sp.st.mw } }

/-- Outcome of an attempt to write. -/
inductive WRes where
  | ret (rc : Int)
  | wait

def WRes.out : WRes → Out
  | .ret rc => .wrote rc
  | .wait => .blocked

/-- An attempt to put the legal message list `new` into the ring. -/
def tryWrite (sp : Spec) (who : Nat) (nonblock : Bool) (new : List Msg) (env : Env) : Spec × WRes :=
  if env.lockOk = false then (sp, .ret (-1))
  else if Fits sp.cap sp.maxm sp.unread new ∨ sp.drop then
    (sp.commit who new env.wakeOk,
      if env.wakeOk = false then .ret (-1)
      else if sp.gflags.has SHR_SYNC ∧ env.syncOk = false then .ret (-1)
      else .ret (bytesOf new : Int))
  else if nonblock then (sp, .ret 0)
  else match env.waitRc with
    | some sc => (sp, .ret sc.rc)
    | none => (sp, .wait)

/-- `new` fits into the cache beside what is pending. -/
def cacheFits (h : SHandle) (new : List Msg) : Prop :=
  bytesOf h.pend + bytesOf new ≤ h.csz ∧ h.pend.length + new.length ≤ h.cvt

instance (h : SHandle) (new : List Msg) : Decidable (cacheFits h new) := by
  unfold cacheFits; infer_instance

/-- A write.  Buffered: into the cache if it fits, else after flushing the cache, else (bigger than
the cache) directly. -/
def writev (sp : Spec) (k : Nat) (h : SHandle) (new : List Msg) (envF env : Env) :
    Spec × SHandle × WRes :=
  let nb := h.flags.has SHR_NONBLOCK
  if ¬ Legal sp.cap sp.maxm new then (sp, h, .ret (-1))
  else if h.flags.has SHR_BUFFERED = false then
    let x := sp.tryWrite k nb new env
    (x.1, h, x.2)
  else if cacheFits h new then (sp, { h with pend := h.pend ++ new }, .ret (bytesOf new : Int))
  else if h.pend = [] then
    let x := sp.tryWrite k nb new env
    (x.1, h, x.2)
  else
    let x := sp.tryWrite k nb h.pend envF
    match x.2 with
    | .wait => (x.1, h, .wait)
    | .ret rc =>
      if rc ≤ 0 then (x.1, h, .ret rc)
      else
        let h' := { h with pend := [] }
        if cacheFits h' new then (x.1, { h' with pend := new }, .ret (bytesOf new : Int))
        else
          let y := x.1.tryWrite k nb new env
          (y.1, h', y.2)

/-- The messages a handle would read, oldest first. -/
def readable (sp : Spec) (h : SHandle) : List Msg :=
  if sp.farm then sp.log.drop (max h.pos sp.base) else sp.unread

/-- A farm reader that was overtaken continues at the oldest retained message and counts. -/
def catchUp (sp : Spec) (h : SHandle) : SHandle :=
  if sp.farm then { h with pos := max h.pos sp.base, missed := h.missed + (sp.base - h.pos) } else h

/-- A read: the longest prefix of whole messages that fits. -/
def readv (sp : Spec) (h : SHandle) (buf : List Byte) (niov : Nat) (env : Env) :
    Spec × SHandle × Out :=
  if buf.length = 0 ∨ niov = 0 ∨ env.lockOk = false then (sp, h, .read (-1) [] buf)
  else
    let U := sp.readable h
    let h1 := sp.catchUp h
    if U = [] then
      if h.flags.has SHR_NONBLOCK then (sp, h1, .read 0 [] buf)
      else match env.waitRc with
        | some sc => (sp, h1, .read sc.rc [] buf)
        | none => (sp, h1, .blocked)
    else
      let t := takeCount U (min buf.length SSIZE_MAX) niov
      let V := U.take t
      let sp' := { sp with
        first := if sp.farm then sp.first else sp.first + t
        st := { sp.st with br := sp.st.br + bytesOf V, mr := sp.st.mr + t } }
      let h' := if sp.farm then { h1 with pos := h1.pos + t } else h1
      (sp', h', .read (if t = 0 then -2 else (bytesOf V : Int)) (layout 0 V) (put buf 0 V.flatten))

/-- A flush; `wait`: block even on a non-blocking handle. -/
def flush (sp : Spec) (k : Nat) (h : SHandle) (wait : Bool) (env : Env) : Spec × SHandle × WRes :=
  if h.pend = [] then (sp, h, .ret 0)
  else
    let toggled := h.flags.has SHR_NONBLOCK && wait
    if toggled = true ∧ h.canWait = false ∧ (env.lockOk = false ∨ env.bwOpenOk = false) then
      (sp, h, .ret (-1))
    else
      let x := sp.tryWrite k (h.flags.has SHR_NONBLOCK && !wait) h.pend env
      let h1 := { h with canWait := h.canWait || toggled }
      (x.1, match x.2 with
        | .ret rc => if rc > 0 then { h1 with pend := [] } else h1
        | .wait => h1, x.2)

/-- How many bytes a buffered writer may hold back: a tenth of the ring, at most 1 GB; all of it, if a tenth is less than 1 KB. -/
def holdBytes (cap : Nat) : Nat := if cap < 10240 then cap else min (cap / 10) 1073741824

/-- Opening succeeds or not. -/
def openH (sp : Spec) (flags : Flags) (env : Env) : Option SHandle :=
  let buffered := flags.has SHR_WRONLY && flags.has SHR_BUFFERED
  if env.lockOk = false ∨ (sp.gflags.has SHR_MLOCK ∧ env.mlockOk = false) ∨ env.bwOpenOk = false ∨
      (buffered = true ∧ env.mallocOk = false) ∨ (sp.gflags.has SHR_SYNC ∧ env.syncOk = false) then none
  else some {
    flags := flags, pos := sp.base, missed := 0, pend := []
    csz := if buffered then holdBytes sp.cap else 0
    cvt := if buffered then min 10000 sp.maxm else 0
    canWait := flags.has SHR_RDONLY ||
      (flags.has SHR_WRONLY && (!flags.has SHR_NONBLOCK && !sp.drop)) }

/-- What `shr_stat` reports. -/
def statOf (sp : Spec) (h : SHandle) : Stat where
  start := sp.st.start
  bw := sp.st.bw % W
  br := sp.st.br % W
  mw := sp.st.mw % W
  mr := sp.st.mr % W
  md := sp.st.md % W
  bd := sp.st.bd % W
  bn := sp.cap
  bu := bytesOf sp.unread
  mu := sp.unread.length
  mm := sp.maxm
  cn := h.csz
  cm := h.pend.length
  cb := bytesOf h.pend
  flags := sp.gflags

/-- App data: a register of fixed size. -/
def appdata (sp : Spec) (get : GetArg) (set : Option (List Byte)) (sz : Nat) (env : Env) :
    Spec × AppOut :=
  let rc : Int := if sp.gflags.has SHR_SYNC ∧ env.syncOk = false then -1 else 0
  if env.lockOk = false ∨ sp.app.length = 0 then (sp, ⟨-1, none, sz⟩)
  else match get, set with
    | .alloc, none =>
      if env.mallocOk = false then (sp, ⟨-1, none, sp.app.length⟩)
      else (sp, ⟨rc, some sp.app, sp.app.length⟩)
    | .into _, none =>
      if sz < sp.app.length then (sp, ⟨-1, none, sz⟩) else (sp, ⟨rc, some sp.app, sp.app.length⟩)
    | .null, some b =>
      if sz ≠ sp.app.length then (sp, ⟨-1, none, sz⟩) else ({ sp with app := b.take sz }, ⟨rc, none, sz⟩)
    | .into _, some b =>
      if sz ≠ sp.app.length then (sp, ⟨-1, none, sz⟩)
      else ({ sp with app := b.take sz }, ⟨rc, some sp.app, sz⟩)
    | .null, none => (sp, ⟨rc, none, sz⟩)
    | .alloc, some _ => (sp, ⟨rc, none, sz⟩)

/-- One API call. -/
def step (sp : Spec) : Op → Spec × Out
  | .open k flags env =>
    match sp.hs k with
    | .never =>
      if validate_flags flags = false then (sp, .opened false)
      else match sp.openH flags env with
        | none => (sp, .opened false)
        | some h => ({ sp with hs := upd sp.hs k (.live h) }, .opened true)
    | _ => (sp, .misuse)
  | .writev k iov envF env =>
    match sp.hs k with
    | .live h =>
      if h.flags.has SHR_WRONLY = false then (sp, .misuse)
      else
        let x := sp.writev k h iov envF env
        ({ x.1 with hs := upd sp.hs k (.live x.2.1) }, x.2.2.out)
    | _ => (sp, .misuse)
  | .readv k buf niov env =>
    match sp.hs k with
    | .live h =>
      if h.flags.has SHR_RDONLY = false then (sp, .misuse)
      else
        let x := sp.readv h buf niov env
        ({ x.1 with hs := upd sp.hs k (.live x.2.1) }, x.2.2)
    | _ => (sp, .misuse)
  | .flush k wait env =>
    match sp.hs k with
    | .live h =>
      if h.flags.has SHR_WRONLY = false then (sp, .misuse)
      else
        let x := sp.flush k h wait env
        ({ x.1 with hs := upd sp.hs k (.live x.2.1) }, x.2.2.out)
    | _ => (sp, .misuse)
  | .close k env =>
    match sp.hs k with
    | .live h =>
      let x := sp.flush k h false env
      match x.2.2 with
      | .wait => (x.1, .blocked)
      | .ret _ => ({ x.1 with hs := upd sp.hs k (.gone x.2.1.pend) }, .closed)
    | _ => (sp, .misuse)
  | .stat k reset env =>
    match sp.hs k with
    | .live h =>
      if env.lockOk = false then (sp, .stat (-1) none)
      else
        (match reset with
          | some t => { sp with st := { start := t } }
          | none => sp,
         .stat (if sp.gflags.has SHR_SYNC ∧ env.syncOk = false then -1 else 0) (some (sp.statOf h)))
    | _ => (sp, .misuse)
  | .farmStat k reset =>
    match sp.hs k with
    | .live h =>
      if h.flags.has SHR_RDONLY = false then (sp, .misuse)
      else ({ sp with hs := upd sp.hs k (.live (if reset then { h with missed := 0 } else h)) },
        .farm (h.missed % W))
    | _ => (sp, .misuse)
  | .appdata k get set sz env =>
    match sp.hs k with
    | .live _ =>
      let x := sp.appdata get set sz env
      (x.1, .app x.2)
    | _ => (sp, .misuse)

/-- A history. -/
def run : Spec → List Op → Spec × List Out
  | sp, [] => (sp, [])
  | sp, op :: ops =>
    let x := sp.step op
    let y := x.1.run ops
    (y.1, x.2 :: y.2)

/-- A freshly created ring. -/
def init (a : InitArgs) : Spec where
  cap := a.dataSz
  maxm := a.max_msgs
  gflags := a.gflags
  tlog := []
  base := 0
  first := 0
  st := {}
  app := if a.flags.has SHR_APPDATA_1 then a.app else []
  hs := fun _ => .never

end Spec
end Shr
