import Verif.Model.Api
/-!
# A ring and its users: histories of API calls

`shr_init` fixes the initial contents (`initRing`); then any number of handles, in any number of
processes, are opened, used and closed.  Calls are atomic here (each one runs under the file lock;
`Proof/Conc.lean` justifies this for interleavings of single stores).
-/
namespace Shr

/-! ## Creation -/

/-- `sizeof(struct msg)` on LP64, src/shr.c:25-28. -/
def SIZEOF_MSG : Nat := 16
/-- `sizeof(void*)` on LP64. -/
def SIZEOF_PTR : Nat := 8

/-- Arguments of `shr_init`, src/shr.c:202; `app` and `maxMsgs` are the variadic arguments, consulted
only if the corresponding flag is set. -/
structure InitArgs where
  dataSz : Nat
  flags : Flags := 0#32
  app : List Byte := []
  maxMsgs : Nat := 0
  deriving DecidableEq, Repr

namespace InitArgs
/-- `appsize`, src/shr.c:215-218. -/
def appsize (a : InitArgs) : Nat := if a.flags.has SHR_APPDATA_1 then a.app.length else 0
/-- `max_msgs`, src/shr.c:224-227. -/
def max_msgs (a : InitArgs) : Nat :=
  let m := if a.flags.has SHR_MAXMSGS_2 then a.maxMsgs else 0
  if m = 0 then wadd 100 (a.dataSz / 100) else m
/-- `mv_bytes`, src/shr.c:228. -/
def mv_bytes (a : InitArgs) : Nat := wmul a.max_msgs SIZEOF_MSG
/-- `pad`, src/shr.c:249-250. -/
def pad (a : InitArgs) : Nat :=
  if a.dataSz % SIZEOF_PTR ≠ 0 then wsub SIZEOF_PTR (a.dataSz % SIZEOF_PTR) else 0
/-- `r->gflags`, src/shr.c:283-287. -/
def gflags (a : InitArgs) : Flags :=
  let g := 0#32
  let g := if a.flags.has SHR_SYNC then g ||| SHR_SYNC else g
  let g := if a.flags.has SHR_DROP then g ||| SHR_DROP else g
  let g := if a.flags.has SHR_FARM then g ||| (SHR_FARM ||| SHR_DROP) else g
  if a.flags.has SHR_MLOCK then g ||| SHR_MLOCK else g
end InitArgs

/-- The ring as `shr_init` leaves it in a fresh file, src/shr.c:275-290: everything is zero except the
fields set there.  The message vector has as many slots as `mv_bytes` has room for. -/
def initRing (a : InitArgs) : Ring where
  gflags := a.gflags
  n := a.dataSz
  i := 0
  u := 0
  m := 0
  mp := 0
  r := 0
  e := 0
  q := 0
  stat := {}
  mm := a.max_msgs
  mv_len := a.mv_bytes
  pad_len := a.pad
  app_len := a.appsize
  d := List.replicate a.dataSz 0
  mv := List.replicate (a.mv_bytes / SIZEOF_MSG) ⟨0, 0⟩
  app := if a.flags.has SHR_APPDATA_1 then a.app else []

/-! ## Histories -/

/-- API calls.  The first argument identifies the handle; `buf` is the caller's buffer. -/
inductive Op where
  | open (h : Nat) (flags : Flags) (env : Env)
  | writev (h : Nat) (iov : List Msg) (envF env : Env)
  | readv (h : Nat) (buf : List Byte) (niov : Nat) (env : Env)
  | flush (h : Nat) (wait : Bool) (env : Env)
  | close (h : Nat) (env : Env)
  | stat (h : Nat) (reset : Option Timeval) (env : Env)
  | farmStat (h : Nat) (reset : Bool)
  | appdata (h : Nat) (get : GetArg) (set : Option (List Byte)) (sz : Nat) (env : Env)
  deriving DecidableEq, Repr

/-- What the caller observes. `misuse` is not a library result: it marks a call the client is not
entitled to make (handle not open, read on a handle without SHR_RDONLY, write or flush on one without
SHR_WRONLY, handle number used before); the call is not made. `blocked`: the call is waiting. -/
inductive Out where
  | opened (ok : Bool)
  | wrote (rc : Int)
  | read (rc : Int) (iov : List (Nat × Nat)) (buf : List Byte)
  | closed
  | stat (rc : Int) (st : Option Stat)
  | farm (n : Nat)
  | app (o : AppOut)
  | blocked
  | misuse
  deriving DecidableEq, Repr

/-- Life of a handle number. -/
inductive Life (α β : Type) where
  | never
  | live (h : α)
  | gone (b : β)

/-- Shared ring and the handles of all processes. -/
structure Sys where
  ring : Ring
  hs : Nat → Life Handle Unit

/-- Function update. -/
def upd {α : Type} (f : Nat → α) (k : Nat) (v : α) : Nat → α := fun j => if j = k then v else f j

/-- Run a ring operation to completion. -/
def exec {α : Type} (x : M Ring α) (r : Ring) : Except Fault (α × Ring) :=
  match (x r).res with
  | .ok a r' => .ok (a, r')
  | .abort _ => .error .abort
  | .ub => .error .ub
  | .hang => .error .hang

def WrOut.out : WrOut → Out
  | .ret rc _ => .wrote rc
  | .wait => .blocked

def RdOut.out : RdOut → Out
  | .ret rc iov buf _ _ => .read rc iov buf
  | .wait => .blocked

/-- One API call. -/
def Sys.step (s : Sys) : Op → Except Fault (Sys × Out)
  | .open k flags env =>
    match s.hs k with
    | .never =>
      if validate_flags flags = false then .ok (s, .opened false)
      else match openLocked s.ring flags env with
        | none => .ok (s, .opened false)
        | some h => .ok ({ s with hs := upd s.hs k (.live h) }, .opened true)
    | _ => .ok (s, .misuse)
  | .writev k iov envF env =>
    match s.hs k with
    | .live h =>
      if h.flags.has SHR_WRONLY = false then .ok (s, .misuse)
      else match exec (shr_writev h iov envF env) s.ring with
        | .error f => .error f
        | .ok ((h', o), r) => .ok (⟨r, upd s.hs k (.live h')⟩, o.out)
    | _ => .ok (s, .misuse)
  | .readv k buf niov env =>
    match s.hs k with
    | .live h =>
      if h.flags.has SHR_RDONLY = false then .ok (s, .misuse)
      else match exec (shr_readv h buf buf.length niov env) s.ring with
        | .error f => .error f
        | .ok ((h', o), r) => .ok (⟨r, upd s.hs k (.live h')⟩, o.out)
    | _ => .ok (s, .misuse)
  | .flush k wait env =>
    match s.hs k with
    | .live h =>
      if h.flags.has SHR_WRONLY = false then .ok (s, .misuse)
      else match exec (shr_flush h wait env) s.ring with
        | .error f => .error f
        | .ok ((h', o), r) => .ok (⟨r, upd s.hs k (.live h')⟩, o.out)
    | _ => .ok (s, .misuse)
  | .close k env =>
    match s.hs k with
    | .live h =>
      match exec (shr_close h env) s.ring with
      | .error f => .error f
      | .ok (.wait, r) => .ok (⟨r, s.hs⟩, .blocked)
      | .ok (.ret _ _, r) => .ok (⟨r, upd s.hs k (.gone ())⟩, .closed)
    | _ => .ok (s, .misuse)
  | .stat k reset env =>
    match s.hs k with
    | .live h =>
      match exec (shr_stat h reset env) s.ring with
      | .error f => .error f
      | .ok ((rc, st), r) => .ok (⟨r, s.hs⟩, .stat rc st)
    | _ => .ok (s, .misuse)
  | .farmStat k reset =>
    match s.hs k with
    | .live h =>
      if h.flags.has SHR_RDONLY = false then .ok (s, .misuse)
      else match exec (shr_farm_stat h reset) s.ring with
        | .error f => .error f
        | .ok ((h', n), r) => .ok (⟨r, upd s.hs k (.live h')⟩, .farm n)
    | _ => .ok (s, .misuse)
  | .appdata k get set sz env =>
    match s.hs k with
    | .live _ =>
      match exec (shr_appdata get set sz env) s.ring with
      | .error f => .error f
      | .ok (o, r) => .ok (⟨r, s.hs⟩, .app o)
    | _ => .ok (s, .misuse)

/-- A history: the calls are made one after another; the result lists what each call returned. -/
def Sys.run : Sys → List Op → Except Fault (Sys × List Out)
  | s, [] => .ok (s, [])
  | s, op :: ops =>
    match s.step op with
    | .error f => .error f
    | .ok (s', o) =>
      match s'.run ops with
      | .error f => .error f
      | .ok (s'', os) => .ok (s'', o :: os)

/-- The state right after `shr_init`. -/
def Sys.init (a : InitArgs) : Sys := ⟨initRing a, fun _ => .never⟩

end Shr
