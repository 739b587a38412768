import Verif.Model.Crash
/-!
# Power failures on SHR_SYNC rings

The kernel writes modified pages of the mapped file to the disk whenever it likes; `msync(MS_SYNC)` writes all of them and returns when they
are there.  `shr_sync` (src/shr.c:174-186) calls it on SHR_SYNC rings.  The definitions in this file follow the calls of `Model/Ring.lean` and
`Model/Api.lean` once more and say when they reach `shr_sync`: each takes `clean`, whether the file has not been changed since the last
successful `msync`, and returns the same for the moment when the call ends.
-/
namespace Shr
open M

/-- One pass of `shr_writev` under the lock, src/shr.c:925-1013: the ring is changed if there is room or the ring is in DROP mode (931, 935); the
counters are changed (1006-1007) before `shr_sync` (1008), which is not reached if `bw_wake` fails (1004-1005). -/
def attemptSync (r : Ring) (len niov : Nat) (env : Env) (clean : Bool) : Bool :=
  if env.lockOk = false then clean
  else if (wsub r.n r.u ≥ len ∧ wsub r.mm r.m ≥ niov) ∨ r.gflags.has SHR_DROP = true then
    env.wakeOk && (r.gflags.has SHR_SYNC && env.syncOk)
  else clean

/-- `shr_writev` on an unbuffered handle, src/shr.c:877-1014. -/
def directSync (sn smm : Nat) (iov : List Msg) (env : Env) (r : Ring) (clean : Bool) : Bool :=
  match lenCheck sn smm (iov.map List.length) with
  | none => clean
  | some len => attemptSync r len iov.length env clean

/-- Flushing the cache, src/shr.c:917-919 and 1130-1132. -/
def flushCacheSync (h : Handle) (env : Env) (r : Ring) (clean : Bool) : Bool :=
  match cacheRead h.c.buf (h.c.iov.take h.c.vm) with
  | .error _ => clean
  | .ok msgs => directSync h.n h.mm msgs env r clean

/-- The loop `while (s->flags & SHR_BUFFERED)` of `shr_writev`, src/shr.c:897-923.  The second component is the ring if the loop is
left for an unbuffered write. -/
def cacheLoopSync (iov : List Msg) (len : Nat) (envF : Env) : Nat → Handle → Ring → Bool → Bool × Option Ring
  | 0, _, _, clean => (clean, none)
  | fuel + 1, h, r, clean =>
    if h.flags.has SHR_BUFFERED = false then (clean, some r)
    else if len ≤ wsub h.c.sz h.c.n ∧ iov.length ≤ wsub h.c.vt h.c.vm then (clean, none)
    else if h.c.n = 0 then (clean, some r)
    else match exec (flushCache h envF) r with
      | .ok (.ret rc _, r') =>
        if rc ≤ 0 then (flushCacheSync h envF r clean, none)
        else cacheLoopSync iov len envF fuel { h with c := { h.c with n := 0, vm := 0 } } r' (flushCacheSync h envF r clean)
      | _ => (flushCacheSync h envF r clean, none)

/-- `shr_writev`, src/shr.c:877-1014. -/
def writevSync (h : Handle) (iov : List Msg) (envF env : Env) (r : Ring) (clean : Bool) : Bool :=
  match lenCheck h.n h.mm (iov.map List.length) with
  | none => clean
  | some len =>
    match cacheLoopSync iov len envF 2 h r clean with
    | (c, none) => c
    | (c, some r') => attemptSync r' len iov.length env c

/-- `shr_readv`, src/shr.c:784-858: `shr_sync` (852) follows the last store (847-848) whenever a message was available. -/
def readvSync (h : Handle) (len niov : Nat) (env : Env) (r : Ring) (clean : Bool) : Bool :=
  if len = 0 ∨ niov = 0 ∨ env.lockOk = false then clean
  else match next_msg_info r h.cur with
    | .ok (_, some _) => r.gflags.has SHR_SYNC && env.syncOk
    | _ => clean

/-- `shr_flush`, src/shr.c:1104-1142. -/
def flushSync (h : Handle) (wait : Bool) (env : Env) (r : Ring) (clean : Bool) : Bool :=
  if h.c.n = 0 then clean
  else if (h.flags.has SHR_NONBLOCK && wait) = true ∧ h.hasR2w = false ∧ (env.lockOk = false ∨ env.bwOpenOk = false) then clean
  else flushCacheSync h env r clean

/-- `shr_close`, src/shr.c:1156-1177. -/
def closeSync (h : Handle) (env : Env) (r : Ring) (clean : Bool) : Bool :=
  if h.c.n ≠ 0 then flushSync h false env r clean else clean

/-- `shr_stat`, src/shr.c:315-349: the stores of a reset (337-340), then `shr_sync` (342). -/
def statSync (reset : Option Timeval) (env : Env) (r : Ring) (clean : Bool) : Bool :=
  if env.lockOk = false then clean
  else if r.gflags.has SHR_SYNC && env.syncOk then true
  else if reset.isSome then false
  else clean

/-- `shr_appdata`, src/shr.c:1041-1084: `shr_sync` (1078) follows the copying. -/
def appdataSync (get : GetArg) (set : Option (List Byte)) (sz : Nat) (env : Env) (r : Ring) (clean : Bool) : Bool :=
  if env.lockOk = false then clean
  else if r.app_len = 0 then clean
  else match get, set with
    | .alloc, none => if env.mallocOk = false then clean else if r.gflags.has SHR_SYNC && env.syncOk then true else clean
    | .into _, none => if sz < r.app_len then clean else if r.gflags.has SHR_SYNC && env.syncOk then true else clean
    | .null, some _ => if sz ≠ r.app_len then clean else r.gflags.has SHR_SYNC && env.syncOk
    | .into _, some _ => if sz ≠ r.app_len then clean else r.gflags.has SHR_SYNC && env.syncOk
    | .null, none => if r.gflags.has SHR_SYNC && env.syncOk then true else clean
    | .alloc, some _ => if r.gflags.has SHR_SYNC && env.syncOk then true else clean

/-- `shr_open`, src/shr.c:549-637: `shr_sync` (611) is the last step that can fail. -/
def openSync (r : Ring) (flags : Flags) (env : Env) (clean : Bool) : Bool :=
  match openLocked r flags env with
  | none => clean
  | some _ => r.gflags.has SHR_SYNC || clean

/-- Any call (the cases are those of `Sys.step`). -/
def Sys.syncAfter (s : Sys) (clean : Bool) : Op → Bool
  | .open k flags env =>
    match s.hs k with
    | .never => if validate_flags flags = false then clean else openSync s.ring flags env clean
    | _ => clean
  | .writev k iov envF env =>
    match s.hs k with
    | .live h => if h.flags.has SHR_WRONLY = false then clean else writevSync h iov envF env s.ring clean
    | _ => clean
  | .readv k buf niov env =>
    match s.hs k with
    | .live h => if h.flags.has SHR_RDONLY = false then clean else readvSync h buf.length niov env s.ring clean
    | _ => clean
  | .flush k wait env =>
    match s.hs k with
    | .live h => if h.flags.has SHR_WRONLY = false then clean else flushSync h wait env s.ring clean
    | _ => clean
  | .close k env =>
    match s.hs k with
    | .live h => closeSync h env s.ring clean
    | _ => clean
  | .stat k reset env =>
    match s.hs k with
    | .live _ => statSync reset env s.ring clean
    | _ => clean
  | .farmStat _ _ => clean
  | .appdata k get set sz env =>
    match s.hs k with
    | .live _ => appdataSync get set sz env s.ring clean
    | _ => clean

/-- A successful `msync` is the last thing the call does to the file. -/
def Sys.synced (s : Sys) (op : Op) : Bool := s.syncAfter false op

/-- A ring in use on a machine that may lose power: its users, and the contents the mapped file has had since the last successful `msync`. -/
structure Power where
  sys : Sys
  imgs : List Ring

/-- One call. -/
def Power.step (x : Power) (op : Op) : Except Fault (Power × Out) :=
  match x.sys.step op with
  | .error f => .error f
  | .ok (s, o) => .ok (⟨s, if x.sys.synced op then [s.ring] else x.imgs ++ x.sys.points op⟩, o)

/-- A sequence of calls. -/
def Power.run (x : Power) : List Op → Except Fault (Power × List Out)
  | [] => .ok (x, [])
  | op :: ops =>
    match x.step op with
    | .error f => .error f
    | .ok (y, o) =>
      match y.run ops with
      | .error f => .error f
      | .ok (z, os) => .ok (z, o :: os)

end Shr
