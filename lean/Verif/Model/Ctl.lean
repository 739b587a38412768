import Verif.Spec.Observe
/-!
# shr_ctl and the epoll set of a waiting call

`shr_ctl(s, SHR_POLLFD, fd)` adds a descriptor to the epoll set in which calls on the handle wait.  Each handle waits in at most one
such set: that of `s->w2r` for a reader, that of `s->r2w` for a writer (`Op.waitsOn` in `Model/Wake.lean`).  Besides the added
descriptors the set contains the listening socket.
-/
namespace Shr

/-- The ring, and for each handle the descriptors that were added to the set in which its calls wait. -/
structure CtlSys where
  sys : Sys
  ep : Nat → List Nat := fun _ => []

/-- A call of the library, or of `shr_ctl`; `ok`: `epoll_ctl` succeeds (it fails for instance if the descriptor is in the set already). -/
inductive COp where
  | api (op : Op)
  | ctl (k : Nat) (flag : Flags) (fd : Nat) (ok : Bool)

inductive COut where
  | api (o : Out)
  | ctl (rc : Int)
  deriving DecidableEq, Repr

/-- The handle has the block/wake handle with the epoll set: the conditions in src/shr.c:1207-1208. -/
def Handle.hasSet (h : Handle) : Bool := (h.flags.has SHR_WRONLY && h.hasR2w) || h.flags.has SHR_RDONLY

/-- One call.  `shr_ctl`, src/shr.c:1194-1226, with `bw_ctl`, lib/bw.c:757-790: see also `Shr.shr_ctl` in `Model/Api.lean`, which
gives the return value.  (A new handle waits in a new set; handle numbers are not used again.) -/
def CtlSys.step (c : CtlSys) : COp → Except Fault (CtlSys × COut)
  | .api op =>
    match c.sys.step op with
    | .error f => .error f
    | .ok (s, o) => .ok ({ c with sys := s }, .api o)
  | .ctl k flag fd ok =>
    match c.sys.hs k with
    | .live h =>
      .ok (if flag = SHR_POLLFD ∧ h.hasSet = true ∧ ok = true then { c with ep := upd c.ep k (fd :: c.ep k) } else c,
        .ctl (shr_ctl h flag ok))
    | _ => .ok (c, .api .misuse)

/-- What `epoll_wait` sees during a call: the descriptors that are ready, and whether the listening socket is. -/
structure Polls where
  ready : Nat → Bool
  dgram : Bool

/-- `bw_wait_ul` returns -3 in this call (if it is called). -/
def Op.interrupted : Op → Bool
  | .writev _ _ envF env => decide (envF.waitRc = some .pollfd) || decide (env.waitRc = some .pollfd)
  | .readv _ _ _ env => decide (env.waitRc = some .pollfd)
  | .flush _ _ env => decide (env.waitRc = some .pollfd)
  | .close _ env => decide (env.waitRc = some .pollfd)
  | _ => false

/-- `bw_wait_ul`, lib/bw.c:556-594, and `epoll_wait`: it is -3 only if `epoll_wait` has returned a descriptor other than the listening socket,
and this is in the set and ready; and `epoll_wait` does not sleep while a descriptor in the set is ready (a call that is
still waiting is `blocked`; so is one that has been woken by a datagram and will attempt again). -/
def EpollFits (c : CtlSys) (p : Polls) (op : Op) (o : Out) : Prop :=
  (op.interrupted = true → ∃ fd ∈ c.ep op.handle, p.ready fd = true) ∧
  (o = .blocked → p.dgram = true ∨ ∀ fd ∈ c.ep op.handle, p.ready fd = false)

/-- Histories. -/
inductive CtlRun (a : InitArgs) : CtlSys → List (COp × Polls × COut) → Prop
  | init : CtlRun a ⟨Sys.init a, fun _ => []⟩ []
  | api {c c' : CtlSys} {hist : List (COp × Polls × COut)} {op : Op} {o : Out} {p : Polls} :
      CtlRun a c hist → c.step (.api op) = .ok (c', .api o) → EpollFits c p op o → CtlRun a c' (hist ++ [(.api op, p, .api o)])
  | ctl {c c' : CtlSys} {hist : List (COp × Polls × COut)} {k : Nat} {flag : Flags} {fd : Nat} {ok : Bool} {o : COut} {p : Polls} :
      CtlRun a c hist → c.step (.ctl k flag fd ok) = .ok (c', o) → CtlRun a c' (hist ++ [(.ctl k flag fd ok, p, o)])

/-- The calls in a history other than those of `shr_ctl`. -/
def apiOps (hist : List (COp × Polls × COut)) : List Op := hist.filterMap fun x => match x.1 with
  | .api op => some op
  | _ => none

end Shr
