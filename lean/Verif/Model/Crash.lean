import Verif.Spec.Observe
/-!
# Crash points

A process can be killed at any moment inside a call.  The kernel then releases its file lock and
nothing else happens: the mapped file stays as the stores made so far have left it.
-/
namespace Shr

/-- The states in which the shared ring can be found if the caller of `op` is killed during the call:
before the first store, between any two stores, or after the last one.  Each case runs the same
function as `Sys.step` (`Model/Sys.lean`); the result is ignored. -/
def Sys.points (s : Sys) : Op → List Ring
  | .open _ _ _ => [s.ring]
  | .writev k iov envF env =>
    match s.hs k with
    | .live h => if h.flags.has SHR_WRONLY = false then [s.ring] else (shr_writev h iov envF env s.ring).points
    | _ => [s.ring]
  | .readv k buf niov env =>
    match s.hs k with
    | .live h => if h.flags.has SHR_RDONLY = false then [s.ring] else (shr_readv h buf buf.length niov env s.ring).points
    | _ => [s.ring]
  | .flush k wait env =>
    match s.hs k with
    | .live h => if h.flags.has SHR_WRONLY = false then [s.ring] else (shr_flush h wait env s.ring).points
    | _ => [s.ring]
  | .close k env =>
    match s.hs k with
    | .live h => (shr_close h env s.ring).points
    | _ => [s.ring]
  | .stat k reset env =>
    match s.hs k with
    | .live h => (shr_stat h reset env s.ring).points
    | _ => [s.ring]
  | .farmStat k reset =>
    match s.hs k with
    | .live h => if h.flags.has SHR_RDONLY = false then [s.ring] else (shr_farm_stat h reset s.ring).points
    | _ => [s.ring]
  | .appdata k get set sz env =>
    match s.hs k with
    | .live _ => (shr_appdata get set sz env s.ring).points
    | _ => [s.ring]

/-- The system after the process that made the call `op` was killed when the ring was `p`: its handle
is gone, everybody else goes on. -/
def Sys.killed (s : Sys) (op : Op) (p : Ring) : Sys := ⟨p, upd s.hs op.handle (.gone ())⟩

end Shr
