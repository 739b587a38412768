import Verif.Model.Wake
import Verif.Model.BwKill
import Verif.Model.Crash
import Verif.Spec.Consistent
/-!
# Processes killed inside a call, seen by the whole system

`Model/Crash.lean` says in which states a killed process can leave the ring, `Model/BwKill.lean` in which states it can
leave a block/wake handle and the sockets.  Here both are put together.  The two are not tied to each other: any of
the ring's states during the call goes with any of the block/wake states during the call, which is more than
can happen (a block/wake call is made when the ring is in the state that belongs to it).
-/
namespace Shr

/-- `b'` is what is left of the block/wake state `b` if process `p` dies while it makes the calls `ops` one after the other: between
two calls, or inside one (`BSys.Killed`). -/
inductive BSys.Cut (p : Nat) : BSys → List BOp → BSys → Prop where
  | between (b : BSys) (ops : List BOp) : Cut p b ops (b.exit p)
  | inside {b b' : BSys} {op : BOp} (ops : List BOp) : b.caller op = p → b.Killed op b' → Cut p b (op :: ops) b'
  | later {b b' : BSys} {op : BOp} {ops : List BOp} : Cut p (b.step op).1 ops b' → Cut p b (op :: ops) b'

/-- The handle through which the step is made. -/
def WOp.actor : WOp → Nat
  | .call op _ => op.handle
  | .wakeup k _ => k
  | .resume k _ _ => k
  | .interrupt k _ _ => k
  | .kill _ => 0

namespace WSys

/-- The system after the death of process `p`, which leaves the ring as `r` and the block/wake state as `b'`.  Its handles are gone,
and its calls. -/
def corpse (w : WSys) (pid : Nat → Nat) (p : Nat) (r : Ring) (b' : BSys) : WSys where
  sys := { ring := r, hs := (w.sys.discard (fun j => pid j == p)).hs }
  b := b'
  blk := fun j => match w.sys.hs j with
    | .live _ => if pid j = p then none else w.blk j
    | _ => w.blk j

/-- The process that makes the step `x` is killed while it does so, at a moment at which the ring's control block is consistent.  `ops`
are the block/wake calls that the step would have made. -/
inductive Dies (pid : Nat → Nat) : WSys → WOp → List BOp → WSys → Prop where
  | call {w w1 : WSys} {op : Op} {os : WOs} {o : Out} {ops : List BOp} {r : Ring} {b' : BSys} : w.Callable op →
      w.attempt pid op os = some (w1, o, ops) → r ∈ w.sys.points (w.fill pid os op) → r.Consistent → BSys.Cut (pid op.handle) w.b ops b' →
      Dies pid w (.call op os) ops (w.corpse pid (pid op.handle) r b')
  | resume {w w1 : WSys} {k : Nat} {op : Op} {env : Env} {os : WOs} {o : Out} {ops : List BOp} {r : Ring} {b' : BSys} : w.blk k = some (op, true) →
      w.attempt pid (op.withEnv env) os = some (w1, o, ops) → r ∈ w.sys.points (w.fill pid os (op.withEnv env)) → r.Consistent →
      BSys.Cut (pid k) w.b ops b' → Dies pid w (.resume k env os) ops (w.corpse pid (pid k) r b')
  | wakeup {w : WSys} {k : Nat} {op : Op} {os : Os} {b' : BSys} : w.blk k = some (op, false) → BSys.Cut (pid k) w.b [.ready op.waitsOn os] b' →
      Dies pid w (.wakeup k os) [.ready op.waitsOn os] (w.corpse pid (pid k) w.sys.ring b')
  | interrupt {w : WSys} {k : Nat} {op : Op} {e : WaitErr} {os : WOs} {ops : List BOp} {b' : BSys} : w.blk k = some (op, false) →
      ops = (if gaveUp e op = .closed ∧ os.lock2 = true then [.close (2 * k), .close (2 * k + 1)] else []) → BSys.Cut (pid k) w.b ops b' →
      Dies pid w (.interrupt k e os) ops (w.corpse pid (pid k) w.sys.ring b')

end WSys
end Shr
