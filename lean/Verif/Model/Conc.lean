import Verif.Spec.Observe
/-!
# Processes running concurrently

Here a call is not atomic: it runs as a program of single loads and stores on the mapped file, and the
steps of all processes interleave in any order.  The only synchronisation is the file lock
(`lock`/`unlock`, src/shr.c:109-147: `fcntl(F_SETLKW)` on the whole file): at most one *process* holds it.
(POSIX record locks belong to processes: threads of one process do not exclude each other, so each
process makes one call at a time here, as the library requires.)

Where each call takes the lock: `shr_stat` 318-347, `shr_open` 591-615, `shr_readv` 800-855 (813: released
before waiting), `shr_writev` 926-1012 (943: released before waiting), `shr_appdata` 1046-1082;
`shr_farm_stat` 363-372 and the caching branch of `shr_writev` 901-911 do not touch the ring and do not
take the lock; nor does any call before the lock or if the lock fails.
-/
namespace Shr

/-- Programs of loads, stores and local steps on shared memory. -/
inductive Prog (σ α : Type) : Type where
  | ret (a : α)
  | load (k : σ → Prog σ α)
  | store (f : σ → σ) (k : Prog σ α)
  | abort
  | fail (f : Fault)

namespace Prog
variable {σ α β : Type}

/-- What a program does when it is not disturbed. -/
def denote : Prog σ α → M σ α
  | ret a => fun s => ⟨[], .ok a s⟩
  | load k => fun s => (k s).denote s
  | store f k => fun s => ⟨s :: (k.denote (f s)).trace, (k.denote (f s)).res⟩
  | abort => fun s => ⟨[], .abort s⟩
  | fail .abort => fun s => ⟨[], .abort s⟩
  | fail .ub => fun _ => ⟨[], .ub⟩
  | fail .hang => fun _ => ⟨[], .hang⟩

end Prog

/-- What a call does to its handle and the ring, and what it returns (the same functions as in
`Sys.step`; `opSec_step` in `Proof/Conc.lean` proves that they agree). -/
def opSec (l : Life Handle Unit) : Op → M Ring (Life Handle Unit × Out)
  | .open _ flags env =>
    match l with
    | .never =>
      if validate_flags flags = false then pure (l, .opened false)
      else if env.lockOk = false then pure (l, .opened false)
      else do
        let r ← M.get
        match openLocked r flags env with
        | none => pure (l, .opened false)
        | some h => pure (.live h, .opened true)
    | _ => pure (l, .misuse)
  | .writev _ iov envF env =>
    match l with
    | .live h =>
      if h.flags.has SHR_WRONLY = false then pure (l, .misuse)
      else do
        let x ← shr_writev h iov envF env
        pure (.live x.1, x.2.out)
    | _ => pure (l, .misuse)
  | .readv _ buf niov env =>
    match l with
    | .live h =>
      if h.flags.has SHR_RDONLY = false then pure (l, .misuse)
      else do
        let x ← shr_readv h buf buf.length niov env
        pure (.live x.1, x.2.out)
    | _ => pure (l, .misuse)
  | .flush _ wait env =>
    match l with
    | .live h =>
      if h.flags.has SHR_WRONLY = false then pure (l, .misuse)
      else do
        let x ← shr_flush h wait env
        pure (.live x.1, x.2.out)
    | _ => pure (l, .misuse)
  | .close _ env =>
    match l with
    | .live h => do
      let x ← shr_close h env
      match x with
      | .wait => pure (l, .blocked)
      | .ret _ _ => pure (.gone (), .closed)
    | _ => pure (l, .misuse)
  | .stat _ reset env =>
    match l with
    | .live h => do
      let x ← shr_stat h reset env
      pure (l, .stat x.1 x.2)
    | _ => pure (l, .misuse)
  | .farmStat _ reset =>
    match l with
    | .live h =>
      if h.flags.has SHR_RDONLY = false then pure (l, .misuse)
      else do
        let x ← shr_farm_stat h reset
        pure (.live x.1, .farm x.2)
    | _ => pure (l, .misuse)
  | .appdata _ get set sz env =>
    match l with
    | .live _ => do
      let x ← shr_appdata get set sz env
      pure (l, .app x)
    | _ => pure (l, .misuse)

/-- A write on a buffered handle that must flush first (src/shr.c:914-922): it goes through two critical
sections, that of the flush and its own. -/
def needsFlush (l : Life Handle Unit) : Op → Bool
  | .writev _ iov _ _ =>
    match l with
    | .live h => h.flags.has SHR_WRONLY && h.flags.has SHR_BUFFERED && decide (h.c.n ≠ 0) &&
        (match lenCheck h.n h.mm (iov.map List.length) with
         | none => false
         | some len => !decide (len ≤ wsub h.c.sz h.c.n ∧ iov.length ≤ wsub h.c.vt h.c.vm))
    | _ => false
  | _ => false

/-- State of a process. -/
inductive PSt where
  /-- between calls -/
  | idle
  /-- has called the library and waits for the lock -/
  | want (op : Op)
  /-- holds the lock; `rest` is what remains to be done -/
  | inside (op : Op) (rest : Prog Ring (Life Handle Unit × Out))
  /-- has released the lock and is about to return `o` -/
  | leaving (op : Op) (o : Out)

/-- What the outside sees. -/
inductive Event where
  | call (p : Nat) (op : Op)
  | ret (p : Nat) (op : Op) (o : Out)

/-- All processes, the mapped ring, the lock, and what the outside has seen so far (`events`).
`hs`: the handle structures (each is used by one process only); `log`: ghost, the calls in the order
in which they left their critical sections. -/
structure Conc where
  ring : Ring
  hs : Nat → Life Handle Unit
  lock : Option Nat
  procs : Nat → PSt
  events : List Event
  log : List (Nat × Op × Out)

/-- One step of one process.  `own`: which process uses which handle. -/
inductive Conc.Step (own : Nat → Nat) : Conc → Conc → Prop where
  /-- process `p` makes a call (a buffered write that must flush first is made as a flush followed by
  the write, see `C31_buffered_write_splits`) -/
  | call {c : Conc} {p : Nat} {op : Op} : c.procs p = .idle → own op.handle = p → needsFlush (c.hs op.handle) op = false →
      Step own c { c with procs := upd c.procs p (.want op), events := c.events ++ [.call p op] }
  /-- the lock is free: enter; the program is any sequence of loads and stores that does what the call
  is modelled to do -/
  | acquire {c : Conc} {p : Nat} {op : Op} {prog : Prog Ring (Life Handle Unit × Out)} : c.procs p = .want op → c.lock = none →
      prog.denote = opSec (c.hs op.handle) op →
      Step own c { c with procs := upd c.procs p (.inside op prog), lock := some p }
  | load {c : Conc} {p : Nat} {op : Op} {k : Ring → Prog Ring (Life Handle Unit × Out)} : c.procs p = .inside op (.load k) →
      Step own c { c with procs := upd c.procs p (.inside op (k c.ring)) }
  | store {c : Conc} {p : Nat} {op : Op} {f : Ring → Ring} {k : Prog Ring (Life Handle Unit × Out)} : c.procs p = .inside op (.store f k) →
      Step own c { c with ring := f c.ring, procs := upd c.procs p (.inside op k) }
  /-- leave the critical section -/
  | release {c : Conc} {p : Nat} {op : Op} {l : Life Handle Unit} {o : Out} : c.procs p = .inside op (.ret (l, o)) →
      Step own c { c with hs := upd c.hs op.handle l, lock := none, procs := upd c.procs p (.leaving op o), log := c.log ++ [(p, op, o)] }
  /-- a call that does not touch the ring needs no lock -/
  | local {c : Conc} {p : Nat} {op : Op} {l : Life Handle Unit} {o : Out} : c.procs p = .want op →
      (Prog.ret (l, o)).denote = opSec (c.hs op.handle) op →
      Step own c { c with hs := upd c.hs op.handle l, procs := upd c.procs p (.leaving op o), log := c.log ++ [(p, op, o)] }
  | ret {c : Conc} {p : Nat} {op : Op} {o : Out} : c.procs p = .leaving op o →
      Step own c { c with procs := upd c.procs p .idle, events := c.events ++ [.ret p op o] }

/-- Any number of steps of any processes. -/
inductive Conc.Steps (own : Nat → Nat) : Conc → Conc → Prop where
  | refl (c : Conc) : Steps own c c
  | step {c d e : Conc} : Steps own c d → Conc.Step own d e → Steps own c e

/-- A fresh ring; no process has made a call. -/
def Conc.init (a : InitArgs) : Conc := ⟨initRing a, fun _ => .never, none, fun _ => .idle, [], []⟩

end Shr
