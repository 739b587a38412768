import Verif.Model.File
import Verif.Model.Conc
/-!
# Several processes inside `shr_init` for the same name

`Model/File.lean` runs one `shr_init` at a time.  Here any number of processes are inside `shr_init` with the same file name at the
same time; each system call and each store into the mapped file is one step.  What is different from one creator alone: the name can
appear or vanish between `access`, `unlink` and `open(O_CREAT|O_EXCL)`, so that `unlink` can fail with ENOENT and `open` with EEXIST,
and the `unlink` on the error path (src/shr.c:295) removes whatever the name refers to at that time.

Every process has its own arguments `a p` and its own outcomes of system calls `env p`.  The two assertions src/shr.c:251, 253 are left
out here: they always hold (`pad_lt`, `align_ok`).  Nobody uses the rings meanwhile.
-/
namespace Shr

/-- Where a process is inside `shr_init`, src/shr.c:202-300. -/
inductive CrPc where
  /-- 210: before the argument check and `access` -/
  | start
  /-- 231: `access` has told whether the name exists -/
  | checked (ex : Bool)
  /-- 242: about to call `open(O_CREAT|O_EXCL)` -/
  | free
  /-- 249: the file is made -/
  | opened (ino : Nat)
  /-- 258: the file is locked -/
  | locked (ino : Nat)
  /-- 268: `ftruncate` has succeeded or failed with EINVAL -/
  | sized (ino : Nat)
  /-- 275-290: what remains to be stored -/
  | filling (ino : Nat) (rest : Prog (List Byte) Unit)
  /-- 295: about to unlink after an error -/
  | failing (ino : Nat)
  /-- 296: about to close, which releases the lock -/
  | closing (ino : Nat) (rc : Int)
  /-- has returned `rc` -/
  | done (rc : Int) (made : Option Nat)
  /-- was killed -/
  | dead (made : Option Nat)

/-- The file that the process has made. -/
def CrPc.ino : CrPc → Option Nat
  | .opened i | .locked i | .sized i | .filling i _ | .failing i | .closing i _ => some i
  | .done _ m | .dead m => m
  | _ => none

/-- The file that the process holds locked (at most). -/
def CrPc.holds : CrPc → Option Nat
  | .locked i | .sized i | .filling i _ | .failing i | .closing i _ => some i
  | _ => none

/-- Has the process returned or died? -/
def CrPc.over : CrPc → Bool
  | .done _ _ | .dead _ => true
  | _ => false

/-- The file system (as in `FS`) and the processes. -/
structure CrSys where
  path : Option Nat
  files : Nat → List Byte
  next : Nat
  pc : Nat → CrPc

/-- What an opener sees. -/
def CrSys.fs (c : CrSys) : FS := ⟨c.path, c.files, c.next, none⟩

/-- One step of process `p`. -/
inductive CrSys.Step (a : Nat → InitArgs) (env : Nat → InitEnv) : CrSys → CrSys → Prop where
  /-- src/shr.c:210-213 -/
  | invalid {c : CrSys} {p : Nat} : c.pc p = .start → (a p).flags.toNat ≥ SHR_OPEN_FENCE.toNat ∨ (a p).dataSz = 0 →
      Step a env c { c with pc := upd c.pc p (.done (-1) none) }
  /-- src/shr.c:230 -/
  | access {c : CrSys} {p : Nat} : c.pc p = .start → ¬ ((a p).flags.toNat ≥ SHR_OPEN_FENCE.toNat ∨ (a p).dataSz = 0) →
      Step a env c { c with pc := upd c.pc p (.checked c.path.isSome) }
  /-- src/shr.c:231-234 -/
  | keep {c : CrSys} {p : Nat} : c.pc p = .checked true → (a p).flags.has SHR_KEEPEXIST = true →
      Step a env c { c with pc := upd c.pc p (.done 0 none) }
  /-- src/shr.c:236 -/
  | unlink {c : CrSys} {p : Nat} : c.pc p = .checked true → (a p).flags.has SHR_KEEPEXIST = false → (env p).unlinkOk = true →
      c.path.isSome = true → Step a env c { c with path := none, pc := upd c.pc p .free }
  /-- src/shr.c:237-240; ENOENT if the name is gone -/
  | noUnlink {c : CrSys} {p : Nat} : c.pc p = .checked true → (a p).flags.has SHR_KEEPEXIST = false →
      (env p).unlinkOk = false ∨ c.path = none → Step a env c { c with pc := upd c.pc p (.done (-1) none) }
  | absent {c : CrSys} {p : Nat} : c.pc p = .checked false → Step a env c { c with pc := upd c.pc p .free }
  /-- src/shr.c:242 -/
  | create {c : CrSys} {p : Nat} : c.pc p = .free → (env p).openOk = true → c.path = none →
      Step a env c { path := some c.next, files := upd c.files c.next [], next := c.next + 1, pc := upd c.pc p (.opened c.next) }
  /-- src/shr.c:243-246; EEXIST if the name exists -/
  | noCreate {c : CrSys} {p : Nat} : c.pc p = .free → (env p).openOk = false ∨ c.path.isSome = true →
      Step a env c { c with pc := upd c.pc p (.done (-1) none) }
  /-- src/shr.c:255 -/
  | lock {c : CrSys} {p i : Nat} : c.pc p = .opened i → (env p).lockOk = true → Step a env c { c with pc := upd c.pc p (.locked i) }
  | noLock {c : CrSys} {p i : Nat} : c.pc p = .opened i → (env p).lockOk = false →
      Step a env c { c with pc := upd c.pc p (.failing i) }
  /-- src/shr.c:262 -/
  | truncate {c : CrSys} {p i : Nat} : c.pc p = .locked i → (env p).trunc = .ok → (a p).fileSz ≤ SSIZE_MAX →
      Step a env c { c with files := upd c.files i (List.replicate (a p).fileSz 0), pc := upd c.pc p (.sized i) }
  /-- src/shr.c:263: EINVAL is tolerated -/
  | einval {c : CrSys} {p i : Nat} : c.pc p = .locked i → (env p).trunc ≠ .err → ¬ ((env p).trunc = .ok ∧ (a p).fileSz ≤ SSIZE_MAX) →
      Step a env c { c with pc := upd c.pc p (.sized i) }
  | noTruncate {c : CrSys} {p i : Nat} : c.pc p = .locked i → (env p).trunc = .err →
      Step a env c { c with pc := upd c.pc p (.failing i) }
  /-- src/shr.c:268; on hugetlbfs this sets the length -/
  | mmap {c : CrSys} {p i : Nat} {prog : Prog (List Byte) Unit} : c.pc p = .sized i →
      ¬ ((env p).mmapOk = false ∨ (a p).fileSz = 0 ∨ (a p).fileSz > SSIZE_MAX) → prog.denote = initFill (a p) →
      Step a env c { c with
        files := if (env p).trunc = .ok then c.files else upd c.files i (List.replicate ((env p).trunc.len (a p).fileSz) 0)
        pc := upd c.pc p (.filling i prog) }
  | noMmap {c : CrSys} {p i : Nat} : c.pc p = .sized i → (env p).mmapOk = false ∨ (a p).fileSz = 0 ∨ (a p).fileSz > SSIZE_MAX →
      Step a env c { c with pc := upd c.pc p (.failing i) }
  /-- src/shr.c:276-290, one load or store at a time -/
  | load {c : CrSys} {p i : Nat} {k : List Byte → Prog (List Byte) Unit} : c.pc p = .filling i (.load k) →
      Step a env c { c with pc := upd c.pc p (.filling i (k (c.files i))) }
  | store {c : CrSys} {p i : Nat} {f : List Byte → List Byte} {k : Prog (List Byte) Unit} : c.pc p = .filling i (.store f k) →
      Step a env c { c with files := upd c.files i (f (c.files i)), pc := upd c.pc p (.filling i k) }
  | filled {c : CrSys} {p i : Nat} : c.pc p = .filling i (.ret ()) → Step a env c { c with pc := upd c.pc p (.closing i 0) }
  /-- src/shr.c:295: the name is removed, whatever it refers to -/
  | remove {c : CrSys} {p i : Nat} : c.pc p = .failing i → Step a env c { c with path := none, pc := upd c.pc p (.closing i (-1)) }
  /-- src/shr.c:296 -/
  | close {c : CrSys} {p i : Nat} {rc : Int} : c.pc p = .closing i rc → Step a env c { c with pc := upd c.pc p (.done rc (some i)) }
  /-- The process is killed: its lock is released, the file stays as it is. -/
  | kill {c : CrSys} {p : Nat} : (c.pc p).over = false → Step a env c { c with pc := upd c.pc p (.dead (c.pc p).ino) }

/-- Any number of steps of any processes. -/
inductive CrSys.Steps (a : Nat → InitArgs) (env : Nat → InitEnv) : CrSys → CrSys → Prop where
  | refl (c : CrSys) : Steps a env c c
  | step {c d e : CrSys} : Steps a env c d → CrSys.Step a env d e → Steps a env c e

/-- Nobody has started yet. -/
structure CrSys.Initial (c : CrSys) : Prop where
  pc : ∀ p, c.pc p = .start
  path : ∀ j, c.path = some j → j < c.next
  fresh : ∀ j, c.next ≤ j → c.files j = []

end Shr
