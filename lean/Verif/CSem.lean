/-!
# C semantics used by the model

The library's critical sections are sequences of loads and stores on a file mapped into memory.
`M σ α` models such a sequence.  A run has a *result* and a *trace*:

* result `ok a s`: normal completion with value `a`, shared memory `s`;
* result `abort s`: an `assert` failed, the process dies and leaves `s` behind;
* result `ub`: an access outside the object it is meant for, or a division by zero;
* result `hang`: a loop did not finish within a stated number of iterations;
* trace: the shared memory *before* each single store, oldest first.  A process that is killed
  inside the section leaves one of the traced states or the final state (`Run.points`).

`size_t` is 64 bits (Linux LP64): values are `Nat`, operations wrap modulo `W = 2^64`.
-/
namespace Shr

abbrev Byte := UInt8
/-- A message: a byte buffer with a length. -/
abbrev Msg := List Byte

/-- 2^64: `size_t` arithmetic is modulo `W` on the modelled platform. -/
def W : Nat := 2 ^ 64
/-- `SSIZE_MAX` of limits.h on the modelled platform. -/
def SSIZE_MAX : Nat := 2 ^ 63 - 1

/-- `size_t` addition. -/
def wadd (a b : Nat) : Nat := (a + b) % W
/-- `size_t` subtraction. -/
def wsub (a b : Nat) : Nat := (a + (W - b % W)) % W
/-- `size_t` multiplication. -/
def wmul (a b : Nat) : Nat := (a * b) % W

/-- Ways in which a fragment fails to complete. -/
inductive Fault where
  | abort | ub | hang
  deriving DecidableEq, Repr

/-- Result of a run on shared memory of type `σ`. -/
inductive Res (σ α : Type) where
  | ok (a : α) (s : σ)
  | abort (s : σ)
  | ub
  | hang
  deriving DecidableEq, Repr

/-- Result and trace of a run. -/
structure Run (σ α : Type) where
  trace : List σ
  res : Res σ α

/-- A program fragment acting on shared memory of type `σ`. -/
def M (σ α : Type) : Type := σ → Run σ α

namespace M
variable {σ α β : Type}

protected def pure (a : α) : M σ α := fun s => ⟨[], .ok a s⟩

protected def bind (x : M σ α) (f : α → M σ β) : M σ β := fun s =>
  match (x s).res with
  | .ok a s' => ⟨(x s).trace ++ (f a s').trace, (f a s').res⟩
  | .abort s' => ⟨(x s).trace, .abort s'⟩
  | .ub => ⟨(x s).trace, .ub⟩
  | .hang => ⟨(x s).trace, .hang⟩

instance : Monad (M σ) where
  pure := M.pure
  bind := M.bind

/-- Load the shared memory. -/
protected def get : M σ σ := fun s => ⟨[], .ok s s⟩

/-- One store: the state before it is a crash point. -/
def store (f : σ → σ) : M σ Unit := fun s => ⟨[s], .ok () (f s)⟩

/-- `assert(b)` (the build does not define NDEBUG). -/
def assert (b : Bool) : M σ Unit := fun s => ⟨[], if b then .ok () s else .abort s⟩

/-- A pure computation that may fault. -/
def lift (x : Except Fault α) : M σ α := fun s =>
  ⟨[], match x with
    | .ok a => .ok a s
    | .error .abort => .abort s
    | .error .ub => .ub
    | .error .hang => .hang⟩

@[simp] theorem pure_apply (a : α) (s : σ) : (Pure.pure a : M σ α) s = ⟨[], .ok a s⟩ := rfl
@[simp] theorem get_apply (s : σ) : (M.get : M σ σ) s = ⟨[], .ok s s⟩ := rfl
@[simp] theorem store_apply (f : σ → σ) (s : σ) : (M.store f) s = ⟨[s], .ok () (f s)⟩ := rfl
@[simp] theorem lift_ok (a : α) (s : σ) : (M.lift (.ok a) : M σ α) s = ⟨[], .ok a s⟩ := rfl
@[simp] theorem assert_true (s : σ) : (M.assert true : M σ Unit) s = ⟨[], .ok () s⟩ := rfl
@[simp] theorem assert_false (s : σ) : (M.assert false : M σ Unit) s = ⟨[], .abort s⟩ := rfl

theorem bind_apply (x : M σ α) (f : α → M σ β) (s : σ) : (x >>= f) s =
    match (x s).res with
    | .ok a s' => ⟨(x s).trace ++ (f a s').trace, (f a s').res⟩
    | .abort s' => ⟨(x s).trace, .abort s'⟩
    | .ub => ⟨(x s).trace, .ub⟩
    | .hang => ⟨(x s).trace, .hang⟩ := rfl

/-- Composition with a fragment whose run is known and normal. -/
theorem bind_of_ok {x : M σ α} {f : α → M σ β} {s s' : σ} {a : α} {t : List σ}
    (h : x s = ⟨t, .ok a s'⟩) : (x >>= f) s = ⟨t ++ (f a s').trace, (f a s').res⟩ := by
  rw [bind_apply, h]

@[simp] theorem get_bind (f : σ → M σ β) (s : σ) : (M.get >>= f) s = f s s := by
  simp [bind_apply]
@[simp] theorem pure_bind (a : α) (f : α → M σ β) (s : σ) :
    ((Pure.pure a : M σ α) >>= f) s = f a s := by
  simp [bind_apply]
@[simp] theorem lift_ok_bind (a : α) (f : α → M σ β) (s : σ) :
    ((M.lift (.ok a) : M σ α) >>= f) s = f a s := by
  simp [bind_apply]
@[simp] theorem assert_true_bind (f : Unit → M σ β) (s : σ) :
    ((M.assert true : M σ Unit) >>= f) s = f () s := by
  simp [bind_apply]
@[simp] theorem store_bind (g : σ → σ) (f : Unit → M σ β) (s : σ) :
    ((M.store g) >>= f) s = ⟨s :: (f () (g s)).trace, (f () (g s)).res⟩ := by
  simp [bind_apply]

theorem assert_bind_of {b : Bool} (h : b = true) (f : Unit → M σ β) (s : σ) :
    ((M.assert b : M σ Unit) >>= f) s = f () s := by
  subst h; simp

theorem ite_apply (c : Prop) [Decidable c] (x y : M σ α) (s : σ) :
    (if c then x else y) s = if c then x s else y s := by
  split <;> rfl

end M

namespace Run
variable {σ α : Type}

/-- The state left behind in shared memory if the run ends by itself. -/
def final : Run σ α → Option σ
  | ⟨_, .ok _ s⟩ => some s
  | ⟨_, .abort s⟩ => some s
  | _ => none

/-- All states in which shared memory can be found if the process is killed at an arbitrary moment
of the run: before each store, or at its end. -/
def points (x : Run σ α) : List σ := x.trace ++ x.final.toList

end Run

/-- Bounds-checked read of `len` bytes at `off` (source side of `memcpy`). -/
def memRead (d : List Byte) (off len : Nat) : Except Fault (List Byte) :=
  if off + len ≤ d.length then .ok ((d.drop off).take len) else .error .ub

/-- The region `d` with `src` stored at `off`. -/
def put (d : List Byte) (off : Nat) (src : List Byte) : List Byte :=
  d.take off ++ src ++ d.drop (off + src.length)

/-- Bounds-checked write (destination side of `memcpy`) into private memory. -/
def memWrite (d : List Byte) (off : Nat) (src : List Byte) : Except Fault (List Byte) :=
  if off + src.length ≤ d.length then .ok (put d off src) else .error .ub

/-- `memcpy` into a byte region of shared memory given by a getter/setter pair; the bytes are stored
one at a time in ascending order, so every proper prefix of the copy is a crash point.
(Simplification: real `memcpy` may store wider units; the theorems about crash points quantify over
every prefix.) -/
def memcpyShared {σ : Type} (rd : σ → List Byte) (wr : List Byte → σ → σ) (off : Nat)
    (src : List Byte) : M σ Unit := fun s =>
  if off + src.length ≤ (rd s).length then
    ⟨(List.range src.length).map (fun k => wr (put (rd s) off (src.take k)) s),
      .ok () (wr (put (rd s) off src) s)⟩
  else ⟨[], .ub⟩

end Shr
