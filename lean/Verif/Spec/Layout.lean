import Verif.Model.File
/-!
# How C lays out a structure (System V ABI, LP64), and the structures of the ring file

Written independently of `Model/File.lean`: a rule (each member at the next multiple of its alignment) and the declarations of
src/shr.c:24-27, 36-55, src/shr.h:26-54 and lib/bw.h:24-32, member by member.
-/
namespace Shr.Layout

/-- Size and alignment of a type. -/
structure CTy where
  size : Nat
  align : Nat

def scalar (n : Nat) : CTy := ⟨n, n⟩
def array (k : Nat) (t : CTy) : CTy := ⟨k * t.size, t.align⟩

/-- The next multiple of `a`. -/
def roundUp (x a : Nat) : Nat := (x + (a - 1)) / a * a

/-- The members of a structure, with their offsets, the first of them after `x` bytes. -/
def place : Nat → List (String × CTy) → List (String × Nat)
  | _, [] => []
  | x, (n, t) :: ms => (n, roundUp x t.align) :: place (roundUp x t.align + t.size) ms

/-- Where the last member ends. -/
def stop : Nat → List (String × CTy) → Nat
  | x, [] => x
  | x, (_, t) :: ms => stop (roundUp x t.align + t.size) ms

def struct (ms : List (String × CTy)) : CTy :=
  let a := ms.foldl (fun a m => max a m.2.align) 1
  ⟨roundUp (stop 0 ms) a, a⟩

def char := scalar 1
def int := scalar 4
def unsigned := scalar 4
def pid_t := scalar 4
def size_t := scalar 8
def timeval := struct [("tv_sec", scalar 8), ("tv_usec", scalar 8)]

/-- src/shr.c:24-27 -/
def msg := [("pos", size_t), ("len", size_t)]
/-- src/shr.h:26-54 -/
def shr_stat := [("start", timeval), ("bw", size_t), ("br", size_t), ("mw", size_t), ("mr", size_t), ("md", size_t), ("bd", size_t), ("bn", size_t),
  ("bu", size_t), ("mu", size_t), ("mm", size_t), ("cn", size_t), ("cm", size_t), ("cb", size_t), ("flags", unsigned)]
/-- lib/bw.h:24-32 -/
def bw_handle := [("seqno", int), ("wr", array 64 (struct [("pid", pid_t), ("name", array 8 char)]))]
/-- src/shr.c:36-55 -/
def shr_ctrl := [("magic", array 8 char), ("gflags", unsigned), ("n", size_t), ("i", size_t), ("u", size_t), ("m", size_t), ("mp", size_t), ("r", size_t),
  ("e", size_t), ("q", size_t), ("stat", struct shr_stat), ("mm", size_t), ("mv_len", size_t), ("pad_len", size_t), ("app_len", size_t),
  ("w2r", struct bw_handle), ("r2w", struct bw_handle), ("d", array 0 char)]

end Shr.Layout
