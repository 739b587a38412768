import Verif.Proof.Stores
/-! # What a power failure leaves of a file (specification for C81) -/
namespace Shr

/-- The disk, and the kernel when it writes to it, work in blocks of `B` bytes: pages of 4096 bytes, for example.  A block is written
completely or not at all.  The control block of the ring is in the first one. -/
def BlockSize (B : Nat) : Prop := B % 8 = 0 ∧ 1784 ≤ B

/-- A ring file `f0` was created and has been changed by single stores.  `imgs` are the rings it has contained since its last successful
`msync`.  After a power failure the file is `D`: each block of it has the content that this block had at one of these moments. -/
structure Torn (B : Nat) (f0 : List Byte) (imgs : List Ring) (D : List Byte) : Prop where
  len : D.length = f0.length
  block : ∀ j : Nat, ∃ g, FSteps f0 g ∧ decode g ∈ imgs ∧ ∀ k, k / B = j → D[k]? = g[k]?

/-- The call has told its caller that everything is done: an open that succeeds, a write on a handle without SHR_BUFFERED, or a flush, that
returns a positive number, a `shr_stat` or `shr_appdata` that returns 0. -/
def Confirms (s : Sys) : Op → Out → Prop
  | .open _ _ _, .opened b => b = true
  | .writev k _ _ _, .wrote rc => 0 < rc ∧ ∀ h, s.hs k = .live h → h.flags.has SHR_BUFFERED = false
  | .flush _ _ _, .wrote rc => 0 < rc
  | .stat _ _ _, .stat rc _ => rc = 0
  | .appdata _ _ _ _ _, .app o => o.rc = 0
  | _, _ => False

end Shr
