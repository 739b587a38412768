import Verif.Model.Sys
/-!
# The ring file: byte layout, `shr_init`, `validate_ring`, `shr_open`

A ring file is a list of bytes.  `decode` reads the typed `Ring` of `Model/Types.lean` out of it, at the
offsets that the struct declarations (src/shr.c:25-55, src/shr.h:26-54, lib/bw.h:26-32) have on LP64,
little endian.  `shr_init` is modelled store by store on the mapped file.
-/
namespace Shr
open M

/-! ## Bytes -/

/-- The `k` low-order bytes of `v`, least significant first. -/
def le : Nat → Nat → List Byte
  | 0, _ => []
  | k + 1, v => UInt8.ofNat v :: le k (v / 256)

/-- The number a list of bytes stands for. -/
def leVal : List Byte → Nat
  | [] => 0
  | b :: bs => b.toNat + 256 * leVal bs

/-- `len` bytes of the file from `off`. -/
def ld (f : List Byte) (off len : Nat) : List Byte := (f.drop off).take len
/-- A `size_t` field. -/
def ld64 (f : List Byte) (off : Nat) : Nat := leVal (ld f off 8)
/-- An `unsigned` field. -/
def ld32 (f : List Byte) (off : Nat) : Nat := leVal (ld f off 4)

/-! ## Layout of `shr_ctrl`, src/shr.c:36-55

`magic` 8 bytes, `gflags` 4 and 4 of padding, eight `size_t`, `stat` 128 bytes (timeval 16, thirteen
`size_t`, `flags` 4, 4 of padding; src/shr.h:26-54), four `size_t`, two `bw_handle` of
4 + 64 * (4 + 8) bytes (lib/bw.h:24-32). -/
def OFF_GFLAGS : Nat := 8
def OFF_N : Nat := 16
def OFF_I : Nat := 24
def OFF_U : Nat := 32
def OFF_M : Nat := 40
def OFF_MP : Nat := 48
def OFF_R : Nat := 56
def OFF_E : Nat := 64
def OFF_Q : Nat := 72
def OFF_STAT : Nat := 80
def OFF_MM : Nat := 208
def OFF_MV_LEN : Nat := 216
def OFF_PAD_LEN : Nat := 224
def OFF_APP_LEN : Nat := 232
def OFF_W2R : Nat := 240
def SIZEOF_BW : Nat := 772
def OFF_R2W : Nat := 1012
/-- `sizeof(shr_ctrl)`, also the offset of `d`. -/
def SIZEOF_CTRL : Nat := 1784
/-- `MIN_RING_SZ`, src/shr.c:22. -/
def MIN_RING_SZ : Nat := SIZEOF_CTRL + 1

/-- `magic`, src/shr.c:35: "libshr5" with its terminator. -/
def MAGIC : List Byte := [0x6c, 0x69, 0x62, 0x73, 0x68, 0x72, 0x35, 0]

/-- `struct shr_stat` in the file, src/shr.h:26-54. -/
def decodeStat (f : List Byte) : Stat where
  start := (ld64 f (OFF_STAT + 0), ld64 f (OFF_STAT + 8))
  bw := ld64 f (OFF_STAT + 16)
  br := ld64 f (OFF_STAT + 24)
  mw := ld64 f (OFF_STAT + 32)
  mr := ld64 f (OFF_STAT + 40)
  md := ld64 f (OFF_STAT + 48)
  bd := ld64 f (OFF_STAT + 56)
  bn := ld64 f (OFF_STAT + 64)
  bu := ld64 f (OFF_STAT + 72)
  mu := ld64 f (OFF_STAT + 80)
  mm := ld64 f (OFF_STAT + 88)
  cn := ld64 f (OFF_STAT + 96)
  cm := ld64 f (OFF_STAT + 104)
  cb := ld64 f (OFF_STAT + 112)
  flags := BitVec.ofNat 32 (ld32 f (OFF_STAT + 120))

/-- Offset of the message vector: `r->d + r->n + r->pad_len`, e.g. src/shr.c:642. -/
def mvOff (f : List Byte) : Nat := SIZEOF_CTRL + ld64 f OFF_N + ld64 f OFF_PAD_LEN
/-- Offset of the app data: `r->d + r->n + r->pad_len + r->mv_len`, e.g. src/shr.c:289. -/
def appOff (f : List Byte) : Nat := mvOff f + ld64 f OFF_MV_LEN

/-- The ring a file contains; see src/internals.txt for the order of the regions. -/
def decode (f : List Byte) : Ring where
  gflags := BitVec.ofNat 32 (ld32 f OFF_GFLAGS)
  n := ld64 f OFF_N
  i := ld64 f OFF_I
  u := ld64 f OFF_U
  m := ld64 f OFF_M
  mp := ld64 f OFF_MP
  r := ld64 f OFF_R
  e := ld64 f OFF_E
  q := ld64 f OFF_Q
  stat := decodeStat f
  mm := ld64 f OFF_MM
  mv_len := ld64 f OFF_MV_LEN
  pad_len := ld64 f OFF_PAD_LEN
  app_len := ld64 f OFF_APP_LEN
  d := ld f SIZEOF_CTRL (ld64 f OFF_N)
  mv := (List.range (ld64 f OFF_MV_LEN / SIZEOF_MSG)).map fun j =>
    ⟨ld64 f (mvOff f + SIZEOF_MSG * j), ld64 f (mvOff f + SIZEOF_MSG * j + 8)⟩
  app := ld f (appOff f) (ld64 f OFF_APP_LEN)

/-! ## Single stores -/

/-- The stores that the critical sections make into the ring (`Model/Ring.lean`, `Model/Api.lean`). -/
inductive Store where
  | i (v : Nat) | u (v : Nat) | m (v : Nat) | mp (v : Nat) | r (v : Nat) | e (v : Nat) | q (v : Nat)
  | bw (v : Nat) | br (v : Nat) | mw (v : Nat) | mr (v : Nat) | md (v : Nat) | bd (v : Nat)
  | data (off : Nat) (b : List Byte)
  | pos (slot v : Nat)
  | len (slot v : Nat)
  | app (off : Nat) (b : List Byte)
  | statZero
  | start (t : Timeval)

namespace Store
/-- The store on the typed ring. -/
def onRing : Store → Ring → Ring
  | i v, x => { x with i := v }
  | u v, x => { x with u := v }
  | m v, x => { x with m := v }
  | mp v, x => { x with mp := v }
  | r v, x => { x with r := v }
  | e v, x => { x with e := v }
  | q v, x => { x with q := v }
  | bw v, x => { x with stat := { x.stat with bw := v } }
  | br v, x => { x with stat := { x.stat with br := v } }
  | mw v, x => { x with stat := { x.stat with mw := v } }
  | mr v, x => { x with stat := { x.stat with mr := v } }
  | md v, x => { x with stat := { x.stat with md := v } }
  | bd v, x => { x with stat := { x.stat with bd := v } }
  | data o b, x => { x with d := put x.d o b }
  | pos p v, x => { x with mv := x.mv.modify p fun s => { s with pos := v } }
  | len p v, x => { x with mv := x.mv.modify p fun s => { s with len := v } }
  | app o b, x => { x with app := put x.app o b }
  | statZero, x => { x with stat := {} }
  | start t, x => { x with stat := { x.stat with start := t } }

/-- File offset and bytes of the store. -/
def inFile : Store → List Byte → Nat × List Byte
  | i v, _ => (OFF_I, le 8 v)
  | u v, _ => (OFF_U, le 8 v)
  | m v, _ => (OFF_M, le 8 v)
  | mp v, _ => (OFF_MP, le 8 v)
  | r v, _ => (OFF_R, le 8 v)
  | e v, _ => (OFF_E, le 8 v)
  | q v, _ => (OFF_Q, le 8 v)
  | bw v, _ => (OFF_STAT + 16, le 8 v)
  | br v, _ => (OFF_STAT + 24, le 8 v)
  | mw v, _ => (OFF_STAT + 32, le 8 v)
  | mr v, _ => (OFF_STAT + 40, le 8 v)
  | md v, _ => (OFF_STAT + 48, le 8 v)
  | bd v, _ => (OFF_STAT + 56, le 8 v)
  | data o b, _ => (SIZEOF_CTRL + o, b)
  | pos p v, f => (mvOff f + SIZEOF_MSG * p, le 8 v)
  | len p v, f => (mvOff f + SIZEOF_MSG * p + 8, le 8 v)
  | app o b, f => (appOff f + o, b)
  | statZero, _ => (OFF_STAT, List.replicate 128 0)
  | start t, _ => (OFF_STAT, le 8 t.1 ++ le 8 t.2)

/-- The store stays in its region, and the value is a `size_t`. -/
def inBounds : Store → Ring → Prop
  | i v, _ => v < W
  | u v, _ => v < W
  | m v, _ => v < W
  | mp v, _ => v < W
  | r v, _ => v < W
  | e v, _ => v < W
  | q v, _ => v < W
  | bw v, _ => v < W
  | br v, _ => v < W
  | mw v, _ => v < W
  | mr v, _ => v < W
  | md v, _ => v < W
  | bd v, _ => v < W
  | data o b, x => o + b.length ≤ x.n
  | pos p v, x => p < x.mv.length ∧ v < W
  | len p v, x => p < x.mv.length ∧ v < W
  | app o b, x => o + b.length ≤ x.app_len
  | statZero, _ => True
  | start t, _ => t.1 < W ∧ t.2 < W

/-- The store on the file. -/
def onFile (s : Store) (f : List Byte) : List Byte := put f (s.inFile f).1 (s.inFile f).2
end Store

/-! ## Creation -/

/-- Running a fragment on a part of the state. -/
def M.zoom {σ τ α : Type} (rd : σ → τ) (wr : τ → σ → σ) (x : M τ α) : M σ α := fun s =>
  ⟨(x (rd s)).trace.map (fun t => wr t s),
    match (x (rd s)).res with
    | .ok a t => .ok a (wr t s)
    | .abort t => .abort (wr t s)
    | .ub => .ub
    | .hang => .hang⟩

/-- Store of one word (`k` bytes, not divisible) into the mapped file; outside the file it is `ub` (in
C: SIGBUS or a store outside the mapping). -/
def stw (k off v : Nat) : M (List Byte) Unit := do
  let f ← M.get
  if off + k ≤ f.length then store fun f => put f off (le k v) else lift (.error .ub)

/-- `memcpy`/`memset` into the mapped file, byte by byte. -/
def stb (off : Nat) (b : List Byte) : M (List Byte) Unit := memcpyShared id (fun f _ => f) off b

/-- `size_t sz` of `shr_init`, src/shr.c:261. -/
def InitArgs.fileSz (a : InitArgs) : Nat :=
  wadd (wadd (wadd (wadd SIZEOF_CTRL a.dataSz) a.pad) a.mv_bytes) a.appsize

/-- `if (flags & bit) r->gflags |= val;`, src/shr.c:284-287. -/
def orFlag (flags bit val : Flags) : M (List Byte) Unit := do
  let f ← M.get
  if flags.has bit then stw 4 OFF_GFLAGS (BitVec.ofNat 32 (ld32 f OFF_GFLAGS) ||| val).toNat
  else pure ()

/-- The stores into the mapped file in `shr_init`, src/shr.c:275-290. -/
def initFill (a : InitArgs) : M (List Byte) Unit := do
  stb 0 (List.replicate SIZEOF_CTRL 0)
  stb 0 MAGIC
  stw 8 OFF_MM a.max_msgs
  stw 8 OFF_PAD_LEN a.pad
  stw 8 OFF_MV_LEN a.mv_bytes
  stw 8 OFF_APP_LEN a.appsize
  stw 8 OFF_N a.dataSz
  stw 4 OFF_GFLAGS 0
  orFlag a.flags SHR_SYNC SHR_SYNC
  orFlag a.flags SHR_DROP SHR_DROP
  orFlag a.flags SHR_FARM (SHR_FARM ||| SHR_DROP)
  orFlag a.flags SHR_MLOCK SHR_MLOCK
  let f ← M.get
  if a.flags.has SHR_APPDATA then
    stb (wadd (wadd (wadd SIZEOF_CTRL (ld64 f OFF_N)) (ld64 f OFF_PAD_LEN)) (ld64 f OFF_MV_LEN)) a.app
  else pure ()

/-- The file system as far as one ring name is concerned: the file the name refers to, the contents
of all files, a file number not used yet, and which file the creating process holds locked. -/
structure FS where
  path : Option Nat
  files : Nat → List Byte
  next : Nat
  locked : Option Nat

/-- What `ftruncate` does: sets the length; on hugetlbfs fails with EINVAL and the later `mmap` sets the
length to a whole number of pages, given here (src/shr.c:258-260); fails otherwise. -/
inductive Trunc where
  | ok
  | hugetlb (len : Nat)
  | err
  deriving DecidableEq, Repr

/-- Outcomes of system calls in `shr_init`. -/
structure InitEnv where
  unlinkOk : Bool := true
  openOk : Bool := true
  lockOk : Bool := true
  trunc : Trunc := .ok
  mmapOk : Bool := true
  deriving DecidableEq, Repr

/-- `done:` of `shr_init` with `fd != -1`, src/shr.c:294-299; closing the descriptor releases the lock. -/
def initDone (rc : Int) : M FS Int := do
  if rc ≠ 0 then store fun fs => { fs with path := none } else pure ()
  store fun fs => { fs with locked := none }
  pure rc

/-- The length of the file after `ftruncate` and `mmap`. -/
def Trunc.len : Trunc → Nat → Nat
  | .hugetlb l, _ => l
  | _, sz => sz

/-- `shr_init`, src/shr.c:202-300.  The file is new, so `ftruncate`/`mmap` fill it with zeros.
(Simplifications: `access` fails only if the name does not exist; `O_EXCL` does not fail, as nobody else
creates the same name at the same moment (see `Model/Race.lean` for that); an `ftruncate` to more than SSIZE_MAX fails with EINVAL, which
the code tolerates, but the `mmap` after it fails.) -/
def shr_init (a : InitArgs) (env : InitEnv) : M FS Int := do
  if a.flags.toNat ≥ SHR_OPEN_FENCE.toNat ∨ a.dataSz = 0 then pure (-1)
  else do
    let fs ← M.get
    if fs.path.isSome ∧ a.flags.has SHR_KEEPEXIST then pure 0
    else if fs.path.isSome ∧ env.unlinkOk = false then pure (-1)
    else do
      if fs.path.isSome then store fun fs => { fs with path := none } else pure ()
      if env.openOk = false then pure (-1)
      else do
        let ino := fs.next
        store fun fs => { fs with path := some ino, files := upd fs.files ino [], next := ino + 1 }
        assert (decide (a.pad < SIZEOF_PTR))
        assert (decide (wadd (wadd SIZEOF_CTRL a.dataSz) a.pad % SIZEOF_PTR = 0))
        if env.lockOk = false then initDone (-1)
        else do
          store fun fs => { fs with locked := some ino }
          match env.trunc with
          | .err => initDone (-1)
          | t => do
            if t = .ok ∧ a.fileSz ≤ SSIZE_MAX then
              store fun fs => { fs with files := upd fs.files ino (List.replicate a.fileSz 0) }
            else pure ()
            if env.mmapOk = false ∨ a.fileSz = 0 ∨ a.fileSz > SSIZE_MAX then initDone (-1)
            else do
              if t = .ok then pure ()
              else store fun fs => { fs with files := upd fs.files ino (List.replicate (t.len a.fileSz) 0) }
              M.zoom (fun fs => fs.files ino) (fun f fs => { fs with files := upd fs.files ino f }) (initFill a)
              initDone 0

/-! ## Opening -/

/-- A `size_t` reinterpreted as `ssize_t`. -/
def toSigned (v : Nat) : Int := if v < 2 ^ 63 then (v : Int) else (v : Int) - (W : Int)

/-- `validate_ring`, src/shr.c:386-406; `sz` is `st_size`. -/
def validate_ring (f : List Byte) (sz : Nat) : Int :=
  if sz < MIN_RING_SZ then -2
  else if ld f 0 8 ≠ MAGIC then -3
  else if (sz : Int) < toSigned (wadd (wadd (wadd (wadd SIZEOF_CTRL (ld64 f OFF_N)) (ld64 f OFF_PAD_LEN))
      (ld64 f OFF_MV_LEN)) (ld64 f OFF_APP_LEN)) then -4
  else if ld64 f OFF_U > ld64 f OFF_N then -5
  else if ld64 f OFF_I ≥ ld64 f OFF_N then -6
  else if ld64 f OFF_R ≥ ld64 f OFF_MM then -7
  else 0

/-- Outcomes of system calls in `shr_open` before the lock is taken at src/shr.c:591 (`callocOk` to `mmapOk`), and from there on (`env`). -/
structure OpenEnv where
  callocOk : Bool := true
  openOk : Bool := true
  fstatOk : Bool := true
  mmapOk : Bool := true
  env : Env := {}
  deriving DecidableEq, Repr

/-- `shr_open`, src/shr.c:549-624, made while other processes may be active: the name is looked up when
the file system is `fs1`, the length is taken at `fs2`, the lock is obtained (src/shr.c:591) and the header checked at `fs3` (and not before the
creating process has released it).  The result is the file and the handle.  Waiter slots are in
`Model/Bw.lean`; nothing else in the file changes.  An `mmap` of length 0 fails. -/
def shr_open_at (fs1 fs2 fs3 : FS) (flags : Flags) (env : OpenEnv) : Option (Nat × Handle) :=
  if validate_flags flags = false then none
  else if env.callocOk = false then none
  else match fs1.path with
    | none => none
    | some ino =>
      if env.openOk = false ∨ env.fstatOk = false then none
      else
        let sz := (fs2.files ino).length
        if sz = 0 ∨ env.mmapOk = false then none
        else if validate_ring (fs3.files ino) sz < 0 then none
        else (openLocked (decode (fs3.files ino)) flags env.env).map fun h => (ino, h)

/-- `shr_open` when nothing else is going on. -/
def shr_open (fs : FS) (flags : Flags) (env : OpenEnv) : Option (Nat × Handle) := shr_open_at fs fs fs flags env

end Shr
