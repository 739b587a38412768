import Verif.Proof.InitFS
import Verif.Spec.Observe
/-! # Properties of the ring file: C19 – C21, C23, C24, C52, C53 -/
namespace Shr
open M

/-! ## Vocabulary -/

/-- A range of file offsets. -/
structure Range where
  off : Nat
  len : Nat

/-- The regions of a ring file, as computed from its header: control, data, message vector, app data. -/
def regions (f : List Byte) : List Range :=
  [⟨0, SIZEOF_CTRL⟩, ⟨SIZEOF_CTRL, ld64 f OFF_N⟩, ⟨mvOff f, ld64 f OFF_MV_LEN⟩, ⟨appOff f, ld64 f OFF_APP_LEN⟩]

/-- `shr_init` completed with `rc`, leaving `fs'`. -/
def Inits (a : InitArgs) (env : InitEnv) (fs : FS) (rc : Int) (fs' : FS) : Prop := (shr_init a env fs).res = .ok rc fs'

/-- The file system at some moment of the execution of `shr_init` (between any two of its stores or system
calls, or at its end). -/
def DuringInit (a : InitArgs) (env : InitEnv) (fs t : FS) : Prop := t ∈ (shr_init a env fs).points

/-- What a killed process leaves: its lock is released. -/
def FS.killed (fs : FS) : FS := { fs with locked := none }

section
variable {a : InitArgs} {env : InitEnv} {fs fs' : FS} {rc : Int}

theorem Inits.end_ (hs : SizesOk a) (he : env.WF a) (hf : fs.WF) (h : Inits a env fs rc fs') :
    InitEnd a (env.trunc.len a.fileSz) fs rc fs' := by
  obtain ⟨rc', t, h1, h2⟩ := (shr_init_ok hs he hf).res
  unfold Inits at h
  rw [h1] at h
  cases h
  exact h2

/-- `shr_init` terminates normally: no assertion fails and no store is outside the file. -/
theorem init_completes (hs : SizesOk a) (he : env.WF a) (hf : fs.WF) : ∃ rc fs', Inits a env fs rc fs' ∧ (rc = 0 ∨ rc = -1) := by
  obtain ⟨rc, t, h1, h2⟩ := (shr_init_ok hs he hf).res
  exact ⟨rc, t, h1, h2.rcs⟩

theorem DuringInit.cases (hs : SizesOk a) (he : env.WF a) (hf : fs.WF) {t : FS} (h : DuringInit a env fs t) :
    InitPt a (env.trunc.len a.fileSz) fs t ∨ ∃ rc, Inits a env fs rc t ∧ InitEnd a (env.trunc.len a.fileSz) fs rc t := by
  have hk := shr_init_ok hs he hf
  obtain ⟨rc, t', h1, h2⟩ := hk.res
  unfold DuringInit Run.points at h
  rw [List.mem_append] at h
  rcases h with h | h
  · exact .inl (hk.tr t h)
  · right
    unfold Run.final at h
    rw [show (shr_init a env fs) = ⟨(shr_init a env fs).trace, (shr_init a env fs).res⟩ from rfl, h1] at h
    simp at h
    subst h
    exact ⟨rc, h1, h2⟩

theorem Inits.during (h : Inits a env fs rc fs') : DuringInit a env fs fs' := by
  unfold Inits at h
  unfold DuringInit Run.points
  generalize shr_init a env fs = x at h
  obtain ⟨tr, res⟩ := x
  dsimp only at h
  subst h
  simp [Run.final]

/-! ## C19 -/

theorem whole_fields {L : Nat} {f : List Byte} (h : Whole a L f) :
    ld64 f OFF_N = a.dataSz ∧ ld64 f OFF_PAD_LEN = a.pad ∧ ld64 f OFF_MV_LEN = a.mv_bytes ∧ ld64 f OFF_APP_LEN = a.appsize ∧
      ld64 f OFF_MM = a.max_msgs :=
  ⟨congrArg Ring.n h.2.2, congrArg Ring.pad_len h.2.2, congrArg Ring.mv_len h.2.2, congrArg Ring.app_len h.2.2, congrArg Ring.mm h.2.2⟩

/-- **C19.** What is missing: sizes that overflow (`C19_counterexample`).  In a file made by `shr_init` (sizes not overflowing) the regions follow one another without overlap, lie inside the file,
the message vector is aligned and has room for exactly the maximum number of messages, and data and app data have the requested
lengths. -/
theorem C19_layout_partial (hs : SizesOk a) (he : env.WF a) (hf : fs.WF) (h : Inits a env fs 0 fs')
    (hnew : fs.path = none ∨ a.flags.has SHR_KEEPEXIST = false) :
    ∃ ino, fs'.path = some ino ∧
      (regions (fs'.files ino)).Pairwise (fun x y => x.off + x.len ≤ y.off) ∧
      (∀ x ∈ regions (fs'.files ino), x.off + x.len ≤ (fs'.files ino).length) ∧
      mvOff (fs'.files ino) % SIZEOF_PTR = 0 ∧
      ld64 (fs'.files ino) OFF_N = a.dataSz ∧
      ld64 (fs'.files ino) OFF_MV_LEN = SIZEOF_MSG * ld64 (fs'.files ino) OFF_MM ∧
      ld64 (fs'.files ino) OFF_APP_LEN = a.appsize := by
  have e := h.end_ hs he hf
  rcases e.ok rfl with ⟨_, h1, h2⟩ | ⟨_, hp, hw, _⟩
  · rcases hnew with hn | hn
    · rw [hn] at h1; cases h1
    · rw [hn] at h2; cases h2
  refine ⟨fs.next, hp, ?_⟩
  obtain ⟨f1, f2, f3, f4, f5⟩ := whole_fields hw
  have hlen := hw.1
  have hsz := hs.fileSz
  have hL : a.fileSz ≤ env.trunc.len a.fileSz := by
    unfold Trunc.len; split
    · rename_i l h; exact he _ h
    · exact Nat.le_refl _
  have hmv := hs.mv
  have hpad := pad_lt a
  unfold regions
  simp only [appOff, mvOff]
  rw [f1, f2, f3, f4, f5, hlen]
  refine ⟨?_, ?_, ?_, rfl, ?_, rfl⟩
  · simp; omega
  · intro x hx
    simp at hx
    rcases hx with rfl | rfl | rfl | rfl <;> dsimp only <;> omega
  · unfold SIZEOF_CTRL SIZEOF_PTR; omega
  · rw [hmv, Nat.mul_comm]

/-- The region a store belongs to (index into `regions`). -/
def Store.region : Store → Nat
  | .data .. => 1
  | .pos .. => 2
  | .len .. => 2
  | .app .. => 3
  | _ => 0

/-- **C19.** Whenever the regions of a file fit into it, every store the library makes into a ring stays inside its own region, leaves all
other bytes of the file alone, and changes the ring the file contains in exactly the intended field or element. -/
theorem C19_store {f : List Byte} (hl : LayoutOk f) (s : Store) (hb : s.inBounds (decode f)) :
    (∃ x, (regions f)[s.region]? = some x ∧ x.off ≤ (s.inFile f).1 ∧ (s.inFile f).1 + (s.inFile f).2.length ≤ x.off + x.len ∧
      x.off + x.len ≤ f.length) ∧
    (s.onFile f).length = f.length ∧
    (∀ k, k < (s.inFile f).1 ∨ (s.inFile f).1 + (s.inFile f).2.length ≤ k → (s.onFile f)[k]? = f[k]?) ∧
    decode (s.onFile f) = s.onRing (decode f) ∧ LayoutOk (s.onFile f) := by
  have hdec := decode_store hl s hb
  have hreg : ∃ x, (regions f)[s.region]? = some x ∧ x.off ≤ (s.inFile f).1 ∧
      (s.inFile f).1 + (s.inFile f).2.length ≤ x.off + x.len ∧ x.off + x.len ≤ f.length := by
    unfold LayoutOk appOff mvOff at hl
    cases s with
    | data o b =>
      refine ⟨_, rfl, ?_⟩
      have hb' : o + b.length ≤ ld64 f OFF_N := hb
      simp only [Store.inFile]; unfold SIZEOF_CTRL at *; omega
    | pos p v =>
      refine ⟨_, rfl, ?_⟩
      have hp := hb.1
      rw [decode_mv_length] at hp
      simp only [Store.inFile, mvOff, le_length]; unfold SIZEOF_CTRL SIZEOF_MSG at *; omega
    | len p v =>
      refine ⟨_, rfl, ?_⟩
      have hp := hb.1
      rw [decode_mv_length] at hp
      simp only [Store.inFile, mvOff, le_length]; unfold SIZEOF_CTRL SIZEOF_MSG at *; omega
    | app o b =>
      refine ⟨_, rfl, ?_⟩
      have hb' : o + b.length ≤ ld64 f OFF_APP_LEN := hb
      simp only [Store.inFile, appOff, mvOff]; unfold SIZEOF_CTRL at *; omega
    | _ =>
      refine ⟨_, rfl, ?_⟩
      simp [Store.inFile, SIZEOF_CTRL, OFF_I, OFF_U, OFF_M, OFF_MP, OFF_R, OFF_E, OFF_Q, OFF_STAT] at hl ⊢; omega
  obtain ⟨x, hx, h1, h2, h3⟩ := hreg
  have hin : (s.inFile f).1 + (s.inFile f).2.length ≤ f.length := by omega
  refine ⟨⟨x, hx, h1, h2, h3⟩, put_length hin, fun k hk => put_getElem?_out hin (by omega), hdec, ?_⟩
  have hn : ld64 (s.onFile f) OFF_N = ld64 f OFF_N := by
    have := congrArg Ring.n hdec; cases s <;> exact this
  have hp : ld64 (s.onFile f) OFF_PAD_LEN = ld64 f OFF_PAD_LEN := by
    have := congrArg Ring.pad_len hdec; cases s <;> exact this
  have hm : ld64 (s.onFile f) OFF_MV_LEN = ld64 f OFF_MV_LEN := by
    have := congrArg Ring.mv_len hdec; cases s <;> exact this
  have ha : ld64 (s.onFile f) OFF_APP_LEN = ld64 f OFF_APP_LEN := by
    have := congrArg Ring.app_len hdec; cases s <;> exact this
  have hlen : (s.onFile f).length = f.length := put_length hin
  unfold LayoutOk appOff mvOff at hl ⊢
  rw [hn, hp, hm, ha, hlen]; exact hl

/-! ## C20 -/

/-- **C20.** A size of 0, or a flag that belongs to `shr_open`: refused, nothing happens. -/
theorem C20_invalid_arguments (h : a.dataSz = 0 ∨ a.flags.toNat ≥ SHR_OPEN_FENCE.toNat) :
    shr_init a env fs = ⟨[], .ok (-1) fs⟩ := by
  unfold shr_init
  rw [if_pos (h.elim .inr .inl)]
  rfl

/-- **C20.** SHR_KEEPEXIST on an existing name: success, nothing happens. -/
theorem C20_keepexist (h1 : a.dataSz ≠ 0) (h2 : a.flags.toNat < SHR_OPEN_FENCE.toNat)
    (hk : a.flags.has SHR_KEEPEXIST = true) (hp : fs.path.isSome = true) : shr_init a env fs = ⟨[], .ok 0 fs⟩ := by
  unfold shr_init
  rw [if_neg (by rintro (h | h) <;> omega)]
  simp [hp, hk]

/-- **C20.** Otherwise a successful `shr_init` puts a fresh, empty ring under the name, in a new file: no other file changes, in
particular not the one that had the name before and that other processes may have open. -/
theorem C20_replaces (hs : SizesOk a) (he : env.WF a) (hf : fs.WF) (h : Inits a env fs 0 fs')
    (hnew : fs.path = none ∨ a.flags.has SHR_KEEPEXIST = false) :
    ∃ ino, fs'.path = some ino ∧ (∀ old, fs.path = some old → ino ≠ old) ∧ (∀ j, j ≠ ino → fs'.files j = fs.files j) ∧
      decode (fs'.files ino) = initRing a ∧ (decode (fs'.files ino)).unreadMsgs = [] ∧ (decode (fs'.files ino)).presentMsgs = [] := by
  have e := h.end_ hs he hf
  rcases e.ok rfl with ⟨_, h1, h2⟩ | ⟨_, hp, hw, _⟩
  · rcases hnew with hn | hn
    · rw [hn] at h1; cases h1
    · rw [hn] at h2; cases h2
  refine ⟨fs.next, hp, ?_, e.others, hw.2.2, ?_, ?_⟩
  · intro old ho; have := hf.path old ho; omega
  · rw [hw.2.2]; rfl
  · rw [hw.2.2]; rfl

/-- **C20.** An unsuccessful `shr_init` leaves either everything as it was or no file under the name, and never changes any file that
existed. -/
theorem C20_failure (hs : SizesOk a) (he : env.WF a) (hf : fs.WF) (h : Inits a env fs (-1) fs') :
    (fs' = fs ∨ fs'.path = none) ∧ ∀ j, j ≠ fs.next → fs'.files j = fs.files j := by
  have e := h.end_ hs he hf
  exact ⟨(e.bad rfl).1.symm, e.others⟩

/-- **C20.** What is missing: SHR_APPDATA is an attribute that `shr_stat` could report (and for which shr-tool status looks), but it is
never stored (`C20_counterexample_appdata`).  The other attributes of the ring are those requested; SHR_FARM implies SHR_DROP. -/
theorem C20_attributes_partial (a : InitArgs) :
    ((initRing a).gflags.has SHR_FARM = a.flags.has SHR_FARM) ∧
    ((initRing a).gflags.has SHR_DROP = (a.flags.has SHR_DROP || a.flags.has SHR_FARM)) ∧
    ((initRing a).gflags.has SHR_SYNC = a.flags.has SHR_SYNC) ∧
    ((initRing a).gflags.has SHR_MLOCK = a.flags.has SHR_MLOCK) := by
  show (a.gflags.has _ = _) ∧ (a.gflags.has _ = _) ∧ (a.gflags.has _ = _) ∧ (a.gflags.has _ = _)
  unfold InitArgs.gflags
  dsimp only
  cases a.flags.has SHR_SYNC <;> cases a.flags.has SHR_DROP <;> cases a.flags.has SHR_FARM <;> cases a.flags.has SHR_MLOCK <;>
    decide

/-- **C20.** No ring reports SHR_APPDATA. -/
theorem C20_counterexample_appdata (a : InitArgs) : (initRing a).gflags.has SHR_APPDATA = false := by
  show a.gflags.has _ = _
  unfold InitArgs.gflags
  dsimp only
  cases a.flags.has SHR_SYNC <;> cases a.flags.has SHR_DROP <;> cases a.flags.has SHR_FARM <;> cases a.flags.has SHR_MLOCK <;>
    decide

/-! ## C21 -/

theorem max_msgs_pos (hs : SizesOk a) : 0 < a.max_msgs := by
  have h1 := hs.sum; have h2 := hs.pos
  have hm : a.dataSz ≤ SSIZE_MAX := by omega
  unfold SSIZE_MAX at hm
  unfold InitArgs.max_msgs wadd W
  dsimp only
  generalize (if a.flags.has SHR_MAXMSGS_2 = true then a.maxMsgs else 0) = m
  by_cases h : m = 0
  · rw [if_pos h]; omega
  · rw [if_neg h]; omega

theorem validate_ringIs (hs : SizesOk a) {L : Nat} (hL : a.fileSz ≤ L) {g : Flags} {app f : List Byte} (h : RingIs a L g app f) :
    validate_ring f L = 0 := by
  obtain ⟨hlen, hmag, hd⟩ := h
  have f1 : ld64 f OFF_N = a.dataSz := congrArg Ring.n hd
  have f2 : ld64 f OFF_PAD_LEN = a.pad := congrArg Ring.pad_len hd
  have f3 : ld64 f OFF_MV_LEN = a.mv_bytes := congrArg Ring.mv_len hd
  have f4 : ld64 f OFF_APP_LEN = a.appsize := congrArg Ring.app_len hd
  have f5 : ld64 f OFF_MM = a.max_msgs := congrArg Ring.mm hd
  have f6 : ld64 f OFF_U = 0 := congrArg Ring.u hd
  have f7 : ld64 f OFF_I = 0 := congrArg Ring.i hd
  have f8 : ld64 f OFF_R = 0 := congrArg Ring.r hd
  have hsz := hs.fileSz
  have hsum := hs.sum
  have hp := hs.pos
  have hmm := max_msgs_pos hs
  have hfs : toSigned a.fileSz = a.fileSz := by
    unfold toSigned; rw [if_pos]
    have : SSIZE_MAX < 2 ^ 63 := by decide
    omega
  unfold validate_ring MIN_RING_SZ
  have e1 : wadd (wadd (wadd (wadd SIZEOF_CTRL a.dataSz) a.pad) a.mv_bytes) a.appsize = a.fileSz := rfl
  rw [f1, f2, f3, f4, f5, f6, f7, f8, e1, hfs, if_neg (by omega), if_neg (by simpa using hmag), if_neg (by omega), if_neg (by omega),
    if_neg (by omega), if_neg (by omega)]

theorem validate_raw {L sz : Nat} {f : List Byte} (h : Raw L f) : validate_ring f sz < 0 := by
  have h1 : ld64 f OFF_N = 0 := by unfold ld64 OFF_N; rw [h.2.1, leVal_replicate]
  have h2 : ld64 f OFF_I = 0 := by unfold ld64 OFF_I; rw [h.2.2, leVal_replicate]
  unfold validate_ring
  rw [h1, h2]
  repeat' split
  all_goals first | decide | omega

theorem validate_nil {sz : Nat} : validate_ring [] sz < 0 := by
  unfold validate_ring
  split
  · decide
  · rw [if_pos (by decide)]; decide

/-- **C21.** After a successful `shr_init` that made a ring, `shr_open` with exactly one of the two modes and no creation flag succeeds
(unless a system call fails), and the handle and ring are those from which the histories of `Model/Sys.lean` start, with the requested
size, the requested maximum of messages (or 100 + size/100) and nothing unread. -/
theorem C21_fresh_ring_opens (hs : SizesOk a) (he : env.WF a) (hf : fs.WF) (h : Inits a env fs 0 fs')
    (hnew : fs.path = none ∨ a.flags.has SHR_KEEPEXIST = false)
    (flags : Flags) (hmode : flags.has SHR_RDONLY = !flags.has SHR_WRONLY) (hcr : flags.has (SHR_OPEN_FENCE - 1#32) = false) (k : Nat) :
    ∃ ino hd, shr_open fs' flags {} = some (ino, hd) ∧
      (Sys.init a).step (.open k flags {}) = .ok (⟨decode (fs'.files ino), upd (fun _ => .never) k (.live hd)⟩, .opened true) ∧
      hd.n = a.dataSz ∧ hd.flags = flags ∧
      (decode (fs'.files ino)).n = a.dataSz ∧ (decode (fs'.files ino)).unreadMsgs = [] ∧ (decode (fs'.files ino)).u = 0 ∧
      (decode (fs'.files ino)).mm =
        (if a.flags.has SHR_MAXMSGS_2 = true ∧ a.maxMsgs ≠ 0 then a.maxMsgs else 100 + a.dataSz / 100) := by
  have e := h.end_ hs he hf
  rcases e.ok rfl with ⟨_, h1, h2⟩ | ⟨_, hp, hw, _⟩
  · rcases hnew with hn | hn
    · rw [hn] at h1; cases h1
    · rw [hn] at h2; cases h2
  have hL : a.fileSz ≤ env.trunc.len a.fileSz := by
    unfold Trunc.len; split
    · rename_i l h; exact he _ h
    · exact Nat.le_refl _
  have hval := validate_ringIs hs hL (g := a.gflags) (app := (initRing a).app) ⟨hw.1, hw.2.1, by rw [hw.2.2]; rfl⟩
  have hvf : validate_flags flags = true := by
    have hx : ((flags &&& SHR_RDONLY) ^^^ (flags &&& SHR_WRONLY)) ≠ 0#32 := by
      intro hx
      rw [BitVec.xor_eq_zero_iff] at hx
      unfold Flags.has at hmode
      have hdis : SHR_RDONLY &&& SHR_WRONLY = 0#32 := by decide
      have h3 : flags &&& SHR_RDONLY = 0#32 := by
        have : (flags &&& SHR_RDONLY) &&& SHR_RDONLY = (flags &&& SHR_WRONLY) &&& SHR_RDONLY := by rw [hx]
        rw [BitVec.and_assoc, BitVec.and_self, BitVec.and_assoc, BitVec.and_comm SHR_WRONLY, hdis, BitVec.and_zero] at this
        exact this
      rw [h3] at hx
      rw [h3, ← hx] at hmode
      simp at hmode
    unfold validate_flags
    rw [if_neg (by simpa using hx), if_neg (by simpa using hcr)]
  have hsz := hs.fileSz
  obtain ⟨hd, ho⟩ : ∃ hd, openLocked (initRing a) flags {} = some hd := by
    unfold openLocked
    simp only [Bool.true_eq_false, and_false, if_false]
    have : ∃ c, init_cache (initRing a) flags {} = some c := by
      unfold init_cache; split
      · exact ⟨_, rfl⟩
      · split
        · exact ⟨_, rfl⟩
        · exact ⟨_, rfl⟩
    obtain ⟨c, hc⟩ := this
    rw [hc]
    exact ⟨_, rfl⟩
  have hfld : hd.n = a.dataSz ∧ hd.flags = flags := by
    unfold openLocked at ho
    repeat' split at ho
    all_goals try cases ho
    exact ⟨rfl, rfl⟩
  refine ⟨fs.next, hd, ?_, ?_, hfld.1, hfld.2, ?_⟩
  · unfold shr_open shr_open_at
    rw [hvf, hp]
    dsimp only
    have : (fs'.files fs.next).length ≠ 0 := by rw [hw.1]; unfold SIZEOF_CTRL at hsz; omega
    rw [hw.1] at this ⊢
    rw [hval, hw.2.2, ho]
    simp [this]
  · unfold Sys.step Sys.init
    dsimp only
    rw [hvf, ho, hw.2.2]
    rfl
  · rw [hw.2.2]
    refine ⟨rfl, rfl, rfl, ?_⟩
    show a.max_msgs = _
    have hds := hs.sum
    have hle : a.dataSz ≤ SSIZE_MAX := by omega
    unfold SSIZE_MAX at hle
    unfold InitArgs.max_msgs wadd W
    dsimp only
    by_cases hf2 : a.flags.has SHR_MAXMSGS_2 = true
    · by_cases hz : a.maxMsgs = 0
      · simp [hf2, hz]; omega
      · simp [hf2, hz]
    · simp [hf2]; omega

/-! ## C23 -/

/-- **C23.** What is missing: the modes are checked with an exclusive or of different bits, so SHR_RDONLY|SHR_WRONLY is accepted
(`C23_counterexample`). What holds: at least one mode, no creation flag. -/
theorem C23_modes_partial {fs1 fs2 fs3 : FS} {flags : Flags} {oe : OpenEnv} {x : Nat × Handle}
    (h : shr_open_at fs1 fs2 fs3 flags oe = some x) :
    (flags.has SHR_RDONLY = true ∨ flags.has SHR_WRONLY = true) ∧ flags.has (SHR_OPEN_FENCE - 1#32) = false ∧ x.2.flags = flags := by
  unfold shr_open_at at h
  split at h
  · cases h
  rename_i hv
  split at h
  · cases h
  split at h
  · cases h
  split at h
  · cases h
  dsimp only at h
  split at h
  · cases h
  split at h
  · cases h
  cases ho : openLocked (decode (fs3.files ‹Nat›)) flags oe.env with
  | none => rw [ho] at h; cases h
  | some hd =>
    rw [ho] at h
    cases h
    have hf : hd.flags = flags := by
      unfold openLocked at ho
      repeat' split at ho
      all_goals try cases ho
      rfl
    unfold validate_flags at hv
    split at hv
    · simp at hv
    · rename_i hx
      split at hv
      · simp at hv
      · rename_i hc
        refine ⟨?_, by simpa using hc, hf⟩
        simp only [beq_iff_eq] at hx
        unfold Flags.has
        by_cases h1 : flags &&& SHR_RDONLY = 0#32
        · right
          simp only [bne_iff_ne, ne_eq]
          intro h2; exact hx (by rw [h1, h2]; rfl)
        · left; simpa using h1

/-! ## C24 -/

/-- **C24.** What is missing: if the sizes in the header add up to 2^63 or more the sum is negative as a `ssize_t` and the file is
accepted however short it is (`C24_counterexample`).  What holds: whatever is opened is long enough for a header and at least one
byte, has the magic, is at least as long as its sizes require (if they add up to less than 2^63), and has its unread count, write
position and read slot in range. -/
theorem C24_validated_partial {fs1 fs2 fs3 : FS} {flags : Flags} {oe : OpenEnv} {ino : Nat} {hd : Handle}
    (h : shr_open_at fs1 fs2 fs3 flags oe = some (ino, hd)) :
    fs1.path = some ino ∧ SIZEOF_CTRL < (fs2.files ino).length ∧ ld (fs3.files ino) 0 8 = MAGIC ∧
    (SIZEOF_CTRL + ld64 (fs3.files ino) OFF_N + ld64 (fs3.files ino) OFF_PAD_LEN + ld64 (fs3.files ino) OFF_MV_LEN +
        ld64 (fs3.files ino) OFF_APP_LEN < 2 ^ 63 →
      ∀ x ∈ regions (fs3.files ino), x.off + x.len ≤ (fs2.files ino).length) ∧
    (decode (fs3.files ino)).u ≤ (decode (fs3.files ino)).n ∧ (decode (fs3.files ino)).i < (decode (fs3.files ino)).n ∧
    (decode (fs3.files ino)).r < (decode (fs3.files ino)).mm := by
  unfold shr_open_at at h
  split at h
  · cases h
  split at h
  · cases h
  split at h
  · cases h
  rename_i j hj
  split at h
  · cases h
  dsimp only at h
  split at h
  · cases h
  split at h
  · cases h
  rename_i hv
  cases ho : openLocked (decode (fs3.files j)) flags oe.env with
  | none => rw [ho] at h; cases h
  | some hd' =>
    rw [ho] at h
    cases h
    unfold validate_ring at hv
    split at hv
    · exact absurd (by decide) hv
    split at hv
    · exact absurd (by decide) hv
    split at hv
    · exact absurd (by decide) hv
    split at hv
    · exact absurd (by decide) hv
    split at hv
    · exact absurd (by decide) hv
    split at hv
    · exact absurd (by decide) hv
    rename_i h1 h2 h3 h4 h5 h6
    refine ⟨hj, ?_, by simpa using h2, ?_, ?_, ?_, ?_⟩
    · unfold MIN_RING_SZ at h1; omega
    · intro hsum x hx
      have hW : (2 : Nat) ^ 63 < W := by decide
      have e : wadd (wadd (wadd (wadd SIZEOF_CTRL (ld64 (fs3.files ino) OFF_N)) (ld64 (fs3.files ino) OFF_PAD_LEN))
          (ld64 (fs3.files ino) OFF_MV_LEN)) (ld64 (fs3.files ino) OFF_APP_LEN) =
          SIZEOF_CTRL + ld64 (fs3.files ino) OFF_N + ld64 (fs3.files ino) OFF_PAD_LEN + ld64 (fs3.files ino) OFF_MV_LEN +
            ld64 (fs3.files ino) OFF_APP_LEN := by
        unfold wadd
        rw [Nat.mod_eq_of_lt (a := SIZEOF_CTRL + ld64 (fs3.files ino) OFF_N) (by omega),
          Nat.mod_eq_of_lt (a := SIZEOF_CTRL + ld64 (fs3.files ino) OFF_N + ld64 (fs3.files ino) OFF_PAD_LEN) (by omega),
          Nat.mod_eq_of_lt (a := SIZEOF_CTRL + ld64 (fs3.files ino) OFF_N + ld64 (fs3.files ino) OFF_PAD_LEN + _) (by omega),
          Nat.mod_eq_of_lt (by omega)]
      rw [e] at h3
      unfold toSigned at h3
      rw [if_pos hsum] at h3
      have h3' : SIZEOF_CTRL + ld64 (fs3.files ino) OFF_N + ld64 (fs3.files ino) OFF_PAD_LEN + ld64 (fs3.files ino) OFF_MV_LEN +
            ld64 (fs3.files ino) OFF_APP_LEN ≤ (fs2.files ino).length := by omega
      unfold regions at hx
      simp only [appOff, mvOff, List.mem_cons, List.not_mem_nil, or_false] at hx
      rcases hx with rfl | rfl | rfl | rfl <;> dsimp only <;> omega
    · show ld64 (fs3.files ino) OFF_U ≤ ld64 (fs3.files ino) OFF_N; omega
    · show ld64 (fs3.files ino) OFF_I < ld64 (fs3.files ino) OFF_N; omega
    · show ld64 (fs3.files ino) OFF_R < ld64 (fs3.files ino) OFF_MM; omega

/-! ## C52 -/

theorem shr_open_at_some {fs1 fs2 fs3 : FS} {flags : Flags} {oe : OpenEnv} {ino : Nat} {hd : Handle}
    (h : shr_open_at fs1 fs2 fs3 flags oe = some (ino, hd)) :
    fs1.path = some ino ∧ (fs2.files ino).length ≠ 0 ∧ ¬ validate_ring (fs3.files ino) (fs2.files ino).length < 0 ∧
      openLocked (decode (fs3.files ino)) flags oe.env = some hd := by
  unfold shr_open_at at h
  split at h
  · cases h
  split at h
  · cases h
  split at h
  · cases h
  rename_i j hj
  split at h
  · cases h
  dsimp only at h
  split at h
  · cases h
  split at h
  · cases h
  rename_i h0 hv
  cases ho : openLocked (decode (fs3.files j)) flags oe.env with
  | none => rw [ho] at h; cases h
  | some hd' =>
    rw [ho] at h
    cases h
    exact ⟨hj, fun hz => h0 (.inl hz), hv, ho⟩

/-- **C52.** An opener whose steps (looking up the name, taking the length, obtaining the lock) fall at arbitrary moments of the
execution of `shr_init`, the lock being obtained only when `shr_init` does not hold it, either fails, or obtains the file that had the
name before (unchanged), or obtains the new file, with its complete length mapped and the ring completely initialised. -/
theorem C52_creation_is_atomic (hs : SizesOk a) (he : env.WF a) (hf : fs.WF) {fs1 fs2 fs3 : FS}
    (h1 : DuringInit a env fs fs1) (h2 : DuringInit a env fs fs2) (h3 : DuringInit a env fs fs3)
    {flags : Flags} {oe : OpenEnv} {ino : Nat} {hd : Handle} (hlock : fs3.locked ≠ some ino)
    (h : shr_open_at fs1 fs2 fs3 flags oe = some (ino, hd)) :
    (fs.path = some ino ∧ fs3.files ino = fs.files ino) ∨
    (Inits a env fs 0 fs3 ∧ (fs2.files ino).length = (fs3.files ino).length ∧ decode (fs3.files ino) = initRing a) := by
  obtain ⟨g1, g2, g3, g4⟩ := shr_open_at_some h
  -- which file
  have hfile : ino = fs.next ∨ (fs.path = some ino ∧ ino ≠ fs.next) := by
    have old : fs1.path = fs.path → (fs.path = some ino ∧ ino ≠ fs.next) := fun e => by
      rw [e] at g1; have := hf.path _ g1; exact ⟨g1, by omega⟩
    rcases h1.cases hs he hf with p | ⟨rc, _, p⟩
    · rcases p.path with q | q | q
      · exact .inr (old q)
      · rw [q] at g1; cases g1
      · rw [q] at g1; cases g1; exact .inl rfl
    · rcases p.rcs with rfl | rfl
      · rcases p.ok rfl with ⟨q, _⟩ | ⟨_, q, _⟩
        · exact .inr (old (by rw [q]))
        · rw [q] at g1; cases g1; exact .inl rfl
      · rcases (p.bad rfl).1 with q | q
        · rw [q] at g1; cases g1
        · exact .inr (old (by rw [q]))
  rcases hfile with rfl | ⟨hp, hne⟩
  · right
    rcases h3.cases hs he hf with p | ⟨rc, hi, p⟩
    · rcases p.body with q | ⟨_, q⟩
      · rw [q] at g3; exact absurd validate_nil g3
      · exact absurd q hlock
    · rcases p.rcs with rfl | rfl
      · rcases p.ok rfl with ⟨q, _⟩ | ⟨_, q, hw, _⟩
        · rw [q, hf.fresh] at g3; exact absurd validate_nil g3
        · refine ⟨hi, ?_, hw.2.2⟩
          rw [hw.1]
          rcases h2.cases hs he hf with p2 | ⟨rc2, hi2, p2⟩
          · rcases p2.body with q2 | ⟨q2 | q2, _⟩
            · rw [q2] at g2; simp at g2
            · exact q2.1
            · obtain ⟨_, _, q3, _⟩ := q2; exact q3.1
          · unfold Inits at hi hi2
            rw [hi] at hi2
            cases hi2
            exact hw.1
      · rcases (p.bad rfl).2 with q | q
        · rw [q] at g3; exact absurd validate_nil g3
        · exact absurd (validate_raw q) g3
  · left
    refine ⟨hp, ?_⟩
    rcases h3.cases hs he hf with p | ⟨_, _, p⟩
    · exact p.others _ hne
    · exact p.others _ hne

/-! ## C53 -/

theorem killed_creator_half (hs : SizesOk a) (he : env.WF a) (hf : fs.WF) {t : FS} (ht : DuringInit a env fs t)
    {flags : Flags} {oe : OpenEnv} {ino : Nat} {hd : Handle} (h : shr_open t.killed flags oe = some (ino, hd)) :
    (fs.path = some ino ∧ t.files ino = fs.files ino) ∨ Half a (env.trunc.len a.fileSz) (t.files ino) := by
  obtain ⟨g1, g2, g3, g4⟩ := shr_open_at_some h
  change t.path = some ino at g1
  change ¬ validate_ring (t.files ino) (t.files ino).length < 0 at g3
  have hwhole : ∀ f, Whole a (env.trunc.len a.fileSz) f → Half a (env.trunc.len a.fileSz) f := by
    intro f hw
    refine ⟨a.gflags, (initRing a).app, ⟨hw.1, hw.2.1, by rw [hw.2.2]; rfl⟩, BitVec.or_self, ?_, .whole a⟩
    unfold initRing InitArgs.appsize; split <;> simp_all
  by_cases hne : ino = fs.next
  · subst hne
    right
    rcases ht.cases hs he hf with p | ⟨rc, hi, p⟩
    · rcases p.body with q | ⟨q | q, _⟩
      · rw [q] at g3; exact absurd validate_nil g3
      · exact absurd (validate_raw q) g3
      · exact q
    · rcases p.rcs with rfl | rfl
      · rcases p.ok rfl with ⟨q, _⟩ | ⟨_, q, hw, _⟩
        · rw [q, hf.fresh] at g3; exact absurd validate_nil g3
        · exact hwhole _ hw
      · rcases (p.bad rfl).2 with q | q
        · rw [q] at g3; exact absurd validate_nil g3
        · exact absurd (validate_raw q) g3
  · left
    rcases ht.cases hs he hf with p | ⟨rc, _, p⟩
    · refine ⟨?_, p.others _ hne⟩
      rcases p.path with q | q | q
      · rw [← q]; exact g1
      · rw [q] at g1; cases g1
      · rw [q] at g1; cases g1; exact absurd rfl hne
    · refine ⟨?_, p.others _ hne⟩
      rcases p.rcs with rfl | rfl
      · rcases p.ok rfl with ⟨q, _⟩ | ⟨_, q, _⟩
        · rw [q] at g1; exact g1
        · rw [q] at g1; cases g1; exact absurd rfl hne
      · rcases (p.bad rfl).1 with q | q
        · rw [q] at g1; cases g1
        · rw [q] at g1; exact g1

/-- **C53.** What is missing: a creator killed between the store of `r->n` and its last store leaves a ring that opens although requested
attributes or app data are missing (`C53_counterexample`).  What holds, for a kill at any moment: what opens is the file that was there
before, or a ring with the requested geometry and contents whose attributes are among those requested; so if no attribute and no app
data is requested the property holds in full. -/
theorem C53_killed_creator_partial (hs : SizesOk a) (he : env.WF a) (hf : fs.WF) {t : FS} (ht : DuringInit a env fs t)
    {flags : Flags} {oe : OpenEnv} {ino : Nat} {hd : Handle} (h : shr_open t.killed flags oe = some (ino, hd)) :
    (fs.path = some ino ∧ t.files ino = fs.files ino) ∨
    ((∃ g app, decode (t.files ino) = { initRing a with gflags := g, app := app } ∧ g ||| a.gflags = a.gflags ∧ app.length = a.appsize) ∧
      (a.gflags = 0#32 → a.flags.has SHR_APPDATA_1 = false → decode (t.files ino) = initRing a)) := by
  have fin : ∀ f, Half a (env.trunc.len a.fileSz) f →
      ((∃ g app, decode f = { initRing a with gflags := g, app := app } ∧ g ||| a.gflags = a.gflags ∧ app.length = a.appsize) ∧
      (a.gflags = 0#32 → a.flags.has SHR_APPDATA_1 = false → decode f = initRing a)) := by
    rintro f ⟨g, app, hr, q1, q2, _⟩
    refine ⟨⟨g, app, hr.2.2, q1, q2⟩, fun z1 z2 => ?_⟩
    rw [hr.2.2]
    have hg : g = a.gflags := by
      rw [z1] at q1 ⊢; simpa using q1
    have ha : app = (initRing a).app := by
      have : app.length = 0 := by rw [q2]; unfold InitArgs.appsize; simp [z2]
      rw [List.length_eq_zero_iff.mp this]
      unfold initRing; simp [z2]
    rw [hg, ha]; rfl
  exact (killed_creator_half hs he hf ht h).imp id (fin _)

end
/-! ## Counterexamples, and cases that meet the hypotheses -/

/-- No ring yet. -/
def emptyFS : FS := ⟨none, fun _ => [], 0, none⟩

theorem emptyFS_wf : emptyFS.WF := ⟨fun _ h => (nomatch h), rfl, rfl⟩

/-- The file system `shr_init` leaves. -/
def afterInit (a : InitArgs) (env : InitEnv) (fs : FS) : FS :=
  match (shr_init a env fs).res with
  | .ok _ t => t
  | .abort t => t
  | _ => fs

/-- `shr_init` completed and returned `rc`. -/
def returned (a : InitArgs) (env : InitEnv) (fs : FS) (rc : Int) : Bool :=
  match (shr_init a env fs).res with
  | .ok r _ => decide (r = rc)
  | _ => false

theorem inits_of {a : InitArgs} {env : InitEnv} {fs : FS} {rc : Int} (h : returned a env fs rc = true) :
    Inits a env fs rc (afterInit a env fs) := by
  unfold returned at h
  unfold Inits afterInit
  cases e : (shr_init a env fs).res with
  | ok r t => rw [e] at h; simp at h; rw [h]
  | _ => rw [e] at h; cases h

def smallArgs : InitArgs := { dataSz := 10, flags := SHR_MAXMSGS_2 ||| SHR_APPDATA_1 ||| SHR_DROP, maxMsgs := 3, app := [1, 2] }

theorem smallArgs_ok : SizesOk smallArgs := ⟨by decide, by decide, by decide⟩

/-- C19, C20, C21: a ring is made, then made again over the old one. -/
example : Inits smallArgs {} emptyFS 0 (afterInit smallArgs {} emptyFS) := inits_of (by decide +kernel)

example : ∃ ino hd, shr_open (afterInit smallArgs {} emptyFS) SHR_RDONLY {} = some (ino, hd) ∧ hd.n = 10 := by
  obtain ⟨ino, hd, h1, _, h2, _⟩ := C21_fresh_ring_opens smallArgs_ok (env := {}) (fun _ h => nomatch h) emptyFS_wf
    (inits_of (by decide +kernel)) (.inl rfl) SHR_RDONLY (by decide) (by decide) 0
  exact ⟨ino, hd, h1, h2⟩

/-- Replacing an existing ring (file 0) by a new one (file 1). -/
example : ∃ fs' ino, Inits smallArgs {} (afterInit smallArgs {} emptyFS) 0 fs' ∧ fs'.path = some ino ∧ ino ≠ 0 ∧
    fs'.files 0 = (afterInit smallArgs {} emptyFS).files 0 := by
  have hp : (afterInit smallArgs {} emptyFS).path = some 0 := by decide +kernel
  have hn : (afterInit smallArgs {} emptyFS).next = 1 := by decide +kernel
  have hw : (afterInit smallArgs {} emptyFS).WF :=
    ⟨fun j h => by rw [hp] at h; cases h; rw [hn]; decide, by decide +kernel, by decide +kernel⟩
  have hi : Inits smallArgs {} (afterInit smallArgs {} emptyFS) 0 _ := inits_of (by decide +kernel)
  obtain ⟨ino, h1, h2, h3, _⟩ := C20_replaces smallArgs_ok (env := {}) (fun _ h => nomatch h) hw hi (.inr (by decide))
  exact ⟨_, ino, hi, h1, h2 0 hp, h3 0 (fun h => h2 0 hp h.symm)⟩

/-- C20_failure: `mmap` fails. -/
example : Inits smallArgs { mmapOk := false } emptyFS (-1) (afterInit smallArgs { mmapOk := false } emptyFS) :=
  inits_of (by decide +kernel)

/-- C19_store: a slot store in the fresh file. -/
example : LayoutOk ((afterInit smallArgs {} emptyFS).files 0) ∧
    (Store.pos 2 7).inBounds (decode ((afterInit smallArgs {} emptyFS).files 0)) ∧
    (Store.app 1 [9]).inBounds (decode ((afterInit smallArgs {} emptyFS).files 0)) := by
  refine ⟨by unfold LayoutOk; decide +kernel, ⟨by decide +kernel, by decide⟩, ?_⟩
  unfold Store.inBounds; decide +kernel

/-- The fragment goes out of bounds. -/
def isUb {α β : Type} : Except Fault (α × β) → Bool
  | .error .ub => true
  | _ => false

/-- **C19.** Without the assumption that the sizes do not overflow the property is false: 2^60 messages of 16 bytes are 0 bytes modulo
2^64; `shr_init` succeeds with a message vector of no bytes, and the first write stores outside it. -/
theorem C19_counterexample : ∃ (a : InitArgs) (fs' : FS) (ino : Nat), Inits a {} emptyFS 0 fs' ∧ fs'.path = some ino ∧
    (fs'.files ino).length = 1792 ∧ ld64 (fs'.files ino) OFF_MM = 2 ^ 60 ∧ ld64 (fs'.files ino) OFF_MV_LEN = 0 ∧
    isUb (exec (writevDirect SHR_WRONLY (decode (fs'.files ino)).n (decode (fs'.files ino)).mm [[1]] {}) (decode (fs'.files ino))) = true :=
  ⟨{ dataSz := 8, flags := SHR_MAXMSGS_2, maxMsgs := 2 ^ 60 }, _, 0, inits_of (by decide +kernel), by decide +kernel,
    by decide +kernel, by decide +kernel, by decide +kernel, by decide +kernel⟩

/-- **C23.** Both modes together are accepted. -/
theorem C23_counterexample : ∃ x, shr_open (afterInit smallArgs {} emptyFS) (SHR_RDONLY ||| SHR_WRONLY) {} = some x :=
  Option.isSome_iff_exists.mp (by decide +kernel)

/-- The file of a fresh ring, with 2^63 in the header as the size of the data. -/
def hugeHeader : List Byte := put ((afterInit smallArgs {} emptyFS).files 0) OFF_N (le 8 (2 ^ 63))

/-- **C24.** A file much shorter than its header requires is accepted. -/
theorem C24_counterexample : ∃ (fs : FS) (x : Nat × Handle), shr_open fs SHR_RDONLY {} = some x ∧ fs.path = some x.1 ∧
    (fs.files x.1).length < 2000 ∧ (decode (fs.files x.1)).n = 2 ^ 63 := by
  have h : (shr_open ⟨some 0, fun _ => hugeHeader, 1, none⟩ SHR_RDONLY {}).isSome = true := by decide +kernel
  obtain ⟨x, hx⟩ := Option.isSome_iff_exists.mp h
  obtain ⟨h1, _⟩ := shr_open_at_some (ino := x.1) (hd := x.2) hx
  exact ⟨_, x, hx, h1, by show hugeHeader.length < 2000; decide +kernel, by show (decode hugeHeader).n = 2 ^ 63; decide +kernel⟩

def dropArgs : InitArgs := { dataSz := 8, flags := SHR_DROP }

theorem dropArgs_ok : SizesOk dropArgs := ⟨by decide, by decide, by decide⟩

/-- The moment before `r->gflags |= SHR_DROP`. -/
def beforeDrop : FS := (shr_init dropArgs {} emptyFS).points.getD 1801 emptyFS

theorem getD_mem {α : Type} {l : List α} {k : Nat} {d : α} (h : (l.drop k).isEmpty = false) : l.getD k d ∈ l := by
  have hk : k < l.length := by
    apply Classical.byContradiction
    intro hk
    rw [List.drop_of_length_le (by omega)] at h
    cases h
  rw [List.getD_eq_getElem?_getD, List.getElem?_eq_getElem hk]
  exact List.getElem_mem hk

theorem beforeDrop_during : DuringInit dropArgs {} emptyFS beforeDrop := by
  unfold DuringInit beforeDrop
  exact getD_mem (by decide +kernel)

/-- **C53.** A creator killed there leaves a ring that opens and is not in the requested mode. -/
theorem C53_counterexample : ∃ (a : InitArgs) (t : FS) (x : Nat × Handle), SizesOk a ∧ DuringInit a {} emptyFS t ∧
    shr_open t.killed SHR_RDONLY {} = some x ∧ a.flags.has SHR_DROP = true ∧ (decode (t.files x.1)).gflags.has SHR_DROP = false := by
  have h : (shr_open beforeDrop.killed SHR_RDONLY {}).isSome = true := by decide +kernel
  obtain ⟨x, hx⟩ := Option.isSome_iff_exists.mp h
  obtain ⟨h1, _⟩ := shr_open_at_some (ino := x.1) (hd := x.2) hx
  have hp : beforeDrop.killed.path = some 0 := by decide +kernel
  have hx0 : x.1 = 0 := by rw [hp] at h1; exact (Option.some.inj h1).symm
  refine ⟨dropArgs, beforeDrop, x, dropArgs_ok, beforeDrop_during, hx, by decide, ?_⟩
  rw [hx0]
  decide +kernel

/-- C53_killed_creator_partial, C52: the hypotheses are met by the same moment. -/
example : ∃ g app, decode (beforeDrop.files 0) = { initRing dropArgs with gflags := g, app := app } := by
  have h : (shr_open beforeDrop.killed SHR_RDONLY {}).isSome = true := by decide +kernel
  obtain ⟨x, hx⟩ := Option.isSome_iff_exists.mp h
  obtain ⟨h1, _⟩ := shr_open_at_some (ino := x.1) (hd := x.2) hx
  have hp : beforeDrop.killed.path = some 0 := by decide +kernel
  have hx0 : x.1 = 0 := by rw [hp] at h1; exact (Option.some.inj h1).symm
  rcases C53_killed_creator_partial dropArgs_ok (env := {}) (fun _ h => nomatch h) emptyFS_wf beforeDrop_during hx with
    ⟨h, _⟩ | ⟨⟨g, app, h, _⟩, _⟩
  · cases h
  · rw [hx0] at h; exact ⟨g, app, h⟩

/-- C52: an opener that looks the name up while `shr_init` holds the lock, and obtains the lock after it. -/
example : ∃ fs3 hd, DuringInit dropArgs {} emptyFS fs3 ∧ shr_open_at beforeDrop beforeDrop fs3 SHR_WRONLY {} = some (0, hd) ∧
    decode (fs3.files 0) = initRing dropArgs := by
  have h : (shr_open_at beforeDrop beforeDrop (afterInit dropArgs {} emptyFS) SHR_WRONLY {}).isSome = true := by decide +kernel
  obtain ⟨x, hx⟩ := Option.isSome_iff_exists.mp h
  obtain ⟨h1, _⟩ := shr_open_at_some (ino := x.1) (hd := x.2) hx
  have hp : beforeDrop.path = some 0 := by decide +kernel
  have hx0 : x.1 = 0 := by rw [hp] at h1; exact (Option.some.inj h1).symm
  have hi : Inits dropArgs {} emptyFS 0 (afterInit dropArgs {} emptyFS) := inits_of (by decide +kernel)
  have hd : DuringInit dropArgs {} emptyFS (afterInit dropArgs {} emptyFS) := hi.during
  obtain ⟨xi, xh⟩ := x
  cases hx0
  have hl : (afterInit dropArgs {} emptyFS).locked ≠ some 0 := by decide +kernel
  have hb : DuringInit dropArgs {} emptyFS beforeDrop := beforeDrop_during
  rcases C52_creation_is_atomic dropArgs_ok (env := {}) (fun _ h => nomatch h) emptyFS_wf hb hb hd hl hx with ⟨h, _⟩ | ⟨_, _, h⟩
  · cases h
  · exact ⟨_, xh, hd, hx, h⟩

end Shr
