import Verif.Props.File
import Verif.Proof.Consistent
import Verif.Props.Usable
import Verif.Props.Bytes
/-! # Which files `shr_open` accepts (C71), and which are rings in working order (C72) -/
namespace Shr

/-- All system calls of `shr_open` before the lock succeed. -/
def OpenEnv.good (oe : OpenEnv) : Prop := oe.callocOk = true ∧ oe.openOk = true ∧ oe.fstatOk = true ∧ oe.mmapOk = true

/-- What the header of a ring file says about the length of the file, as the library computes it (modulo 2^64). -/
def headerSize (f : List Byte) : Nat :=
  (SIZEOF_CTRL + ld64 f OFF_N + ld64 f OFF_PAD_LEN + ld64 f OFF_MV_LEN + ld64 f OFF_APP_LEN) % 2 ^ 64

/-- The checks of the file, in words: it is longer than the control block, has the magic, is at least as long as its header says
(which counts as negative from 2^63 on), has not more unread bytes than data bytes, and has its write position and its read
slot in range. -/
structure Accepted (f : List Byte) : Prop where
  size : SIZEOF_CTRL < f.length
  magic : ld f 0 8 = MAGIC
  total : headerSize f < 2 ^ 63 → headerSize f ≤ f.length
  u : (decode f).u ≤ (decode f).n
  i : (decode f).i < (decode f).n
  r : (decode f).r < (decode f).mm

theorem validate_ring_iff (f : List Byte) : ¬ validate_ring f f.length < 0 ↔ Accepted f := by
  have hsum : wadd (wadd (wadd (wadd SIZEOF_CTRL (ld64 f OFF_N)) (ld64 f OFF_PAD_LEN)) (ld64 f OFF_MV_LEN)) (ld64 f OFF_APP_LEN) =
      headerSize f := by
    unfold headerSize wadd
    rw [W_val]
    omega
  have hlt : headerSize f < 2 ^ 64 := Nat.mod_lt _ (by decide)
  have hsg : (f.length : Int) < toSigned (headerSize f) ↔ headerSize f < 2 ^ 63 ∧ f.length < headerSize f := by
    unfold toSigned
    rw [W_val]
    split <;> omega
  unfold validate_ring
  rw [hsum]
  constructor
  · intro h
    by_cases h1 : f.length < MIN_RING_SZ
    · rw [if_pos h1] at h; exact absurd (by decide) h
    rw [if_neg h1] at h
    by_cases h2 : ld f 0 8 ≠ MAGIC
    · rw [if_pos h2] at h; exact absurd (by decide) h
    rw [if_neg h2] at h
    by_cases h3 : (f.length : Int) < toSigned (headerSize f)
    · rw [if_pos h3] at h; exact absurd (by decide) h
    rw [if_neg h3] at h
    by_cases h4 : ld64 f OFF_U > ld64 f OFF_N
    · rw [if_pos h4] at h; exact absurd (by decide) h
    rw [if_neg h4] at h
    by_cases h5 : ld64 f OFF_I ≥ ld64 f OFF_N
    · rw [if_pos h5] at h; exact absurd (by decide) h
    rw [if_neg h5] at h
    by_cases h6 : ld64 f OFF_R ≥ ld64 f OFF_MM
    · rw [if_pos h6] at h; exact absurd (by decide) h
    unfold MIN_RING_SZ at h1
    exact ⟨by omega, by simpa using h2, fun h => by rw [hsg] at h3; omega, by show ld64 f OFF_U ≤ ld64 f OFF_N; omega,
      by show ld64 f OFF_I < ld64 f OFF_N; omega, by show ld64 f OFF_R < ld64 f OFF_MM; omega⟩
  · rintro ⟨h1, h2, h3, h4, h5, h6⟩
    have h4' : ¬ ld64 f OFF_U > ld64 f OFF_N := by show ¬ (decode f).u > (decode f).n; omega
    have h5' : ¬ ld64 f OFF_I ≥ ld64 f OFF_N := by show ¬ (decode f).i ≥ (decode f).n; omega
    have h6' : ¬ ld64 f OFF_R ≥ ld64 f OFF_MM := by show ¬ (decode f).r ≥ (decode f).mm; omega
    rw [if_neg (by unfold MIN_RING_SZ; omega), if_neg (by simpa using h2), if_neg (by rw [hsg]; omega), if_neg h4', if_neg h5', if_neg h6']
    decide

theorem fence_bits : ∀ b < 32, (SHR_OPEN_FENCE - 1#32).getLsbD b = decide (b < 12) := by decide

theorem has_fence (flags : Flags) : flags.has (SHR_OPEN_FENCE - 1#32) = false ↔ ∀ b < 12, flags.getLsbD b = false := by
  unfold Flags.has
  rw [bne_eq_false_iff_eq]
  constructor
  · intro h b hb
    have := congrArg (fun x => x.getLsbD b) h
    simp only [BitVec.getLsbD_and, fence_bits b (by omega), hb, decide_true, Bool.and_true, BitVec.getLsbD_zero] at this
    exact this
  · intro h
    apply BitVec.eq_of_getLsbD_eq
    intro b hb
    rw [BitVec.getLsbD_and, fence_bits b hb, BitVec.getLsbD_zero]
    by_cases hb2 : b < 12
    · rw [h b hb2]; rfl
    · simp [hb2]

theorem validate_flags_iff (flags : Flags) : validate_flags flags = true ↔
    (flags.has SHR_RDONLY = true ∨ flags.has SHR_WRONLY = true) ∧ ∀ b < 12, flags.getLsbD b = false := by
  rw [← has_fence]
  have hx : ((flags &&& SHR_RDONLY) ^^^ (flags &&& SHR_WRONLY)) = 0#32 ↔ flags.has SHR_RDONLY = false ∧ flags.has SHR_WRONLY = false := by
    constructor
    · intro h
      have e : flags &&& SHR_RDONLY = flags &&& SHR_WRONLY := by
        apply BitVec.eq_of_getLsbD_eq
        intro b hb
        have := congrArg (fun x => x.getLsbD b) h
        simpa using this
      have e0 : flags &&& SHR_RDONLY = 0#32 := by
        have : flags &&& SHR_RDONLY = (flags &&& SHR_RDONLY) &&& (flags &&& SHR_WRONLY) := by rw [← e, BitVec.and_self]
        rw [this]
        apply BitVec.eq_of_getLsbD_eq
        intro b hb
        have hd : ∀ b < 32, (SHR_RDONLY.getLsbD b && SHR_WRONLY.getLsbD b) = false := by decide
        have := hd b hb
        simp only [BitVec.getLsbD_and, BitVec.getLsbD_zero]
        cases flags.getLsbD b <;> simp [this]
      unfold Flags.has
      rw [← e, e0]
      simp
    · rintro ⟨h1, h2⟩
      unfold Flags.has at h1 h2
      rw [bne_eq_false_iff_eq] at h1 h2
      rw [h1, h2]; rfl
  unfold validate_flags
  by_cases h : ((flags &&& SHR_RDONLY) ^^^ (flags &&& SHR_WRONLY)) = 0#32
  · rw [if_pos (by rw [h]; rfl)]
    obtain ⟨h1, h2⟩ := hx.mp h
    simp [h1, h2]
  · rw [if_neg (by simpa using h)]
    have : flags.has SHR_RDONLY = true ∨ flags.has SHR_WRONLY = true := by
      cases h1 : flags.has SHR_RDONLY <;> cases h2 : flags.has SHR_WRONLY <;> simp
      exact h (hx.mpr ⟨h1, h2⟩)
    cases flags.has (SHR_OPEN_FENCE - 1#32) <;> simp [this]

theorem openLocked_iff (r : Ring) (flags : Flags) (env : Env) : (openLocked r flags env).isSome = true ↔
    env.lockOk = true ∧ (r.gflags.has SHR_MLOCK = true → env.mlockOk = true) ∧ env.bwOpenOk = true ∧
    (flags.has SHR_WRONLY = true → flags.has SHR_BUFFERED = true → env.mallocOk = true) ∧
    (r.gflags.has SHR_SYNC = true → env.syncOk = true) := by
  have key : ∀ o : Option Cache, (match o with
      | none => (none : Option Handle)
      | some c =>
        if r.gflags.has SHR_SYNC ∧ env.syncOk = false then none
        else
          let needR2w := flags.has SHR_NONBLOCK = false ∧ r.gflags.has SHR_DROP = false
          some { flags := flags, cur := ⟨r.q, 0⟩, c := c, n := r.n, mm := r.mm,
                 hasR2w := flags.has SHR_RDONLY || (flags.has SHR_WRONLY && decide needR2w) }).isSome = true ↔
      o.isSome = true ∧ (r.gflags.has SHR_SYNC = true → env.syncOk = true) := by
    intro o
    cases o with
    | none => simp
    | some c => dsimp only; cases r.gflags.has SHR_SYNC <;> cases env.syncOk <;> simp
  have hic : (init_cache r flags env).isSome = true ↔ (flags.has SHR_WRONLY = true → flags.has SHR_BUFFERED = true → env.mallocOk = true) := by
    unfold init_cache
    cases flags.has SHR_WRONLY <;> cases flags.has SHR_BUFFERED <;> cases env.mallocOk <;> simp
  unfold openLocked
  cases h1 : env.lockOk
  · simp
  cases h2 : env.bwOpenOk
  · simp
  by_cases h3 : r.gflags.has SHR_MLOCK = true ∧ env.mlockOk = false
  · simp [h3]
  · have h3' : r.gflags.has SHR_MLOCK = true → env.mlockOk = true := by
      intro h; cases h4 : env.mlockOk <;> simp [h, h4] at h3 ⊢
    rw [if_neg (by simp), if_neg h3, if_neg (by simp)]
    refine (key _).trans ?_
    rw [hic]
    simp only [true_and]
    exact ⟨fun ⟨a, b⟩ => ⟨h3', a, b⟩, fun ⟨_, a, b⟩ => ⟨a, b⟩⟩

/-- **C71.** Exactly when `shr_open` succeeds: the flags contain a mode (one or both) and none of the creation flags (the bits below
`SHR_OPEN_FENCE`), the file exists and passes the checks of `Accepted`, and no system call that is needed fails: mlock only on an
MLOCK ring, malloc only for a buffered writer, msync only on a SYNC ring. -/
theorem C71_opens_iff (fs : FS) (flags : Flags) (oe : OpenEnv) :
    (∃ x, shr_open fs flags oe = some x) ↔
      ((flags.has SHR_RDONLY = true ∨ flags.has SHR_WRONLY = true) ∧ ∀ b < 12, flags.getLsbD b = false) ∧ oe.good ∧
      ∃ ino, fs.path = some ino ∧ Accepted (fs.files ino) ∧ oe.env.lockOk = true ∧
        ((decode (fs.files ino)).gflags.has SHR_MLOCK = true → oe.env.mlockOk = true) ∧ oe.env.bwOpenOk = true ∧
        (flags.has SHR_WRONLY = true → flags.has SHR_BUFFERED = true → oe.env.mallocOk = true) ∧
        ((decode (fs.files ino)).gflags.has SHR_SYNC = true → oe.env.syncOk = true) := by
  rw [← Option.isSome_iff_exists, ← validate_flags_iff]
  unfold shr_open shr_open_at OpenEnv.good
  by_cases hv : validate_flags flags = false
  · rw [if_pos hv]
    exact ⟨(fun h => by cases h), fun h => by rw [hv] at h; cases h.1⟩
  rw [if_neg hv]
  have hv' : validate_flags flags = true := by simpa using hv
  by_cases hc : oe.callocOk = false
  · rw [if_pos hc]
    exact ⟨(fun h => by cases h), fun h => by rw [hc] at h; cases h.2.1.1⟩
  rw [if_neg hc]
  have hc' : oe.callocOk = true := by simpa using hc
  cases hp : fs.path with
  | none => exact ⟨(fun h => by cases h), fun ⟨_, _, ino, h, _⟩ => by cases h⟩
  | some ino =>
    dsimp only
    by_cases ho : oe.openOk = false ∨ oe.fstatOk = false
    · rw [if_pos ho]
      exact ⟨(fun h => by cases h), fun ⟨_, ⟨_, h1, h2, _⟩, _⟩ => by rw [h1, h2] at ho; simp at ho⟩
    rw [if_neg ho]
    have ho1 : oe.openOk = true := by cases h : oe.openOk <;> simp [h] at ho ⊢
    have ho2 : oe.fstatOk = true := by cases h : oe.fstatOk <;> simp [h] at ho ⊢
    by_cases hm : (fs.files ino).length = 0 ∨ oe.mmapOk = false
    · rw [if_pos hm]
      refine ⟨(fun h => by cases h), fun ⟨_, ⟨_, _, _, h⟩, j, hj, hA, _⟩ => ?_⟩
      cases hj
      have := hA.size
      rcases hm with hm | hm
      · omega
      · rw [h] at hm; cases hm
    rw [if_neg hm]
    have hm' : oe.mmapOk = true := by cases h : oe.mmapOk <;> simp [h] at hm ⊢
    by_cases hA : Accepted (fs.files ino)
    · rw [if_neg ((validate_ring_iff _).mpr hA), Option.isSome_map, openLocked_iff]
      constructor
      · intro h; exact ⟨hv', ⟨hc', ho1, ho2, hm'⟩, ino, rfl, hA, h⟩
      · rintro ⟨_, _, j, hj, _, h⟩; cases hj; exact h
    · have : validate_ring (fs.files ino) (fs.files ino).length < 0 := by
        apply Classical.byContradiction
        exact fun h => hA ((validate_ring_iff _).mp h)
      rw [if_pos this]
      refine ⟨(fun h => by cases h), fun ⟨_, _, j, hj, h, _⟩ => ?_⟩
      cases hj; exact absurd h hA

/-! ## Rings in working order -/

/-- A ring file in working order, wherever it comes from: it has the magic and is long enough for its regions; there is one slot of
16 bytes for each message; the control block is consistent (`Ring.Consistent`, Spec/Consistent.lean); on a farm ring, moreover,
every message present is unread, the eldest slot is the one given by the sequence number, and old messages may be dropped; the
unused words of the statistics are zero. -/
structure RingFile (f : List Byte) : Prop where
  magic : ld f 0 8 = MAGIC
  size : SIZEOF_CTRL + ld64 f OFF_N + ld64 f OFF_PAD_LEN + ld64 f OFF_MV_LEN + ld64 f OFF_APP_LEN ≤ f.length
  short : f.length < 2 ^ 63
  slots : ld64 f OFF_MV_LEN = SIZEOF_MSG * ld64 f OFF_MM
  ok : (decode f).Consistent
  farm : (decode f).gflags.has SHR_FARM = true →
    (decode f).m = (decode f).mp ∧ (decode f).e = (decode f).q % (decode f).mm ∧ (decode f).gflags.has SHR_DROP = true
  stat : (decode f).stat =
    { start := (decode f).stat.start, bw := (decode f).stat.bw, br := (decode f).stat.br,
      mw := (decode f).stat.mw, mr := (decode f).stat.mr, md := (decode f).stat.md, bd := (decode f).stat.bd }

/-- The reference queue that such a file contains. -/
def queueOf (r : Ring) : Spec where
  cap := r.n
  maxm := r.mm
  gflags := r.gflags
  tlog := (List.replicate (if r.gflags.has SHR_FARM then r.q else r.e) [] ++ r.presentMsgs).map fun m => (0, m)
  base := if r.gflags.has SHR_FARM then r.q else r.e
  first := (if r.gflags.has SHR_FARM then r.q else r.e) + (r.mp - r.m)
  st := { start := r.stat.start, bw := r.stat.bw, br := r.stat.br, mw := r.stat.mw, mr := r.stat.mr, md := r.stat.md, bd := r.stat.bd }
  app := r.app
  hs := fun _ => .never

theorem RingFile.sized {f : List Byte} (h : RingFile f) : Sized (decode f) := by
  have h1 := h.size; have h2 := h.short; have h3 := h.slots
  unfold SIZEOF_MSG at h3
  refine ⟨?_, ?_, ?_, ?_, ?_⟩
  · show ld64 f OFF_N ≤ _; rw [SSIZE_MAX_val]; omega
  · show ld64 f OFF_MM ≤ _; rw [SSIZE_MAX_val]; omega
  · exact ld_length (by omega)
  · show List.length (List.map _ (List.range (ld64 f OFF_MV_LEN / SIZEOF_MSG))) = ld64 f OFF_MM
    rw [List.length_map, List.length_range, h3]
    unfold SIZEOF_MSG
    omega
  · show ld64 f OFF_APP_LEN = (ld f (appOff f) (ld64 f OFF_APP_LEN)).length
    rw [ld_length]
    unfold appOff mvOff; omega

theorem Core.rebase {r : Ring} {g g' p0 : Nat} {P : List Msg} (h : Core r g p0 P) (e : g % r.mm = g' % r.mm) : Core r g' p0 P :=
  ⟨h.npos, h.nbd, h.mmpos, h.mmbd, h.dlen, h.mvlen, h.ne, h.tot, h.cnt, h.p0lt,
    (fun j b hj => by rw [← mod_add_mod_left, ← e, mod_add_mod_left]; exact h.slots j b hj), h.data⟩

theorem queueOf_log (r : Ring) : (queueOf r).log = List.replicate (if r.gflags.has SHR_FARM then r.q else r.e) [] ++ r.presentMsgs := by
  simp [queueOf, Spec.log, Function.comp_def]

theorem queueOf_retained (r : Ring) : (queueOf r).retained = r.presentMsgs := by
  unfold Spec.retained
  rw [queueOf_log]
  show List.drop (if r.gflags.has SHR_FARM then r.q else r.e) _ = _
  rw [List.drop_append_of_le_length (by simp)]
  simp

theorem RingFile.rel {f : List Byte} (h : RingFile f) (hq : (decode f).gflags.has SHR_FARM = true → (decode f).q + (decode f).mp < W) :
    RingRel (decode f) (queueOf (decode f)) := by
  have hz := h.sized
  have hc := h.ok
  have hst := h.stat
  have hfm := h.farm
  have hl : ∀ o, ld64 f o < W := ld64_lt f
  have hb : (decode f).stat = (queueOf (decode f)).st.toStat := by
    rw [hst]
    show _ = SStat.toStat
      { start := (decode f).stat.start, bw := (decode f).stat.bw, br := (decode f).stat.br,
        mw := (decode f).stat.mw, mr := (decode f).stat.mr, md := (decode f).stat.md, bd := (decode f).stat.bd }
    unfold SStat.toStat
    have e1 : (decode f).stat.bw < W := hl _
    have e2 : (decode f).stat.br < W := hl _
    have e3 : (decode f).stat.mw < W := hl _
    have e4 : (decode f).stat.mr < W := hl _
    have e5 : (decode f).stat.md < W := hl _
    have e6 : (decode f).stat.bd < W := hl _
    rw [Nat.mod_eq_of_lt e1, Nat.mod_eq_of_lt e2, Nat.mod_eq_of_lt e3, Nat.mod_eq_of_lt e4, Nat.mod_eq_of_lt e5, Nat.mod_eq_of_lt e6]
  have hql : (decode f).q < W := hl _
  generalize decode f = r at *
  have hm := hc.m
  have hg : ((if r.gflags.has SHR_FARM = true then r.q else r.e) % r.mm) = r.e := by
    split
    · rename_i e; exact (hfm e).2.1.symm
    · exact Nat.mod_eq_of_lt hc.e
  have he : (queueOf r).first - (queueOf r).base = r.mp - r.m := by
    show (if r.gflags.has SHR_FARM = true then r.q else r.e) + (r.mp - r.m) - (if r.gflags.has SHR_FARM = true then r.q else r.e) = _
    omega
  have hgeo := hc.geo hz
  refine ⟨?_, Nat.le_add_right _ _, ?_, rfl, rfl, rfl, rfl, hz.app, hb, ?_⟩
  · rw [queueOf_retained, he]
    refine ⟨⟨_, hgeo.toCore.rebase ?_, hgeo.ieq⟩, ?_, ?_, ?_, ?_, ?_, ?_, ?_⟩
    · show _ = (if r.gflags.has SHR_FARM = true then r.q else r.e) % r.mm
      rw [hg, Nat.mod_eq_of_lt hc.e]
    · rw [r.present_length]; omega
    · rw [r.present_length]
    · rw [r.present_length]; omega
    · have h1 := bytesOf_take_add_drop r.presentMsgs (r.mp - r.m)
      have h2 := r.present_bytes (Nat.sub_le r.mp r.m)
      have h3 := r.present_bytes (Nat.le_refl r.mp)
      rw [← r.present_length, List.take_length, r.present_length] at h3
      rw [hc.u]; omega
    · exact hg.symm
    · intro hh
      show r.q = (if r.gflags.has SHR_FARM = true then r.q else r.e) % W
      rw [if_pos hh, Nat.mod_eq_of_lt hql]
    · show r.r = ((if r.gflags.has SHR_FARM = true then r.q else r.e) + (r.mp - r.m)) % r.mm
      rw [← mod_add_mod_left, hg]; exact hc.r
  · rw [queueOf_log]
    show (if r.gflags.has SHR_FARM = true then r.q else r.e) + (r.mp - r.m) ≤ _
    simp [r.present_length]
  · intro hh
    have hf : r.gflags.has SHR_FARM = true := hh
    obtain ⟨h1, h2, h3⟩ := hfm hf
    refine ⟨?_, h3, ?_⟩
    · show (if r.gflags.has SHR_FARM = true then r.q else r.e) + (r.mp - r.m) = (if r.gflags.has SHR_FARM = true then r.q else r.e)
      omega
    · rw [queueOf_log, List.length_append, List.length_replicate, r.present_length, if_pos hf]
      exact hq hf

theorem queueOf_unread {f : List Byte} (h : RingFile f) (hq : (decode f).gflags.has SHR_FARM = true → (decode f).q + (decode f).mp < W) :
    (queueOf (decode f)).unread = (decode f).unreadMsgs := (h.rel hq).unreadMsgs.symm

/-- **C72.** A ring file in working order, wherever it comes from, passes the checks of `shr_open`, and is fully usable: any
history of calls on it by any number of handles completes without fault and returns exactly what the reference queue with its
unread messages, sizes, attributes, counters and app data returns, and the file stays in working order. -/
theorem C72_ring_file_usable {f : List Byte} (h : RingFile f) (ops : List Op)
    (hwf : ∀ op ∈ ops, op.WF (ld64 f OFF_APP_LEN))
    (hq : (decode f).gflags.has SHR_FARM = true → (decode f).q + (decode f).mp + ops.length * offered ops < W) :
    Accepted f ∧ (queueOf (decode f)).unread = (decode f).unreadMsgs ∧
    ∃ s, (Sys.mk (decode f) fun _ => .never).run ops = .ok (s, ((queueOf (decode f)).run ops).2) ∧
      s.ring.Consistent ∧ s.ring.unreadMsgs = ((queueOf (decode f)).run ops).1.unread ∧
      s.ring.app = ((queueOf (decode f)).run ops).1.app ∧ s.ring.stat = ((queueOf (decode f)).run ops).1.st.toStat := by
  have hr := h.rel (fun e => by have := hq e; omega)
  have hz := h.sized
  refine ⟨?_, hr.unreadMsgs.symm, ?_⟩
  · have h1 := h.size; have h2 := h.short
    have hi : (decode f).i < (decode f).n := h.ok.i
    have hb := hr.unread_bounds
    refine ⟨?_, h.magic, ?_, ?_, hi, ?_⟩
    · have : 0 < ld64 f OFF_N := Nat.lt_of_le_of_lt (Nat.zero_le _) hi
      omega
    · intro _
      unfold headerSize
      have := Nat.mod_le (SIZEOF_CTRL + ld64 f OFF_N + ld64 f OFF_PAD_LEN + ld64 f OFF_MV_LEN + ld64 f OFF_APP_LEN) (2 ^ 64)
      omega
    · rw [h.ok.u]
      have := h.ok.fit
      omega
    · rw [h.ok.r]
      exact Nat.mod_lt _ (Nat.lt_of_le_of_lt (Nat.zero_le _) h.ok.e)
  · have hrel : Rel (Sys.mk (decode f) fun _ => .never) (queueOf (decode f)) := ⟨hr, fun _ => trivial⟩
    obtain ⟨s, e, r⟩ := run_refine ops hrel (by
      have : (queueOf (decode f)).app.length = ld64 f OFF_APP_LEN := by rw [← hr.app_len]; rfl
      rw [this]; exact hwf) (fun hf => by
        have h0 : PendLe (queueOf (decode f)) 0 := by intro k sh hk; cases hk
        have hc := run_count ops h0
        rw [Nat.zero_add] at hc
        have hf' : (decode f).gflags.has SHR_FARM = true := hf
        have hl : (queueOf (decode f)).log.length = (decode f).q + (decode f).mp := by
          rw [queueOf_log, List.length_append, List.length_replicate, (decode f).present_length, if_pos hf']
        have := hq hf'
        omega)
    exact ⟨s, e, r.ring.consistent, r.ring.unreadMsgs, r.ring.app, r.ring.stat⟩

/-- The ring part of `RingFile`, for every ring that the library keeps. -/
theorem RingRel.ringFile {f : List Byte} {sp : Spec} (h : RingRel (decode f) sp) (hm : ld f 0 8 = MAGIC) (hl : LayoutOk f)
    (hs : f.length < 2 ^ 63) (hv : ld64 f OFF_MV_LEN = SIZEOF_MSG * ld64 f OFF_MM) : RingFile f := by
  refine ⟨hm, ?_, hs, hv, h.consistent, ?_, ?_⟩
  · unfold LayoutOk appOff mvOff at hl; exact hl
  · intro hf
    have hf' : sp.farm = true := by unfold Spec.farm; rw [← h.gf]; exact hf
    obtain ⟨h1, h2, h3⟩ := h.farm hf'
    have hb : sp.base < W := by have := h.ble; have := h.fle; omega
    have hq := h.rep.q hf
    rw [Nat.mod_eq_of_lt hb] at hq
    refine ⟨?_, ?_, ?_⟩
    · rw [h.rep.m, h.rep.mp, h1]; omega
    · rw [hq]; exact h.rep.e
    · rw [h.gf]; exact h2
  · have := h.stat
    generalize (decode f).stat = x at *
    subst this
    rfl

/-- **C72.** Every ring file that the library leaves behind is in working order: after `shr_init` and any history of calls. -/
theorem C72_library_leaves_ring_files {a : InitArgs} {ops : List Op} {s : Sys} {outs : List Out} {env : InitEnv} {fs fs' : FS}
    (hs : SizesOk a) (he : env.WF a) (hf : fs.WF) (h : Inits a env fs 0 fs') (hlen : env.trunc.len a.fileSz < 2 ^ 63)
    (hnew : fs.path = none ∨ a.flags.has SHR_KEEPEXIST = false)
    (v : Valid a ops) (ht : TimesOk ops) (hrun : (Sys.init a).run ops = .ok (s, outs)) :
    ∃ ino f, fs'.path = some ino ∧ FSteps (fs'.files ino) f ∧ decode f = s.ring ∧ RingFile f := by
  have e := h.end_ hs he hf
  rcases e.ok rfl with ⟨_, h1, h2⟩ | ⟨_, hp, hw, _⟩
  · rcases hnew with hn | hn
    · rw [hn] at h1; cases h1
    · rw [hn] at h2; cases h2
  obtain ⟨g1, g2, g3, g4, g5⟩ := whole_fields hw
  have hL : a.fileSz ≤ env.trunc.len a.fileSz := by
    unfold Trunc.len; split
    · rename_i l h; exact he _ h
    · exact Nat.le_refl _
  have hl : LayoutOk (fs'.files fs.next) := by
    unfold LayoutOk appOff mvOff
    rw [g1, g2, g3, g4, hw.1, hs.mv]
    have hsz := hs.fileSz
    omega
  obtain ⟨f, h1, h2⟩ := run_files ops (pre := []) (s0 := Sys.init a) (outs0 := []) v ht rfl hl hw.2.2 hrun
  obtain ⟨k1, k2, k3, k4⟩ := C19_fixed_bytes hl h1
  obtain ⟨sp, x, _, _⟩ := v.state hrun
  have hr := x.rel.ring
  rw [← h2] at hr
  refine ⟨fs.next, f, hp, h1, h2, hr.ringFile ?_ k2 ?_ ?_⟩
  · have : ld f 0 8 = ld (fs'.files fs.next) 0 8 := by
      apply List.ext_getElem?
      intro k
      rw [ld_getElem?, ld_getElem?]
      split
      · exact k4 _ (.inl (by unfold OFF_I; omega))
      · rfl
    rw [this]; exact hw.2.1
  · rw [k1, hw.1]; exact hlen
  · have e1 : ld64 f OFF_MV_LEN = a.mv_bytes := (congrArg (fun z => z.2.2.1) k3).trans g3
    have e2 : ld64 f OFF_MM = a.max_msgs := hr.mm.trans x.maxm
    rw [e1, e2, hs.mv, Nat.mul_comm]

/-! ## The hypotheses can be met -/

/-- A fresh file, and the same file cut short by one byte or with the write position out of range. -/
example : Accepted ((afterInit smallArgs {} emptyFS).files 0) ∧ ¬ Accepted ((afterInit smallArgs {} emptyFS).files 0).dropLast ∧
    ¬ Accepted (st ((afterInit smallArgs {} emptyFS).files 0) 8 OFF_I 10) := by
  refine ⟨(validate_ring_iff _).mp (by decide +kernel), ?_, ?_⟩ <;>
    exact fun h => (validate_ring_iff _).mpr h (by decide +kernel)

/-- The opener checks less than what `RingFile` says: with a wrong number of unread bytes the file is still accepted. -/
example : Accepted (st ((afterInit smallArgs {} emptyFS).files 0) 8 OFF_U 10) ∧
    ¬ RingFile (st ((afterInit smallArgs {} emptyFS).files 0) 8 OFF_U 10) :=
  ⟨(validate_ring_iff _).mp (by decide +kernel), fun h => absurd h.ok (by decide +kernel)⟩

/-- A file with messages read and unread in it, after a drop, taken over by new handles: the first read gives the oldest unread message. -/
example : ∃ f, RingFile f ∧ decode f = (final smallArgs demoOps).ring ∧ ld64 f OFF_APP_LEN = 2 := by
  have v : Valid smallArgs demoOps := valid_of (by decide +kernel)
  obtain ⟨ino, f, _, _, h3, h4⟩ := C72_library_leaves_ring_files smallArgs_ok (env := {}) (fun _ h => nomatch h) emptyFS_wf
    (inits_of (by decide +kernel)) (by decide +kernel) (.inl rfl) v
    (fun op hm k t env e => by subst e; simp [demoOps, opn, wr, rd] at hm) v.runs
  refine ⟨f, h4, h3, ?_⟩
  show (decode f).app_len = 2
  rw [h3]
  decide +kernel

/-- **C71.** The number in the message "validate_ring failed" names the first check that fails. -/
theorem C71_reason (f : List Byte) :
    let short := f.length ≤ SIZEOF_CTRL
    let magic := ld f 0 8 ≠ MAGIC
    let under := headerSize f < 2 ^ 63 ∧ f.length < headerSize f
    let used := (decode f).n < (decode f).u
    let inp := (decode f).n ≤ (decode f).i
    let out := (decode f).mm ≤ (decode f).r
    (validate_ring f f.length = -2 ↔ short) ∧ (validate_ring f f.length = -3 ↔ ¬ short ∧ magic) ∧
    (validate_ring f f.length = -4 ↔ ¬ short ∧ ¬ magic ∧ under) ∧ (validate_ring f f.length = -5 ↔ ¬ short ∧ ¬ magic ∧ ¬ under ∧ used) ∧
    (validate_ring f f.length = -6 ↔ ¬ short ∧ ¬ magic ∧ ¬ under ∧ ¬ used ∧ inp) ∧
    (validate_ring f f.length = -7 ↔ ¬ short ∧ ¬ magic ∧ ¬ under ∧ ¬ used ∧ ¬ inp ∧ out) := by
  have hsum : wadd (wadd (wadd (wadd SIZEOF_CTRL (ld64 f OFF_N)) (ld64 f OFF_PAD_LEN)) (ld64 f OFF_MV_LEN)) (ld64 f OFF_APP_LEN) =
      headerSize f := by
    unfold headerSize wadd
    rw [W_val]
    omega
  have hlt : headerSize f < 2 ^ 64 := Nat.mod_lt _ (by decide)
  have hsg : (f.length : Int) < toSigned (headerSize f) ↔ headerSize f < 2 ^ 63 ∧ f.length < headerSize f := by
    unfold toSigned
    rw [W_val]
    split <;> omega
  have e1 : (f.length < MIN_RING_SZ) = (f.length ≤ SIZEOF_CTRL) := by unfold MIN_RING_SZ; apply propext; omega
  have e2 : (ld64 f OFF_U > ld64 f OFF_N) = ((decode f).n < (decode f).u) := rfl
  have e3 : (ld64 f OFF_I ≥ ld64 f OFF_N) = ((decode f).n ≤ (decode f).i) := rfl
  have e4 : (ld64 f OFF_R ≥ ld64 f OFF_MM) = ((decode f).mm ≤ (decode f).r) := rfl
  dsimp only
  unfold validate_ring
  rw [hsum]
  simp only [hsg, e1, e2, e3, e4]
  by_cases h1 : f.length ≤ SIZEOF_CTRL <;> by_cases h2 : ld f 0 8 = MAGIC <;> by_cases h3 : headerSize f < 2 ^ 63 ∧ f.length < headerSize f <;>
    by_cases h4 : (decode f).n < (decode f).u <;> by_cases h5 : (decode f).n ≤ (decode f).i <;> by_cases h6 : (decode f).mm ≤ (decode f).r <;>
    simp [h1, h2, h3, h4, h5, h6]

/-- An empty file is too short. -/
example : validate_ring [] ([] : List Byte).length = -2 := ((C71_reason []).1).mpr (by decide)

end Shr
