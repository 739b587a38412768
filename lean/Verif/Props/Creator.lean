import Verif.Props.OpenFile
/-! # What a killed creator leaves (C74) -/
namespace Shr

/-- **C74.** A creator is killed at any moment inside `shr_init`.  Then whatever a later `shr_open` obtains is either the file that had
the name before, or a new, empty ring in working order (`RingFile`, so by C72 usable in every way), with the requested sizes.  Its
attributes are those requested that were stored before the creator died, in the order SYNC, DROP, FARM, MLOCK (a ring in farm mode
always has the DROP attribute as well), and its app data are the requested ones up to some byte and zeros behind it, or all zeros if not
all attributes were stored. -/
theorem C74_killed_creator {a : InitArgs} {env : InitEnv} {fs t : FS} (hs : SizesOk a) (he : env.WF a) (hf : fs.WF)
    (hlen : env.trunc.len a.fileSz < 2 ^ 63) (ht : DuringInit a env fs t)
    {flags : Flags} {oe : OpenEnv} {ino : Nat} {hd : Handle} (h : shr_open t.killed flags oe = some (ino, hd)) :
    (fs.path = some ino ∧ t.files ino = fs.files ino) ∨
    (RingFile (t.files ino) ∧ (decode (t.files ino)).unreadMsgs = [] ∧
      ∃ j ≤ 4, ∃ k ≤ a.appsize, decode (t.files ino) = { initRing a with
          gflags := attrsAfter a j
          app := a.app.take k ++ List.replicate (a.appsize - k) 0 } ∧ (j < 4 → k = 0)) := by
  refine (killed_creator_half hs he hf ht h).imp id ?_
  rintro ⟨g, app, ⟨r1, r2, r3⟩, _, hal, hw⟩
  have key : ∃ j ≤ 4, g = attrsAfter a j ∧ ∃ k ≤ a.appsize, app = a.app.take k ++ List.replicate (a.appsize - k) 0 ∧ (j < 4 → k = 0) := by
    rcases hw with ⟨j, h1, h2, h3⟩ | ⟨h1, k, h2, h3⟩
    · exact ⟨j, h1, h2, 0, by omega, by simpa using h3, fun _ => rfl⟩
    · exact ⟨4, by omega, by rw [h1, attrs_all], k, h2, h3, fun h => absurd h (by omega)⟩
  obtain ⟨j, hj, rfl, k, hk, rfl, hjk⟩ := key
  have f1 : ld64 (t.files ino) OFF_N = a.dataSz := congrArg Ring.n r3
  have f2 : ld64 (t.files ino) OFF_PAD_LEN = a.pad := congrArg Ring.pad_len r3
  have f3 : ld64 (t.files ino) OFF_MV_LEN = a.mv_bytes := congrArg Ring.mv_len r3
  have f4 : ld64 (t.files ino) OFF_APP_LEN = a.appsize := congrArg Ring.app_len r3
  have f5 : ld64 (t.files ino) OFF_MM = a.max_msgs := congrArg Ring.mm r3
  have hL : a.fileSz ≤ env.trunc.len a.fileSz := by
    unfold Trunc.len; split
    · rename_i l h; exact he _ h
    · exact Nat.le_refl _
  have hsz := hs.fileSz
  have hmv := hs.mv
  have hpos := hs.pos
  have hmm := max_msgs_pos hs
  refine ⟨⟨r2, ?_, by rw [r1]; exact hlen, ?_, ?_, ?_, ?_⟩, ?_, j, hj, k, hk, r3, hjk⟩
  · rw [f1, f2, f3, f4, r1, hmv]; omega
  · rw [f3, f5, hmv, Nat.mul_comm]
  · rw [r3]
    exact ⟨hmm, hpos, Nat.zero_le _, Nat.le_refl _, fun j hj => absurd hj (Nat.not_lt_zero _), Nat.zero_le _,
      (fun j hj => absurd hj (Nat.not_lt_zero _)), (Nat.zero_mod _).symm, rfl⟩
  · rw [r3]
    intro hfm
    exact ⟨rfl, (Nat.zero_mod _).symm, attrs_farm a hj hfm⟩
  · rw [r3]; rfl
  · rw [r3]; rfl

/-- **C74.** So the new ring that a killed creator leaves can be used: every history of calls on it, by any number of handles,
completes without fault and returns what the reference queue, empty at first, returns. -/
theorem C74_usable {a : InitArgs} {env : InitEnv} {fs t : FS} (hs : SizesOk a) (he : env.WF a) (hf : fs.WF)
    (hlen : env.trunc.len a.fileSz < 2 ^ 63) (ht : DuringInit a env fs t)
    {flags : Flags} {oe : OpenEnv} {ino : Nat} {hd : Handle} (h : shr_open t.killed flags oe = some (ino, hd))
    (hnew : fs.path ≠ some ino) {ops : List Op} (hwf : ∀ op ∈ ops, op.WF a.appsize) (hops : ops.length * offered ops < W) :
    (queueOf (decode (t.files ino))).unread = [] ∧
    ∃ s, (Sys.mk (decode (t.files ino)) fun _ => .never).run ops = .ok (s, ((queueOf (decode (t.files ino))).run ops).2) := by
  rcases C74_killed_creator hs he hf hlen ht h with ⟨h1, _⟩ | ⟨h1, h2, j, _, k, _, h3, _⟩
  · exact absurd h1 hnew
  · have ha : ld64 (t.files ino) OFF_APP_LEN = a.appsize := congrArg Ring.app_len h3
    have hq : (decode (t.files ino)).q = 0 ∧ (decode (t.files ino)).mp = 0 := by rw [h3]; exact ⟨rfl, rfl⟩
    obtain ⟨_, u, s, e, _⟩ := C72_ring_file_usable h1 ops (by rw [ha]; exact hwf) (fun _ => by rw [hq.1, hq.2]; omega)
    exact ⟨u.trans h2, s, e⟩

/-! ## The hypotheses can be met -/

/-- A creator of a ring with the DROP attribute that was killed before it stored the attribute: the ring opens, is in working order, and has no
attribute at all. -/
example : ∃ x, shr_open beforeDrop.killed SHR_RDONLY {} = some x ∧ RingFile (beforeDrop.files x.1) ∧
    (decode (beforeDrop.files x.1)).gflags = 0#32 ∧ attrsAfter dropArgs 1 = 0#32 ∧ attrsAfter dropArgs 2 = SHR_DROP := by
  have h : (shr_open beforeDrop.killed SHR_RDONLY {}).isSome = true := by decide +kernel
  obtain ⟨x, hx⟩ := Option.isSome_iff_exists.mp h
  obtain ⟨h1, _⟩ := shr_open_at_some (ino := x.1) (hd := x.2) hx
  have hp : beforeDrop.killed.path = some 0 := by decide +kernel
  have hx0 : x.1 = 0 := by rw [hp] at h1; exact (Option.some.inj h1).symm
  rcases C74_killed_creator dropArgs_ok (env := {}) (fun _ h => nomatch h) emptyFS_wf (by decide +kernel) beforeDrop_during hx with
    ⟨h, _⟩ | ⟨h, _⟩
  · cases h
  · exact ⟨x, hx, h, by rw [hx0]; decide +kernel, by decide, by decide⟩

end Shr
