import Verif.Proof.Init
/-! # `shr_init` in the file system -/
namespace Shr
open M

/-- A file system in which the number of the next file is unused and nothing is locked. -/
structure FS.WF (fs : FS) : Prop where
  path : ∀ j, fs.path = some j → j < fs.next
  fresh : fs.files fs.next = []
  locked : fs.locked = none

/-- On hugetlbfs the file is at least as long as what was asked for. -/
def InitEnv.WF (env : InitEnv) (a : InitArgs) : Prop := ∀ l, env.trunc = .hugetlb l → a.fileSz ≤ l

/-- A moment during `shr_init`. -/
structure InitPt (a : InitArgs) (L : Nat) (fs0 t : FS) : Prop where
  others : ∀ j, j ≠ fs0.next → t.files j = fs0.files j
  path : t.path = fs0.path ∨ t.path = none ∨ t.path = some fs0.next
  body : t.files fs0.next = [] ∨ ((Raw L (t.files fs0.next) ∨ Half a L (t.files fs0.next)) ∧ t.locked = some fs0.next)

/-- The end of `shr_init`. -/
structure InitEnd (a : InitArgs) (L : Nat) (fs0 : FS) (rc : Int) (t : FS) : Prop where
  others : ∀ j, j ≠ fs0.next → t.files j = fs0.files j
  locked : t.locked = none
  rcs : rc = 0 ∨ rc = -1
  ok : rc = 0 → (t = fs0 ∧ fs0.path.isSome ∧ a.flags.has SHR_KEEPEXIST) ∨
    ((fs0.path.isSome = true → a.flags.has SHR_KEEPEXIST = false) ∧
      t.path = some fs0.next ∧ Whole a L (t.files fs0.next) ∧ t.next = fs0.next + 1)
  bad : rc = -1 → (t.path = none ∨ t = fs0) ∧ (t.files fs0.next = [] ∨ Raw L (t.files fs0.next))

theorem initDone_bad {a : InitArgs} {L : Nat} {fs0 fs : FS} (h1 : ∀ j, j ≠ fs0.next → fs.files j = fs0.files j)
    (h2 : fs.path = fs0.path ∨ fs.path = none ∨ fs.path = some fs0.next)
    (h3 : fs.files fs0.next = [] ∨ (Raw L (fs.files fs0.next) ∧ fs.locked = some fs0.next)) :
    Ok (initDone (-1)) fs (InitPt a L fs0) (InitEnd a L fs0) := by
  have h3' : fs.files fs0.next = [] ∨ ((Raw L (fs.files fs0.next) ∨ Half a L (fs.files fs0.next)) ∧ fs.locked = some fs0.next) := by
    rcases h3 with h | h
    · exact .inl h
    · exact .inr ⟨.inl h.1, h.2⟩
  have h4 : fs.files fs0.next = [] ∨ Raw L (fs.files fs0.next) := by
    rcases h3 with h | h
    · exact .inl h
    · exact .inr h.1
  unfold initDone
  rw [if_pos (by decide)]
  refine .store_bind ⟨h1, h2, h3'⟩ ?_
  refine .store_bind ⟨h1, .inr (.inl rfl), h3'⟩ ?_
  exact .pure ⟨h1, rfl, .inr rfl, fun h => absurd h (by decide), fun _ => ⟨.inl rfl, h4⟩⟩

theorem raw_zero {L : Nat} (h : SIZEOF_CTRL ≤ L) : Raw L (List.replicate L 0) := by
  unfold SIZEOF_CTRL at h
  refine ⟨by simp, ?_, ?_⟩ <;> exact ld_replicate (by omega)

theorem align_ok (a : InitArgs) : wadd (wadd SIZEOF_CTRL a.dataSz) a.pad % SIZEOF_PTR = 0 := by
  have := pad_lt a
  unfold wadd SIZEOF_PTR SIZEOF_CTRL W
  omega

/-- Everything `shr_init` does, for sizes that do not overflow. -/
theorem shr_init_ok {a : InitArgs} (hs : SizesOk a) {env : InitEnv} (he : env.WF a) {fs0 : FS} (hf : fs0.WF) :
    Ok (shr_init a env) fs0 (InitPt a (env.trunc.len a.fileSz) fs0) (InitEnd a (env.trunc.len a.fileSz) fs0) := by
  have hsz := hs.fileSz
  have hsum := hs.sum
  have hpos := hs.pos
  have hL : a.fileSz ≤ env.trunc.len a.fileSz := by
    unfold Trunc.len; split
    · rename_i l h; exact he _ h
    · exact Nat.le_refl _
  generalize hLe : env.trunc.len a.fileSz = L at hL
  have hLc : SIZEOF_CTRL ≤ L := by omega
  have p0 : ∀ t : FS, t.files = fs0.files → t.path = fs0.path ∨ t.path = none → InitPt a L fs0 t := fun t h1 h2 =>
    ⟨fun _ _ => by rw [h1], h2.elim .inl fun h => .inr (.inl h), .inl (by rw [h1]; exact hf.fresh)⟩
  have bad0 : InitEnd a L fs0 (-1) fs0 :=
    ⟨fun _ _ => rfl, hf.locked, .inr rfl, fun h => absurd h (by decide), fun _ => ⟨.inr rfl, .inl hf.fresh⟩⟩
  unfold shr_init
  split
  · exact .pure bad0
  refine Ok.get_bind ?_
  split
  · rename_i h
    exact .pure ⟨fun _ _ => rfl, hf.locked, .inl rfl, fun _ => .inl ⟨rfl, h⟩, fun h => absurd h (by decide)⟩
  rename_i hke
  have hke' : fs0.path.isSome = true → a.flags.has SHR_KEEPEXIST = false := by
    intro h; simp [h] at hke; exact hke
  split
  · exact .pure bad0
  -- unlink
  have key : ∀ fs : FS, fs.files = fs0.files → fs.next = fs0.next → fs.locked = none →
      (fs.path = fs0.path ∨ fs.path = none) → (fs0.path.isSome = true → fs.path = none) →
      Ok (do
        if env.openOk = false then pure (-1)
        else do
          let ino := fs0.next
          store fun fs => { fs with path := some ino, files := upd fs.files ino [], next := ino + 1 }
          assert (decide (a.pad < SIZEOF_PTR))
          assert (decide (wadd (wadd SIZEOF_CTRL a.dataSz) a.pad % SIZEOF_PTR = 0))
          if env.lockOk = false then initDone (-1)
          else do
            store fun fs => { fs with locked := some ino }
            match env.trunc with
            | .err => initDone (-1)
            | t => do
              if t = .ok ∧ a.fileSz ≤ SSIZE_MAX then
                store fun fs => { fs with files := upd fs.files ino (List.replicate a.fileSz 0) }
              else pure ()
              if env.mmapOk = false ∨ a.fileSz = 0 ∨ a.fileSz > SSIZE_MAX then initDone (-1)
              else do
                if t = .ok then pure ()
                else store fun fs => { fs with files := upd fs.files ino (List.replicate (t.len a.fileSz) 0) }
                M.zoom (fun fs => fs.files ino) (fun f fs => { fs with files := upd fs.files ino f }) (initFill a)
                initDone 0 : M FS Int) fs (InitPt a L fs0) (InitEnd a L fs0) := by
    intro fs e1 e2 e3 e4 e5
    split
    · refine .pure ⟨fun _ _ => by rw [e1], e3, .inr rfl, fun h => absurd h (by decide), fun _ => ⟨?_, .inl (by rw [e1]; exact hf.fresh)⟩⟩
      left
      by_cases h : fs0.path.isSome = true
      · exact e5 h
      · rcases e4 with e4 | e4
        · rw [e4]; simpa using h
        · exact e4
    dsimp only
    refine .store_bind (p0 _ e1 e4) ?_
    refine .assert_bind (decide_eq_true (pad_lt a).1) ?_
    refine .assert_bind (decide_eq_true (align_ok a)) ?_
    have ho : ∀ (f : List Byte) j, j ≠ fs0.next → upd fs.files fs0.next f j = fs0.files j := by
      intro f j hj; rw [e1]; simp [upd, hj]
    have hn : ∀ (f : List Byte), upd fs.files fs0.next f fs0.next = f := fun f => by simp [upd]
    have huu : ∀ (f g : List Byte), upd (upd fs.files fs0.next f) fs0.next g = upd fs.files fs0.next g := by
      intro f g; funext j; simp only [upd]; split <;> rfl
    split
    · exact initDone_bad (fun j hj => ho _ j hj) (.inr (.inr rfl)) (.inl (hn _))
    refine .store_bind ⟨fun j hj => ho _ j hj, .inr (.inr rfl), .inl (hn _)⟩ ?_
    split
    · exact initDone_bad (fun j hj => ho _ j hj) (.inr (.inr rfl)) (.inl (hn _))
    rename_i hnerr
    generalize ht : env.trunc = t at hnerr hLe
    -- the state after truncation and mapping
    have fill : ∀ fs1 : FS, fs1.path = some fs0.next → fs1.next = fs0.next + 1 → fs1.locked = some fs0.next →
        (∀ j, j ≠ fs0.next → fs1.files j = fs0.files j) → fs1.files fs0.next = List.replicate L 0 →
        Ok (do
          M.zoom (fun fs => fs.files fs0.next) (fun f fs => { fs with files := upd fs.files fs0.next f }) (initFill a)
          initDone 0) fs1 (InitPt a L fs0) (InitEnd a L fs0) := by
      intro fs1 q1 q2 q3 q4 q5
      have hou : ∀ (f : List Byte) j, j ≠ fs0.next → upd fs1.files fs0.next f j = fs0.files j := by
        intro f j hj; simp only [upd, if_neg hj]; exact q4 j hj
      have hnu : ∀ (f : List Byte), upd fs1.files fs0.next f fs0.next = f := fun f => by simp [upd]
      refine .bind (zoom_ok ?_)
      rw [q5]
      refine (initFill_ok hs hL).mono ?_ ?_
      · intro f hfx
        exact ⟨fun j hj => hou f j hj, .inr (.inr q1), .inr ⟨by dsimp only; rw [hnu]; exact hfx, q3⟩⟩
      · intro _ f hw
        unfold initDone
        rw [if_neg (by decide)]
        dsimp only
        have hh : Half a L f := by
          refine ⟨a.gflags, (initRing a).app, ⟨hw.1, hw.2.1, by rw [hw.2.2]; rfl⟩, BitVec.or_self, ?_, .whole a⟩
          unfold initRing InitArgs.appsize; split <;> simp_all
        refine .store_bind ⟨fun j hj => hou f j hj, .inr (.inr q1), .inr ⟨by dsimp only; rw [hnu]; exact .inr hh, q3⟩⟩ ?_
        refine .pure ⟨fun j hj => hou f j hj, rfl, .inl rfl, fun _ => .inr ⟨hke', q1, by dsimp only; rw [hnu]; exact hw, q2⟩, fun h => absurd h (by decide)⟩
    have hnz : ¬ a.fileSz = 0 := by unfold SIZEOF_CTRL at hsz; omega
    have hmx : ¬ a.fileSz > SSIZE_MAX := by omega
    by_cases htok : t = .ok
    · subst htok
      have hLs : L = a.fileSz := by rw [← hLe]; rfl
      rw [if_pos ⟨rfl, by omega⟩]
      refine .store_bind ⟨fun j hj => ho _ j hj, .inr (.inr rfl), .inl (hn _)⟩ ?_
      dsimp only
      rw [huu]
      by_cases hmm : env.mmapOk = false ∨ a.fileSz = 0 ∨ a.fileSz > SSIZE_MAX
      · rw [if_pos hmm]
        exact initDone_bad (fun j hj => ho _ j hj) (.inr (.inr rfl)) (.inr ⟨by dsimp only; rw [hn, ← hLs]; exact raw_zero hLc, rfl⟩)
      · rw [if_neg hmm, if_pos rfl]
        exact fill _ rfl rfl rfl (fun j hj => ho _ j hj) (by rw [hLs]; exact hn _)
    · rw [if_neg (fun h => htok h.1)]
      dsimp only
      by_cases hmm : env.mmapOk = false ∨ a.fileSz = 0 ∨ a.fileSz > SSIZE_MAX
      · rw [if_pos hmm]
        exact initDone_bad (fun j hj => ho _ j hj) (.inr (.inr rfl)) (.inl (hn _))
      · rw [if_neg hmm, if_neg htok]
        refine .store_bind ⟨fun j hj => ho _ j hj, .inr (.inr rfl), .inl (hn _)⟩ ?_
        dsimp only
        rw [huu, hLe]
        exact fill _ rfl rfl rfl (fun j hj => ho _ j hj) (hn _)
  by_cases hp : fs0.path.isSome = true
  · rw [if_pos hp]
    refine .store_bind (p0 _ rfl (.inl rfl)) ?_
    exact key _ rfl rfl hf.locked (.inr rfl) (fun _ => rfl)
  · rw [if_neg hp]
    refine .pure_bind ?_
    exact key _ rfl rfl hf.locked (.inl rfl) (fun h => absurd h hp)

end Shr
