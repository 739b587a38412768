import Verif.Proof.Race
/-! # Several creators: one creator alone does what `shr_init` of `Model/File.lean` does -/
namespace Shr
open M

theorem stw_prog (k off v : Nat) : IsProg (stw k off v) := by unfold stw; prog
theorem stb_prog (off : Nat) (b : List Byte) : IsProg (stb off b) :=
  IsProg.memcpyShared (rd := id) (wr := fun f _ => f) (fun _ _ => rfl) (fun _ _ _ => rfl) (fun _ => rfl) off b
theorem orFlag_prog (flags bit val : Flags) : IsProg (orFlag flags bit val) := by
  unfold orFlag
  refine IsProg.bind IsProg.get fun _ => ?_
  split
  · exact stw_prog _ _ _
  · exact IsProg.pure

/-- The stores of `shr_init` into the mapped file are a program of loads and stores. -/
theorem initFill_prog (a : InitArgs) : IsProg (initFill a) := by
  unfold initFill
  refine IsProg.bind (stb_prog _ _) fun _ => IsProg.bind (stb_prog _ _) fun _ => IsProg.bind (stw_prog _ _ _) fun _ =>
    IsProg.bind (stw_prog _ _ _) fun _ => IsProg.bind (stw_prog _ _ _) fun _ => IsProg.bind (stw_prog _ _ _) fun _ =>
    IsProg.bind (stw_prog _ _ _) fun _ => IsProg.bind (stw_prog _ _ _) fun _ => IsProg.bind (orFlag_prog _ _ _) fun _ =>
    IsProg.bind (orFlag_prog _ _ _) fun _ => IsProg.bind (orFlag_prog _ _ _) fun _ => IsProg.bind (orFlag_prog _ _ _) fun _ =>
    IsProg.bind IsProg.get fun _ => ?_
  split
  · exact stb_prog _ _
  · exact IsProg.pure

section
variable {a : Nat → InitArgs} {env : Nat → InitEnv} {c0 : CrSys} {p : Nat}

/-- Only `p` has moved since `c0`; it is now at `n`, and the file system is `fs`. -/
def Solo (a : Nat → InitArgs) (env : Nat → InitEnv) (p : Nat) (c0 : CrSys) (n : CrPc) (fs : FS) : Prop :=
  ∃ pc, CrSys.Steps a env c0 ⟨fs.path, fs.files, fs.next, pc⟩ ∧ (∀ q, q ≠ p → pc q = c0.pc q) ∧ pc p = n

theorem Solo.go {n n' : CrPc} {fs fs' : FS} (h : Solo a env p c0 n fs)
    (st : ∀ pc : Nat → CrPc, pc p = n → CrSys.Step a env ⟨fs.path, fs.files, fs.next, pc⟩ ⟨fs'.path, fs'.files, fs'.next, upd pc p n'⟩) :
    Solo a env p c0 n' fs' := by
  obtain ⟨pc, h1, h2, h3⟩ := h
  refine ⟨upd pc p n', .step h1 (st pc h3), fun q hq => ?_, by simp [upd]⟩
  simp [upd, hq, h2 q hq]

/-- The stores into the mapped file. -/
theorem Solo.fill {i : Nat} {fs : FS} : ∀ {P : Prog (List Byte) Unit} {f : List Byte},
    Solo a env p c0 (.filling i P) { fs with files := upd fs.files i f } → (∃ x f', (P.denote f).res = .ok x f') →
    Ok P.denote f (fun f => ∃ n, Solo a env p c0 n { fs with files := upd fs.files i f })
      (fun _ f => Solo a env p c0 (.filling i (.ret ())) { fs with files := upd fs.files i f })
  | .ret _, f, h, _ => ⟨fun _ h => (nomatch h), (), f, rfl, h⟩
  | .load k, f, h, hr => by
    have : Solo a env p c0 (.filling i (k f)) { fs with files := upd fs.files i f } := by
      refine h.go fun pc hp => ?_
      have := CrSys.Step.load (a := a) (env := env) (c := ⟨fs.path, upd fs.files i f, fs.next, pc⟩) hp
      dsimp only at this
      rw [show upd fs.files i f i = f by simp [upd]] at this
      exact this
    have r := Solo.fill (P := k f) this hr
    exact ⟨r.tr, r.res⟩
  | .store g k, f, h, hr => by
    have : Solo a env p c0 (.filling i k) { fs with files := upd fs.files i (g f) } := by
      refine h.go fun pc hp => ?_
      have := CrSys.Step.store (a := a) (env := env) (c := ⟨fs.path, upd fs.files i f, fs.next, pc⟩) hp
      dsimp only at this
      rw [show upd fs.files i f i = f by simp [upd]] at this
      rw [show upd (upd fs.files i f) i (g f) = upd fs.files i (g f) by funext j; simp only [upd]; split <;> rfl] at this
      exact this
    have r := Solo.fill (P := k) this hr
    refine ⟨fun t ht => ?_, r.res⟩
    rcases List.mem_cons.1 ht with rfl | ht
    · exact ⟨_, h⟩
    · exact r.tr t ht
  | .abort, _, _, ⟨_, _, h⟩ => (nomatch h)
  | .fail .abort, _, _, ⟨_, _, h⟩ => (nomatch h)
  | .fail .ub, _, _, ⟨_, _, h⟩ => (nomatch h)
  | .fail .hang, _, _, ⟨_, _, h⟩ => (nomatch h)

/-- The end of `shr_init` after an error. -/
theorem Solo.bad {i : Nat} {fs : FS} (h : Solo a env p c0 (.failing i) fs) :
    Ok (initDone (-1)) fs (fun t => ∃ n, Solo a env p c0 n t) (fun rc t => t.locked = none ∧ ∃ m, Solo a env p c0 (.done rc m) t) := by
  unfold initDone
  rw [if_pos (by decide)]
  refine .store_bind ⟨_, h⟩ ?_
  have h1 : Solo a env p c0 (.closing i (-1)) { fs with path := none } := h.go fun pc hp => .remove hp
  refine .store_bind ⟨_, h1⟩ ?_
  exact .pure ⟨rfl, some i, h1.go fun pc hp => .close hp⟩

/-- The end of `shr_init` otherwise. -/
theorem Solo.good {i : Nat} {fs : FS} (h : Solo a env p c0 (.closing i 0) fs) :
    Ok (initDone 0) fs (fun t => ∃ n, Solo a env p c0 n t) (fun rc t => t.locked = none ∧ ∃ m, Solo a env p c0 (.done rc m) t) := by
  unfold initDone
  rw [if_neg (by decide)]
  dsimp only
  refine .store_bind ⟨_, h⟩ ?_
  exact .pure ⟨rfl, some i, h.go fun pc hp => .close hp⟩

/-- If only `p` moves, it goes through the points of `shr_init` and ends as `shr_init` does. -/
theorem solo_ok (hs : SizesOk (a p)) (he : (env p).WF (a p)) (h0 : c0.pc p = .start) :
    Ok (shr_init (a p) (env p)) c0.fs (fun t => ∃ n, Solo a env p c0 n t)
      (fun rc t => t.locked = none ∧ ∃ m, Solo a env p c0 (.done rc m) t) := by
  have hL : (a p).fileSz ≤ (env p).trunc.len (a p).fileSz := by
    unfold Trunc.len; split
    · rename_i l h; exact he _ h
    · exact Nat.le_refl _
  have hsz := hs.fileSz
  have hsum := hs.sum
  have s0 : Solo a env p c0 .start c0.fs := ⟨c0.pc, .refl _, fun _ _ => rfl, h0⟩
  unfold shr_init
  split
  · rename_i h
    exact .pure ⟨rfl, none, s0.go fun pc hp => .invalid hp h⟩
  rename_i hv
  refine Ok.get_bind ?_
  have s1 : Solo a env p c0 (.checked c0.fs.path.isSome) c0.fs := s0.go fun pc hp => .access hp hv
  split
  · rename_i h
    rw [h.1] at s1
    exact .pure ⟨rfl, none, s1.go fun pc hp => .keep hp h.2⟩
  rename_i hk
  split
  · rename_i h
    rw [h.1] at s1
    have hk' : (a p).flags.has SHR_KEEPEXIST = false := by simpa [h.1] using hk
    exact .pure ⟨rfl, none, s1.go fun pc hp => .noUnlink hp hk' (.inl h.2)⟩
  rename_i hu
  have key : ∀ fs : FS, fs.locked = none → fs.path = none → fs.next = c0.fs.next → Solo a env p c0 .free fs →
      Ok (do
        if (env p).openOk = false then pure (-1)
        else do
          let ino := c0.fs.next
          store fun fs => { fs with path := some ino, files := upd fs.files ino [], next := ino + 1 }
          assert (decide ((a p).pad < SIZEOF_PTR))
          assert (decide (wadd (wadd SIZEOF_CTRL (a p).dataSz) (a p).pad % SIZEOF_PTR = 0))
          if (env p).lockOk = false then initDone (-1)
          else do
            store fun fs => { fs with locked := some ino }
            match (env p).trunc with
            | .err => initDone (-1)
            | t => do
              if t = .ok ∧ (a p).fileSz ≤ SSIZE_MAX then
                store fun fs => { fs with files := upd fs.files ino (List.replicate (a p).fileSz 0) }
              else pure ()
              if (env p).mmapOk = false ∨ (a p).fileSz = 0 ∨ (a p).fileSz > SSIZE_MAX then initDone (-1)
              else do
                if t = .ok then pure ()
                else store fun fs => { fs with files := upd fs.files ino (List.replicate (t.len (a p).fileSz) 0) }
                M.zoom (fun fs => fs.files ino) (fun f fs => { fs with files := upd fs.files ino f }) (initFill (a p))
                initDone 0 : M FS Int) fs (fun t => ∃ n, Solo a env p c0 n t)
          (fun rc t => t.locked = none ∧ ∃ m, Solo a env p c0 (.done rc m) t) := by
    intro fs e1 e2 e3 s2
    split
    · rename_i h
      exact .pure ⟨e1, none, s2.go fun pc hp => .noCreate hp (.inl h)⟩
    rename_i ho
    dsimp only
    rw [← e3]
    refine .store_bind ⟨_, s2⟩ ?_
    refine .assert_bind (decide_eq_true (pad_lt (a p)).1) ?_
    refine .assert_bind (decide_eq_true (align_ok (a p))) ?_
    have s3 : Solo a env p c0 (.opened fs.next) { fs with path := some fs.next, files := upd fs.files fs.next [], next := fs.next + 1 } :=
      s2.go fun pc hp => .create (c := ⟨fs.path, fs.files, fs.next, pc⟩) hp (by simpa using ho) e2
    split
    · rename_i hl
      exact Solo.bad (i := fs.next) (s3.go fun pc hp => .noLock hp hl)
    rename_i hl
    refine .store_bind ⟨_, s3⟩ ?_
    have s4 : Solo a env p c0 (.locked fs.next)
        ⟨some fs.next, upd fs.files fs.next [], fs.next + 1, some fs.next⟩ :=
      s3.go fun pc hp => .lock hp (by simpa using hl)
    split
    · rename_i ht
      exact Solo.bad (i := fs.next) (s4.go fun pc hp => .noTruncate hp ht)
    rename_i hnerr
    have huu : ∀ (f g : List Byte), upd (upd fs.files fs.next f) fs.next g = upd fs.files fs.next g := by
      intro f g; funext j; simp only [upd]; split <;> rfl
    obtain ⟨P, hP⟩ := initFill_prog (a p)
    have fill : Solo a env p c0 (.filling fs.next P)
          ⟨some fs.next, upd fs.files fs.next (List.replicate ((env p).trunc.len (a p).fileSz) 0), fs.next + 1, some fs.next⟩ →
        Ok (do
          M.zoom (fun fs' => fs'.files fs.next) (fun f fs' => { fs' with files := upd fs'.files fs.next f }) (initFill (a p))
          initDone 0)
          ⟨some fs.next, upd fs.files fs.next (List.replicate ((env p).trunc.len (a p).fileSz) 0), fs.next + 1, some fs.next⟩
          (fun t => ∃ n, Solo a env p c0 n t)
          (fun rc t => t.locked = none ∧ ∃ m, Solo a env p c0 (.done rc m) t) := by
      intro s5
      refine .bind (zoom_ok ?_)
      dsimp only
      rw [show upd fs.files fs.next (List.replicate ((env p).trunc.len (a p).fileSz) 0) fs.next =
        List.replicate ((env p).trunc.len (a p).fileSz) 0 by simp [upd]]
      have hok := initFill_ok hs hL
      rw [← hP]
      obtain ⟨x, f', hx, _⟩ := hok.res
      have r := Solo.fill (a := a) (env := env) (p := p) (c0 := c0) (i := fs.next) (P := P)
        (fs := ⟨some fs.next, fs.files, fs.next + 1, some fs.next⟩) s5 ⟨x, f', by rw [hP]; exact hx⟩
      refine r.mono ?_ ?_
      · rintro f ⟨n, h⟩
        refine ⟨n, ?_⟩
        rw [huu]
        exact h
      · intro _ f h
        rw [huu]
        exact Solo.good (i := fs.next) (h.go fun pc hp => .filled hp)
    generalize ht : (env p).trunc = t at hnerr fill
    have hnz : ¬ (a p).fileSz = 0 := by unfold SIZEOF_CTRL at hsz; omega
    have hmx : ¬ (a p).fileSz > SSIZE_MAX := by omega
    by_cases htok : t = .ok
    · subst htok
      rw [if_pos ⟨rfl, by omega⟩]
      refine .store_bind ⟨_, s4⟩ ?_
      dsimp only
      rw [huu]
      have s5 : Solo a env p c0 (.sized fs.next)
          ⟨some fs.next, upd fs.files fs.next (List.replicate (a p).fileSz 0), fs.next + 1, some fs.next⟩ := s4.go fun pc hp => by
        have := CrSys.Step.truncate (a := a) (env := env) (c := ⟨some fs.next, upd fs.files fs.next [], fs.next + 1, pc⟩) hp ht (by omega)
        dsimp only at this
        rw [huu] at this
        exact this
      by_cases hmm : (env p).mmapOk = false ∨ (a p).fileSz = 0 ∨ (a p).fileSz > SSIZE_MAX
      · rw [if_pos hmm]
        exact Solo.bad (i := fs.next) (s5.go fun pc hp => .noMmap hp hmm)
      · rw [if_neg hmm, if_pos rfl]
        refine fill (s5.go fun pc hp => ?_)
        have := CrSys.Step.mmap (a := a) (env := env)
          (c := ⟨some fs.next, upd fs.files fs.next (List.replicate (a p).fileSz 0), fs.next + 1, pc⟩) hp hmm hP
        rw [if_pos ht] at this
        exact this
    · rw [if_neg (fun h => htok h.1)]
      have s5 : Solo a env p c0 (.sized fs.next) ⟨some fs.next, upd fs.files fs.next [], fs.next + 1, some fs.next⟩ :=
        s4.go fun pc hp => .einval hp (by rw [ht]; exact hnerr) (fun h => htok (ht ▸ h.1))
      dsimp only
      by_cases hmm : (env p).mmapOk = false ∨ (a p).fileSz = 0 ∨ (a p).fileSz > SSIZE_MAX
      · rw [if_pos hmm]
        exact Solo.bad (i := fs.next) (s5.go fun pc hp => .noMmap hp hmm)
      · rw [if_neg hmm, if_neg htok]
        refine .store_bind ⟨_, s5⟩ ?_
        dsimp only
        rw [huu]
        refine fill (s5.go fun pc hp => ?_)
        have := CrSys.Step.mmap (a := a) (env := env) (c := ⟨some fs.next, upd fs.files fs.next [], fs.next + 1, pc⟩) hp hmm hP
        rw [if_neg (by rw [ht]; exact htok)] at this
        dsimp only at this
        rw [huu, ht] at this
        exact this
  by_cases hp : c0.fs.path.isSome = true
  · rw [if_pos hp]
    refine .store_bind ⟨_, s1⟩ ?_
    rw [hp] at s1
    refine key _ rfl rfl rfl (s1.go fun pc hpc => .unlink (c := ⟨c0.fs.path, c0.fs.files, c0.fs.next, pc⟩) hpc ?_ ?_ hp)
    · simpa [hp] using hk
    · simpa [hp] using hu
  · rw [if_neg hp]
    refine .pure_bind ?_
    have hp' : c0.fs.path = none := by simpa using hp
    rw [hp'] at s1
    exact key _ rfl hp' rfl (s1.go fun pc hpc => .absent hpc)
end

end Shr
