import Verif.Proof.RaceSolo
import Verif.Props.Creator
/-! # Several creators at the same time (C75) -/
namespace Shr
open M

section
variable {a : Nat → InitArgs} {env : Nat → InitEnv} {c0 c1 c2 c3 c : CrSys}

/-- **C75.** Any number of processes are inside `shr_init` for the same name, at any point of any interleaving, and some may have been
killed: no file that existed before was changed (so processes that have the old ring open keep it as it is), and no two
processes have made the same file. -/
theorem C75_own_files (hs : ∀ p, SizesOk (a p)) (he : ∀ p, (env p).WF (a p)) (h0 : c0.Initial) (h : CrSys.Steps a env c0 c) :
    (∀ j, j < c0.next → c.files j = c0.files j) ∧ (∀ p i, (c.pc p).ino = some i → c0.next ≤ i) ∧
    (∀ p q i, (c.pc p).ino = some i → (c.pc q).ino = some i → p = q) :=
  have x := h.inv hs he h0
  ⟨x.old, fun p i hp => (x.rng p i hp).1, x.inj⟩

/-- **C75.** A creator that has returned 0 has made a complete ring with exactly what it asked for, or, with SHR_KEEPEXIST, found the name
in use; and whatever the other creators do, the ring stays as it is. -/
theorem C75_returned_zero (hs : ∀ p, SizesOk (a p)) (he : ∀ p, (env p).WF (a p)) (h0 : c0.Initial) (h : CrSys.Steps a env c0 c)
    {p : Nat} {m : Option Nat} (hp : c.pc p = .done 0 m) :
    (∃ i, m = some i ∧ c0.next ≤ i ∧ decode (c.files i) = initRing (a p) ∧ (a p).fileSz ≤ (c.files i).length) ∨
    (m = none ∧ (a p).flags.has SHR_KEEPEXIST = true) := by
  have x := h.inv hs he h0
  cases m with
  | some i =>
    left
    have hi : (c.pc p).ino = some i := by rw [hp]; rfl
    have hb := x.body p i hi
    rw [hp] at hb
    have hL : (a p).fileSz ≤ (env p).trunc.len (a p).fileSz := by
      unfold Trunc.len; split
      · rename_i l h; exact he p _ h
      · exact Nat.le_refl _
    rcases hb with ⟨_, hb⟩ | ⟨hb, _⟩
    · exact ⟨i, rfl, (x.rng p i hi).1, hb.2.2, by rw [hb.1]; exact hL⟩
    · cases hb
  | none =>
    right
    refine ⟨rfl, ?_⟩
    clear x
    induction h with
    | refl => rw [h0.pc] at hp; cases hp
    | @step d e _ hst ih =>
      have key : ∀ (q : Nat) (n : CrPc), upd d.pc q n p = .done 0 none → d.pc p = .done 0 none ∨ (p = q ∧ n = .done 0 none) := by
        intro q n hn
        by_cases hq : p = q
        · subst hq; simp [upd] at hn; exact .inr ⟨rfl, hn⟩
        · simp [upd, hq] at hn; exact .inl hn
      cases hst <;> dsimp only at hp <;> rcases key _ _ hp with hp | ⟨rfl, hn⟩ <;> first | exact ih hp | cases hn | skip
      assumption

/-- **C75.** An opener comes at any time: it looks the name up, takes the length and gets the lock at three moments of any execution in
which any number of processes are inside `shr_init` for this name, getting the lock when no creator holds it.  What it obtains is a file that
existed before, unchanged; or the complete ring of a creator that has returned 0, mapped in its whole length; or what a creator left that was
killed: an empty ring with the requested sizes, part of the requested attributes and a part of the app data (`HalfWay`, see C74). -/
theorem C75_opener (hs : ∀ p, SizesOk (a p)) (he : ∀ p, (env p).WF (a p)) (h0 : c0.Initial) (h1 : CrSys.Steps a env c0 c1)
    (h2 : CrSys.Steps a env c1 c2) (h3 : CrSys.Steps a env c2 c3) {flags : Flags} {oe : OpenEnv} {ino : Nat} {hd : Handle}
    (hlock : ∀ p, (c3.pc p).holds ≠ some ino) (h : shr_open_at c1.fs c2.fs c3.fs flags oe = some (ino, hd)) :
    (c0.path = some ino ∧ c3.files ino = c0.files ino) ∨
    ∃ p, (c2.files ino).length = (c3.files ino).length ∧
      ((c3.pc p = .done 0 (some ino) ∧ decode (c3.files ino) = initRing (a p)) ∨
       (c3.pc p = .dead (some ino) ∧ ∃ g app, HalfWay (a p) g app ∧ decode (c3.files ino) = { initRing (a p) with gflags := g, app := app })) := by
  obtain ⟨g1, g2, g3, _⟩ := shr_open_at_some h
  change c1.path = some ino at g1
  change ¬ validate_ring (c3.files ino) (c2.files ino).length < 0 at g3
  change (c2.files ino).length ≠ 0 at g2
  have x1 := h1.inv hs he h0
  have x2 := (h1.trans h2).inv hs he h0
  have x3 := ((h1.trans h2).trans h3).inv hs he h0
  rcases x1.path ino g1 with ⟨hj, hj0⟩ | ⟨p, hp⟩
  · exact .inl ⟨hj0, x3.old ino hj⟩
  · right
    have p2 := h2.ino hp
    have p3 := h3.ino p2
    have b2 := x2.body p ino p2
    have b3 := x3.body p ino p3
    have hc : SIZEOF_CTRL ≤ (env p).trunc.len (a p).fileSz := by
      have hL : (a p).fileSz ≤ (env p).trunc.len (a p).fileSz := by
        unfold Trunc.len; split
        · rename_i l h; exact he p _ h
        · exact Nat.le_refl _
      have := (hs p).fileSz; omega
    have hno := hlock p
    -- at any time the length is 0 or the final one
    have hlen : (c2.files ino).length = (env p).trunc.len (a p).fileSz := by
      revert b2 p2
      cases c2.pc p with
      | start | checked | free => intro hp; cases hp
      | opened | locked => intro _ b; rw [b] at g2; exact absurd rfl g2
      | sized =>
        intro _ b
        rcases b with ⟨b, _⟩ | b
        · rw [b] at g2; exact absurd rfl g2
        · rw [b]; simp
      | filling =>
        intro _ b
        rcases Prog.ok_now b with (b | ⟨_, _, b, _⟩) | ⟨_, b⟩
        · exact b.1
        · exact b.1
        · exact b.1
      | failing =>
        intro _ b
        rcases b with b | b
        · rw [b] at g2; exact absurd rfl g2
        · exact b.1
      | closing =>
        intro _ b
        rcases b with ⟨_, b⟩ | ⟨_, b | b⟩
        · exact b.1
        · rw [b] at g2; exact absurd rfl g2
        · exact b.1
      | done rc m =>
        intro hm b
        change m = some ino at hm; subst hm
        rcases b with ⟨_, b⟩ | ⟨_, b | b⟩
        · exact b.1
        · rw [b] at g2; exact absurd rfl g2
        · exact b.1
      | dead m =>
        intro hm b
        change m = some ino at hm; subst hm
        rcases b with b | b | ⟨_, _, b, _⟩
        · rw [b] at g2; exact absurd rfl g2
        · exact b.1
        · exact b.1
    refine ⟨p, ?_⟩
    rw [hlen]
    revert b3 p3 hno
    cases c3.pc p with
    | start | checked | free => intro hp; cases hp
    | opened => intro _ b; rw [b] at g3; exact absurd validate_nil g3
    | locked | sized | filling | failing | closing => intro e _ hno; exact absurd e hno
    | done rc m =>
      intro hm b _
      change m = some ino at hm; subst hm
      rcases b with ⟨rfl, b⟩ | ⟨_, b | b⟩
      · exact ⟨b.1.symm, .inl ⟨rfl, b.2.2⟩⟩
      · rw [b] at g3; exact absurd validate_nil g3
      · exact absurd (validate_raw b) g3
    | dead m =>
      intro hm b _
      change m = some ino at hm; subst hm
      rcases b with b | b | ⟨g, app, b, _, _, hw⟩
      · rw [b] at g3; exact absurd validate_nil g3
      · exact absurd (validate_raw b) g3
      · exact ⟨b.1.symm, .inr ⟨rfl, g, app, hw, b.2.2⟩⟩
/-- The process is not on the error path. -/
def CrPc.fine : CrPc → Prop
  | .failing _ => False
  | .closing _ rc => rc = 0
  | .done rc (some _) => rc = 0
  | _ => True

/-- The process has not touched the name. -/
def CrPc.idle : CrPc → Prop
  | .start | .checked true | .done 0 none => True
  | _ => False

/-- The process does not know of any file. -/
def CrPc.sawNone : CrPc → Prop
  | .start | .checked false => True
  | _ => False

/-- What holds while no process has been killed and no system call fails, except for the race itself. -/
structure Race.Quiet (c0 c : CrSys) : Prop where
  fine : ∀ p, (c.pc p).fine
  name : c.path.isSome = true ∨ (∃ p, c.pc p = .free) ∨ ∀ p, (c.pc p).sawNone
  old : ∀ j, c.path = some j → j < c0.next → ∀ p, (c.pc p).idle

theorem Race.Quiet.move (h : Race.Quiet c0 c) {q : Nat} {n : CrPc} (h1 : n.fine) (h2 : c.pc q = .free → c.path.isSome = true)
    (h3 : (c.pc q).sawNone → c.path.isSome = true ∨ n = .free ∨ n.sawNone) (h4 : (c.pc q).idle → c.path.isSome = true → n.idle) :
    Race.Quiet c0 { c with pc := upd c.pc q n } := by
  refine ⟨fun p => ?_, ?_, fun j hj hlt p => ?_⟩ <;> dsimp only
  · unfold upd; split
    · exact h1
    · exact h.fine p
  · rcases h.name with hn | ⟨r, hr⟩ | hn
    · exact .inl hn
    · by_cases hrq : r = q
      · subst hrq; exact .inl (h2 hr)
      · exact .inr (.inl ⟨r, by simp [upd, hrq, hr]⟩)
    · rcases h3 (hn q) with h3 | h3 | h3
      · exact .inl h3
      · exact .inr (.inl ⟨q, by simp [upd, h3]⟩)
      · refine .inr (.inr fun p => ?_)
        unfold upd; split
        · exact h3
        · exact hn p
  · unfold upd; split
    · exact h4 (h.old j hj hlt q) (by change c.path = some j at hj; rw [hj]; rfl)
    · exact h.old j hj hlt p

theorem Race.quiet (hs : ∀ p, SizesOk (a p)) (he : ∀ p, (env p).WF (a p)) (hv : ∀ p, (a p).flags.toNat < SHR_OPEN_FENCE.toNat)
    (hg : ∀ p, (env p).unlinkOk = true ∧ (env p).openOk = true ∧ (env p).lockOk = true ∧ (env p).trunc ≠ .err ∧ (env p).mmapOk = true)
    (h0 : c0.Initial) (h : CrSys.Steps a env c0 c) : (∃ p m, c.pc p = .dead m) ∨ Race.Quiet c0 c := by
  induction h with
  | refl =>
    have e : ∀ p, c0.pc p = .start := h0.pc
    exact .inr ⟨fun p => by rw [e]; trivial, .inr (.inr fun p => by rw [e]; trivial), fun _ _ _ p => by rw [e]; trivial⟩
  | @step d e hsd hst ih =>
    have hnx := (hsd.inv hs he h0).le
    rcases ih with ⟨p, m, hp⟩ | ih
    · refine .inl ⟨p, m, ?_⟩
      have key : ∀ (q : Nat) (n : CrPc), (d.pc q).over = false → upd d.pc q n p = .dead m := by
        intro q n hq
        have : p ≠ q := by rintro rfl; rw [hp] at hq; cases hq
        simp [upd, this, hp]
      cases hst <;> dsimp only <;> refine key _ _ ?_ <;> simp_all [CrPc.over]
    · cases hst with
      | @kill p _ => exact .inl ⟨p, (d.pc p).ino, by simp [upd]⟩
      | @invalid p e1 e2 =>
        have := hv p; have := (hs p).pos; omega
      | @access p e1 e2 =>
        refine .inr (ih.move trivial (fun h => by rw [e1] at h; cases h) (fun _ => ?_) (fun _ h => by rw [h]; trivial))
        by_cases h : d.path.isSome = true
        · exact .inl h
        · simp only [Bool.not_eq_true] at h
          rw [h]; exact .inr (.inr trivial)
      | @keep p e1 _ =>
        exact .inr (ih.move trivial (fun h => by rw [e1] at h; cases h) (fun h => by rw [e1] at h; exact h.elim) (fun _ _ => trivial))
      | @unlink p e1 _ _ _ =>
        refine .inr ⟨fun q => ?_, .inr (.inl ⟨p, by simp [upd]⟩), fun j hj => (nomatch hj)⟩
        dsimp only; unfold upd; split
        · trivial
        · exact ih.fine q
      | @noUnlink p e1 _ e3 =>
        refine .inr (ih.move trivial (fun h => by rw [e1] at h; cases h) (fun h => by rw [e1] at h; exact h.elim) (fun _ h => ?_))
        rcases e3 with e3 | e3
        · rw [(hg p).1] at e3; cases e3
        · rw [e3] at h; cases h
      | @absent p e1 =>
        exact .inr (ih.move trivial (fun h => by rw [e1] at h; cases h) (fun _ => .inr (.inl rfl)) (fun h => by rw [e1] at h; exact h.elim))
      | @create p e1 _ _ =>
        refine .inr ⟨fun q => ?_, .inl rfl, fun j hj hlt => ?_⟩
        · dsimp only; unfold upd; split
          · trivial
          · exact ih.fine q
        · cases hj; omega
      | @noCreate p e1 e2 =>
        have : d.path.isSome = true := e2.elim (fun h => by rw [(hg p).2.1] at h; cases h) id
        exact .inr (ih.move trivial (fun _ => this) (fun _ => .inl this) (fun h => by rw [e1] at h; exact h.elim))
      | @noLock p i e1 e2 => rw [(hg p).2.2.1] at e2; cases e2
      | @noTruncate p i e1 e2 => exact absurd e2 (hg p).2.2.2.1
      | @noMmap p i e1 e2 =>
        have h1 := (hg p).2.2.2.2
        have h2 := (hs p).fileSz
        have h3 := (hs p).sum
        rcases e2 with e2 | e2 | e2
        · rw [h1] at e2; cases e2
        · rw [h2] at e2; unfold SIZEOF_CTRL at e2; omega
        · omega
      | @remove p i e1 => have := ih.fine p; rw [e1] at this; exact this.elim
      | @lock p i e1 _ =>
        exact .inr (ih.move trivial (fun h => by rw [e1] at h; cases h) (fun h => by rw [e1] at h; exact h.elim)
          (fun h => by rw [e1] at h; exact h.elim))
      | @einval p i e1 _ =>
        exact .inr (ih.move trivial (fun h => by rw [e1] at h; cases h) (fun h => by rw [e1] at h; exact h.elim)
          (fun h => by rw [e1] at h; exact h.elim))
      | @load p i k e1 =>
        exact .inr (ih.move trivial (fun h => by rw [e1] at h; cases h) (fun h => by rw [e1] at h; exact h.elim)
          (fun h => by rw [e1] at h; exact h.elim))
      | @filled p i e1 =>
        exact .inr (ih.move rfl (fun h => by rw [e1] at h; cases h) (fun h => by rw [e1] at h; exact h.elim)
          (fun h => by rw [e1] at h; exact h.elim))
      | @close p i rc e1 =>
        have h1 := ih.fine p
        rw [e1] at h1
        exact .inr (ih.move h1 (fun h => by rw [e1] at h; cases h) (fun h => by rw [e1] at h; exact h.elim)
          (fun h => by rw [e1] at h; exact h.elim))
      | @truncate p i e1 _ _ =>
        have := ih.move (q := p) (n := .sized i) trivial (fun h => by rw [e1] at h; cases h) (fun h => by rw [e1] at h; exact h.elim)
          (fun h => by rw [e1] at h; exact h.elim)
        exact .inr ⟨this.fine, this.name, this.old⟩
      | @mmap p i P e1 _ _ =>
        have := ih.move (q := p) (n := .filling i P) trivial (fun h => by rw [e1] at h; cases h) (fun h => by rw [e1] at h; exact h.elim)
          (fun h => by rw [e1] at h; exact h.elim)
        exact .inr ⟨this.fine, this.name, this.old⟩
      | @store p i f k e1 =>
        have := ih.move (q := p) (n := .filling i k) trivial (fun h => by rw [e1] at h; cases h) (fun h => by rw [e1] at h; exact h.elim)
          (fun h => by rw [e1] at h; exact h.elim)
        exact .inr ⟨this.fine, this.name, this.old⟩

/-- **C75.** Several creators ran at the same time, no system call failed for another reason than the race, and all have returned: then the
name refers to a ring.  Either it is the file that had the name before, and then every creator used SHR_KEEPEXIST and returned 0; or it is the
complete ring, as requested, of a creator that returned 0. -/
theorem C75_all_returned (hs : ∀ p, SizesOk (a p)) (he : ∀ p, (env p).WF (a p)) (hv : ∀ p, (a p).flags.toNat < SHR_OPEN_FENCE.toNat)
    (hg : ∀ p, (env p).unlinkOk = true ∧ (env p).openOk = true ∧ (env p).lockOk = true ∧ (env p).trunc ≠ .err ∧ (env p).mmapOk = true)
    (h0 : c0.Initial) (h : CrSys.Steps a env c0 c) (hret : ∀ p, c.pc p = .start ∨ ∃ rc m, c.pc p = .done rc m)
    (hone : ∃ p rc m, c.pc p = .done rc m) :
    ∃ ino, c.path = some ino ∧
      ((c0.path = some ino ∧ c.files ino = c0.files ino ∧
          ∀ p, c.pc p = .start ∨ (c.pc p = .done 0 none ∧ (a p).flags.has SHR_KEEPEXIST = true)) ∨
       ∃ p, c.pc p = .done 0 (some ino) ∧ decode (c.files ino) = initRing (a p) ∧ (a p).fileSz ≤ (c.files ino).length) := by
  have x := h.inv hs he h0
  rcases Race.quiet hs he hv hg h0 h with ⟨p, m, hp⟩ | q
  · rcases hret p with h | ⟨_, _, h⟩ <;> rw [hp] at h <;> cases h
  obtain ⟨ino, hi⟩ : ∃ ino, c.path = some ino := by
    rcases q.name with hn | ⟨p, hp⟩ | hn
    · exact Option.isSome_iff_exists.1 hn
    · rcases hret p with h | ⟨_, _, h⟩ <;> rw [hp] at h <;> cases h
    · obtain ⟨p, rc, m, hp⟩ := hone
      have := hn p
      rw [hp] at this
      exact this.elim
  refine ⟨ino, hi, ?_⟩
  rcases x.path ino hi with ⟨hlt, h1⟩ | ⟨p, hp⟩
  · refine .inl ⟨h1, x.old ino hlt, fun p => ?_⟩
    rcases hret p with hp | ⟨rc, m, hp⟩
    · exact .inl hp
    · have hid := q.old ino hi hlt p
      rw [hp] at hid
      have hp' : c.pc p = .done 0 none := by
        rw [hp]
        unfold CrPc.idle at hid
        split at hid
        · rename_i h; cases h
        · rename_i h; cases h
        · rename_i h; exact h
        · exact hid.elim
      refine .inr ⟨hp', ?_⟩
      rcases C75_returned_zero hs he h0 h hp' with ⟨_, h2, _⟩ | h2
      · cases h2
      · exact h2.2
  · right
    rcases hret p with hq | ⟨rc, m, hq⟩
    · rw [hq] at hp; cases hp
    · rw [hq] at hp
      change m = some ino at hp
      subst hp
      have hf := q.fine p
      rw [hq] at hf
      change rc = 0 at hf
      subst hf
      refine ⟨p, hq, ?_⟩
      rcases C75_returned_zero hs he h0 h hq with ⟨i, h1, _, h2, h3⟩ | h2
      · cases h1; exact ⟨h2, h3⟩
      · cases h2.1

/-- **C75.** The model of this section agrees with that of `shr_init` on its own (C19 to C24): if only one process moves, it can return what
`shr_init` returns, leaving the files as `shr_init` leaves them; and every state at which `shr_init` can be killed is one this
process goes through. -/
theorem C75_one_creator {p : Nat} (hs : SizesOk (a p)) (he : (env p).WF (a p)) (h0 : c0.Initial) {rc : Int} {fs' : FS}
    (h : Inits (a p) (env p) c0.fs rc fs') :
    (∃ d m, CrSys.Steps a env c0 d ∧ (∀ q, q ≠ p → d.pc q = .start) ∧ d.pc p = .done rc m ∧ d.fs = fs') ∧
    ∀ t, DuringInit (a p) (env p) c0.fs t →
      ∃ d, CrSys.Steps a env c0 d ∧ (∀ q, q ≠ p → d.pc q = .start) ∧ d.path = t.path ∧ d.files = t.files := by
  have hok := solo_ok (a := a) (env := env) hs he (h0.pc p)
  obtain ⟨x, s, h1, h2, m, pc, h3, h4, h5⟩ := hok.res
  rw [show (shr_init (a p) (env p) c0.fs).res = .ok rc fs' from h] at h1
  cases h1
  refine ⟨⟨_, m, h3, (fun q hq => by rw [← h0.pc q]; exact h4 q hq), h5, ?_⟩, fun t ht => ?_⟩
  · rw [CrSys.fs]; cases fs'; cases h2; rfl
  · have key : ∀ n, Solo a env p c0 n t → ∃ d, CrSys.Steps a env c0 d ∧ (∀ q, q ≠ p → d.pc q = .start) ∧ d.path = t.path ∧ d.files = t.files := by
      rintro n ⟨pc, g1, g2, _⟩
      exact ⟨_, g1, (fun q hq => by rw [← h0.pc q]; exact g2 q hq), rfl, rfl⟩
    unfold DuringInit Run.points at ht
    rcases List.mem_append.1 ht with ht | ht
    · obtain ⟨n, hn⟩ := hok.tr t ht
      exact key n hn
    · have hfin : (shr_init (a p) (env p) c0.fs).final = some fs' := by
        unfold Run.final
        cases hr : shr_init (a p) (env p) c0.fs with
        | mk tr res => unfold Inits at h; rw [hr] at h; dsimp only at h; rw [h]
      rw [hfin] at ht
      simp at ht
      subst ht
      exact key _ ⟨pc, h3, h4, h5⟩
end

/-! ## The hypotheses can be met, and what is not true -/

/-- Nobody has started and the name is free. -/
def raceStart : CrSys := ⟨none, fun _ => [], 0, fun _ => .start⟩

theorem raceStart_initial : raceStart.Initial := ⟨fun _ => rfl, fun _ h => (nomatch h), fun _ _ => rfl⟩

/-- `shr_init` of one process, from any state. -/
theorem solo_run {a : Nat → InitArgs} {env : Nat → InitEnv} {c : CrSys} {p : Nat} {rc : Int} (hs : SizesOk (a p)) (he : (env p).WF (a p))
    (h0 : c.pc p = .start) (h : returned (a p) (env p) c.fs rc = true) :
    ∃ pc m, CrSys.Steps a env c ⟨(afterInit (a p) (env p) c.fs).path, (afterInit (a p) (env p) c.fs).files,
      (afterInit (a p) (env p) c.fs).next, pc⟩ ∧ (∀ q, q ≠ p → pc q = c.pc q) ∧ pc p = .done rc m := by
  obtain ⟨x, s, h1, _, m, pc, h3, h4, h5⟩ := (solo_ok (a := a) (env := env) hs he h0).res
  rw [show (shr_init (a p) (env p) c.fs).res = .ok rc _ from inits_of h] at h1
  cases h1
  exact ⟨pc, m, h3, h4, h5⟩

/-- Two creators of the same ring, the second with SHR_KEEPEXIST. -/
def raceArgs (p : Nat) : InitArgs := if p = 1 then { smallArgs with flags := smallArgs.flags ||| SHR_KEEPEXIST } else smallArgs

theorem raceArgs_ok (p : Nat) : SizesOk (raceArgs p) := by
  unfold raceArgs; split
  · exact ⟨by decide, by decide, by decide⟩
  · exact smallArgs_ok

/-- Both creators looked for the name before either made the file.  The hypotheses of `C75_all_returned` are met; the second creator returns −1
although it used SHR_KEEPEXIST and the ring is there: C20 does not hold when creators race. -/
theorem C75_keepexist_counterexample : ∃ c, CrSys.Steps raceArgs (fun _ => {}) raceStart c ∧ (∃ m, c.pc 0 = .done 0 m) ∧
    c.pc 1 = .done (-1) none ∧ (raceArgs 1).flags.has SHR_KEEPEXIST = true ∧ c.path = some 0 ∧
    (∀ p, c.pc p = .start ∨ ∃ rc m, c.pc p = .done rc m) := by
  let c1 : CrSys := { raceStart with pc := upd (upd raceStart.pc 1 (.checked false)) 1 .free }
  have h1 : CrSys.Steps raceArgs (fun _ => {}) raceStart c1 :=
    .step (.step (.refl _) (.access (p := 1) rfl (by decide))) (.absent (p := 1) (by simp [upd, raceStart]))
  obtain ⟨pc, m, h2, h3, h4⟩ := solo_run (a := raceArgs) (env := fun _ => {}) (c := c1) (p := 0) (rc := 0) (raceArgs_ok 0)
    (fun _ h => nomatch h) (by simp [c1, upd, raceStart]) (by decide +kernel)
  have hp : (afterInit (raceArgs 0) {} c1.fs).path = some 0 := by decide +kernel
  rw [hp] at h2
  have h5 : pc 1 = .free := by rw [h3 1 (by decide)]; simp [c1, upd]
  refine ⟨_, .step (h1.trans h2) (.noCreate (p := 1) h5 (.inr rfl)), ⟨m, by simp [upd, h4]⟩, by simp [upd], by decide, rfl, fun p => ?_⟩
  dsimp only
  by_cases e1 : p = 1
  · exact .inr ⟨-1, none, by simp [upd, e1]⟩
  · by_cases e0 : p = 0
    · exact .inr ⟨0, m, by simp [upd, e0, h4]⟩
    · left
      simp only [upd, if_neg e1]
      rw [h3 p e0]
      simp [c1, upd, e1, raceStart]

/-- The `ftruncate` of process 1 fails. -/
def raceEnv (p : Nat) : InitEnv := if p = 1 then { trunc := .err } else {}

/-- A creator that fails removes the name even when it meanwhile refers to the ring of another creator, whose `shr_init` has returned 0: in the end
there is no ring. -/
theorem C75_vanish_counterexample : ∃ c, CrSys.Steps (fun _ => smallArgs) raceEnv raceStart c ∧ (∃ i, c.pc 0 = .done 0 (some i)) ∧
    (∃ i, c.pc 1 = .done (-1) (some i)) ∧ c.path = none := by
  let c1 : CrSys := ⟨some 0, upd (fun _ => []) 0 [], 1,
    upd (upd (upd (upd raceStart.pc 1 (.checked false)) 1 .free) 1 (.opened 0)) 1 (.locked 0)⟩
  have h1 : CrSys.Steps (fun _ => smallArgs) raceEnv raceStart c1 :=
    .step (.step (.step (.step (.refl _) (.access (p := 1) rfl (by decide))) (.absent (p := 1) (by simp [upd, raceStart])))
      (.create (p := 1) (by simp [upd]) rfl rfl)) (.lock (p := 1) (by simp [upd]; rfl) rfl)
  obtain ⟨pc, m, h2, h3, h4⟩ := solo_run (a := fun _ => smallArgs) (env := raceEnv) (c := c1) (p := 0) (rc := 0) smallArgs_ok
    (fun _ h => nomatch h) (by simp [c1, upd, raceStart]) (by decide +kernel)
  have h5 : pc 1 = .locked 0 := by rw [h3 1 (by decide)]; simp [c1, upd]
  have hm : ∃ i, m = some i := by
    have hw : ∀ p, (raceEnv p).WF smallArgs := fun p _ h => by unfold raceEnv at h; split at h <;> cases h
    rcases C75_returned_zero (fun _ => smallArgs_ok) hw raceStart_initial (h1.trans h2) (p := 0) h4 with
      ⟨i, h, _⟩ | ⟨_, h⟩
    · exact ⟨i, h⟩
    · exact absurd h (by decide)
  obtain ⟨i, rfl⟩ := hm
  refine ⟨_, .step (.step (.step (h1.trans h2) (.noTruncate (p := 1) h5 rfl)) (.remove (p := 1) (i := 0) (by simp [upd])))
    (.close (p := 1) (i := 0) (rc := -1) (by simp [upd])), ⟨i, by simp [upd, h4]⟩, ⟨0, by simp [upd]⟩, rfl⟩

/-- The hypotheses of `C75_opener` are met: an opener that comes while the second creator has not returned yet gets the ring of the first. -/
example : ∃ c ino hd, CrSys.Steps raceArgs (fun _ => {}) raceStart c ∧ c.pc 1 = .free ∧ (∀ p, (c.pc p).holds ≠ some ino) ∧
    shr_open_at c.fs c.fs c.fs SHR_RDONLY {} = some (ino, hd) ∧ decode (c.files ino) = initRing smallArgs := by
  let c1 : CrSys := { raceStart with pc := upd (upd raceStart.pc 1 (.checked false)) 1 .free }
  have h1 : CrSys.Steps raceArgs (fun _ => {}) raceStart c1 :=
    .step (.step (.refl _) (.access (p := 1) rfl (by decide))) (.absent (p := 1) (by simp [upd, raceStart]))
  obtain ⟨pc, m, h2, h3, h4⟩ := solo_run (a := raceArgs) (env := fun _ => {}) (c := c1) (p := 0) (rc := 0) (raceArgs_ok 0)
    (fun _ h => nomatch h) (by simp [c1, upd, raceStart]) (by decide +kernel)
  have key : (shr_open_at { afterInit (raceArgs 0) {} c1.fs with locked := none } { afterInit (raceArgs 0) {} c1.fs with locked := none }
    { afterInit (raceArgs 0) {} c1.fs with locked := none } SHR_RDONLY {}).isSome = true := by decide +kernel
  generalize afterInit (raceArgs 0) {} c1.fs = F at h2 key
  let c : CrSys := ⟨F.path, F.files, F.next, pc⟩
  have hc : CrSys.Steps raceArgs (fun _ => {}) raceStart c := h1.trans h2
  have hno : ∀ ino p, (c.pc p).holds ≠ some ino := by
    intro ino p
    show (pc p).holds ≠ some ino
    by_cases e0 : p = 0
    · rw [e0, h4]; exact fun h => nomatch h
    · rw [h3 p e0]
      by_cases e1 : p = 1
      · rw [e1]; simp [c1, upd, CrPc.holds]
      · simp [c1, upd, e1, raceStart, CrPc.holds]
  have ho : (shr_open_at (CrSys.fs c) (CrSys.fs c) (CrSys.fs c) SHR_RDONLY {}).isSome = true := key
  obtain ⟨⟨ino, hd⟩, hx⟩ := Option.isSome_iff_exists.mp ho
  refine ⟨c, ino, hd, hc, by show pc 1 = _; rw [h3 1 (by decide)]; simp [c1, upd], hno ino, hx, ?_⟩
  rcases C75_opener (env := fun _ => {}) raceArgs_ok (fun _ _ h => by cases h) raceStart_initial hc (.refl _) (.refl _) (hno ino) hx with ⟨h, _⟩ | ⟨p, _, ⟨hp, h⟩ | ⟨hp, _⟩⟩
  · cases h
  all_goals
    change pc p = _ at hp
    by_cases e0 : p = 0
    · subst e0
      first | exact h | (rw [h4] at hp; cases hp)
    · rw [h3 p e0] at hp
      by_cases e1 : p = 1
      · simp [c1, upd, e1] at hp
      · simp [c1, upd, e1, raceStart] at hp

end Shr
