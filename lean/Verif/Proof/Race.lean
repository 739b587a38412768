import Verif.Model.Race
import Verif.Proof.InitFS
import Verif.Proof.Conc
/-! # Several creators: the invariant -/
namespace Shr
open M

theorem Prog.ok_load {σ α : Type} {k : σ → Prog σ α} {s : σ} {T : σ → Prop} {Q : α → σ → Prop} (h : Ok (Prog.load k).denote s T Q) :
    Ok (k s).denote s T Q := ⟨h.tr, h.res⟩

theorem Prog.ok_store {σ α : Type} {f : σ → σ} {k : Prog σ α} {s : σ} {T : σ → Prop} {Q : α → σ → Prop}
    (h : Ok (Prog.store f k).denote s T Q) : T s ∧ Ok k.denote (f s) T Q :=
  ⟨h.tr s (by simp [Prog.denote]), fun t ht => h.tr t (by simp [Prog.denote, ht]), h.res⟩

theorem Prog.ok_ret {σ α : Type} {x : α} {s : σ} {T : σ → Prop} {Q : α → σ → Prop} (h : Ok (Prog.ret x).denote s T Q) : Q x s := by
  obtain ⟨y, s', h1, h2⟩ := h.res
  cases h1
  exact h2

/-- Before any step of a program, `T` or `Q` holds. -/
theorem Prog.ok_now {σ α : Type} : ∀ {P : Prog σ α} {s : σ} {T : σ → Prop} {Q : α → σ → Prop}, Ok P.denote s T Q → T s ∨ ∃ x, Q x s
  | .ret x, _, _, _, h => .inr ⟨x, Prog.ok_ret h⟩
  | .load k, s, _, _, h => Prog.ok_now (P := k s) (Prog.ok_load h)
  | .store _ _, _, _, _, h => .inl (Prog.ok_store h).1
  | .abort, _, _, _, h => by obtain ⟨y, s', h1, _⟩ := h.res; cases h1
  | .fail .abort, _, _, _, h => by obtain ⟨y, s', h1, _⟩ := h.res; cases h1
  | .fail .ub, _, _, _, h => by obtain ⟨y, s', h1, _⟩ := h.res; cases h1
  | .fail .hang, _, _, _, h => by obtain ⟨y, s', h1, _⟩ := h.res; cases h1

/-- The content of the file that a creator has made, depending on how far it got; `L` is the length. -/
def CrPc.body (a : InitArgs) (e : InitEnv) (f : List Byte) : CrPc → Prop
  | .opened _ | .locked _ => f = []
  | .sized _ => f = [] ∧ e.trunc ≠ .ok ∨ f = List.replicate (e.trunc.len a.fileSz) 0
  | .filling _ rest => Ok rest.denote f (fun f => Raw (e.trunc.len a.fileSz) f ∨ Half a (e.trunc.len a.fileSz) f)
      (fun _ f => Whole a (e.trunc.len a.fileSz) f)
  | .failing _ => f = [] ∨ Raw (e.trunc.len a.fileSz) f
  | .closing _ rc => (rc = 0 ∧ Whole a (e.trunc.len a.fileSz) f) ∨ (rc = -1 ∧ (f = [] ∨ Raw (e.trunc.len a.fileSz) f))
  | .done rc (some _) => (rc = 0 ∧ Whole a (e.trunc.len a.fileSz) f) ∨ (rc = -1 ∧ (f = [] ∨ Raw (e.trunc.len a.fileSz) f))
  | .dead (some _) => f = [] ∨ Raw (e.trunc.len a.fileSz) f ∨ Half a (e.trunc.len a.fileSz) f
  | _ => True

/-- The invariant, for executions that started at `c0`. -/
structure CrInv (a : Nat → InitArgs) (env : Nat → InitEnv) (c0 c : CrSys) : Prop where
  le : c0.next ≤ c.next
  old : ∀ j, j < c0.next → c.files j = c0.files j
  path : ∀ j, c.path = some j → (j < c0.next ∧ c0.path = some j) ∨ ∃ p, (c.pc p).ino = some j
  rng : ∀ p i, (c.pc p).ino = some i → c0.next ≤ i ∧ i < c.next
  inj : ∀ p q i, (c.pc p).ino = some i → (c.pc q).ino = some i → p = q
  all : ∀ i, c0.next ≤ i → i < c.next → ∃ p, (c.pc p).ino = some i
  fresh : ∀ i, c.next ≤ i → c.files i = []
  body : ∀ p i, (c.pc p).ino = some i → (c.pc p).body (a p) (env p) (c.files i)

theorem Whole.half {a : InitArgs} {L : Nat} {f : List Byte} (hw : Whole a L f) : Half a L f := by
  refine ⟨a.gflags, (initRing a).app, ⟨hw.1, hw.2.1, by rw [hw.2.2]; rfl⟩, BitVec.or_self, ?_, .whole a⟩
  unfold initRing InitArgs.appsize; split <;> simp_all

section
variable {a : Nat → InitArgs} {env : Nat → InitEnv} {c0 c d : CrSys}

/-- A step of `p` that changes neither name nor files, and keeps the file that `p` has made. -/
theorem CrInv.move (h : CrInv a env c0 c) {p : Nat} {n : CrPc} (h1 : n.ino = (c.pc p).ino)
    (h2 : ∀ i, n.ino = some i → n.body (a p) (env p) (c.files i)) : CrInv a env c0 { c with pc := upd c.pc p n } := by
  have e : ∀ q, (upd c.pc p n q).ino = (c.pc q).ino := by
    intro q
    unfold upd
    split
    · rename_i hq; subst hq; exact h1
    · rfl
  refine ⟨h.le, h.old, ?_, ?_, ?_, ?_, h.fresh, ?_⟩ <;> dsimp only
  · simp only [e]; exact h.path
  · simp only [e]; exact h.rng
  · simp only [e]; exact h.inj
  · simp only [e]; exact h.all
  · intro q i hq
    by_cases hqp : q = p
    · subst hqp
      have : upd c.pc q n q = n := by simp [upd]
      rw [this] at hq ⊢
      exact h2 i hq
    · have : upd c.pc p n q = c.pc q := by simp [upd, hqp]
      rw [this] at hq ⊢
      exact h.body q i hq

/-- A step of `p` that changes only the file that `p` has made. -/
theorem CrInv.write (h : CrInv a env c0 c) {p i : Nat} {n : CrPc} {f : List Byte} (h0 : (c.pc p).ino = some i) (h1 : n.ino = some i)
    (h2 : n.body (a p) (env p) f) : CrInv a env c0 { c with files := upd c.files i f, pc := upd c.pc p n } := by
  have e : ∀ q, (upd c.pc p n q).ino = (c.pc q).ino := by
    intro q
    unfold upd
    split
    · rename_i hq; subst hq; rw [h0, h1]
    · rfl
  have hr := h.rng p i h0
  have ef : ∀ j, j ≠ i → upd c.files i f j = c.files j := fun j hj => by simp [upd, hj]
  refine ⟨h.le, ?_, ?_, ?_, ?_, ?_, ?_, ?_⟩ <;> dsimp only
  · intro j hj; rw [ef j (by omega)]; exact h.old j hj
  · simp only [e]; exact h.path
  · simp only [e]; exact h.rng
  · simp only [e]; exact h.inj
  · simp only [e]; exact h.all
  · intro j hj; rw [ef j (by omega)]; exact h.fresh j hj
  · intro q j hq
    have hq' : (c.pc q).ino = some j := by rw [← e]; exact hq
    by_cases hqp : q = p
    · subst hqp
      have : upd c.pc q n q = n := by simp [upd]
      rw [h0] at hq'; cases hq'
      rw [this]
      have : upd c.files i f i = f := by simp [upd]
      rw [this]; exact h2
    · have h3 : upd c.pc p n q = c.pc q := by simp [upd, hqp]
      rw [h3]
      have hji : j ≠ i := fun hji => by subst hji; exact hqp (h.inj q p _ hq' h0)
      rw [ef j hji]
      exact h.body q j hq'

theorem CrInv.noName (h : CrInv a env c0 c) : CrInv a env c0 { c with path := none } :=
  ⟨h.le, h.old, fun _ h => (nomatch h), h.rng, h.inj, h.all, h.fresh, h.body⟩

theorem CrInv.step (hs : ∀ p, SizesOk (a p)) (he : ∀ p, (env p).WF (a p)) (h : CrInv a env c0 c) (hst : CrSys.Step a env c d) :
    CrInv a env c0 d := by
  have hL : ∀ p, (a p).fileSz ≤ (env p).trunc.len (a p).fileSz := fun p => by
    unfold Trunc.len; split
    · rename_i l h; exact he p _ h
    · exact Nat.le_refl _
  have hc : ∀ p, SIZEOF_CTRL ≤ (env p).trunc.len (a p).fileSz := fun p => by
    have := hL p; have := (hs p).fileSz; omega
  cases hst with
  | invalid e _ => exact h.move (by rw [e]; rfl) (fun _ h => nomatch h)
  | access e _ => exact h.move (by rw [e]; rfl) (fun _ h => nomatch h)
  | keep e _ => exact h.move (by rw [e]; rfl) (fun _ h => nomatch h)
  | unlink e _ _ _ => exact h.noName.move (by dsimp only; rw [e]; rfl) (fun _ h => nomatch h)
  | noUnlink e _ _ => exact h.move (by rw [e]; rfl) (fun _ h => nomatch h)
  | absent e => exact h.move (by rw [e]; rfl) (fun _ h => nomatch h)
  | noCreate e _ => exact h.move (by rw [e]; rfl) (fun _ h => nomatch h)
  | @create p e _ hp =>
    have e0 : ∀ q, q ≠ p → upd c.pc p (.opened c.next) q = c.pc q := fun q hq => by simp [upd, hq]
    have e1 : upd c.pc p (.opened c.next) p = .opened c.next := by simp [upd]
    have ep : (c.pc p).ino = none := by rw [e]; rfl
    have key : ∀ q i, (upd c.pc p (.opened c.next) q).ino = some i → (q = p ∧ i = c.next) ∨ (q ≠ p ∧ (c.pc q).ino = some i) := by
      intro q i hq
      by_cases hqp : q = p
      · subst hqp; rw [e1] at hq; cases hq; exact .inl ⟨rfl, rfl⟩
      · rw [e0 q hqp] at hq; exact .inr ⟨hqp, hq⟩
    have hfn : upd c.files c.next [] = c.files := by
      funext j; unfold upd; split
      · rename_i hj; subst hj; exact (h.fresh _ (Nat.le_refl _)).symm
      · rfl
    rw [hfn]
    refine ⟨Nat.le_succ_of_le h.le, h.old, ?_, ?_, ?_, ?_, ?_, ?_⟩ <;> dsimp only
    · intro j hj; cases hj; exact .inr ⟨p, by rw [e1]; rfl⟩
    · intro q i hq
      rcases key q i hq with ⟨_, rfl⟩ | ⟨_, hq⟩
      · exact ⟨h.le, by omega⟩
      · have := h.rng q i hq; omega
    · intro q r i hq hr
      rcases key q i hq with ⟨rfl, rfl⟩ | ⟨_, hq2⟩
      · rcases key r _ hr with ⟨rfl, _⟩ | ⟨_, hr⟩
        · rfl
        · have := h.rng r _ hr; omega
      · rcases key r i hr with ⟨_, hi⟩ | ⟨_, hr⟩
        · have := h.rng q _ hq2; omega
        · exact h.inj q r i hq2 hr
    · intro i h1 h2
      by_cases hi : i = c.next
      · exact ⟨p, by rw [e1, hi]; rfl⟩
      · obtain ⟨q, hq⟩ := h.all i h1 (by omega)
        refine ⟨q, ?_⟩
        rw [e0 q]
        · exact hq
        · rintro rfl; rw [ep] at hq; cases hq
    · intro i hi; exact h.fresh i (by omega)
    · intro q i hq
      rcases key q i hq with ⟨rfl, rfl⟩ | ⟨hqp, hq⟩
      · rw [e1]; exact h.fresh _ (Nat.le_refl _)
      · rw [e0 q hqp]; exact h.body q i hq
  | @lock p i e _ =>
    refine h.move (by rw [e]; rfl) fun j hj => ?_
    have := h.body p j (by rw [e]; exact hj)
    rw [e] at this; exact this
  | @noLock p i e _ =>
    refine h.move (by rw [e]; rfl) fun j hj => ?_
    have := h.body p j (by rw [e]; exact hj)
    rw [e] at this; exact .inl this
  | @truncate p i e ht _ =>
    refine h.write (by rw [e]; rfl) rfl ?_
    right
    rw [ht]; rfl
  | @einval p i e h1 h2 =>
    refine h.move (by rw [e]; rfl) fun j hj => ?_
    have := h.body p j (by rw [e]; exact hj)
    rw [e] at this
    refine .inl ⟨this, fun ho => h2 ⟨ho, ?_⟩⟩
    have := (hs p).fileSz
    have := (hs p).sum
    omega
  | @noTruncate p i e _ =>
    refine h.move (by rw [e]; rfl) fun j hj => ?_
    have := h.body p j (by rw [e]; exact hj)
    rw [e] at this; exact .inl this
  | @mmap p i P e h1 h2 =>
    have hb := h.body p i (by rw [e]; rfl)
    rw [e] at hb
    have hok : Ok P.denote (List.replicate ((env p).trunc.len (a p).fileSz) 0)
        (fun f => Raw ((env p).trunc.len (a p).fileSz) f ∨ Half (a p) ((env p).trunc.len (a p).fileSz) f)
        (fun _ f => Whole (a p) ((env p).trunc.len (a p).fileSz) f) := by rw [h2]; exact initFill_ok (hs p) (hL p)
    by_cases ht : (env p).trunc = .ok
    · rw [if_pos ht]
      refine h.move (by rw [e]; rfl) fun j hj => ?_
      cases hj
      rcases hb with ⟨_, hb⟩ | hb
      · exact absurd ht hb
      · rw [hb]; exact hok
    · rw [if_neg ht]
      exact h.write (by rw [e]; rfl) rfl hok
  | @noMmap p i e _ =>
    refine h.move (by rw [e]; rfl) fun j hj => ?_
    have := h.body p j (by rw [e]; exact hj)
    rw [e] at this
    rcases this with ⟨this, _⟩ | this
    · exact .inl this
    · exact .inr (by rw [this]; exact raw_zero (hc p))
  | @load p i k e =>
    refine h.move (by rw [e]; rfl) fun j hj => ?_
    have := h.body p j (by rw [e]; exact hj)
    cases hj
    rw [e] at this
    exact Prog.ok_load this
  | @store p i f k e =>
    refine h.write (by rw [e]; rfl) rfl ?_
    have := h.body p i (by rw [e]; rfl)
    rw [e] at this
    exact (Prog.ok_store this).2
  | @filled p i e =>
    refine h.move (by rw [e]; rfl) fun j hj => ?_
    have := h.body p j (by rw [e]; exact hj)
    rw [e] at this
    exact .inl ⟨rfl, Prog.ok_ret (Q := fun _ f => Whole (a p) ((env p).trunc.len (a p).fileSz) f) this⟩
  | @remove p i e =>
    refine h.noName.move (by dsimp only; rw [e]; rfl) fun j hj => ?_
    have := h.body p j (by rw [e]; exact hj)
    rw [e] at this
    exact .inr ⟨rfl, this⟩
  | @close p i rc e =>
    refine h.move (by rw [e]; rfl) fun j hj => ?_
    have := h.body p j (by rw [e]; exact hj)
    rw [e] at this
    cases hj
    exact this
  | @kill p hov =>
    refine h.move rfl fun j hj => ?_
    change (c.pc p).ino = some j at hj
    have hb := h.body p j hj
    rw [hj]
    show c.files j = [] ∨ Raw ((env p).trunc.len (a p).fileSz) (c.files j) ∨ Half (a p) ((env p).trunc.len (a p).fileSz) (c.files j)
    revert hb hj hov
    cases c.pc p with
    | start | checked | free => intro _ hj; cases hj
    | done | dead => intro ho; cases ho
    | opened | locked => intro _ _ hb; exact .inl hb
    | sized =>
      intro _ _ hb
      rcases hb with ⟨hb, _⟩ | hb
      · exact .inl hb
      · exact .inr (.inl (by rw [hb]; exact raw_zero (hc p)))
    | filling =>
      intro _ _ hb
      rcases Prog.ok_now hb with hb | ⟨_, hb⟩
      · exact .inr hb
      · exact .inr (.inr hb.half)
    | failing =>
      intro _ _ hb
      rcases hb with hb | hb
      · exact .inl hb
      · exact .inr (.inl hb)
    | closing =>
      intro _ _ hb
      rcases hb with ⟨_, hb⟩ | ⟨_, hb | hb⟩
      · exact .inr (.inr hb.half)
      · exact .inl hb
      · exact .inr (.inl hb)

theorem CrSys.Initial.inv (h : c0.Initial) : CrInv a env c0 c0 := by
  have hi : ∀ p, (c0.pc p).ino = none := fun p => by rw [h.pc p]; rfl
  refine ⟨Nat.le_refl _, fun _ _ => rfl, fun j hj => .inl ⟨h.path j hj, hj⟩, ?_, ?_, fun i h1 h2 => by omega, h.fresh, ?_⟩
  · intro p i hp; rw [hi] at hp; cases hp
  · intro p q i hp; rw [hi] at hp; cases hp
  · intro p i hp; rw [hi] at hp; cases hp

theorem CrSys.Steps.inv (hs : ∀ p, SizesOk (a p)) (he : ∀ p, (env p).WF (a p)) (h0 : c0.Initial) (h : CrSys.Steps a env c0 c) :
    CrInv a env c0 c := by
  induction h with
  | refl => exact h0.inv
  | step _ hst ih => exact ih.step hs he hst

/-- The file of a process stays the same. -/
theorem CrSys.Step.ino (hst : CrSys.Step a env c d) {p i : Nat} (h : (c.pc p).ino = some i) : (d.pc p).ino = some i := by
  have key : ∀ (q : Nat) (n : CrPc), ((c.pc q).ino = none ∨ n.ino = (c.pc q).ino) → (upd c.pc q n p).ino = some i := by
    intro q n hn
    by_cases hq : p = q
    · subst hq
      rcases hn with hn | hn
      · rw [hn] at h; cases h
      · simp [upd, hn, h]
    · simp [upd, hq, h]
  cases hst <;> dsimp only <;> refine key _ _ ?_ <;> first
    | (rename_i e; exact .inr (by rw [e]; rfl))
    | (rename_i e _; exact .inr (by rw [e]; rfl))
    | (rename_i e _ _; exact .inr (by rw [e]; rfl))
    | (rename_i e _ _ _; exact .inr (by rw [e]; rfl))
    | (rename_i e _; exact .inl (by rw [e]; rfl))
    | (rename_i e _ _; exact .inl (by rw [e]; rfl))
    | exact .inr rfl

theorem CrSys.Steps.ino (h : CrSys.Steps a env c d) {p i : Nat} (hi : (c.pc p).ino = some i) : (d.pc p).ino = some i := by
  induction h with
  | refl => exact hi
  | step _ hst ih => exact hst.ino ih

theorem CrSys.Steps.trans {e : CrSys} (h : CrSys.Steps a env c d) (h' : CrSys.Steps a env d e) : CrSys.Steps a env c e := by
  induction h' with
  | refl => exact h
  | step _ hst ih => exact .step ih hst
end

end Shr
