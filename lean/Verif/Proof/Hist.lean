import Verif.Proof.Flow
/-! # Induction over histories -/
namespace Shr

/-- The spec state after a history. -/
abbrev specAfter (a : InitArgs) (ops : List Op) : Spec := ((Spec.init a).run ops).1

theorem specAfter_snoc (a : InitArgs) (ops : List Op) (op : Op) :
    specAfter a (ops ++ [op]) = ((specAfter a ops).step op).1 := by
  unfold specAfter; rw [run_append]; rfl

theorem snoc_induction {α : Type} {P : List α → Prop} (h0 : P []) (h1 : ∀ l x, P l → P (l ++ [x])) :
    ∀ l, P l := by
  have : ∀ n (l : List α), l.length = n → P l := by
    intro n
    induction n with
    | zero => intro l hl; rw [List.length_eq_zero_iff.mp hl]; exact h0
    | succ n ih =>
      intro l hl
      have hne : l ≠ [] := by intro e; rw [e] at hl; simp at hl
      rw [← List.dropLast_concat_getLast hne]
      apply h1
      apply ih
      simp [hl]
  exact fun l => this _ l rfl

/-- To establish `P` after every valid history: it holds initially and is preserved by each call. -/
theorem Valid.induct {a : InitArgs} {P : List Op → List Out → Sys → Spec → Prop} {Q : Op → Prop}
    (h0 : P [] [] (Sys.init a) (Spec.init a))
    (hs : ∀ ops outs s s' op o, Valid a (ops ++ [op]) → (Sys.init a).run ops = .ok (s, outs) →
      s.step op = .ok (s', o) → AtStep a s s' op o (specAfter a ops) → outs.length = ops.length → Q op →
      P ops outs s (specAfter a ops) → P (ops ++ [op]) (outs ++ [o]) s' ((specAfter a ops).step op).1) :
    ∀ ops, Valid a ops → (∀ op ∈ ops, Q op) → ∀ s outs, (Sys.init a).run ops = .ok (s, outs) →
      P ops outs s (specAfter a ops) ∧ outs.length = ops.length := by
  intro ops
  induction ops using snoc_induction with
  | h0 =>
    intro v _ s outs h
    simp [Sys.run] at h
    obtain ⟨rfl, rfl⟩ := h
    exact ⟨h0, rfl⟩
  | h1 ops op ih =>
    intro v hq s' outs h
    rw [sys_run_append] at h
    cases e : (Sys.init a).run ops with
    | error f => rw [e] at h; cases h
    | ok p =>
      obtain ⟨s, os⟩ := p
      rw [e] at h
      dsimp only [Sys.run] at h
      cases e2 : s.step op with
      | error f => rw [e2] at h; cases h
      | ok p2 =>
        obtain ⟨s2, o⟩ := p2
        rw [e2] at h
        simp only [Except.ok.injEq, Prod.mk.injEq] at h
        obtain ⟨rfl, rfl⟩ := h
        obtain ⟨hP, hl⟩ := ih v.left (fun op h => hq op (by simp [h])) s os e
        obtain ⟨sp, r1, r2, eo, w, hsp⟩ := v.last e e2
        obtain ⟨p1, p2, p3⟩ := spec_params a ops
        subst hsp
        rw [specAfter_snoc]
        exact ⟨hs ops os s s2 op o v e e2 ⟨r1, r2, eo, w, p1, p2, p3⟩ hl (hq op (by simp)) hP, by simp [hl]⟩

/-! ## Lists of calls and results, extended at the end -/

theorem delivered_snoc (outs : List Out) (o : Out) : delivered (outs ++ [o]) = delivered outs ++ o.msgs := by
  simp [delivered]

theorem accepted_snoc : ∀ (ops : List Op) (outs : List Out) (op : Op) (o : Out), outs.length = ops.length →
    accepted (ops ++ [op]) (outs ++ [o]) = accepted ops outs ++ acceptedBy op o := by
  intro ops
  induction ops with
  | nil => intro outs op o h; rw [List.length_eq_zero_iff.mp h]; simp [accepted]
  | cons x xs ih =>
    intro outs op o h
    cases outs with
    | nil => simp at h
    | cons y ys => simp at h; simp [accepted, ih ys op o h]

theorem acceptedFrom_snoc (k : Nat) : ∀ (ops : List Op) (outs : List Out) (op : Op) (o : Out), outs.length = ops.length →
    acceptedFrom k (ops ++ [op]) (outs ++ [o]) = acceptedFrom k ops outs ++ (if op.handle = k then acceptedBy op o else []) := by
  intro ops
  induction ops with
  | nil => intro outs op o h; rw [List.length_eq_zero_iff.mp h]; simp [acceptedFrom]
  | cons x xs ih =>
    intro outs op o h
    cases outs with
    | nil => simp at h
    | cons y ys => simp at h; simp [acceptedFrom, ih ys op o h]

theorem deliveredTo_snoc (k : Nat) : ∀ (ops : List Op) (outs : List Out) (op : Op) (o : Out), outs.length = ops.length →
    deliveredTo k (ops ++ [op]) (outs ++ [o]) = deliveredTo k ops outs ++ (if op.handle = k then o.msgs else []) := by
  intro ops
  induction ops with
  | nil => intro outs op o h; rw [List.length_eq_zero_iff.mp h]; simp [deliveredTo]
  | cons x xs ih =>
    intro outs op o h
    cases outs with
    | nil => simp at h
    | cons y ys => simp at h; simp [deliveredTo, ih ys op o h]

/-! ## Modes of handles -/

/-- The mode of an open handle never changes. -/
theorem step_flags (sp : Spec) (op : Op) (k : Nat) (sh' : SHandle) (h : (sp.step op).1.hs k = .live sh') :
    (∃ sh, sp.hs k = .live sh ∧ sh'.flags = sh.flags) ∨ (sp.hs k = .never ∧ ∃ env, op = .open k sh'.flags env) := by
  have upd_case : ∀ (j : Nat) (l : Life SHandle (List Msg)) (sh : SHandle), sp.hs j = .live sh →
      (∀ x, l = .live x → x.flags = sh.flags) → upd sp.hs j l k = .live sh' →
      (∃ sh, sp.hs k = .live sh ∧ sh'.flags = sh.flags) := by
    intro j l sh hj hl hu
    by_cases e : k = j
    · subst e; rw [upd_same] at hu; exact ⟨sh, hj, hl _ hu⟩
    · rw [upd_other _ _ e] at hu; exact ⟨sh', hu, rfl⟩
  have same : sp.hs k = .live sh' → (∃ sh, sp.hs k = .live sh ∧ sh'.flags = sh.flags) := fun h => ⟨sh', h, rfl⟩
  cases op <;> unfold Spec.step at h <;> dsimp only at h
  · rename_i j flags env
    split at h
    · rename_i hj
      split at h
      · exact .inl (same h)
      · split at h
        · exact .inl (same h)
        · rename_i sh heq
          dsimp only at h
          by_cases e : k = j
          · subst e
            rw [upd_same] at h
            cases h
            right
            refine ⟨hj, env, ?_⟩
            unfold Spec.openH at heq
            dsimp only at heq
            split at heq
            · cases heq
            · cases heq; rfl
          · rw [upd_other _ _ e] at h; exact .inl (same h)
    · exact .inl (same h)
  · rename_i j iov envF env
    split at h
    · rename_i sh hj
      split at h
      · exact .inl (same h)
      · refine .inl (upd_case j _ sh hj ?_ h)
        intro x e; cases e
        unfold Spec.writev; dsimp only; repeat' split
        all_goals rfl
    · exact .inl (same h)
  · rename_i j buf niov env
    split at h
    · rename_i sh hj
      split at h
      · exact .inl (same h)
      · refine .inl (upd_case j _ sh hj ?_ h)
        intro x e; cases e
        unfold Spec.readv Spec.catchUp; dsimp only; repeat' split
        all_goals rfl
    · exact .inl (same h)
  · rename_i j wait env
    split at h
    · rename_i sh hj
      split at h
      · exact .inl (same h)
      · refine .inl (upd_case j _ sh hj ?_ h)
        intro x e; cases e
        unfold Spec.flush; dsimp only; repeat' split
        all_goals rfl
    · exact .inl (same h)
  · rename_i j env
    split at h
    · rename_i sh hj
      split at h
      · dsimp only at h; rw [flush_hs] at h; exact .inl (same h)
      · refine .inl (upd_case j _ sh hj ?_ h)
        intro x e; cases e
    · exact .inl (same h)
  · split at h
    · split at h
      · exact .inl (same h)
      · dsimp only at h; split at h <;> exact .inl (same h)
    · exact .inl (same h)
  · rename_i j reset
    split at h
    · rename_i sh hj
      split at h
      · exact .inl (same h)
      · refine .inl (upd_case j _ sh hj ?_ h)
        intro x e; cases e
        split <;> rfl
    · exact .inl (same h)
  · split at h
    · unfold Spec.appdata at h
      dsimp only at h
      repeat' split at h
      all_goals exact .inl (same h)
    · exact .inl (same h)

end Shr
