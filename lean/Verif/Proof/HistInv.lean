import Verif.Proof.Hist
/-! # Invariants of histories -/
namespace Shr

theorem kept_append (X Y : List (Msg × Bool)) : kept (X ++ Y) = kept X ++ kept Y := by simp [kept]
theorem lostIn_append (X Y : List (Msg × Bool)) : lostIn (X ++ Y) = lostIn X ++ lostIn Y := by simp [lostIn]
theorem kept_true (l : List Msg) : kept (l.map fun m => (m, true)) = l := by
  induction l with
  | nil => rfl
  | cons x xs ih => simp [kept] at ih ⊢; exact ih
theorem kept_false (l : List Msg) : kept (l.map fun m => (m, false)) = [] := by
  induction l with
  | nil => rfl
  | cons x xs ih => simp [kept] at ih ⊢
theorem lostIn_true (l : List Msg) : lostIn (l.map fun m => (m, true)) = [] := by
  induction l with
  | nil => rfl
  | cons x xs ih => simp [lostIn] at ih ⊢
theorem lostIn_false (l : List Msg) : lostIn (l.map fun m => (m, false)) = l := by
  induction l with
  | nil => rfl
  | cons x xs ih => simp [lostIn] at ih ⊢; exact ih
theorem map_fst_const (l : List Msg) (b : Bool) : (l.map fun m => (m, b)).map Prod.fst = l := by
  simp [Function.comp_def]

theorem entered_snoc : ∀ (ops : List Op) (outs : List Out) (op : Op) (o : Out) (l new : List Msg),
    Entered ops outs l → EnteredBy op o new → Entered (ops ++ [op]) (outs ++ [o]) (l ++ new) := by
  intro ops
  induction ops with
  | nil =>
    intro outs op o l new h h2
    cases outs with
    | nil => exact ⟨new, [], by simp [Entered] at h; simp [h], h2, rfl⟩
    | cons y ys => exact h.elim
  | cons x xs ih =>
    intro outs op o l new h h2
    cases outs with
    | nil => exact h.elim
    | cons y ys =>
      obtain ⟨a, b, rfl, h3, h4⟩ := h
      exact ⟨a, b ++ new, by simp, h3, ih ys op o b new h4 h2⟩

theorem reported_snoc (f : Stat → Nat) : ∀ (ops : List Op) (outs : List Out) (op : Op) (o : Out), outs.length = ops.length →
    reported f (ops ++ [op]) (outs ++ [o]) = reported f ops outs + reportedBy f op o := by
  intro ops
  induction ops with
  | nil => intro outs op o h; rw [List.length_eq_zero_iff.mp h]; simp [reported]
  | cons x xs ih =>
    intro outs op o h
    cases outs with
    | nil => simp at h
    | cons y ys => simp at h; simp [reported, ih ys op o h]; omega

theorem missedReported_snoc (k : Nat) : ∀ (ops : List Op) (outs : List Out) (op : Op) (o : Out), outs.length = ops.length →
    missedReported k (ops ++ [op]) (outs ++ [o]) = missedReported k ops outs + missedBy k op o := by
  intro ops
  induction ops with
  | nil => intro outs op o h; rw [List.length_eq_zero_iff.mp h]; simp [missedReported]
  | cons x xs ih =>
    intro outs op o h
    cases outs with
    | nil => simp at h
    | cons y ys => simp at h; simp [missedReported, ih ys op o h]; omega

/-! ## `shr_stat` -/

/-- Effect of `shr_stat` on the specification state. -/
theorem step_stat_cases (sp : Spec) (k : Nat) (reset : Option Timeval) (env : Env) :
    (sp.step (.stat k reset env)).1 = sp ∧ reportedBy f (.stat k reset env) (sp.step (.stat k reset env)).2 = 0 ∨
    ∃ t sh, reset = some t ∧ (sp.step (.stat k reset env)).1 = { sp with st := { start := t } } ∧
      reportedBy f (.stat k reset env) (sp.step (.stat k reset env)).2 = f (sp.statOf sh) := by
  unfold Spec.step
  dsimp only
  split
  · split
    · cases reset <;> exact .inl ⟨rfl, rfl⟩
    · cases reset with
      | none => exact .inl ⟨rfl, rfl⟩
      | some t => exact .inr ⟨t, _, rfl, rfl, rfl⟩
  · cases reset <;> exact .inl ⟨rfl, rfl⟩

theorem reportedBy_other (f : Stat → Nat) {op : Op} (o : Out) (h : ∀ k t env, op ≠ .stat k (some t) env) :
    reportedBy f op o = 0 := by
  unfold reportedBy
  split
  · exact (h _ _ _ rfl).elim
  · rfl

/-! ## Consuming rings -/

/-- What became of the messages put into the ring. -/
structure Cons (sp : Spec) (ops : List Op) (outs : List Out) (X : List (Msg × Bool)) : Prop where
  log : X.map Prod.fst ++ sp.unread = sp.log
  got : kept X = delivered outs
  nodrop : sp.drop = false → lostIn X = []
  md : (reported Stat.md ops outs + sp.st.md) % W = (lostIn X).length % W
  bd : (reported Stat.bd ops outs + sp.st.bd) % W = bytesOf (lostIn X) % W

theorem Cons.step {s : Sys} {sp : Spec} {ops : List Op} {outs : List Out} {X : List (Msg × Bool)} (hr : Rel s sp)
    (hf : sp.farm = false) (hl : outs.length = ops.length) (h : Cons sp ops outs X) (op : Op) :
    ∃ X', Cons (sp.step op).1 (ops ++ [op]) (outs ++ [(sp.step op).2]) X' := by
  by_cases hs : ∃ k t env, op = .stat k (some t) env
  · obtain ⟨k, t, env, rfl⟩ := hs
    have hm : ((sp.step (.stat k (some t) env)).2).msgs = [] := by
      unfold Spec.step; dsimp only; split
      · split <;> rfl
      · rfl
    refine ⟨X, ?_⟩
    have h1 := step_stat_cases (f := Stat.md) sp k (some t) env
    have h2 := step_stat_cases (f := Stat.bd) sp k (some t) env
    generalize sp.step (.stat k (some t) env) = y at *
    obtain ⟨sp', o⟩ := y
    dsimp only at *
    have e1 := reported_snoc Stat.md ops outs (.stat k (some t) env) o hl
    have e2 := reported_snoc Stat.bd ops outs (.stat k (some t) env) o hl
    have hm' := h.md; have hb' := h.bd
    have hlen : kept X = delivered (outs ++ [o]) := by rw [delivered_snoc, hm, List.append_nil]; exact h.got
    rcases h1 with ⟨rfl, h1⟩ | ⟨t1, sh1, ht, rfl, h1⟩
    · rcases h2 with ⟨_, h2⟩ | ⟨t2, sh2, ht2, hsp, h2⟩
      · exact ⟨h.log, hlen, h.nodrop, by rw [e1, h1]; exact hm', by rw [e2, h2]; exact hb'⟩
      · have hbd : sp'.st.bd = 0 := by rw [hsp]
        refine ⟨h.log, hlen, h.nodrop, by rw [e1, h1]; exact hm', ?_⟩
        rw [e2, h2]
        show (_ + sp'.st.bd % W + _) % W = _
        rw [← hb', hbd]; simp
    · rcases h2 with ⟨hsp, h2⟩ | ⟨t2, sh2, ht2, hsp, h2⟩
      · have hbd : sp.st.bd = 0 := by rw [← hsp]
        refine ⟨h.log, hlen, h.nodrop, ?_, ?_⟩
        · rw [e1, h1]
          show (_ + sp.st.md % W + 0) % W = _
          unfold W at *; omega
        · rw [e2, h2]
          show (_ + 0) % W = _
          rw [hbd] at hb'; simpa using hb'
      · refine ⟨h.log, hlen, h.nodrop, ?_, ?_⟩
        · rw [e1, h1]
          show (_ + sp.st.md % W + 0) % W = _
          unfold W at *; omega
        · rw [e2, h2]
          show (_ + sp.st.bd % W + 0) % W = _
          unfold W at *; omega
  · have hns : ∀ k t env, op ≠ .stat k (some t) env := fun k t env e => hs ⟨k, t, env, e⟩
    obtain ⟨new, lost, fl⟩ := step_flow op hr
    have f := fl.flow hf
    obtain ⟨cnt, c, _⟩ := fl.count hns
    generalize sp.step op = y at *
    obtain ⟨sp', o⟩ := y
    dsimp only at *
    refine ⟨X ++ o.msgs.map (fun m => (m, true)) ++ lost.map (fun m => (m, false)), ?_, ?_, ?_, ?_, ?_⟩
    · rw [List.map_append, List.map_append, map_fst_const, map_fst_const]
      have q := f.queue
      have : sp'.log = sp.log ++ new.map Prod.snd := by unfold Spec.log; rw [f.tlog, List.map_append]
      rw [this, ← h.log]
      simp only [List.append_assoc] at q ⊢
      rw [q]
    · rw [kept_append, kept_append, kept_true, kept_false, List.append_nil, delivered_snoc, h.got]
    · intro hd
      have hd' : sp.drop = false := by unfold Spec.drop at *; rw [← f.gf]; exact hd
      rw [lostIn_append, lostIn_append, lostIn_true, lostIn_false, h.nodrop hd', f.nodrop hd']; rfl
    · rw [lostIn_append, lostIn_append, lostIn_true, lostIn_false, reported_snoc _ _ _ _ _ hl,
        reportedBy_other _ _ hns, c.md]
      have := h.md
      simp
      unfold W at *; omega
    · rw [lostIn_append, lostIn_append, lostIn_true, lostIn_false, reported_snoc _ _ _ _ _ hl,
        reportedBy_other _ _ hns, c.bd]
      have := h.bd
      simp
      unfold W at *; omega

theorem Cons.init (a : InitArgs) : Cons (Spec.init a) [] [] [] :=
  ⟨rfl, rfl, fun _ => rfl, rfl, rfl⟩

/-- A valid history of a consuming ring accounts for every message put into it. -/
theorem hist_cons {a : InitArgs} (hf : a.flags.has SHR_FARM = false) {ops : List Op} (v : Valid a ops) {s : Sys}
    {outs : List Out} (h : (Sys.init a).run ops = .ok (s, outs)) :
    ∃ X, Cons (specAfter a ops) ops outs X := by
  refine (Valid.induct (a := a) (P := fun ops outs _ sp => ∃ X, Cons sp ops outs X) (Q := fun _ => True)
    ⟨[], Cons.init a⟩ ?_ ops v (fun _ _ => trivial) s outs h).1
  intro ops outs s s' op o _ _ _ ha hl _ ⟨X, hX⟩
  rw [ha.out]
  exact hX.step ha.rel (by rw [ha.farm]; exact hf) hl op

/-! ## What was accepted -/

/-- Accounts of accepted messages, if all wake-ups and syncs succeed. -/
theorem hist_accepted {a : InitArgs} {ops : List Op} (v : Valid a ops) (hg : ∀ op ∈ ops, op.good) {s : Sys}
    {outs : List Out} (h : (Sys.init a).run ops = .ok (s, outs)) (k : Nat) :
    byHandle k (specAfter a ops).tlog ++ pendOf ((specAfter a ops).hs k) = acceptedFrom k ops outs := by
  refine (Valid.induct (a := a) (P := fun ops outs _ sp => byHandle k sp.tlog ++ pendOf (sp.hs k) =
    acceptedFrom k ops outs) (Q := Op.good) rfl ?_ ops v hg s outs h).1
  intro ops outs s s' op o _ _ _ ha hl hgood hP
  obtain ⟨new, lost, fl⟩ := step_flow op ha.rel
  have h1 := fl.acct hgood k
  rw [acceptedFrom_snoc k _ _ _ _ hl, fl.tlog, byHandle_append, ha.out, List.append_assoc, ← h1, ← hP,
    List.append_assoc]

theorem step_gone (sp : Spec) (op : Op) (k : Nat) (b : List Msg) (h : (sp.step op).1.hs k = .gone b) :
    sp.hs k = .gone b ∨ ∃ sh env, op = .close k env ∧ sp.hs k = .live sh ∧ b = (sp.flush k sh false env).2.1.pend ∧
      ∃ rc, (sp.flush k sh false env).2.2 = .ret rc := by
  have upd_case : ∀ (j : Nat) (x : SHandle), upd sp.hs j (.live x) k = .gone b → sp.hs k = .gone b := by
    intro j x hu
    by_cases e : k = j
    · subst e; rw [upd_same] at hu; cases hu
    · rw [upd_other _ _ e] at hu; exact hu
  cases op <;> unfold Spec.step at h <;> dsimp only at h
  · split at h
    · split at h
      · exact .inl h
      · split at h
        · exact .inl h
        · exact .inl (upd_case _ _ h)
    · exact .inl h
  · split at h
    · split at h
      · exact .inl h
      · exact .inl (upd_case _ _ h)
    · exact .inl h
  · split at h
    · split at h
      · exact .inl h
      · exact .inl (upd_case _ _ h)
    · exact .inl h
  · split at h
    · split at h
      · exact .inl h
      · exact .inl (upd_case _ _ h)
    · exact .inl h
  · rename_i j env
    split at h
    · rename_i sh hj
      split at h
      · dsimp only at h; rw [flush_hs] at h; exact .inl h
      · rename_i rc heq
        dsimp only at h
        by_cases e : k = j
        · subst e
          rw [upd_same] at h; cases h
          exact .inr ⟨sh, env, rfl, hj, rfl, rc, heq⟩
        · rw [upd_other _ _ e] at h; exact .inl h
    · exact .inl h
  · split at h
    · split at h
      · exact .inl h
      · dsimp only at h; split at h <;> exact .inl h
    · exact .inl h
  · split at h
    · split at h
      · exact .inl h
      · exact .inl (upd_case _ _ h)
    · exact .inl h
  · split at h
    · unfold Spec.appdata at h
      dsimp only at h
      repeat' split at h
      all_goals exact .inl h
    · exact .inl h

/-- No handle is buffered, nothing is cached. -/
def NoCache (sp : Spec) : Prop :=
  (∀ k, pendOf (sp.hs k) = []) ∧ ∀ k sh, sp.hs k = .live sh → sh.flags.has SHR_BUFFERED = false

theorem NoCache.step {s' : Sys} {sp : Spec} {op : Op} (h : NoCache sp) (hr' : Rel s' (sp.step op).1)
    (hu : ∀ k flags env, op = .open k flags env → flags.has SHR_BUFFERED = false) : NoCache (sp.step op).1 := by
  have h2 : ∀ k sh, (sp.step op).1.hs k = .live sh → sh.flags.has SHR_BUFFERED = false := by
    intro k sh hk
    rcases step_flags sp op k sh hk with ⟨sh0, h0, e⟩ | ⟨_, env, e⟩
    · rw [e]; exact h.2 k sh0 h0
    · exact hu _ _ _ e
  refine ⟨fun k => ?_, h2⟩
  cases e : (sp.step op).1.hs k with
  | never => rfl
  | live sh =>
    have hk := hr'.hs k
    rw [e] at hk
    cases e2 : s'.hs k with
    | never => rw [e2] at hk; exact hk.elim
    | gone b => rw [e2] at hk; exact hk.elim
    | live hd =>
      rw [e2] at hk
      exact HRel.pend_nil (h := hd) hk (by rw [h2 k sh e]; simp)
  | gone b =>
    rcases step_gone sp op k b e with h3 | ⟨sh, env, _, h3, h4, _⟩
    · have := h.1 k; rw [h3] at this; exact this
    · have h5 := h.1 k
      rw [h3] at h5
      simp only [pendOf] at h5 ⊢
      rw [h4]
      unfold Spec.flush
      rw [if_pos h5]; exact h5

theorem hist_nocache {a : InitArgs} {ops : List Op} (v : Valid a ops) (hu : Unbuffered ops) {s : Sys}
    {outs : List Out} (h : (Sys.init a).run ops = .ok (s, outs)) : NoCache (specAfter a ops) := by
  refine (Valid.induct (a := a) (P := fun _ _ _ sp => NoCache sp) (Q := fun op => ∀ k flags env, op = .open k flags env →
    flags.has SHR_BUFFERED = false) ⟨fun _ => rfl, fun _ _ h => by cases h⟩ ?_ ops v hu s outs h).1
  intro ops outs s s' op o _ _ _ ha hl hq hP
  exact hP.step ha.rel' hq

/-- Without caches the ring gets what each call accepted, and possibly what a write that returned -1
was given. -/
theorem hist_entered {a : InitArgs} {ops : List Op} (v : Valid a ops) (hu : Unbuffered ops) {s : Sys}
    {outs : List Out} (h : (Sys.init a).run ops = .ok (s, outs)) :
    Entered ops outs (specAfter a ops).log := by
  refine (Valid.induct (a := a) (P := fun ops outs _ sp => NoCache sp ∧ Entered ops outs sp.log)
    (Q := fun op => ∀ k flags env, op = .open k flags env → flags.has SHR_BUFFERED = false)
    ⟨⟨fun _ => rfl, fun _ _ h => by cases h⟩, rfl⟩ ?_ ops v hu s outs h).1.2
  intro ops outs s s' op o _ _ _ ha hl hq ⟨hn, he⟩
  have hn' := hn.step ha.rel' hq
  refine ⟨hn', ?_⟩
  obtain ⟨new, lost, fl⟩ := step_flow op ha.rel
  have : ((specAfter a ops).step op).1.log = (specAfter a ops).log ++ new.map Prod.snd := by
    unfold Spec.log; rw [fl.tlog, List.map_append]
  rw [this]
  refine entered_snoc _ _ _ _ _ _ he ?_
  rw [ha.out]
  exact fl.ub hn.1 hn'.1

/-- If moreover all wake-ups and syncs succeed: exactly what was accepted. -/
theorem hist_accepted_all {a : InitArgs} {ops : List Op} (v : Valid a ops) (hu : Unbuffered ops)
    (hg : ∀ op ∈ ops, op.good) {s : Sys}
    {outs : List Out} (h : (Sys.init a).run ops = .ok (s, outs)) :
    (specAfter a ops).log = accepted ops outs := by
  refine (Valid.induct (a := a) (P := fun ops outs _ sp => NoCache sp ∧ sp.log = accepted ops outs)
    (Q := fun op => (∀ k flags env, op = .open k flags env → flags.has SHR_BUFFERED = false) ∧ op.good)
    ⟨⟨fun _ => rfl, fun _ _ h => by cases h⟩, rfl⟩ ?_ ops v (fun op ho => ⟨hu op ho, hg op ho⟩) s outs h).1.2
  intro ops outs s s' op o _ _ _ ha hl hq ⟨hn, he⟩
  have hn' := hn.step ha.rel' hq.1
  refine ⟨hn', ?_⟩
  obtain ⟨new, lost, fl⟩ := step_flow op ha.rel
  have : ((specAfter a ops).step op).1.log = (specAfter a ops).log ++ new.map Prod.snd := by
    unfold Spec.log; rw [fl.tlog, List.map_append]
  rw [this, accepted_snoc _ _ _ _ hl, he, ha.out]
  congr 1
  have h1 := fl.acct hq.2 op.handle
  rw [hn.1, hn'.1, if_pos rfl, List.append_nil, List.nil_append] at h1
  rw [h1]
  unfold byHandle
  rw [List.filter_eq_self.mpr]
  intro e he
  simp [fl.who e he]

end Shr
