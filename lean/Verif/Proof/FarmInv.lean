import Verif.Proof.HistInv
/-! # Farm readers over histories -/
namespace Shr

/-- What one call does to the position of farm reader `k`. -/
structure FarmStep (sp : Spec) (k : Nat) (op : Op) (o : Out) (sh sh' : SHandle) (skip : Nat) : Prop where
  pos : sh'.pos = sh.pos + skip + (if op.handle = k then o.msgs else []).length
  le : sh'.pos ≤ sp.log.length
  got : (sp.log.drop (sh.pos + skip)).take (if op.handle = k then o.msgs else []).length =
    (if op.handle = k then o.msgs else [])
  missed : (sh'.missed + missedBy k op o) % W = (sh.missed + skip) % W

theorem missedBy_other {k : Nat} {op : Op} {o : Out} (h : op.handle ≠ k) : missedBy k op o = 0 := by
  unfold missedBy
  split
  · exact if_neg h
  · rfl

theorem FarmStep.same {sp : Spec} {k : Nat} {op : Op} {o : Out} {sh sh' : SHandle} (h : sh'.pos = sh.pos)
    (h2 : sh'.missed = sh.missed) (hl : sh.pos ≤ sp.log.length) (h3 : op.handle = k → o.msgs = [] ∧ missedBy k op o = 0) :
    FarmStep sp k op o sh sh' 0 := by
  have e : (if op.handle = k then o.msgs else []) = [] := by
    by_cases hk : op.handle = k
    · rw [if_pos hk]; exact (h3 hk).1
    · rw [if_neg hk]
  have e2 : missedBy k op o = 0 := by
    by_cases hk : op.handle = k
    · exact (h3 hk).2
    · exact missedBy_other hk
  exact ⟨by rw [e]; simpa using h, by rw [h]; exact hl, by rw [e]; rfl, by rw [h2, e2]⟩

theorem step_other_hs (sp : Spec) (op : Op) (k : Nat) (h : op.handle ≠ k) : (sp.step op).1.hs k = sp.hs k := by
  have h' : k ≠ op.handle := fun e => h e.symm
  cases op <;> unfold Spec.step <;> dsimp only <;> dsimp only [Op.handle] at h'
  · repeat' split
    all_goals first | rfl | exact upd_other _ _ h'
  · repeat' split
    all_goals first | rfl | exact upd_other _ _ h'
  · repeat' split
    all_goals first | rfl | exact upd_other _ _ h'
  · repeat' split
    all_goals first | rfl | exact upd_other _ _ h'
  · repeat' split
    all_goals first | rfl | exact upd_other _ _ h' | (dsimp only; rw [flush_hs])
  · repeat' split
    all_goals first | rfl | exact upd_other _ _ h'
  · split
    · split
      · rfl
      · exact upd_other _ _ h'
    · rfl
  · unfold Spec.appdata
    dsimp only
    repeat' split
    all_goals first | rfl | exact upd_other _ _ h'

theorem step_farm {sp : Spec} {op : Op} {k : Nat} {sh sh' : SHandle} (hf : sp.farm = true)
    (hb : sp.base ≤ sp.log.length) (hl : sh.pos ≤ sp.log.length)
    (hk : sp.hs k = .live sh) (hk' : (sp.step op).1.hs k = .live sh') :
    ∃ skip, FarmStep sp k op (sp.step op).2 sh sh' skip := by
  by_cases hop : op.handle = k
  rotate_left
  · rw [step_other_hs sp op k hop, hk] at hk'
    cases hk'
    exact ⟨0, FarmStep.same rfl rfl hl (fun e => absurd e hop)⟩
  cases op <;> dsimp only [Op.handle] at hop <;> subst hop <;> unfold Spec.step at hk' ⊢ <;>
    simp only [hk] at hk' ⊢
  · cases hk'
    exact ⟨0, FarmStep.same rfl rfl hl (fun _ => ⟨rfl, rfl⟩)⟩
  · rename_i j iov envF env
    split at hk'
    · rename_i h1; rw [if_pos h1]; rw [hk] at hk'; cases hk'
      exact ⟨0, FarmStep.same rfl rfl hl (fun _ => ⟨rfl, rfl⟩)⟩
    · rename_i h1; rw [if_neg h1]
      dsimp only at hk' ⊢
      rw [upd_same] at hk'; cases hk'
      refine ⟨0, FarmStep.same ?_ ?_ hl (fun _ => ⟨WRes.out_msgs _, rfl⟩)⟩
      · unfold Spec.writev; dsimp only; repeat' split
        all_goals rfl
      · unfold Spec.writev; dsimp only; repeat' split
        all_goals rfl
  · rename_i j buf niov env
    split at hk'
    · rename_i h1; rw [if_pos h1]; rw [hk] at hk'; cases hk'
      exact ⟨0, FarmStep.same rfl rfl hl (fun _ => ⟨rfl, rfl⟩)⟩
    · rename_i h1; rw [if_neg h1]
      dsimp only at hk' ⊢
      rw [upd_same] at hk'; cases hk'
      have hmb : ∀ o, missedBy j (.readv j buf niov env) o = 0 := by intro o; rfl
      have hcp : (sp.catchUp sh).pos = sh.pos + (sp.base - sh.pos) := by
        simp only [Spec.catchUp, hf, if_true]; omega
      have hcm : (sp.catchUp sh).missed = sh.missed + (sp.base - sh.pos) := by
        simp only [Spec.catchUp, hf, if_true]
      have hru : sp.readable sh = sp.log.drop (sh.pos + (sp.base - sh.pos)) := by
        simp only [Spec.readable, hf, if_true]
        congr 1; omega
      have idle : ∀ o : Out, o.msgs = [] → FarmStep sp j (.readv j buf niov env) o sh (sp.catchUp sh) (sp.base - sh.pos) := by
        intro o ho
        have e : (if (Op.readv j buf niov env).handle = j then o.msgs else []) = [] := by rw [ho]; simp
        exact ⟨by rw [e, hcp]; simp, by rw [hcp]; omega, by rw [e]; rfl, by rw [hmb, hcm]; rfl⟩
      unfold Spec.readv
      by_cases hg : buf.length = 0 ∨ niov = 0 ∨ env.lockOk = false
      · rw [if_pos hg]
        exact ⟨0, FarmStep.same rfl rfl hl (fun _ => ⟨rfl, rfl⟩)⟩
      rw [if_neg hg]
      dsimp only
      refine ⟨sp.base - sh.pos, ?_⟩
      by_cases hU : sp.readable sh = []
      · rw [if_pos hU]
        split
        · exact idle _ rfl
        · cases env.waitRc <;> exact idle _ rfl
      · rw [if_neg hU]
        have htb := takeCount_bytes (sp.readable sh) (min buf.length SSIZE_MAX) niov
        have htl := takeCount_le_length (sp.readable sh) (min buf.length SSIZE_MAX) niov
        generalize takeCount (sp.readable sh) (min buf.length SSIZE_MAX) niov = t at *
        have hm : ∀ rc, (Out.read rc (layout 0 ((sp.readable sh).take t))
            (put buf 0 ((sp.readable sh).take t).flatten)).msgs = (sp.readable sh).take t := by
          intro rc; exact slices_layout _ _ _ (by omega)
        have e : ∀ rc, (if (Op.readv j buf niov env).handle = j then (Out.read rc (layout 0 ((sp.readable sh).take t))
            (put buf 0 ((sp.readable sh).take t).flatten)).msgs else []) = (sp.readable sh).take t := by
          intro rc; rw [hm]; exact if_pos rfl
        have elen : ((sp.readable sh).take t).length = t := by rw [List.length_take, Nat.min_eq_left htl]
        have hrl : (sp.readable sh).length = sp.log.length - (sh.pos + (sp.base - sh.pos)) := by
          rw [hru]; simp
        simp only [hf, if_true]
        refine ⟨?_, ?_, ?_, ?_⟩
        · rw [e, elen]; dsimp only; rw [hcp]
        · dsimp only; rw [hcp]; omega
        · rw [e, elen, ← hru]
        · rw [hmb]; dsimp only; rw [hcm]; rfl
  · rename_i j wait env
    split at hk'
    · rename_i h1; rw [if_pos h1]; rw [hk] at hk'; cases hk'
      exact ⟨0, FarmStep.same rfl rfl hl (fun _ => ⟨rfl, rfl⟩)⟩
    · rename_i h1; rw [if_neg h1]
      dsimp only at hk' ⊢
      rw [upd_same] at hk'; cases hk'
      refine ⟨0, FarmStep.same ?_ ?_ hl (fun _ => ⟨WRes.out_msgs _, rfl⟩)⟩
      · unfold Spec.flush; dsimp only; repeat' split
        all_goals rfl
      · unfold Spec.flush; dsimp only; repeat' split
        all_goals rfl
  · rename_i j env
    split at hk'
    · rename_i h1
      dsimp only at hk' ⊢
      rw [flush_hs, hk] at hk'; cases hk'
      exact ⟨0, FarmStep.same rfl rfl hl (fun _ => ⟨rfl, rfl⟩)⟩
    · dsimp only at hk'
      rw [upd_same] at hk'; cases hk'
  · rename_i j reset env
    split at hk'
    · rename_i h1; rw [if_pos h1]; rw [hk] at hk'; cases hk'
      exact ⟨0, FarmStep.same rfl rfl hl (fun _ => ⟨rfl, rfl⟩)⟩
    · rename_i h1; rw [if_neg h1]
      cases reset <;> dsimp only at hk' ⊢ <;> rw [hk] at hk' <;> cases hk' <;>
      exact ⟨0, FarmStep.same rfl rfl hl (fun _ => ⟨rfl, rfl⟩)⟩
  · rename_i j reset
    split at hk'
    · rename_i h1; rw [if_pos h1]; rw [hk] at hk'; cases hk'
      exact ⟨0, FarmStep.same rfl rfl hl (fun _ => ⟨rfl, by cases reset <;> rfl⟩)⟩
    · rename_i h1; rw [if_neg h1]
      dsimp only at hk' ⊢
      rw [upd_same] at hk'; cases hk'
      cases reset with
      | false => exact ⟨0, FarmStep.same rfl rfl hl (fun _ => ⟨rfl, rfl⟩)⟩
      | true =>
        refine ⟨0, ⟨by simp [Out.msgs], hl, by simp [Out.msgs], ?_⟩⟩
        simp [missedBy]
  · rename_i j get set sz env
    have e : (sp.appdata get set sz env).1.hs = sp.hs := by
      unfold Spec.appdata; dsimp only; repeat' split
      all_goals rfl
    rw [e, hk] at hk'; cases hk'
    exact ⟨0, FarmStep.same rfl rfl hl (fun _ => ⟨rfl, rfl⟩)⟩

/-- To establish `P` after every continuation of a valid history. -/
theorem Valid.induct_from {a : InitArgs} {pre : List Op} {s0 : Sys} {outs0 : List Out}
    {P : List Op → List Out → Sys → Spec → Prop} {Q : Op → Prop}
    (hrun : (Sys.init a).run pre = .ok (s0, outs0))
    (h0 : P [] [] s0 (specAfter a pre))
    (hs : ∀ ops outs s s' op o, Valid a (pre ++ ops ++ [op]) → s0.run ops = .ok (s, outs) →
      s.step op = .ok (s', o) → AtStep a s s' op o (specAfter a (pre ++ ops)) → outs.length = ops.length → Q op →
      P ops outs s (specAfter a (pre ++ ops)) → P (ops ++ [op]) (outs ++ [o]) s' ((specAfter a (pre ++ ops)).step op).1) :
    ∀ ops, Valid a (pre ++ ops) → (∀ op ∈ ops, Q op) → ∀ s outs, s0.run ops = .ok (s, outs) →
      P ops outs s (specAfter a (pre ++ ops)) ∧ outs.length = ops.length := by
  intro ops
  induction ops using snoc_induction with
  | h0 =>
    intro v _ s outs h
    simp [Sys.run] at h
    obtain ⟨rfl, rfl⟩ := h
    rw [List.append_nil]
    exact ⟨h0, rfl⟩
  | h1 ops op ih =>
    intro v hq s' outs h
    rw [← List.append_assoc] at v
    rw [sys_run_append] at h
    cases e : s0.run ops with
    | error f => rw [e] at h; cases h
    | ok p =>
      obtain ⟨s, os⟩ := p
      rw [e] at h
      dsimp only [Sys.run] at h
      cases e2 : s.step op with
      | error f => rw [e2] at h; cases h
      | ok p2 =>
        obtain ⟨s2, o⟩ := p2
        rw [e2] at h
        simp only [Except.ok.injEq, Prod.mk.injEq] at h
        obtain ⟨rfl, rfl⟩ := h
        obtain ⟨hP, hl⟩ := ih v.left (fun op h => hq op (by simp [h])) s os e
        have e3 : (Sys.init a).run (pre ++ ops) = .ok (s, outs0 ++ os) := by
          rw [sys_run_append, hrun]; dsimp only; rw [e]
        obtain ⟨sp, r1, r2, eo, w, hsp⟩ := v.last e3 e2
        obtain ⟨p1, p2, p3⟩ := spec_params a (pre ++ ops)
        subst hsp
        rw [← List.append_assoc, specAfter_snoc]
        exact ⟨hs ops os s s2 op o v e e2 ⟨r1, r2, eo, w, p1, p2, p3⟩ hl (hq op (by simp)) hP, by simp [hl]⟩

/-- What became, for farm reader `k`, of the messages from number `b0` on. -/
structure Farm (sp : Spec) (k b0 : Nat) (ops : List Op) (outs : List Out) (sh : SHandle) (X : List (Msg × Bool)) : Prop where
  ge : b0 ≤ sh.pos
  le : sh.pos ≤ sp.log.length
  log : (sp.log.drop b0).take (sh.pos - b0) = X.map Prod.fst
  got : kept X = deliveredTo k ops outs
  md : (missedReported k ops outs + sh.missed) % W = (lostIn X).length % W

theorem Farm.step {s s' : Sys} {sp : Spec} {k b0 : Nat} {op : Op} {ops : List Op} {outs : List Out} {sh sh' : SHandle}
    {X : List (Msg × Bool)} (hr : Rel s sp) (hr' : Rel s' (sp.step op).1) (hf : sp.farm = true) (hl : outs.length = ops.length)
    (hk : sp.hs k = .live sh) (hk' : (sp.step op).1.hs k = .live sh') (h : Farm sp k b0 ops outs sh X) :
    ∃ X', Farm (sp.step op).1 k b0 (ops ++ [op]) (outs ++ [(sp.step op).2]) sh' X' := by
  obtain ⟨new, lost, fl⟩ := step_flow op hr
  have hb : sp.base ≤ sp.log.length := Nat.le_trans hr.ring.ble hr.ring.fle
  obtain ⟨skip, st⟩ := step_farm hf hb h.le hk hk'
  have hlog : (sp.step op).1.log = sp.log ++ new.map Prod.snd := by unfold Spec.log; rw [fl.tlog, List.map_append]
  generalize sp.step op = y at *
  obtain ⟨sp', o⟩ := y
  dsimp only at *
  have h1 := h.ge; have h2 := h.le; have h3 := st.le; have h4 := st.pos; have hgot := st.got
  generalize hg : (if op.handle = k then o.msgs else []) = got at *
  refine ⟨X ++ ((sp.log.drop sh.pos).take skip).map (fun m => (m, false)) ++ got.map (fun m => (m, true)), by omega, ?_, ?_, ?_, ?_⟩
  · rw [hlog]; simp; omega
  · rw [List.map_append, List.map_append, map_fst_const, map_fst_const, hlog, ← h.log]
    conv => rhs; rw [← hgot]
    have e : sh'.pos - b0 = (sh.pos - b0) + (skip + got.length) := by omega
    have e2 : ((sp.log ++ new.map Prod.snd).drop b0).take (sh'.pos - b0) = (sp.log.drop b0).take (sh'.pos - b0) := by
      rw [List.drop_append_of_le_length (by omega), List.take_append_of_le_length (by simp; omega)]
    rw [e2, e, List.take_add, List.take_add, List.drop_drop, List.drop_drop, ← List.append_assoc]
    congr 4
    all_goals first | rfl | omega | skip
  · rw [kept_append, kept_append, kept_true, kept_false, List.append_nil, deliveredTo_snoc _ _ _ _ _ hl, hg, h.got]
  · rw [lostIn_append, lostIn_append, lostIn_true, lostIn_false, missedReported_snoc _ _ _ _ _ hl]
    have h5 := st.missed; have h6 := h.md
    simp only [List.append_nil, List.length_append, List.length_take, List.length_drop]
    have : min skip (sp.log.length - sh.pos) = skip := by omega
    rw [this]
    unfold W at *; omega

/-- A handle number that was used stays used. -/
theorem step_never (sp : Spec) (op : Op) (k : Nat) (h : (sp.step op).1.hs k = .never) : sp.hs k = .never := by
  by_cases hop : op.handle = k
  rotate_left
  · rw [step_other_hs sp op k hop] at h; exact h
  cases e : sp.hs k with
  | never => rfl
  | gone b =>
    exfalso
    cases op <;> dsimp only [Op.handle] at hop <;> subst hop <;> unfold Spec.step at h <;>
      simp only [e] at h <;> cases h
  | live sh =>
    exfalso
    cases op <;> dsimp only [Op.handle] at hop <;> subst hop <;> unfold Spec.step at h <;>
      simp only [e] at h
    · cases h
    · split at h
      · rw [e] at h; cases h
      · dsimp only at h; rw [upd_same] at h; cases h
    · split at h
      · rw [e] at h; cases h
      · dsimp only at h; rw [upd_same] at h; cases h
    · split at h
      · rw [e] at h; cases h
      · dsimp only at h; rw [upd_same] at h; cases h
    · split at h
      · dsimp only at h; rw [flush_hs, e] at h; cases h
      · dsimp only at h; rw [upd_same] at h; cases h
    · split at h
      · rw [e] at h; cases h
      · dsimp only at h; split at h <;> (rw [e] at h; cases h)
    · split at h
      · rw [e] at h; cases h
      · dsimp only at h; rw [upd_same] at h; cases h
    · rename_i j get set sz env
      have e2 : (sp.appdata get set sz env).1.hs = sp.hs := by
        unfold Spec.appdata; dsimp only; repeat' split
        all_goals rfl
      rw [e2, e] at h; cases h

/-- A continuation of a farm history, seen by the reader opened at its start. -/
theorem hist_farm {a : InitArgs} (hf : a.flags.has SHR_FARM = true) {pre : List Op} {s0 : Sys} {outs0 : List Out} {k b0 : Nat}
    (hrun : (Sys.init a).run pre = .ok (s0, outs0)) {sh0 : SHandle} (hk : (specAfter a pre).hs k = .live sh0)
    (hp : sh0.pos = b0) (hm : sh0.missed = 0) (hle : b0 ≤ (specAfter a pre).log.length)
    {ops : List Op} (v : Valid a (pre ++ ops)) {s : Sys} {outs : List Out} (h : s0.run ops = .ok (s, outs))
    {sh : SHandle} (hsh : (specAfter a (pre ++ ops)).hs k = .live sh) :
    ∃ X, Farm (specAfter a (pre ++ ops)) k b0 ops outs sh X := by
  refine (Valid.induct_from (P := fun ops outs _ sp => sp.hs k ≠ .never ∧ ∀ sh, sp.hs k = .live sh → ∃ X, Farm sp k b0 ops outs sh X)
    (Q := fun _ => True) hrun ?_ ?_ ops v (fun _ _ => trivial) s outs h).1.2 sh hsh
  · refine ⟨by rw [hk]; simp, ?_⟩
    intro sh h1
    rw [hk] at h1; cases h1
    exact ⟨[], by omega, by omega, by rw [hp]; simp, rfl, by rw [hm]; rfl⟩
  · intro ops outs s s' op o _ _ _ ha hl _ ⟨hn, hP⟩
    refine ⟨fun e => hn (step_never _ _ _ e), ?_⟩
    intro sh' hk'
    rw [ha.out]
    rcases step_flags _ op k sh' hk' with ⟨sh1, h1, _⟩ | ⟨h1, env, e⟩
    · obtain ⟨X, hX⟩ := hP sh1 h1
      exact hX.step ha.rel ha.rel' (by rw [ha.farm]; exact hf) hl h1 hk'
    · exact absurd h1 hn

/-- What a continuation without caches puts into the ring. -/
theorem hist_entered_from {a : InitArgs} {pre : List Op} {s0 : Sys} {outs0 : List Out}
    (hrun : (Sys.init a).run pre = .ok (s0, outs0)) {ops : List Op} (v : Valid a (pre ++ ops))
    (hu : Unbuffered (pre ++ ops)) {s : Sys} {outs : List Out} (h : s0.run ops = .ok (s, outs)) :
    ∃ new, (specAfter a (pre ++ ops)).log = (specAfter a pre).log ++ new ∧ Entered ops outs new ∧
      ((∀ op ∈ ops, op.good) → new = accepted ops outs) := by
  have hn0 : NoCache (specAfter a pre) := hist_nocache v.left (fun op ho => hu op (by simp [ho])) hrun
  have hl := (Valid.induct_from (P := fun ops outs _ sp => NoCache sp ∧ ∃ new, sp.log = (specAfter a pre).log ++ new ∧
      Entered ops outs new ∧ ((∀ op ∈ ops, op.good) → new = accepted ops outs))
    (Q := fun op => ∀ k flags env, op = .open k flags env → flags.has SHR_BUFFERED = false) hrun
    ⟨hn0, [], by simp, rfl, fun _ => rfl⟩ ?_ ops v (fun op ho => hu op (by simp [ho])) s outs h)
  · exact hl.1.2
  intro ops outs s s' op o _ _ _ ha hl hq ⟨hn, new, e1, e2, e3⟩
  have hn' := hn.step ha.rel' hq
  refine ⟨hn', ?_⟩
  obtain ⟨nw, lost, fl⟩ := step_flow op ha.rel
  have hlog : ((specAfter a (pre ++ ops)).step op).1.log = (specAfter a (pre ++ ops)).log ++ nw.map Prod.snd := by
    unfold Spec.log; rw [fl.tlog, List.map_append]
  refine ⟨new ++ nw.map Prod.snd, by rw [hlog, e1, List.append_assoc], ?_, ?_⟩
  · refine entered_snoc _ _ _ _ _ _ e2 ?_
    rw [ha.out]
    exact fl.ub hn.1 hn'.1
  · intro hg
    rw [accepted_snoc _ _ _ _ hl, e3 (fun op ho => hg op (by simp [ho])), ha.out]
    congr 1
    have h1 := fl.acct (hg op (by simp)) op.handle
    rw [hn.1, hn'.1, if_pos rfl, List.append_nil, List.nil_append] at h1
    rw [h1]
    unfold byHandle
    rw [List.filter_eq_self.mpr]
    intro e he
    simp [fl.who e he]

/-- The log only grows. -/
theorem hist_log_from {a : InitArgs} {pre : List Op} {s0 : Sys} {outs0 : List Out}
    (hrun : (Sys.init a).run pre = .ok (s0, outs0)) {ops : List Op} (v : Valid a (pre ++ ops))
    {s : Sys} {outs : List Out} (h : s0.run ops = .ok (s, outs)) :
    ∃ new, (specAfter a (pre ++ ops)).log = (specAfter a pre).log ++ new := by
  refine (Valid.induct_from (P := fun _ _ _ sp => ∃ new, sp.log = (specAfter a pre).log ++ new)
    (Q := fun _ => True) hrun ⟨[], by simp⟩ ?_ ops v (fun _ _ => trivial) s outs h).1
  intro ops outs s s' op o _ _ _ ha hl hq ⟨new, e1⟩
  obtain ⟨nw, lost, fl⟩ := step_flow op ha.rel
  have hlog : ((specAfter a (pre ++ ops)).step op).1.log = (specAfter a (pre ++ ops)).log ++ nw.map Prod.snd := by
    unfold Spec.log; rw [fl.tlog, List.map_append]
  exact ⟨new ++ nw.map Prod.snd, by rw [hlog, e1, List.append_assoc]⟩

/-! ## Counters -/

/-- Counters and unread messages of `sp`, starting from `sp0`, balance. -/
structure Balance (sp0 sp : Spec) : Prop where
  m : sp.st.mw + sp0.st.mr + sp0.st.md + sp0.unread.length = sp0.st.mw + sp.st.mr + sp.st.md + sp.unread.length
  b : sp.st.bw + sp0.st.br + sp0.st.bd + bytesOf sp0.unread = sp0.st.bw + sp.st.br + sp.st.bd + bytesOf sp.unread

theorem hist_balance {a : InitArgs} (hf : a.flags.has SHR_FARM = false) {pre : List Op} {s0 : Sys} {outs0 : List Out}
    (hrun : (Sys.init a).run pre = .ok (s0, outs0)) {ops : List Op} (v : Valid a (pre ++ ops))
    (hg : ∀ op ∈ ops, op.good) (hns : ∀ op ∈ ops, ∀ k t env, op ≠ .stat k (some t) env)
    {s : Sys} {outs : List Out} (h : s0.run ops = .ok (s, outs)) :
    Balance (specAfter a pre) (specAfter a (pre ++ ops)) := by
  refine (Valid.induct_from (P := fun _ _ _ sp => Balance (specAfter a pre) sp)
    (Q := fun op => op.good ∧ ∀ k t env, op ≠ .stat k (some t) env) hrun ⟨rfl, rfl⟩ ?_ ops v
    (fun op ho => ⟨hg op ho, hns op ho⟩) s outs h).1
  intro ops outs s s' op o _ _ _ ha hl hq hB
  obtain ⟨new, lost, fl⟩ := step_flow op ha.rel
  have f := fl.flow (by rw [ha.farm]; exact hf)
  obtain ⟨cnt, c, hc⟩ := fl.count hq.2
  have hc := hc hq.1
  have q1 := congrArg List.length f.queue
  have q2 := congrArg bytesOf f.queue
  have e1 := c.mw hc; have e2 := c.bw hc
  have e3 := c.mr; have e4 := c.br; have e5 := c.md; have e6 := c.bd
  have b1 := hB.m; have b2 := hB.b
  simp only [List.length_append, bytesOf_append] at q1 q2
  constructor <;> omega

end Shr
