import Verif.Proof.Failures
import Verif.Props.Handle
/-! # C100, C101: what failing wake-ups and msyncs do, exactly -/
namespace Shr

theorem Rel.cachedOf {s : Sys} {sp : Spec} (h : Rel s sp) (k : Nat) : s.cached k = Shr.cachedOf (sp.hs k) := by
  have := h.hs k
  unfold Sys.cached
  cases e : s.hs k <;> cases e2 : sp.hs k <;> rw [e, e2] at this <;> try exact this.elim
  · rfl
  · exact (HRel.cache this).msgs
  · rfl

theorem AtStep.did {a : InitArgs} {s s' : Sys} {op : Op} {o : Out} {sp : Spec} (x : AtStep a s s' op o sp) :
    ∃ new unc, ((sp.step op).1.tlog = sp.tlog ++ (new.map fun m => (op.handle, m)) ∧
        ((∀ k t env, op ≠ .stat k (some t) env) → PutIn sp (sp.step op).1 op.handle new unc)) ∧
      CallDid op o (s.cached op.handle) new unc (s'.cached op.handle) ∧ ∀ j, j ≠ op.handle → s'.cached j = s.cached j := by
  obtain ⟨new, unc, h1, h2, h3⟩ := step_did op x.rel
  refine ⟨new, unc, h1, ?_, fun j hj => ?_⟩
  · rw [x.rel.cachedOf, x.rel'.cachedOf, x.out]; exact h2
  · rw [x.rel.cachedOf, x.rel'.cachedOf, h3 j hj]

section
variable {a : InitArgs} {pre ops : List Op} {s0 s s' : Sys} {outs0 outs : List Out}

/-- Accounts of the list machine over a history. -/
theorem hist_story (hrun : (Sys.init a).run pre = .ok (s0, outs0)) (v : Valid a (pre ++ ops)) (h : s0.run ops = .ok (s, outs)) :
    ∃ N U, Story s0 ops outs s N U ∧
      (specAfter a (pre ++ ops)).tlog = (specAfter a pre).tlog ++ N ∧
      (a.flags.has SHR_FARM = false → ∃ X : List (Msg × Bool),
        (specAfter a pre).unread ++ N.map Prod.snd = X.map Prod.fst ++ (specAfter a (pre ++ ops)).unread ∧
        kept X = delivered outs ∧ (a.flags.has SHR_DROP = false → lostIn X = []) ∧
        ((∀ op ∈ ops, ∀ k t env, op ≠ .stat k (some t) env) →
          (specAfter a (pre ++ ops)).st.md = (specAfter a pre).st.md + (lostIn X).length ∧
          (specAfter a (pre ++ ops)).st.bd = (specAfter a pre).st.bd + bytesOf (lostIn X) ∧
          (specAfter a (pre ++ ops)).st.mr = (specAfter a pre).st.mr + (kept X).length ∧
          (specAfter a (pre ++ ops)).st.br = (specAfter a pre).st.br + bytesOf (kept X))) ∧
      ((∀ op ∈ ops, ∀ k t env, op ≠ .stat k (some t) env) →
        (specAfter a (pre ++ ops)).st.mw + U.length = (specAfter a pre).st.mw + N.length ∧
        (specAfter a (pre ++ ops)).st.bw + bytesOf U = (specAfter a pre).st.bw + bytesOf (N.map Prod.snd)) := by
  refine (Valid.induct_from (P := fun ops outs s sp => ∃ N U, Story s0 ops outs s N U ∧
      sp.tlog = (specAfter a pre).tlog ++ N ∧
      (a.flags.has SHR_FARM = false → ∃ X : List (Msg × Bool),
        (specAfter a pre).unread ++ N.map Prod.snd = X.map Prod.fst ++ sp.unread ∧
        kept X = delivered outs ∧ (a.flags.has SHR_DROP = false → lostIn X = []) ∧
        ((∀ op ∈ ops, ∀ k t env, op ≠ .stat k (some t) env) →
          sp.st.md = (specAfter a pre).st.md + (lostIn X).length ∧
          sp.st.bd = (specAfter a pre).st.bd + bytesOf (lostIn X) ∧
          sp.st.mr = (specAfter a pre).st.mr + (kept X).length ∧
          sp.st.br = (specAfter a pre).st.br + bytesOf (kept X))) ∧
      ((∀ op ∈ ops, ∀ k t env, op ≠ .stat k (some t) env) →
        sp.st.mw + U.length = (specAfter a pre).st.mw + N.length ∧
        sp.st.bw + bytesOf U = (specAfter a pre).st.bw + bytesOf (N.map Prod.snd)))
    (Q := fun _ => True) hrun
    ⟨[], [], .start, by simp, fun _ => ⟨[], by simp, rfl, fun _ => rfl, fun _ => by simp [kept, lostIn]⟩, fun _ => ⟨rfl, rfl⟩⟩ ?_ ops v (fun _ _ => trivial) s outs h).1
  intro ops outs s s' op o _ _ hstep ha hl _ ⟨N, U, h1, h2, h3, h4⟩
  obtain ⟨new, unc, ⟨d1, d2⟩, d3, d4⟩ := ha.did
  refine ⟨_, _, .call h1 hstep d3 d4, by rw [d1, h2, List.append_assoc], fun hf => ?_, fun hr => ?_⟩
  · obtain ⟨X, x1, x2, x3, x4⟩ := h3 hf
    obtain ⟨nw, lost, fl⟩ := step_flow op ha.rel
    have f := fl.flow (by rw [ha.farm]; exact hf)
    have e : nw.map Prod.snd = new := by
      have := fl.tlog
      rw [d1] at this
      rw [← List.append_cancel_left this]; simp [Function.comp_def]
    refine ⟨X ++ (o.msgs.map fun m => (m, true)) ++ (lost.map fun m => (m, false)), ?_, ?_, fun hd => ?_, fun hr => ?_⟩
    · have q := f.queue
      rw [e, ← ha.out] at q
      simp only [List.map_append, List.map_map, Function.comp_def, List.map_id']
      rw [← List.append_assoc, x1, List.append_assoc, q]
      simp
    · rw [kept_append, kept_append, kept_true, kept_false, List.append_nil, delivered_snoc, x2]
    · rw [lostIn_append, lostIn_append, lostIn_true, lostIn_false, x3 hd, f.nodrop (by rw [ha.drop, hd, hf]; rfl)]; rfl
    · obtain ⟨y1, y2, y3, y4⟩ := x4 fun op ho => hr op (by simp [ho])
      obtain ⟨cnt, c, _⟩ := fl.count (hr op (by simp))
      have e1 := c.md; have e2 := c.bd; have e3 := c.mr; have e4 := c.br
      rw [← ha.out] at e3 e4
      simp only [lostIn_append, kept_append, lostIn_true, lostIn_false, kept_true, kept_false, List.append_nil, List.length_append, bytesOf_append]
      refine ⟨?_, ?_, ?_, ?_⟩ <;> omega
  · obtain ⟨y1, y2⟩ := h4 fun op ho => hr op (by simp [ho])
    have p := d2 (hr op (by simp))
    have p1 := p.mw; have p2 := p.bw
    simp only [List.length_append, List.map_append, List.map_map, Function.comp_def, List.map_id', List.length_map, bytesOf_append]
    refine ⟨?_, ?_⟩ <;> omega

/-- **C100.** Consuming ring, any stretch of a history without a reset, whatever fails: the calls put messages `N` into the ring, as
`Story` tells call by call, and all are counted except `U`.  What was unread and what was put in is, in order, what the reads
delivered or the ring dropped and what is unread; on a ring without SHR_DROP nothing is dropped. -/
theorem C100_conservation_any_failures (hf : a.flags.has SHR_FARM = false) (v : Valid a (pre ++ ops))
    (hns : ∀ op ∈ ops, ∀ k t env, op ≠ .stat k (some t) env)
    (hrun : (Sys.init a).run pre = .ok (s0, outs0)) (hcont : s0.run ops = .ok (s, outs)) :
    ∃ N U, Story s0 ops outs s N U ∧
      (∃ X : List (Msg × Bool), s0.ring.unreadMsgs ++ N.map Prod.snd = X.map Prod.fst ++ s.ring.unreadMsgs ∧
        kept X = delivered outs ∧ (a.flags.has SHR_DROP = false → lostIn X = []) ∧
        s.ring.stat.mr = (s0.ring.stat.mr + (kept X).length) % W ∧ s.ring.stat.br = (s0.ring.stat.br + bytesOf (kept X)) % W ∧
        s.ring.stat.md = (s0.ring.stat.md + (lostIn X).length) % W ∧ s.ring.stat.bd = (s0.ring.stat.bd + bytesOf (lostIn X)) % W) ∧
      (s.ring.stat.mw + U.length) % W = (s0.ring.stat.mw + N.length) % W ∧
      (s.ring.stat.bw + bytesOf U) % W = (s0.ring.stat.bw + bytesOf (N.map Prod.snd)) % W ∧
      (s.ring.stat.mw + U.length + s0.ring.stat.mr + s0.ring.stat.md + s0.ring.unreadMsgs.length) % W =
        (s0.ring.stat.mw + s.ring.stat.mr + s.ring.stat.md + s.ring.unreadMsgs.length) % W ∧
      (s.ring.stat.bw + bytesOf U + s0.ring.stat.br + s0.ring.stat.bd + bytesOf s0.ring.unreadMsgs) % W =
        (s0.ring.stat.bw + s.ring.stat.br + s.ring.stat.bd + bytesOf s.ring.unreadMsgs) % W := by
  have hall : (Sys.init a).run (pre ++ ops) = .ok (s, outs0 ++ outs) := by
    rw [sys_run_append, hrun]; dsimp only; rw [hcont]
  obtain ⟨sp0, x0, e0, _⟩ := v.left.state hrun
  obtain ⟨sp1, x1, e1, _⟩ := v.state hall
  obtain ⟨N, U, h1, h2, h3, h4⟩ := hist_story hrun v hcont
  unfold specAfter at h2 h3 h4
  rw [← e0, ← e1] at h2 h3 h4
  obtain ⟨X, q1, q2, q3, q4⟩ := h3 hf
  obtain ⟨m1, m2, m3, m4⟩ := q4 hns
  obtain ⟨w1, w2⟩ := h4 hns
  have l1 := congrArg List.length q1
  have l2 := congrArg bytesOf q1
  have l3 : ∀ X : List (Msg × Bool), X.length = (kept X).length + (lostIn X).length ∧
      bytesOf (X.map Prod.fst) = bytesOf (kept X) + bytesOf (lostIn X) := by
    intro X
    induction X with
    | nil => exact ⟨rfl, rfl⟩
    | cons e es ih =>
      obtain ⟨m, b⟩ := e
      obtain ⟨i1, i2⟩ := ih
      cases b <;> simp [kept, lostIn, bytesOf] at i1 i2 ⊢ <;> omega
  obtain ⟨l3, l4⟩ := l3 X
  rw [x0.rel.ring.stat, x1.rel.ring.stat, x0.rel.ring.unreadMsgs, x1.rel.ring.unreadMsgs]
  simp only [List.length_append, List.length_map, bytesOf_append] at l1 l2
  simp only [SStat.toStat]
  refine ⟨N, U, h1, ⟨X, q1, q2, q3, ?_, ?_, ?_, ?_⟩, ?_, ?_, ?_, ?_⟩ <;> unfold W <;> omega

/-- **C100.** A write or a flush that does not return -1 puts nothing into the ring that is not counted, nor does a close whose wake-up succeeds. -/
theorem C100_uncounted_only_after_failure {N : List (Nat × Msg)} {U : List Msg} (h : Story s0 ops outs s N U)
    (h1 : ∀ o ∈ outs, o ≠ .wrote (-1)) (h2 : ∀ k e, .close k e ∈ ops → e.wakeOk = true) : U = [] := by
  induction h with
  | start => rfl
  | @call ops outs t t' N U op o new unc _ _ did _ ih =>
    rw [ih (fun o ho => h1 o (by simp [ho])) (fun k e ho => h2 k e (by simp [ho])), List.nil_append]
    have h1 := h1 o (by simp)
    generalize t.cached op.handle = c at did
    generalize t'.cached op.handle = c' at did
    cases op with
    | writev k iov eF e =>
      cases did with
      | accepted | nothing | flushed => rfl
      | flushFailed | writeFailed => exact absurd rfl h1
    | flush k w e =>
      cases did with
      | done | nothing => rfl
      | failed => exact absurd rfl h1
    | close k e =>
      have h2 := h2 k e (by simp)
      cases did with
      | dropped | nothing => rfl
      | flushed => rw [h2]; rfl
    | _ => exact did.2.1

/-- **C17, C100.** The balance, under a condition that a user can check: no write and no flush returned -1, and the wake-ups of closes succeed. -/
theorem C100_conservation_without_errors (hf : a.flags.has SHR_FARM = false) (v : Valid a (pre ++ ops))
    (hns : ∀ op ∈ ops, ∀ k t env, op ≠ .stat k (some t) env)
    (hrun : (Sys.init a).run pre = .ok (s0, outs0)) (hcont : s0.run ops = .ok (s, outs))
    (h1 : ∀ o ∈ outs, o ≠ .wrote (-1)) (h2 : ∀ k e, .close k e ∈ ops → e.wakeOk = true) :
    (s.ring.stat.mw + s0.ring.stat.mr + s0.ring.stat.md + s0.ring.unreadMsgs.length) % W =
      (s0.ring.stat.mw + s.ring.stat.mr + s.ring.stat.md + s.ring.unreadMsgs.length) % W ∧
    (s.ring.stat.bw + s0.ring.stat.br + s0.ring.stat.bd + bytesOf s0.ring.unreadMsgs) % W =
      (s0.ring.stat.bw + s.ring.stat.br + s.ring.stat.bd + bytesOf s.ring.unreadMsgs) % W := by
  obtain ⟨N, U, h, _, _, _, e1, e2⟩ := C100_conservation_any_failures hf v hns hrun hcont
  have := C100_uncounted_only_after_failure h h1 h2
  subst this
  exact ⟨e1, e2⟩

/-! ## C101 -/

/-- **C101.** Whatever fails, on any ring: what happens to the messages is what `Story` tells call by call.  On a consuming ring the messages put in are,
in order, delivered, or (SHR_DROP) dropped, or unread. -/
theorem C101_story (v : Valid a (pre ++ ops))
    (hrun : (Sys.init a).run pre = .ok (s0, outs0)) (hcont : s0.run ops = .ok (s, outs)) :
    ∃ N U, Story s0 ops outs s N U ∧
      (a.flags.has SHR_FARM = false → ∃ X : List (Msg × Bool), s0.ring.unreadMsgs ++ N.map Prod.snd = X.map Prod.fst ++ s.ring.unreadMsgs ∧
        kept X = delivered outs ∧ (a.flags.has SHR_DROP = false → lostIn X = [])) ∧
      (pre = [] → ∃ n, s.ring.presentMsgs = (N.map Prod.snd).drop n) := by
  have hall : (Sys.init a).run (pre ++ ops) = .ok (s, outs0 ++ outs) := by
    rw [sys_run_append, hrun]; dsimp only; rw [hcont]
  obtain ⟨sp0, x0, e0, _⟩ := v.left.state hrun
  obtain ⟨sp1, x1, e1, _⟩ := v.state hall
  obtain ⟨N, U, h1, h2, h3, h4⟩ := hist_story hrun v hcont
  unfold specAfter at h2 h3 h4
  rw [← e0, ← e1] at h2 h3 h4
  refine ⟨N, U, h1, fun hf => ?_, fun hp => ?_⟩
  · obtain ⟨X, q1, q2, q3, q4⟩ := h3 hf
    rw [x0.rel.ring.unreadMsgs, x1.rel.ring.unreadMsgs]
    exact ⟨X, q1, q2, q3⟩
  · subst hp
    rw [x1.rel.ring.presentMsgs]
    unfold Spec.retained Spec.log
    rw [h2, e0]
    exact ⟨sp1.base, by simp [Spec.run, Spec.init]⟩

theorem Story.length {N : List (Nat × Msg)} {U : List Msg} (h : Story s0 ops outs s N U) : outs.length = ops.length := by
  induction h with
  | start => rfl
  | call _ _ _ _ ih => simp [ih]

theorem byHandle_call (k : Nat) (op : Op) (new : List Msg) :
    byHandle k (new.map fun m => (op.handle, m)) = if op.handle = k then new else [] := by
  by_cases h : op.handle = k
  · subst h; rw [byHandle_same, if_pos rfl]
  · rw [byHandle_other (fun e => h e.symm), if_neg h]

/-- **C101.** Nothing is lost and the order is kept, whatever fails: what a handle had cached and what it was told was accepted, in order, is in what went
into the ring and what it has cached then.  (While it is not closed.) -/
theorem C101_nothing_accepted_is_lost {N : List (Nat × Msg)} {U : List Msg} (h : Story s0 ops outs s N U) (k : Nat)
    (hc : ∀ e, .close k e ∉ ops) :
    (s0.cached k ++ acceptedFrom k ops outs).Sublist (byHandle k N ++ s.cached k) := by
  induction h with
  | start => simp [acceptedFrom]
  | @call ops outs t t' N U op o new unc h0 _ did others ih =>
    have ih := ih fun e he => hc e (by simp [he])
    have hc := fun e he => hc e (by rw [List.mem_append]; exact .inr he)
    rw [acceptedFrom_snoc _ _ _ _ _ h0.length, byHandle_append, byHandle_call]
    by_cases hk : op.handle = k
    · rw [if_pos hk, if_pos hk]
      rw [hk] at did
      rw [← List.append_assoc]
      have skip : ∀ l : List Msg, (byHandle k N ++ t.cached k).Sublist (byHandle k N ++ l ++ t.cached k) := fun l => by
        rw [List.append_assoc]
        exact (List.sublist_append_right l (t.cached k)).append_left _
      have refused : ∀ iov eF e, (∀ rc : Int, o = .wrote rc → rc ≤ 0) → op = .writev k iov eF e → acceptedBy op o = [] := by
        rintro iov eF e hr rfl
        cases o with
        | wrote rc => simp [acceptedBy, Int.not_lt.mpr (hr rc rfl)]
        | _ => rfl
      cases op with
      | writev j iov eF e =>
        obtain rfl : j = k := hk
        generalize hc' : t'.cached j = c' at *
        cases did with
        | accepted _ _ h h1 h2 =>
          have : acceptedBy (.writev j iov eF e) (.wrote (bytesOf iov)) = iov := if_pos (by omega)
          rw [this]
          have h3 := ih.append (List.Sublist.refl iov)
          rw [List.append_assoc _ (t.cached j) iov, h, ← List.append_assoc] at h3
          exact h3
        | nothing _ hr => rw [refused iov eF e hr rfl]; simpa using ih
        | flushed _ hr => rw [refused iov eF e hr rfl]; simpa using ih
        | flushFailed => rw [refused iov eF e (by intro rc e; cases e; omega) rfl, List.append_nil]; exact ih.trans (skip _)
        | writeFailed =>
          rw [refused iov eF e (by intro rc e; cases e; omega) rfl, List.append_nil, List.append_nil, ← List.append_assoc]
          exact ih.trans (List.sublist_append_left _ _)
      | flush j w e =>
        obtain rfl : j = k := hk
        have : acceptedBy (.flush j w e) o = [] := rfl
        rw [this, List.append_nil]
        generalize hc' : t'.cached j = c' at *
        cases did with
        | done => simpa using ih
        | nothing => simpa using ih
        | failed => exact ih.trans (skip _)
      | close j e => exact absurd (by obtain rfl : j = k := hk; simp) (hc e)
      | _ =>
        obtain ⟨rfl, rfl, e⟩ := did
        rw [e]
        simpa [acceptedBy] using ih
    · rw [if_neg hk, if_neg hk, others k (fun e => hk e.symm)]
      simpa using ih

/-- **C101.** And if no call on the handle returned -1 (and it is not closed), nothing appears twice or unasked either: then what went into the ring
and what is cached is exactly what was cached and what was accepted. -/
theorem C101_exact_without_errors {N : List (Nat × Msg)} {U : List Msg} (h : Story s0 ops outs s N U) (k : Nat)
    (hc : ∀ e, .close k e ∉ ops) (h1 : ∀ (i : Nat) (op : Op), ops[i]? = some op → op.handle = k → outs[i]? ≠ some (Out.wrote (-1))) :
    byHandle k N ++ s.cached k = s0.cached k ++ acceptedFrom k ops outs := by
  induction h with
  | start => simp [acceptedFrom]
  | @call ops outs t t' N U op o new unc h0 _ did others ih =>
    have hl := h0.length
    have ih := ih (fun e he => hc e (by simp [he])) (fun i op' e1 e2 e3 => by
      have : i < ops.length := by
        have := (List.getElem?_eq_some_iff.mp e1).1; exact this
      refine h1 i op' ?_ e2 ?_
      · rw [List.getElem?_append_left this]; exact e1
      · rw [List.getElem?_append_left (by omega)]; exact e3)
    have h1 := h1 ops.length op (by simp)
    rw [← hl] at h1
    simp only [List.getElem?_concat_length, ne_eq, Option.some.injEq] at h1
    have hc := fun e he => hc e (by rw [List.mem_append]; exact .inr he)
    rw [acceptedFrom_snoc _ _ _ _ _ hl, byHandle_append, byHandle_call]
    by_cases hk : op.handle = k
    · rw [if_pos hk, if_pos hk]
      have hno : o ≠ .wrote (-1) := h1 hk
      clear h1
      rw [hk] at did
      rw [← List.append_assoc, ← ih]
      have refused : ∀ iov eF e, (∀ rc : Int, o = .wrote rc → rc ≤ 0) → op = .writev k iov eF e → acceptedBy op o = [] := by
        rintro iov eF e hr rfl
        cases o with
        | wrote rc => simp [acceptedBy, Int.not_lt.mpr (hr rc rfl)]
        | _ => rfl
      cases op with
      | writev j iov eF e =>
        obtain rfl : j = k := hk
        generalize hc' : t'.cached j = c' at *
        cases did with
        | accepted _ _ h _ h2 =>
          have : acceptedBy (.writev j iov eF e) (.wrote (bytesOf iov)) = iov := if_pos (by omega)
          rw [this, List.append_assoc, List.append_assoc, h]
        | nothing _ hr => simp [refused iov eF e hr rfl]
        | flushed _ hr => simp [refused iov eF e hr rfl]
        | flushFailed | writeFailed => exact absurd rfl hno
      | flush j w e =>
        obtain rfl : j = k := hk
        have : acceptedBy (.flush j w e) o = [] := rfl
        rw [this, List.append_nil]
        generalize hc' : t'.cached j = c' at *
        cases did with
        | done => simp
        | nothing => simp
        | failed => exact absurd rfl hno
      | close j e => exact absurd (by obtain rfl : j = k := hk; simp) (hc e)
      | _ =>
        obtain ⟨rfl, rfl, e⟩ := did
        rw [e]
        simp [acceptedBy]
    · rw [if_neg hk, if_neg hk, others k (fun e => hk e.symm)]
      simpa using ih

theorem offeredBy_snoc (k : Nat) (op : Op) : ∀ ops, offeredBy k (ops ++ [op]) = offeredBy k ops ++ offeredBy k [op] := by
  intro ops
  induction ops with
  | nil => rfl
  | cons o os ih => cases o <;> simp [offeredBy] at ih ⊢ <;> exact ih

/-- **C101.** Nothing is invented: what a handle put into the ring or has cached is among what it had cached and what it was given to write. -/
theorem C101_nothing_invented {N : List (Nat × Msg)} {U : List Msg} (h : Story s0 ops outs s N U) (k : Nat) {m : Msg}
    (hm : m ∈ byHandle k N ++ s.cached k) : m ∈ s0.cached k ++ offeredBy k ops := by
  induction h generalizing m with
  | start => simpa [offeredBy] using hm
  | @call ops outs t t' N U op o new unc h0 _ did others ih =>
    rw [offeredBy_snoc, ← List.append_assoc, List.mem_append]
    rw [byHandle_append, byHandle_call] at hm
    by_cases hk : op.handle = k
    · rw [if_pos hk, List.append_assoc, List.mem_append] at hm
      rw [hk] at did
      have old : m ∈ byHandle k N ∨ m ∈ t.cached k → m ∈ s0.cached k ++ offeredBy k ops := fun h => ih (List.mem_append.mpr h)
      have key : m ∈ new ++ t'.cached k → m ∈ t.cached k ∨ m ∈ offeredBy k [op] := by
        intro hm
        cases op with
        | writev j iov eF e =>
          obtain rfl : j = k := hk
          have e1 : offeredBy j [.writev j iov eF e] = iov := by simp [offeredBy]
          rw [e1]
          generalize hc' : t'.cached j = c' at *
          cases did with
          | accepted _ _ h => rw [← h] at hm; exact List.mem_append.mp hm
          | nothing | flushed => simp at hm; exact .inl hm
          | flushFailed => simp at hm; exact .inl hm
          | writeFailed => simpa using hm
        | flush j w e =>
          obtain rfl : j = k := hk
          generalize hc' : t'.cached j = c' at *
          cases did <;> simp at hm <;> exact .inl hm
        | close j e =>
          obtain rfl : j = k := hk
          generalize hc' : t'.cached j = c' at *
          cases did <;> simp at hm <;> exact .inl hm
        | _ =>
          obtain ⟨rfl, rfl, e⟩ := did
          rw [e] at hm; exact .inl hm
      rcases hm with hm | hm
      · exact .inl (old (.inl hm))
      · rcases key hm with h | h
        · exact .inl (old (.inr h))
        · exact .inr h
    · rw [if_neg hk, List.append_nil, others k (fun e => hk e.symm)] at hm
      exact .inl (ih hm)

end

/-! ## The hypotheses can be met -/

/-- A buffered writer: the wake-up of a flush fails, the flush is repeated; then the msync, and at last the wake-up inside `shr_close`, fail too. -/
def failOps : List Op := dupHist ++ [wr 0 [[3]], .flush 0 true { wakeOk := false }, rd 1 10 3, .flush 0 true {}, wr 0 [[4], [5, 6]]]

theorem all_kept (X : List (Msg × Bool)) (h : lostIn X = []) : X.map Prod.fst = kept X := by
  induction X with
  | nil => rfl
  | cons e es ih =>
    obtain ⟨m, b⟩ := e
    cases b
    · simp [lostIn] at h
    · simp [lostIn, kept] at h ih ⊢; exact ih h

/-- C100: of the four messages put into the ring two are not counted. -/
example : ∃ N U, Story (Sys.init demoA) failOps (outsOf demoA failOps) (final demoA failOps) N U ∧
    U.length % W = 2 ∧ N.map Prod.snd = [[1, 2], [1, 2], [3], [3]] := by
  have v : Valid demoA failOps := valid_of (by decide +kernel)
  obtain ⟨N, U, h, ⟨X, x1, x2, x3, _⟩, e1, _⟩ := C100_conservation_any_failures (pre := []) (ops := failOps) (by decide) v
    (by intro op ho k t env; simp [failOps, dupHist, opn, wr, rd] at ho; rcases ho with rfl | rfl | rfl | rfl | rfl | rfl | rfl | rfl | rfl | rfl | rfl <;> simp)
    rfl v.runs
  have hX := all_kept X (x3 (by decide))
  rw [hX, x2] at x1
  have y : N.map Prod.snd = [[1, 2], [1, 2], [3], [3]] :=
    Eq.trans x1 (by decide +kernel : delivered (outsOf demoA failOps) ++ (final demoA failOps).ring.unreadMsgs = [[1, 2], [1, 2], [3], [3]])
  have z : N.length = 4 := by have := congrArg List.length y; simpa using this
  refine ⟨N, U, h, ?_, y⟩
  rw [show (final demoA failOps).ring.stat.mw = 2 by decide +kernel, show (Sys.init demoA).ring.stat.mw = 0 by decide +kernel, z] at e1
  unfold W at e1 ⊢
  omega

/-- C101: nothing lost, though twice in the ring. -/
example : ∃ N U, Story (Sys.init demoA) failOps (outsOf demoA failOps) (final demoA failOps) N U ∧
    ([[1, 2], [3], [4], [5, 6]] : List Msg).Sublist (byHandle 0 N ++ [[4], [5, 6]]) := by
  have v : Valid demoA failOps := valid_of (by decide +kernel)
  obtain ⟨N, U, h, _⟩ := C101_story (pre := []) (ops := failOps) v rfl v.runs
  refine ⟨N, U, h, ?_⟩
  have := C101_nothing_accepted_is_lost h 0 (by intro e; simp [failOps, dupHist, opn, wr, rd])
  rw [show acceptedFrom 0 failOps (outsOf demoA failOps) = [[1, 2], [3], [4], [5, 6]] by decide +kernel,
    show (final demoA failOps).cached 0 = [[4], [5, 6]] by decide +kernel] at this
  exact this

/-- C100, C101 without errors: a history in which a non-blocking write finds no room. -/
example : (∀ o ∈ outsOf demoA demoOps, o ≠ .wrote (-1)) ∧ .wrote 0 ∈ outsOf demoA (demoOps ++ [wr 0 [[1, 2, 3]]]) ∧
    (final demoA demoOps).ring.stat.mw = 3 ∧ (final demoA demoOps).ring.unreadMsgs.length = 2 := by
  refine ⟨by decide +kernel, by decide +kernel, by decide +kernel, by decide +kernel⟩

end Shr
