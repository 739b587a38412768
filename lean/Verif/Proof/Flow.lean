import Verif.Proof.At
/-! # How messages flow through one call, on a ring whose readers consume -/
namespace Shr

/-- From `sp` to `sp'` the messages `new` were put into the ring, `got` were delivered, `lost` were
dropped. -/
structure Flow (sp sp' : Spec) (new : List (Nat × Msg)) (got lost : List Msg) : Prop where
  tlog : sp'.tlog = sp.tlog ++ new
  queue : sp.unread ++ new.map Prod.snd = got ++ lost ++ sp'.unread
  nodrop : sp.drop = false → lost = []
  gf : sp'.gflags = sp.gflags
  fle : sp'.first ≤ sp'.log.length

theorem Flow.refl {sp sp' : Spec} (h1 : sp'.tlog = sp.tlog) (h2 : sp'.first = sp.first)
    (h3 : sp'.gflags = sp.gflags) (hf : sp.first ≤ sp.log.length) : Flow sp sp' [] [] [] where
  tlog := by simp [h1]
  queue := by simp [Spec.unread, Spec.log, h1, h2]
  nodrop := fun _ => rfl
  gf := h3
  fle := by unfold Spec.log at *; rw [h1, h2]; exact hf

theorem Flow.hs {sp sp' : Spec} {new : List (Nat × Msg)} {got lost : List Msg} (h : Flow sp sp' new got lost)
    (f : Nat → Life SHandle (List Msg)) : Flow sp { sp' with hs := f } new got lost :=
  ⟨h.tlog, h.queue, h.nodrop, h.gf, h.fle⟩

theorem commit_flow (sp : Spec) (who : Nat) (new : List Msg) (c : Bool) (hf : sp.first ≤ sp.log.length)
    (hd : Fits sp.cap sp.maxm sp.unread new ∨ sp.drop = true) :
    Flow sp (sp.commit who new c) (new.map (fun m => (who, m))) []
      (sp.unread.take (evictCount sp.cap sp.maxm new sp.unread)) where
  tlog := rfl
  queue := by
    rw [commit_unread _ _ _ _ hf, List.nil_append, ← List.append_assoc, List.take_append_drop]
    simp [Function.comp_def]
  nodrop := fun h => by
    rw [h] at hd
    rw [evictCount_zero_of_fits (hd.resolve_right (by simp))]
    rfl
  gf := rfl
  fle := by
    have := evictCount_le_length sp.cap sp.maxm new sp.unread
    have e : sp.unread.length = sp.log.length - sp.first := by simp [Spec.unread]
    rw [commit_log]
    show sp.first + _ ≤ _
    simp; omega

/-- Counters of one call that is not a reset. -/
structure Count (st st' : SStat) (nw : List Msg) (cnt : Bool) (got lost : List Msg) : Prop where
  start : st'.start = st.start
  mw : cnt = true → st'.mw = st.mw + nw.length
  bw : cnt = true → st'.bw = st.bw + bytesOf nw
  mr : st'.mr = st.mr + got.length
  br : st'.br = st.br + bytesOf got
  md : st'.md = st.md + lost.length
  bd : st'.bd = st.bd + bytesOf lost

theorem Count.refl (st : SStat) (c : Bool) : Count st st [] c [] [] :=
  ⟨rfl, fun _ => rfl, fun _ => rfl, rfl, rfl, rfl, rfl⟩

theorem commit_count (sp : Spec) (who : Nat) (new : List Msg) (c : Bool) :
    Count sp.st (sp.commit who new c).st ((new.map (fun m => (who, m))).map Prod.snd) c []
      (sp.unread.take (evictCount sp.cap sp.maxm new sp.unread)) where
  start := rfl
  mw := fun h => by simp [Spec.commit, h]
  bw := fun h => by simp [Spec.commit, h, Function.comp_def]
  mr := rfl
  br := rfl
  md := by
    have := evictCount_le_length sp.cap sp.maxm new sp.unread
    show sp.st.md + _ = _
    rw [List.length_take, Nat.min_eq_left this]
  bd := rfl

/-- What an attempt to write does. -/
structure TryFlow (sp : Spec) (who : Nat) (msgs : List Msg) (env : Env) (sp' : Spec) (rc : Spec.WRes)
    (lost : List Msg) : Prop where
  all : (sp' = sp ∧ lost = [] ∧ (rc = .wait ∨ ∃ r : Int, r ≤ 0 ∧ rc = .ret r)) ∨
    (Flow sp sp' (msgs.map fun m => (who, m)) [] lost ∧
     Count sp.st sp'.st ((msgs.map fun m => (who, m)).map Prod.snd) env.wakeOk [] lost ∧
     (rc = .ret (bytesOf msgs) ∨ rc = .ret (-1) ∧ ¬ env.good))
  hs : sp'.hs = sp.hs
  cap : sp'.cap = sp.cap
  maxm : sp'.maxm = sp.maxm

theorem tryFlow (sp : Spec) (who : Nat) (nb : Bool) (msgs : List Msg) (env : Env)
    (hf : sp.first ≤ sp.log.length) :
    ∃ lost, TryFlow sp who msgs env (sp.tryWrite who nb msgs env).1 (sp.tryWrite who nb msgs env).2 lost := by
  have hc := tryCase sp who nb msgs env
  generalize sp.tryWrite who nb msgs env = y at *
  cases hc with
  | no rc h => exact ⟨[], .inl ⟨rfl, rfl, .inr ⟨rc, by omega, rfl⟩⟩, rfl, rfl, rfl⟩
  | full => exact ⟨[], .inl ⟨rfl, rfl, .inr ⟨0, by omega, rfl⟩⟩, rfl, rfl, rfl⟩
  | wait => exact ⟨[], .inl ⟨rfl, rfl, .inl rfl⟩, rfl, rfl, rfl⟩
  | done _ hd hw =>
    refine ⟨_, .inr ⟨commit_flow _ _ _ _ hf hd, ?_, .inl rfl⟩, rfl, rfl, rfl⟩
    rw [hw]; exact commit_count _ _ _ _
  | bad _ hd hg => exact ⟨_, .inr ⟨commit_flow _ _ _ _ hf hd, commit_count _ _ _ _, .inr ⟨rfl, hg⟩⟩, rfl, rfl, rfl⟩

theorem Flow.trans {sp s1 s2 : Spec} {n1 n2 : List (Nat × Msg)} {l1 l2 : List Msg}
    (h1 : Flow sp s1 n1 [] l1) (h2 : Flow s1 s2 n2 [] l2) : Flow sp s2 (n1 ++ n2) [] (l1 ++ l2) where
  tlog := by rw [h2.tlog, h1.tlog, List.append_assoc]
  queue := by
    have e1 := h1.queue; have e2 := h2.queue
    simp only [List.nil_append] at e1 e2 ⊢
    rw [List.map_append, ← List.append_assoc, e1, List.append_assoc, e2, List.append_assoc]
  nodrop := fun h => by
    have : s1.drop = false := by unfold Spec.drop at *; rw [h1.gf]; exact h
    rw [h1.nodrop h, h2.nodrop this]; rfl
  gf := h2.gf.trans h1.gf
  fle := h2.fle

theorem Count.trans {s0 s1 s2 : SStat} {n1 n2 l1 l2 : List Msg} {c1 c2 : Bool}
    (h1 : Count s0 s1 n1 c1 [] l1) (h2 : Count s1 s2 n2 c2 [] l2) :
    Count s0 s2 (n1 ++ n2) (c1 && c2) [] (l1 ++ l2) where
  start := h2.start.trans h1.start
  mw := fun h => by
    simp at h; rw [h2.mw h.2, h1.mw h.1]; simp; omega
  bw := fun h => by
    simp at h; rw [h2.bw h.2, h1.bw h.1]; simp; omega
  mr := by rw [h2.mr, h1.mr]; simp
  br := by rw [h2.br, h1.br]; simp
  md := by rw [h2.md, h1.md]; simp; omega
  bd := by rw [h2.bd, h1.bd]; simp; omega

/-- What a return value says was accepted. -/
def Spec.WRes.acc (rc : Spec.WRes) (iov : List Msg) : List Msg :=
  match rc with
  | .ret r => if r > 0 then iov else []
  | .wait => []

/-- What a call of `shr_writev` does.  `pend`: the cached messages before, `pend'`: after. -/
structure WFlow (sp : Spec) (k : Nat) (pend iov : List Msg) (good : Prop) (sp' : Spec) (pend' : List Msg)
    (rc : Spec.WRes) (new lost : List Msg) (cnt : Bool) : Prop where
  flow : Flow sp sp' (new.map fun m => (k, m)) [] lost
  count : Count sp.st sp'.st ((new.map fun m => (k, m)).map Prod.snd) cnt [] lost
  good_cnt : good → cnt = true
  /-- what is cached and what was accepted goes into the ring or stays cached, in order -/
  acct : good → pend ++ rc.acc iov = new ++ pend'
  /-- without a cache the batch is put into the ring if it is accepted; it may also be in the ring
  if the call returns -1 -/
  ub : pend = [] → pend' = [] → new = rc.acc iov ∨
    (rc = .ret (-1) ∧ new = iov)
  hs : sp'.hs = sp.hs
  cap : sp'.cap = sp.cap
  maxm : sp'.maxm = sp.maxm

theorem WFlow.same {sp : Spec} {k : Nat} {pend iov : List Msg} {good : Prop} {rc : Spec.WRes}
    (hf : sp.first ≤ sp.log.length) (hrc : rc.acc iov = []) :
    WFlow sp k pend iov good sp pend rc [] [] true where
  flow := Flow.refl rfl rfl rfl hf
  count := Count.refl _ _
  good_cnt := fun _ => rfl
  acct := fun _ => by rw [hrc]; simp
  ub := fun _ _ => by rw [hrc]; exact .inl rfl
  hs := rfl
  cap := rfl
  maxm := rfl

/-- A direct write of `iov` with an empty cache. -/
theorem tryWrite_wflow (sp : Spec) (k : Nat) (nb : Bool) {iov : List Msg} (env : Env) (good : Prop)
    (hg : good → env.good) (hf : sp.first ≤ sp.log.length) (hpos : 0 < bytesOf iov) :
    ∃ new lost cnt, WFlow sp k [] iov good (sp.tryWrite k nb iov env).1 [] (sp.tryWrite k nb iov env).2 new lost cnt ∧
      (new = [] ∨ new = iov) := by
  obtain ⟨lost, h⟩ := tryFlow sp k nb iov env hf
  generalize sp.tryWrite k nb iov env = y at *
  obtain ⟨sp', rc⟩ := y
  dsimp only at *
  rcases h.all with ⟨rfl, rfl, hrc⟩ | ⟨h1, h2, h3⟩
  · refine ⟨[], [], true, WFlow.same hf ?_, .inl rfl⟩
    rcases hrc with rfl | ⟨r, hr, rfl⟩
    · rfl
    · unfold Spec.WRes.acc; dsimp only; rw [if_neg (by omega)]
  · refine ⟨iov, lost, env.wakeOk, ⟨h1, h2, fun g => (hg g).1, fun g => ?_, fun _ _ => ?_, h.hs, h.cap, h.maxm⟩, .inr rfl⟩
    · rcases h3 with rfl | ⟨_, h3⟩
      · unfold Spec.WRes.acc; dsimp only; rw [if_pos (by omega)]; simp
      · exact absurd (hg g) h3
    · rcases h3 with rfl | ⟨rfl, _⟩
      · unfold Spec.WRes.acc; dsimp only; rw [if_pos (by omega)]; exact .inl rfl
      · exact .inr ⟨rfl, rfl⟩

theorem HRel.pend_nil {sp : Spec} {h : Handle} {sh : SHandle} (hh : HRel sp h sh)
    (hb : (sh.flags.has SHR_WRONLY && sh.flags.has SHR_BUFFERED) = false) : sh.pend = [] := by
  have h0 := hh.nbuf hb
  have hc := hh.cache
  rw [h0] at hc
  exact hc.pend_nil

theorem writev_wflow (sp : Spec) (k : Nat) (sh : SHandle) (iov : List Msg) (envF env : Env)
    (hf : sp.first ≤ sp.log.length) (hne : ∀ b ∈ sh.pend, b ≠ [])
    (hub : sh.flags.has SHR_BUFFERED = false → sh.pend = []) :
    ∃ new lost cnt, WFlow sp k sh.pend iov (envF.good ∧ env.good) (sp.writev k sh iov envF env).1
      (sp.writev k sh iov envF env).2.1.pend (sp.writev k sh iov envF env).2.2 new lost cnt := by
  unfold Spec.writev
  dsimp only
  by_cases hl : Legal sp.cap sp.maxm iov
  · have hpos : 0 < bytesOf iov := bytesOf_pos hl.2.1 hl.1
    have acc_pos : (Spec.WRes.ret (bytesOf iov)).acc iov = iov := if_pos (by omega)
    rw [if_neg (by simp [hl])]
    by_cases hb : sh.flags.has SHR_BUFFERED = false
    · rw [if_pos hb]
      dsimp only
      rw [hub hb]
      obtain ⟨new, lost, cnt, h, _⟩ := tryWrite_wflow sp k (sh.flags.has SHR_NONBLOCK) (iov := iov) env
        (envF.good ∧ env.good) (fun g => g.2) hf hpos
      exact ⟨new, lost, cnt, h⟩
    · rw [if_neg hb]
      by_cases hc : Spec.cacheFits sh iov
      · rw [if_pos hc]
        exact ⟨[], [], true, Flow.refl rfl rfl rfl hf, Count.refl _ _, fun _ => rfl,
          fun _ => by dsimp only; rw [acc_pos]; rfl,
          fun _ h => absurd (List.append_eq_nil_iff.mp h).2 hl.1, rfl, rfl, rfl⟩
      · rw [if_neg hc]
        by_cases hp : sh.pend = []
        · rw [if_pos hp]
          dsimp only
          rw [hp]
          obtain ⟨new, lost, cnt, h, _⟩ := tryWrite_wflow sp k (sh.flags.has SHR_NONBLOCK) (iov := iov) env
            (envF.good ∧ env.good) (fun g => g.2) hf hpos
          exact ⟨new, lost, cnt, h⟩
        · rw [if_neg hp]
          have hppos : 0 < bytesOf sh.pend := bytesOf_pos hne hp
          obtain ⟨lost, h⟩ := tryFlow sp k (sh.flags.has SHR_NONBLOCK) sh.pend envF hf
          generalize sp.tryWrite k (sh.flags.has SHR_NONBLOCK) sh.pend envF = y at *
          obtain ⟨s1, rc⟩ := y
          dsimp only at *
          rcases h.all with ⟨rfl, rfl, hrc⟩ | ⟨h1, h2, h3⟩
          · rcases hrc with rfl | ⟨r, hr, rfl⟩
            · exact ⟨[], [], true, WFlow.same hf rfl⟩
            · dsimp only
              rw [if_pos hr]
              refine ⟨[], [], true, WFlow.same hf ?_⟩
              unfold Spec.WRes.acc; dsimp only; rw [if_neg (by omega)]
          · rcases h3 with rfl | ⟨rfl, hng⟩
            · dsimp only
              rw [if_neg (by omega)]
              by_cases hc2 : Spec.cacheFits { sh with pend := [] } iov
              · rw [if_pos hc2]
                exact ⟨sh.pend, lost, envF.wakeOk, h1, h2, fun g => g.1.1, fun _ => by dsimp only; rw [acc_pos],
                  fun h => absurd h hp, h.hs, h.cap, h.maxm⟩
              · rw [if_neg hc2]
                obtain ⟨new, lost2, cnt, h4, _⟩ := tryWrite_wflow s1 k (sh.flags.has SHR_NONBLOCK) (iov := iov) env
                  (envF.good ∧ env.good) (fun g => g.2) h1.fle hpos
                refine ⟨sh.pend ++ new, lost ++ lost2, envF.wakeOk && cnt, ?_, ?_, ?_, ?_, fun h => absurd h hp, ?_, ?_, ?_⟩
                · rw [List.map_append]; exact h1.trans h4.flow
                · rw [List.map_append, List.map_append]; exact h2.trans h4.count
                · intro g; rw [g.1.1, h4.good_cnt g]; rfl
                · intro g
                  have := h4.acct g
                  simp only [List.nil_append, List.append_nil] at this ⊢
                  rw [this]
                · exact h4.hs.trans h.hs
                · exact h4.cap.trans h.cap
                · exact h4.maxm.trans h.maxm
            · dsimp only
              rw [if_pos (by omega)]
              exact ⟨sh.pend, lost, envF.wakeOk, h1, h2, fun g => g.1.1, fun g => absurd g.1 hng, fun h => absurd h hp, h.hs, h.cap, h.maxm⟩
  · rw [if_pos hl]
    exact ⟨[], [], true, WFlow.same hf rfl⟩

/-- A flush: everything cached goes into the ring, or nothing. -/
theorem flush_wflow (sp : Spec) (k : Nat) (sh : SHandle) (wait : Bool) (env : Env)
    (hf : sp.first ≤ sp.log.length) (hne : ∀ b ∈ sh.pend, b ≠ []) :
    ∃ new lost cnt, WFlow sp k sh.pend [] env.good (sp.flush k sh wait env).1
      (sp.flush k sh wait env).2.1.pend (sp.flush k sh wait env).2.2 new lost cnt := by
  unfold Spec.flush
  have acc_nil : ∀ rc : Spec.WRes, rc.acc [] = [] := by
    intro rc; cases rc <;> simp [Spec.WRes.acc]
  by_cases hp : sh.pend = []
  · rw [if_pos hp]
    exact ⟨[], [], true, WFlow.same hf (acc_nil _)⟩
  rw [if_neg hp]
  dsimp only
  split
  · exact ⟨[], [], true, WFlow.same hf (acc_nil _)⟩
  · have hppos : 0 < bytesOf sh.pend := bytesOf_pos hne hp
    obtain ⟨lost, h⟩ := tryFlow sp k (sh.flags.has SHR_NONBLOCK && !wait) sh.pend env hf
    generalize sp.tryWrite k (sh.flags.has SHR_NONBLOCK && !wait) sh.pend env = y at *
    obtain ⟨s1, rc⟩ := y
    dsimp only at *
    rcases h.all with ⟨rfl, rfl, hrc⟩ | ⟨h1, h2, h3⟩
    · rcases hrc with rfl | ⟨r, hr, rfl⟩
      · exact ⟨[], [], true, WFlow.same hf rfl⟩
      · dsimp only
        rw [if_neg (by omega)]
        exact ⟨[], [], true, WFlow.same hf (acc_nil _)⟩
    · rcases h3 with rfl | ⟨rfl, hng⟩
      · dsimp only
        rw [if_pos (by omega)]
        exact ⟨sh.pend, lost, env.wakeOk, h1, h2, fun g => g.1, fun _ => by simp [acc_nil], fun h => absurd h hp, h.hs, h.cap, h.maxm⟩
      · dsimp only
        exact ⟨sh.pend, lost, env.wakeOk, h1, h2, fun g => g.1, fun g => absurd g hng, fun h => absurd h hp, h.hs, h.cap, h.maxm⟩

/-! ## One call -/

/-- Messages of a handle that are accepted but not in the ring (for a closed handle: never will be). -/
def pendOf : Life SHandle (List Msg) → List Msg
  | .never => []
  | .live sh => sh.pend
  | .gone b => b

@[simp] theorem byHandle_append (k : Nat) (l l' : List (Nat × Msg)) :
    byHandle k (l ++ l') = byHandle k l ++ byHandle k l' := by simp [byHandle]
@[simp] theorem byHandle_nil (k : Nat) : byHandle k [] = [] := rfl
theorem byHandle_same (k : Nat) (l : List Msg) : byHandle k (l.map fun m => (k, m)) = l := by
  simp [byHandle, List.filter_map, Function.comp_def]
theorem byHandle_other {k j : Nat} (h : j ≠ k) (l : List Msg) : byHandle j (l.map fun m => (k, m)) = [] := by
  simp only [byHandle, List.filter_map, Function.comp_def]
  have : (k == j) = false := by simpa using fun e => h e.symm
  simp [this]

/-- What one call does to queue, counters and caches. -/
structure StepFlow (sp : Spec) (op : Op) (sp' : Spec) (o : Out) (new : List (Nat × Msg)) (lost : List Msg) : Prop where
  tlog : sp'.tlog = sp.tlog ++ new
  flow : sp.farm = false → Flow sp sp' new o.msgs lost
  count : (∀ k t env, op ≠ .stat k (some t) env) → ∃ cnt, Count sp.st sp'.st (new.map Prod.snd) cnt o.msgs lost ∧
    (op.good → cnt = true)
  reset : ∀ k t env, op = .stat k (some t) env → sp'.st = sp.st ∨ sp'.st = { start := t }
  acct : op.good → ∀ k, pendOf (sp.hs k) ++ (if op.handle = k then acceptedBy op o else []) =
    byHandle k new ++ pendOf (sp'.hs k)
  who : ∀ e ∈ new, e.1 = op.handle
  ub : (∀ k, pendOf (sp.hs k) = []) → (∀ k, pendOf (sp'.hs k) = []) → new.map Prod.snd = acceptedBy op o ∨
    ∃ k iov e1 e2, op = .writev k iov e1 e2 ∧ o = .wrote (-1) ∧ new.map Prod.snd = iov

theorem upd_same {α : Type} (f : Nat → α) (k : Nat) (v : α) : upd f k v k = v := by simp [upd]
theorem upd_other {α : Type} (f : Nat → α) {k j : Nat} (v : α) (h : j ≠ k) : upd f k v j = f j := by
  simp [upd, h]

theorem StepFlow.nothing {sp : Spec} {op : Op} {sp' : Spec} {o : Out} (hf : sp.first ≤ sp.log.length)
    (h1 : sp'.tlog = sp.tlog) (h2 : sp'.first = sp.first) (h3 : sp'.gflags = sp.gflags)
    (h4 : (∀ k t env, op ≠ .stat k (some t) env) → sp'.st = sp.st) (h4' : ∀ k t env, op = .stat k (some t) env → sp'.st = sp.st ∨ sp'.st = { start := t })
    (h5 : o.msgs = []) (h6 : acceptedBy op o = [])
    (h7 : ∀ k, pendOf (sp'.hs k) = pendOf (sp.hs k)) : StepFlow sp op sp' o [] [] where
  tlog := by simp [h1]
  flow := fun _ => by rw [h5]; exact Flow.refl h1 h2 h3 hf
  count := fun h => ⟨true, by rw [h5, h4 h]; exact Count.refl _ _, fun _ => rfl⟩
  reset := h4'
  acct := fun _ k => by simp [h6, h7]
  who := by simp
  ub := fun _ _ => .inl (by simp [h6])

theorem acceptedBy_misuse (op : Op) : acceptedBy op .misuse = [] := by cases op <;> rfl

theorem WFlow.step {sp : Spec} {k : Nat} {sh : SHandle} {iov : List Msg} {op : Op} {sp' : Spec} {pend' : List Msg}
    {rc : Spec.WRes} {new lost : List Msg} {cnt : Bool} {o : Out} {l : Life SHandle (List Msg)}
    (h : WFlow sp k sh.pend iov op.good sp' pend' rc new lost cnt)
    (hk : sp.hs k = .live sh) (hl : pendOf l = pend') (ho : o.msgs = []) (hop : op.handle = k)
    (hns : ∀ k t env, op ≠ .stat k (some t) env) (hacc : acceptedBy op o = rc.acc iov)
    (hm1 : rc = .ret (-1) → iov = [] ∨ ∃ k e1 e2, op = .writev k iov e1 e2 ∧ o = .wrote (-1)) :
    StepFlow sp op { sp' with hs := upd sp.hs k l } o (new.map fun m => (k, m)) lost where
  tlog := h.flow.tlog
  flow := fun _ => by rw [ho]; exact h.flow.hs _
  count := fun _ => ⟨cnt, by rw [ho]; exact h.count, h.good_cnt⟩
  reset := fun k t env e => absurd e (hns k t env)
  acct := fun g j => by
    dsimp only
    by_cases hj : j = k
    · subst hj
      rw [upd_same, hl, byHandle_same, ← h.acct g, hk, if_pos hop, hacc]
      rfl
    · rw [upd_other _ _ hj, byHandle_other hj, if_neg (by rw [hop]; exact fun e => hj e.symm)]
      simp
  who := by intro e he; simp at he; obtain ⟨_, _, rfl⟩ := he; exact hop.symm
  ub := fun h1 h2 => by
    have e : (new.map fun m => (k, m)).map Prod.snd = new := by simp [Function.comp_def]
    rw [e]
    have h1 := h1 k
    have h2 := h2 k
    rw [hk] at h1
    dsimp only at h2
    rw [upd_same, hl] at h2
    rcases h.ub h1 h2 with h3 | ⟨h3, h4⟩
    · exact .inl (h3.trans hacc.symm)
    · rcases hm1 h3 with rfl | ⟨k, e1, e2, h5, h6⟩
      · refine .inl ?_
        rw [h4, hacc, h3]; rfl
      · exact .inr ⟨k, iov, e1, e2, h5, h6, h4⟩

theorem WRes.out_msgs (rc : Spec.WRes) : rc.out.msgs = [] := by cases rc <;> rfl

/-- One call. -/
theorem step_flow {s : Sys} {sp : Spec} (op : Op) (hr : Rel s sp) :
    ∃ new lost, StepFlow sp op (sp.step op).1 (sp.step op).2 new lost := by
  have hf := hr.ring.fle
  have hlive : ∀ k sh, sp.hs k = .live sh → (∀ b ∈ sh.pend, b ≠ []) ∧
      ((sh.flags.has SHR_WRONLY && sh.flags.has SHR_BUFFERED) = false → sh.pend = []) := by
    intro k sh hk
    have := hr.hs k
    rw [hk] at this
    cases h2 : s.hs k with
    | never => rw [h2] at this; exact this.elim
    | live hd => rw [h2] at this; exact ⟨this.cache.ne, this.pend_nil⟩
    | gone b => rw [h2] at this; exact this.elim
  have mis : ∀ op, (∀ k t env, op ≠ Op.stat k (some t) env) → StepFlow sp op sp .misuse [] [] := fun op _ =>
    StepFlow.nothing hf rfl rfl rfl (fun _ => rfl) (fun _ _ _ _ => .inl rfl) rfl (acceptedBy_misuse op) (fun _ => rfl)
  cases op with
  | «open» k flags env =>
    unfold Spec.step
    dsimp only
    split
    · rename_i hk
      split
      · exact ⟨[], [], StepFlow.nothing hf rfl rfl rfl (fun _ => rfl) (fun _ _ _ _ => .inl rfl) rfl rfl (fun _ => rfl)⟩
      · split
        · exact ⟨[], [], StepFlow.nothing hf rfl rfl rfl (fun _ => rfl) (fun _ _ _ _ => .inl rfl) rfl rfl (fun _ => rfl)⟩
        · rename_i sh heq
          refine ⟨[], [], StepFlow.nothing hf rfl rfl rfl (fun _ => rfl) (fun _ _ _ _ => .inl rfl) rfl rfl (fun j => ?_)⟩
          have hp : sh.pend = [] := by
            unfold Spec.openH at heq
            dsimp only at heq
            split at heq
            · cases heq
            · cases heq; rfl
          by_cases hj : j = k
          · subst hj; dsimp only; rw [upd_same, hk]; simp [pendOf, hp]
          · dsimp only; rw [upd_other _ _ hj]
    · exact ⟨[], [], mis _ (by intros; simp)⟩
  | writev k iov envF env =>
    unfold Spec.step
    dsimp only
    split
    · rename_i sh hk
      split
      · exact ⟨[], [], mis _ (by intros; simp)⟩
      · rename_i hw
        have hw : sh.flags.has SHR_WRONLY = true := by simpa using hw
        obtain ⟨hne, hub⟩ := hlive k sh hk
        obtain ⟨new, lost, cnt, h⟩ := writev_wflow sp k sh iov envF env hf hne (by simpa [hw] using hub)
        refine ⟨_, lost, h.step hk rfl (WRes.out_msgs _) rfl (by intros; simp) ?_
          (fun e => .inr ⟨k, envF, env, rfl, by rw [e]; rfl⟩)⟩
        generalize (sp.writev k sh iov envF env).2.2 = rc
        cases rc <;> rfl
    · exact ⟨[], [], mis _ (by intros; simp)⟩
  | readv k buf niov env =>
    unfold Spec.step
    dsimp only
    split
    · rename_i sh hk
      split
      · exact ⟨[], [], mis _ (by intros; simp)⟩
      · have hp : ∀ j, pendOf (upd sp.hs k (.live (sp.readv sh buf niov env).2.1) j) = pendOf (sp.hs j) := by
          intro j
          by_cases hj : j = k
          · subst hj
            rw [upd_same, hk]
            show (sp.readv sh buf niov env).2.1.pend = sh.pend
            unfold Spec.readv Spec.catchUp; dsimp only; repeat' split
            all_goals rfl
          · rw [upd_other _ _ hj]
        have hacc : ∀ o, acceptedBy (.readv k buf niov env) o = [] := by intro o; cases o <;> rfl
        refine ⟨[], [], ?_⟩
        unfold Spec.readv at hp ⊢
        by_cases hg : buf.length = 0 ∨ niov = 0 ∨ env.lockOk = false
        · rw [if_pos hg] at hp ⊢
          exact StepFlow.nothing hf rfl rfl rfl (fun _ => rfl) (fun _ _ _ _ => .inl rfl) rfl rfl hp
        rw [if_neg hg] at hp ⊢
        dsimp only at hp ⊢
        by_cases hU : sp.readable sh = []
        · rw [if_pos hU] at hp ⊢
          split
          · rename_i hn; rw [if_pos hn] at hp
            exact StepFlow.nothing hf rfl rfl rfl (fun _ => rfl) (fun _ _ _ _ => .inl rfl) rfl rfl hp
          · rename_i hn; rw [if_neg hn] at hp
            cases hw : env.waitRc <;> rw [hw] at hp <;>
            exact StepFlow.nothing hf rfl rfl rfl (fun _ => rfl) (fun _ _ _ _ => .inl rfl) rfl (hacc _) hp
        · rw [if_neg hU] at hp ⊢
          have htb := takeCount_bytes (sp.readable sh) (min buf.length SSIZE_MAX) niov
          have htl := takeCount_le_length (sp.readable sh) (min buf.length SSIZE_MAX) niov
          generalize takeCount (sp.readable sh) (min buf.length SSIZE_MAX) niov = t at *
          have hm : ∀ rc, (Out.read rc (layout 0 ((sp.readable sh).take t))
              (put buf 0 ((sp.readable sh).take t).flatten)).msgs = (sp.readable sh).take t := by
            intro rc; exact slices_layout _ _ _ (by omega)
          refine ⟨by simp, ?_, ?_, ?_, ?_, ?_, ?_⟩
          · intro hnf
            have hru : sp.readable sh = sp.unread := by simp [Spec.readable, hnf]
            rw [hm]
            rw [hru] at htl ⊢
            have hul : sp.unread.length = sp.log.length - sp.first := by simp [Spec.unread]
            simp only [hnf, Bool.false_eq_true, if_false]
            refine ⟨by simp, ?_, fun _ => rfl, rfl, ?_⟩
            · simp only [List.map_nil, List.append_nil]
              show sp.unread = sp.unread.take t ++ sp.log.drop (sp.first + t)
              rw [← List.drop_drop]
              exact (List.take_append_drop t _).symm
            · show sp.first + t ≤ sp.log.length; omega
          · intro _
            refine ⟨true, ?_, fun _ => rfl⟩
            rw [hm]
            refine ⟨rfl, fun _ => rfl, fun _ => rfl, ?_, rfl, rfl, rfl⟩
            show sp.st.mr + t = _
            rw [List.length_take, Nat.min_eq_left htl]
          · intro _ _ _ e; cases e
          · intro _ j
            rw [hacc, hp]; simp
          · simp
          · intro _ _; exact .inl (by rw [hacc]; rfl)
    · exact ⟨[], [], mis _ (by intros; simp)⟩
  | flush k wait env =>
    unfold Spec.step
    dsimp only
    split
    · rename_i sh hk
      split
      · exact ⟨[], [], mis _ (by intros; simp)⟩
      · obtain ⟨hne, hub⟩ := hlive k sh hk
        obtain ⟨new, lost, cnt, h⟩ := flush_wflow sp k sh wait env hf hne
        refine ⟨_, lost, h.step hk rfl (WRes.out_msgs _) rfl (by intros; simp) ?_ (fun _ => .inl rfl)⟩
        generalize (sp.flush k sh wait env).2.2 = rc
        cases rc <;> simp [Spec.WRes.acc, acceptedBy]
    · exact ⟨[], [], mis _ (by intros; simp)⟩
  | close k env =>
    unfold Spec.step
    dsimp only
    split
    · rename_i sh hk
      obtain ⟨hne, hub⟩ := hlive k sh hk
      obtain ⟨new, lost, cnt, h⟩ := flush_wflow sp k sh false env hf hne
      split
      · rename_i hw
        have h2 := h.step (o := .blocked) (op := .close k env) (l := .live (sp.flush k sh false env).2.1) hk rfl rfl rfl
          (by intros; simp) (by rw [hw]; rfl) (fun _ => .inl rfl)
        have e : upd sp.hs k (.live (sp.flush k sh false env).2.1) k = .live (sp.flush k sh false env).2.1 := upd_same _ _ _
        refine ⟨_, lost, ⟨h.flow.tlog, fun _ => h.flow, h2.count, h2.reset, ?_, h2.who, ?_⟩⟩
        rotate_left
        · intro h5 h6
          refine h2.ub h5 (fun j => ?_)
          replace h6 := h6 j
          dsimp only at h6 ⊢
          rw [h.hs] at h6
          by_cases hj : j = k
          · subst hj
            rw [upd_same]
            rw [hk] at h6
            have h6 : sh.pend = [] := h6
            show (sp.flush j sh false env).2.1.pend = []
            unfold Spec.flush
            rw [if_pos h6]; exact h6
          · rw [upd_other _ _ hj]; exact h6
        intro g j
        have h3 := h2.acct g j
        dsimp only at h3 ⊢
        rw [h.hs]
        rw [h3]
        congr 1
        by_cases hj : j = k
        · subst hj
          rw [upd_same, hk]
          show (sp.flush j sh false env).2.1.pend = sh.pend
          unfold Spec.flush at hw ⊢
          dsimp only at hw ⊢
          split at hw
          · cases hw
          · rename_i hp; rw [if_neg hp]
            split at hw
            · cases hw
            · rename_i hc; rw [if_neg hc]
              dsimp only
              dsimp only at hw
              rw [hw]
        · rw [upd_other _ _ hj]
      · refine ⟨_, lost, h.step hk rfl rfl rfl (by intros; simp) ?_ (fun _ => .inl rfl)⟩
        generalize (sp.flush k sh false env).2.2 = rc
        cases rc <;> simp [Spec.WRes.acc, acceptedBy]
    · exact ⟨[], [], mis _ (by intros; simp)⟩
  | stat k reset env =>
    unfold Spec.step
    dsimp only
    split
    · rename_i sh hk
      split
      · exact ⟨[], [], StepFlow.nothing hf rfl rfl rfl (fun _ => rfl) (fun _ _ _ _ => .inl rfl) rfl rfl (fun _ => rfl)⟩
      · cases reset with
        | none => exact ⟨[], [], StepFlow.nothing hf rfl rfl rfl (fun _ => rfl) (fun _ _ _ _ => .inl rfl) rfl rfl (fun _ => rfl)⟩
        | some t =>
          exact ⟨[], [], StepFlow.nothing hf rfl rfl rfl (fun h => absurd rfl (h k t env))
            (fun _ t' _ e => by cases e; exact .inr rfl) rfl rfl (fun _ => rfl)⟩
    · exact ⟨[], [], StepFlow.nothing hf rfl rfl rfl (fun _ => rfl) (fun _ _ _ _ => .inl rfl) rfl rfl (fun _ => rfl)⟩
  | farmStat k reset =>
    unfold Spec.step
    dsimp only
    split
    · rename_i sh hk
      split
      · exact ⟨[], [], mis _ (by intros; simp)⟩
      · refine ⟨[], [], StepFlow.nothing hf rfl rfl rfl (fun _ => rfl) (fun _ _ _ _ => .inl rfl) rfl rfl (fun j => ?_)⟩
        by_cases hj : j = k
        · subst hj; dsimp only; rw [upd_same, hk]; split <;> rfl
        · dsimp only; rw [upd_other _ _ hj]
    · exact ⟨[], [], mis _ (by intros; simp)⟩
  | appdata k get set sz env =>
    unfold Spec.step
    dsimp only
    split
    · refine ⟨[], [], ?_⟩
      unfold Spec.appdata
      dsimp only
      repeat' split
      all_goals exact StepFlow.nothing hf rfl rfl rfl (fun _ => rfl) (fun _ _ _ _ => .inl rfl) rfl rfl (fun _ => rfl)
    · exact ⟨[], [], mis _ (by intros; simp)⟩

end Shr
