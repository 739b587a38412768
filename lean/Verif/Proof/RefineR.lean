import Verif.Proof.RefineW
/-! # Refinement, part 2: reads, argument checks -/
namespace Shr

/-! ## Argument check of writes -/

theorem lenLoop_spec {sn smm niov : Nat} (hsn : sn ≤ SSIZE_MAX) :
    ∀ (ls : List Nat) (len : Nat), len ≤ sn → (∀ l ∈ ls, 0 < l ∧ l ≤ SSIZE_MAX) →
      lenLoop sn smm niov ls len =
        if ls = [] then some len
        else if niov ≤ smm ∧ len + ls.sum ≤ sn then some (len + ls.sum) else none := by
  intro ls
  induction ls with
  | nil => intro len _ _; simp [lenLoop]
  | cons l ls ih =>
    intro len hlen hall
    obtain ⟨h0, h1⟩ := hall l (by simp)
    have hS := SSIZE_MAX_val
    have hw : wadd len l = len + l := wadd_eq (by rw [W_val]; omega)
    unfold lenLoop
    simp only [hw]
    rw [if_neg (by omega)]
    simp only [List.cons_ne_nil, if_false]
    have hsum : (l :: ls).sum = l + ls.sum := List.sum_cons
    generalize (l :: ls).sum = T at hsum
    by_cases hA : len + l > sn
    · have : ¬ (niov ≤ smm ∧ len + T ≤ sn) := by omega
      rw [if_neg this, if_pos hA]
      split <;> rfl
    · rw [if_neg (by omega), if_neg hA]
      by_cases hB : niov > smm
      · rw [if_pos hB, if_neg (by omega)]
      · rw [if_neg hB, ih (len + l) (by omega) (fun x hx => hall x (by simp [hx]))]
        by_cases hn : ls = []
        · subst hn
          simp only [List.sum_nil, Nat.add_zero] at hsum
          rw [if_pos rfl, if_pos (by omega), hsum]
        · rw [if_neg hn]
          by_cases hC : niov ≤ smm ∧ len + l + ls.sum ≤ sn
          · rw [if_pos hC, if_pos (by omega)]; congr 1; omega
          · rw [if_neg hC, if_neg (by omega)]

/-- The argument check accepts exactly the legal writes (no empty elements among them). -/
theorem lenCheck_spec {cap maxm : Nat} (hcap : cap ≤ SSIZE_MAX) {iov : List Msg}
    (hne : ∀ b ∈ iov, b ≠ [] ∧ b.length ≤ SSIZE_MAX) :
    lenCheck cap maxm (iov.map List.length) =
      if Legal cap maxm iov then some (bytesOf iov) else none := by
  unfold lenCheck
  rw [lenLoop_spec hcap _ 0 (by omega) (by
    intro l hl
    simp at hl
    obtain ⟨b, hb, rfl⟩ := hl
    exact ⟨List.length_pos_iff.mpr (hne b hb).1, (hne b hb).2⟩)]
  by_cases hnil : iov = []
  · subst hnil
    simp [Legal]
  · have : iov.map List.length ≠ [] := by simpa using hnil
    rw [if_neg this]
    have hb : 0 < bytesOf iov := bytesOf_pos (fun b hb => (hne b hb).1) hnil
    have hsum : (iov.map List.length).sum = bytesOf iov := rfl
    rw [hsum, List.length_map, Nat.zero_add]
    by_cases hL : Legal cap maxm iov
    · obtain ⟨_, _, h1, h2⟩ := id hL
      rw [if_pos ⟨h2, h1⟩, if_pos hL]
      simp only
      rw [if_neg (by omega)]
    · rw [if_neg hL, if_neg]
      rintro ⟨h1, h2⟩
      exact hL ⟨hnil, fun b hb => (hne b hb).1, h2, h1⟩

/-- What a caller of `shr_writev` owes: elements are memory objects (so at most SSIZE_MAX bytes), and no
element after the first is empty unless the first is (that case aborts: see C07). -/
def WriteWF (iov : List Msg) : Prop :=
  (∀ b ∈ iov, b.length ≤ SSIZE_MAX) ∧ (iov.head? = some [] ∨ ∀ b ∈ iov, b ≠ [])

theorem lenCheck_wf {cap maxm : Nat} (hcap : cap ≤ SSIZE_MAX) {iov : List Msg} (h : WriteWF iov) :
    lenCheck cap maxm (iov.map List.length) =
      if Legal cap maxm iov then some (bytesOf iov) else none := by
  rcases h.2 with h0 | h0
  · cases iov with
    | nil => simp at h0
    | cons b bs =>
      simp at h0
      subst h0
      rw [if_neg (fun hL => hL.2.1 [] (by simp) rfl)]
      simp [lenCheck, lenLoop, wadd]
  · exact lenCheck_spec hcap (fun b hb => ⟨h0 b hb, h.1 b hb⟩)

/-! ## Reads -/

/-- A reader's cursor represents its specification. -/
structure CurRel (sp : Spec) (c : RCur) (h : SHandle) : Prop where
  q : sp.farm = true → c.q = h.pos ∧ h.pos ≤ sp.log.length
  md : c.md = h.missed % W

theorem farmCatchUp_idem (r : Ring) (c : RCur) : farmCatchUp r (farmCatchUp r c) = farmCatchUp r c := by
  unfold farmCatchUp
  by_cases h : r.gflags.has SHR_FARM = true ∧ c.q < r.q
  · simp [h]
  · rw [if_neg h, if_neg h]

theorem next_msg_info_catchUp (r : Ring) (c : RCur) :
    next_msg_info r c = next_msg_info r (farmCatchUp r c) := by
  unfold next_msg_info
  rw [farmCatchUp_idem]

theorem RingRel.q_eq {r : Ring} {sp : Spec} (h : RingRel r sp) (hf : sp.farm = true) :
    r.q = sp.base := by
  rw [h.rep.q (by rw [h.gf]; exact hf), Nat.mod_eq_of_lt]
  have := (h.farm hf).2.2; have := h.ble; have := h.fle; omega

theorem catchUp_rel {r : Ring} {sp : Spec} (h : RingRel r sp) {c : RCur} {sh : SHandle}
    (hc : CurRel sp c sh) : CurRel sp (farmCatchUp r c) (sp.catchUp sh) := by
  unfold farmCatchUp Spec.catchUp
  cases hf : sp.farm
  · have : ¬ (r.gflags.has SHR_FARM = true ∧ c.q < r.q) := by
      rw [h.gf]; rintro ⟨h1, _⟩
      have : sp.farm = true := h1
      rw [hf] at this; simp at this
    rw [if_neg this]
    simpa using hc
  · obtain ⟨hq, hle⟩ := hc.q hf
    have hrq := h.q_eq hf
    have hgf : r.gflags.has SHR_FARM = true := by rw [h.gf]; exact hf
    have hlen := (h.farm hf).2.2; have hble := h.ble; have hfle := h.fle
    simp only [if_true]
    by_cases hlt : c.q < r.q
    · rw [if_pos ⟨hgf, hlt⟩]
      refine ⟨fun _ => ⟨?_, ?_⟩, ?_⟩
      · show r.q = max sh.pos sp.base; omega
      · show max sh.pos sp.base ≤ _; omega
      · show wadd c.md (wsub r.q c.q) = (sh.missed + (sp.base - sh.pos)) % W
        rw [hc.md, wadd_mod, wsub_eq (by omega) (by omega), hrq, hq]
    · rw [if_neg (fun x => hlt x.2)]
      refine ⟨fun _ => ⟨?_, ?_⟩, ?_⟩
      · show c.q = max sh.pos sp.base; omega
      · show max sh.pos sp.base ≤ _; omega
      · show c.md = (sh.missed + (sp.base - sh.pos)) % W
        rw [hc.md]
        have : sp.base - sh.pos = 0 := by omega
        rw [this, Nat.add_zero]

/-- What the reader sees is what the specification says it can read. -/
theorem rview_of {r : Ring} {sp : Spec} (h : RingRel r sp) {c : RCur} {sh : SHandle}
    (hc : CurRel sp c sh) :
    RView r (farmCatchUp r c) (if sp.farm then max sh.pos sp.base else sp.first) (sp.readable sh) := by
  have hc' := catchUp_rel h hc
  have hcv := h.cview
  obtain ⟨p0, hg⟩ := h.rep.geo
  cases hf : sp.farm
  · have hgf : r.gflags.has SHR_FARM = false := by rw [h.gf]; exact hf
    unfold Spec.readable
    simp only [hf, Bool.false_eq_true, if_false]
    exact ⟨hcv.core, hcv.ult, fun x => by rw [hgf] at x; simp at x, fun _ => ⟨hcv.m, hcv.r⟩⟩
  · have hgf : r.gflags.has SHR_FARM = true := by rw [h.gf]; exact hf
    obtain ⟨hq, hle⟩ := hc'.q hf
    have hrq := h.q_eq hf
    obtain ⟨_, hpos⟩ := hc.q hf
    have hcu : (sp.catchUp sh).pos = max sh.pos sp.base := by simp [Spec.catchUp, hf]
    have hlen := (h.farm hf).2.2; have hble := h.ble; have hfle := h.fle
    have hmp := h.rep.mp
    have hrl : sp.retained.length = sp.log.length - sp.base := by simp [Spec.retained]
    unfold Spec.readable
    simp only [hf, if_true]
    refine ⟨⟨(p0 + bytesOf (sp.retained.take (max sh.pos sp.base - sp.base))) % r.n, ?_⟩, hcv.ult,
      fun _ => ?_, fun x => by rw [hgf] at x; simp at x⟩
    · have := hg.toCore.drop (max sh.pos sp.base - sp.base)
      have e : sp.base + (max sh.pos sp.base - sp.base) = max sh.pos sp.base := by omega
      rw [e] at this
      have e2 : sp.retained.drop (max sh.pos sp.base - sp.base) = sp.log.drop (max sh.pos sp.base) := by
        unfold Spec.retained; rw [List.drop_drop]; congr 1
      rw [e2] at this
      exact this
    · refine ⟨by rw [hq, hcu], by omega, ?_, ?_⟩
      · simp; omega
      · simp; omega

theorem readable_eq_nil_or {sp : Spec} (sh : SHandle) :
    sp.readable sh = [] ∨ ∃ b U, sp.readable sh = b :: U := by
  cases sp.readable sh with
  | nil => exact .inl rfl
  | cons b U => exact .inr ⟨b, U, rfl⟩

theorem layout_nil (V : List Msg) (off : Nat) : (layout off V).length = V.length := layout_length off V

/-- Consuming `k` messages on a consuming ring. -/
theorem RingRel.consume {r : Ring} {sp : Spec} (h : RingRel r sp) (hf : sp.farm = false) {k : Nat}
    (hk : k ≤ sp.unread.length) :
    RingRel (consumed r k (bytesOf (sp.unread.take k))) { sp with first := sp.first + k } := by
  have hgf : r.gflags.has SHR_FARM = false := by rw [h.gf]; exact hf
  have hble := h.ble; have hfle := h.fle
  have hul : sp.unread.length = sp.log.length - sp.first := by simp [Spec.unread]
  obtain ⟨p0, hg⟩ := h.rep.geo
  have nbd := hg.nbd; have tot := hg.tot
  rw [SSIZE_MAX_val] at nbd
  have hu := h.rep.u
  have hd1 := bytesOf_take_add_drop sp.unread k
  have hru : r.u = bytesOf sp.unread := by rw [hu, h.unread_eq]
  have hule : bytesOf sp.unread ≤ r.n := by
    rw [← h.unread_eq]; have := bytesOf_drop_le sp.retained (sp.first - sp.base); omega
  unfold consumed
  simp only [hgf, Bool.false_eq_true, if_false]
  have hrl : sp.retained.length = sp.log.length - sp.base := by simp [Spec.retained]
  refine ⟨⟨⟨p0, hg.congr rfl rfl rfl rfl rfl⟩, ?_, h.rep.mp, ?_, ?_, h.rep.e, h.rep.q, ?_⟩, ?_, ?_,
    h.n, h.mm, h.gf, h.app, h.app_len, h.stat, ?_⟩
  · show sp.first + k - sp.base ≤ sp.retained.length; omega
  · show r.m - k = sp.retained.length - (sp.first + k - sp.base); rw [h.rep.m]; omega
  · show wsub r.u _ = bytesOf (sp.retained.drop (sp.first + k - sp.base))
    have : sp.retained.drop (sp.first + k - sp.base) = sp.unread.drop k := by
      rw [← h.unread_eq, List.drop_drop]; congr 1; omega
    rw [this, wsub_eq (by omega) (by rw [W_val]; omega)]; omega
  · show (r.r + k) % r.mm = (sp.base + (sp.first + k - sp.base)) % r.mm
    rw [h.rep.r, mod_add_mod_left]; congr 1; omega
  · show sp.base ≤ sp.first + k; omega
  · show sp.first + k ≤ sp.log.length; omega
  · intro hf'; have : sp.farm = true := hf'; rw [hf] at this; simp at this

theorem RingRel.setStat {r : Ring} {sp : Spec} (h : RingRel r sp) {st : Stat} {ss : SStat}
    (e : st = ss.toStat) : RingRel { r with stat := st } { sp with st := ss } := by
  obtain ⟨⟨⟨p1, g1⟩, a2, a3, a4, a5, a6, a7, a8⟩, b2, b3, b4, b5, b6, b7, b8, b9, b10⟩ := h
  exact ⟨⟨⟨p1, g1.congr rfl rfl rfl rfl rfl⟩, a2, a3, a4, a5, a6, a7, a8⟩, b2, b3, b4, b5, b6, b7, b8, e, b10⟩

/-- `shr_readv` behaves as specified; `bw_force` gets 1 iff messages remain for this reader, and
`bw_wake` towards the writers is called iff messages were delivered. -/
theorem readvAttempt_spec {r : Ring} {sp : Spec} (h : RingRel r sp) {c : RCur} {sh : SHandle}
    (hc : CurRel sp c sh) (hrd : sh.flags.has SHR_RDONLY = true) (hmd : (!sh.flags.has SHR_WRONLY) = true)
    (buf : List Byte) (hbl : buf.length < W) (niov : Nat) (env : Env) :
    Ok (readvAttempt sh.flags c buf buf.length niov env) r (fun _ => True) (fun x r' =>
      x.2.out = (sp.readv sh buf niov env).2.2 ∧
      RingRel r' (sp.readv sh buf niov env).1 ∧
      CurRel (sp.readv sh buf niov env).1 x.1 (sp.readv sh buf niov env).2.1 ∧
      (∀ rc iov b force wake, x.2 = .ret rc iov b force wake →
        (force = none ∨ force = some (decide
          ((sp.readv sh buf niov env).1.readable (sp.readv sh buf niov env).2.1 ≠ []))) ∧
        (wake = true ↔ rc > 0))) := by
  have hS := SSIZE_MAX_val
  unfold readvAttempt Spec.readv
  apply Ok.assert_bind hrd
  by_cases hb0 : buf.length = 0
  · rw [if_pos hb0, if_pos (Or.inl hb0)]
    exact Ok.pure ⟨rfl, h, hc, by rintro _ _ _ _ _ ⟨⟩; simp⟩
  rw [if_neg hb0]
  by_cases hn0 : niov = 0
  · rw [if_pos hn0, if_pos (Or.inr (Or.inl hn0))]
    exact Ok.pure ⟨rfl, h, hc, by rintro _ _ _ _ _ ⟨⟩; simp⟩
  rw [if_neg hn0]
  by_cases hlk : env.lockOk = false
  · rw [if_pos hlk, if_pos (Or.inr (Or.inr hlk))]
    exact Ok.pure ⟨rfl, h, hc, by rintro _ _ _ _ _ ⟨⟩; simp⟩
  rw [if_neg hlk]
  have hno : ¬ (buf.length = 0 ∨ niov = 0 ∨ env.lockOk = false) := by
    rintro (h | h | h) <;> contradiction
  rw [if_neg hno]
  apply Ok.get_bind
  rw [next_msg_info_catchUp]
  have hv := rview_of h hc
  have hc' := catchUp_rel h hc
  obtain ⟨hnil, hcons⟩ := next_msg_info_spec hv
  have hlen : (if buf.length > SSIZE_MAX then SSIZE_MAX else buf.length) = min buf.length SSIZE_MAX := by
    split <;> omega
  rcases readable_eq_nil_or (sp := sp) sh with hU | ⟨b, U, hU⟩
  · have hrd2 : sp.readable (sp.catchUp sh) = [] := by
      rw [← hU]; unfold Spec.readable Spec.catchUp
      cases sp.farm <;> simp
    refine Ok.lift_bind (hnil hU) ?_
    simp only [hU, if_true]
    apply Ok.assert_bind hmd
    by_cases hnbk : sh.flags.has SHR_NONBLOCK = true
    · simp only [if_pos hnbk]
      exact Ok.pure ⟨rfl, h, hc', by
        rintro _ _ _ _ _ ⟨⟩
        exact ⟨.inr (by simp [hrd2]), by simp⟩⟩
    · simp only [if_neg hnbk]
      cases env.waitRc with
      | none => exact Ok.pure ⟨rfl, h, hc', by rintro _ _ _ _ _ ⟨⟩⟩
      | some sc =>
        exact Ok.pure ⟨rfl, h, hc', by rintro _ _ _ _ _ ⟨⟩; cases sc <;> simp [WaitErr.rc]⟩
  · obtain ⟨mi, hnm, hinf⟩ := hcons b U hU
    refine Ok.lift_bind hnm ?_
    simp only [hU, List.cons_ne_nil, if_false]
    rw [hU] at hv
    unfold readvBody
    apply Ok.bind
    rw [hlen]
    have hrl := readLoop_spec niov (st := ⟨farmCatchUp r c, buf, 0, min buf.length SSIZE_MAX, 0, []⟩) hv hinf
      (by simp; omega) hbl (by simp; omega) (by
        intro hf
        obtain ⟨p0, hC⟩ := hv.core
        rw [(hv.cons hf).2]; exact Nat.mod_lt _ hC.mmpos) (fun _ => True) (fun _ _ => trivial)
    refine hrl.mono (fun _ _ => trivial) ?_
    rintro ⟨st, fl⟩ r1 ⟨e1, e2, e3⟩
    dsimp only at e1 e2 e3
    generalize ht : takeCount (b :: U) (min buf.length SSIZE_MAX) niov = t at *
    have htle : t ≤ (b :: U).length := by rw [← ht]; exact takeCount_le_length _ _ _
    have hst : st = ⟨advanced r (farmCatchUp r c) t, put buf 0 ((b :: U).take t).flatten,
        bytesOf ((b :: U).take t), min buf.length SSIZE_MAX - bytesOf ((b :: U).take t),
        bytesOf ((b :: U).take t), layout 0 ((b :: U).take t)⟩ := by
      rw [e1]; simp only [RdSt.deliver, List.length_take, Nat.min_eq_left htle, Nat.zero_add, List.nil_append]
    subst hst
    refine Ok.store_bind trivial ?_
    refine Ok.store_bind trivial ?_
    apply Ok.assert_bind hmd
    apply Ok.pure
    have hll : (layout 0 ((b :: U).take t)).length = t := by
      rw [layout_length, List.length_take, Nat.min_eq_left htle]
    rw [hll]
    have hne : ∀ x ∈ b :: U, x ≠ [] := by obtain ⟨p0, hC⟩ := hv.core; exact hC.ne
    have hbpos : t ≠ 0 → 0 < bytesOf ((b :: U).take t) := by
      intro h0
      apply bytesOf_pos
      · intro x hx; exact hne x (List.mem_of_mem_take hx)
      · simp [h0]
    have hgfeq : r.gflags.has SHR_FARM = sp.farm := by rw [h.gf]; rfl
    have hr1st : r1.stat = r.stat := by rw [e3]; unfold consumed; split <;> rfl
    refine ⟨?_, ?_, ?_, ?_⟩
    · show Out.read _ _ _ = _
      congr 1
      by_cases h0 : t = 0
      · simp [h0]
      · simp [h0, Nat.pos_of_ne_zero h0]
    · cases hf : sp.farm
      · have hUu : b :: U = sp.unread := by rw [← hU]; simp [Spec.readable, hf]
        have := (h.consume hf (k := t) (by rw [← hUu]; exact htle)).setStat
          (st := { { r1.stat with br := wadd r1.stat.br (bytesOf ((b :: U).take t)) } with
            mr := wadd r1.stat.mr t })
          (ss := { sp.st with br := sp.st.br + bytesOf ((b :: U).take t), mr := sp.st.mr + t })
          (by rw [hr1st, h.stat]; simp [SStat.toStat, wadd_mod])
        rw [e3, hUu]
        rw [e3, hUu] at this
        simpa using this
      · have hcr : r1 = r := by rw [e3]; unfold consumed; simp [hgfeq, hf]
        have := h.setStat
          (st := { { r1.stat with br := wadd r1.stat.br (bytesOf ((b :: U).take t)) } with
            mr := wadd r1.stat.mr t })
          (ss := { sp.st with br := sp.st.br + bytesOf ((b :: U).take t), mr := sp.st.mr + t })
          (by rw [hr1st, h.stat]; simp [SStat.toStat, wadd_mod])
        rw [hcr] at this ⊢
        simpa using this
    · unfold advanced
      rw [hgfeq]
      cases hf : sp.farm
      · simp only [Bool.false_eq_true, if_false]
        refine ⟨fun hf' => ?_, hc'.md⟩
        have : sp.farm = true := hf'
        rw [hf] at this; simp at this
      · simp only [if_true]
        obtain ⟨hq, hle⟩ := hc'.q hf
        refine ⟨fun _ => ⟨by dsimp only; rw [hq], ?_⟩, hc'.md⟩
        show (sp.catchUp sh).pos + t ≤ sp.log.length
        have : (sp.catchUp sh).pos = max sh.pos sp.base := by simp [Spec.catchUp, hf]
        have hUl : (b :: U).length = sp.log.length - max sh.pos sp.base := by
          rw [← hU]; simp [Spec.readable, hf]
        rw [this] at hle
        omega
    · rintro rc iov bb force wake ⟨⟩
      refine ⟨.inr ?_, ?_⟩
      · congr 1
        rw [e2]
        show decide (List.drop t (b :: U) ≠ []) = _
        congr 2
        rw [← hU]
        cases hf : sp.farm
        · simp only [Spec.readable, Spec.farm, Spec.unread, Spec.log] at *
          simp [hf, List.drop_drop]
        · have hcu : (sp.catchUp sh).pos = max sh.pos sp.base := by simp [Spec.catchUp, hf]
          simp only [if_true, hcu]
          unfold Spec.readable
          have : max (max sh.pos sp.base + t) sp.base = max sh.pos sp.base + t := by omega
          simp only [Spec.farm, Spec.log] at *
          simp [hf, List.drop_drop, this]
      · by_cases h0 : t = 0
        · simp [h0]
        · have := hbpos h0
          simp [Nat.pos_of_ne_zero h0]

end Shr
