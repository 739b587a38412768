import Verif.Proof.FarmKill
/-! # Reading from a farm ring some of whose writers were killed -/
namespace Shr
open M

/-- What a reader that stands at message number `c.q` sees. -/
structure FView (N K : Nat) (r : Ring) (c : RCur) (L : List Msg) (g : Nat) : Prop where
  farm : FarmR N K r L g
  lo : g ≤ c.q
  hi : c.q ≤ L.length

theorem next_msg_info_farm {N K : Nat} {r : Ring} {c : RCur} {L : List Msg} {g : Nat} (h : FView N K r c L g) :
    (L.drop c.q = [] → next_msg_info r c = .ok (c, none)) ∧
    (∀ b U, L.drop c.q = b :: U → b ≠ [] ∧ b.length ≤ r.n ∧ r.n < W ∧ ∃ mi, next_msg_info r c = .ok (c, some mi) ∧ InfoFor r b mi) := by
  obtain ⟨⟨⟨O, E, hg⟩, t, hn, hm, hf, hq, hmp, he, hl, _⟩, h1, h2⟩ := h
  have nbd := hg.nbd; have mmpos := hg.mmpos; have npos := hg.npos
  rw [SSIZE_MAX_val] at nbd
  have hcu : farmCatchUp r c = c := farmCatchUp_id (fun _ => by omega)
  have hready : msgReady r c = decide (L.drop c.q ≠ []) := by
    unfold msgReady
    simp only [hf, if_true]
    have hgl := hg.gle
    rw [hq, hmp, wadd_eq (by omega)]
    have : (L.drop c.q ≠ []) ↔ c.q < L.length := by
      rw [← List.length_pos_iff, List.length_drop]; omega
    simp only [decide_eq_decide, this]
    omega
  constructor
  · intro hU
    unfold next_msg_info
    simp only [hcu]
    rw [if_pos (by rw [hready]; simp [hU])]
  · intro b U hU
    have hb : L[c.q]? = some b := by
      have := congrArg (·[0]?) hU
      simpa [List.getElem?_drop] using this
    have hlt := getElem?_lt hb
    obtain ⟨hs, hd⟩ := hg.held c.q b h1 hb
    have hbn : b.length ≤ r.n := by
      have a := hg.below c.q b h1 hb; have b := hg.room c.q h1 hlt; omega
    refine ⟨hg.ne c.q b h1 hb, hbn, by rw [W_val]; omega, ?_⟩
    have plt := Nat.mod_lt (O c.q) npos
    have hdat := circ_read (b := b) hg.dlen plt hbn (by
      intro t x ht
      rw [Nat.mod_add_mod]
      exact hd t x ht)
    unfold next_msg_info
    simp only [hcu]
    rw [if_neg (by rw [hready, hU]; simp), if_neg (by rintro ⟨_, h0⟩; omega)]
    simp only [hf, if_true, hs]
    rw [wadd_eq (by rw [W_val]; omega)]
    have hdl := hg.dlen
    by_cases hw : O c.q % r.n + b.length > r.n
    · obtain ⟨d1, d2⟩ := hdat.2 hw
      simp only [if_pos hw]
      rw [wsub_eq (a := r.n) (by omega) (by rw [W_val]; omega),
        wsub_eq (a := b.length) (by omega) (by rw [W_val]; omega)]
      refine ⟨_, rfl, ⟨?_, ?_, ?_⟩⟩
      · dsimp only; omega
      · unfold memRead; dsimp only; rw [if_pos (by omega), d1]
      · unfold memRead; dsimp only; rw [if_pos (by omega), List.drop_zero, d2]
    · have d1 := hdat.1 (by omega)
      simp only [if_neg hw]
      refine ⟨_, rfl, ⟨?_, ?_, ?_⟩⟩
      · dsimp only; omega
      · unfold memRead; dsimp only; rw [if_pos (by omega), d1, List.take_length]
      · unfold memRead; dsimp only; rw [if_pos (by omega)]; simp

theorem readOne_farm {r : Ring} {st : RdSt} {b : Msg} {mi : MsgInfo} (hf : r.gflags.has SHR_FARM = true) (hi : InfoFor r b mi)
    (hlen : b.length ≤ st.len) (hbuf : st.off + st.len ≤ st.buf.length) (hbl : st.buf.length < W) (hnr : st.nr + st.len < W) (hq : st.cur.q + 1 < W) :
    Ok (readOne st mi) r (fun _ => False) (fun st' r' => st' = st.deliver r [b] ∧ r' = r) := by
  obtain ⟨hl, rd1, rd2⟩ := hi
  have hL : wadd mi.l1 mi.l2 = b.length := by rw [wadd_eq (by omega), hl]
  have hw1 : memWrite st.buf st.off (b.take mi.l1) = .ok (put st.buf st.off (b.take mi.l1)) := by
    unfold memWrite; rw [if_pos]; simp; omega
  have hW1 := put_length (d := st.buf) (off := st.off) (src := b.take mi.l1) (by simp; omega)
  have htl : (b.take mi.l1).length = mi.l1 := by simp; omega
  have hdl : (b.drop mi.l1).length = mi.l2 := by simp; omega
  have hpp : put (put st.buf st.off (b.take mi.l1)) (st.off + mi.l1) (b.drop mi.l1) = put st.buf st.off b := by
    have := put_put (d := st.buf) (off := st.off) (a := b.take mi.l1) (b := b.drop mi.l1) (by omega)
    rw [htl, List.take_append_drop] at this
    exact this
  have hw2 : memWrite (put st.buf st.off (b.take mi.l1)) (wadd st.off mi.l1) (b.drop mi.l1) = .ok (put st.buf st.off b) := by
    rw [wadd_eq (by omega)]
    unfold memWrite; rw [if_pos (by omega), hpp]
  unfold readOne
  apply Ok.get_bind
  refine Ok.lift_bind rd1 ?_
  refine Ok.lift_bind hw1 ?_
  by_cases h0 : mi.l2 ≠ 0
  · simp only [if_pos h0]
    refine Ok.lift_bind rd2 ?_
    refine Ok.lift_bind hw2 ?_
    rw [hL, wadd_eq (a := st.off) (by omega), wadd_eq (a := st.nr) (by omega), wsub_eq (a := st.len) (by omega) (by omega)]
    simp only [hf, if_true]
    apply Ok.pure
    simp [RdSt.deliver, advanced, hf, layout]
    rw [wadd_eq (by omega)]
  · simp only [if_neg h0]
    refine Ok.pure_bind ?_
    rw [hL, wadd_eq (a := st.off) (by omega), wadd_eq (a := st.nr) (by omega), wsub_eq (a := st.len) (by omega) (by omega)]
    simp only [hf, if_true]
    apply Ok.pure
    have : b.take mi.l1 = b := List.take_of_length_le (by omega)
    simp [RdSt.deliver, advanced, hf, layout, this]
    rw [wadd_eq (by omega)]

theorem deliver_farm {r : Ring} {st : RdSt} {A B : List Msg} (hf : r.gflags.has SHR_FARM = true)
    (hb : st.off + bytesOf A + bytesOf B ≤ st.buf.length) :
    (st.deliver r A).deliver r B = st.deliver r (A ++ B) := by
  have := deliver_deliver (r := r) (st := st) (A := A) (B := B) 0 hb
  unfold consumed at this
  rw [if_pos hf] at this
  exact this

theorem readLoop_farm : ∀ (niov : Nat) {N K : Nat} {r : Ring} {st : RdSt} {L : List Msg} {g : Nat} {b : Msg} {U : List Msg}
    {mi : MsgInfo}, FView N K r st.cur L g → L.drop st.cur.q = b :: U → InfoFor r b mi →
    st.off + st.len ≤ st.buf.length → st.buf.length < W → st.nr + st.len < W →
    Ok (readLoop niov st mi) r (fun _ => False) (fun x r' =>
      x.1 = st.deliver r ((b :: U).take (takeCount (b :: U) st.len niov)) ∧
      x.2 = decide ((b :: U).drop (takeCount (b :: U) st.len niov) ≠ []) ∧ r' = r) := by
  intro niov
  induction niov with
  | zero =>
    intro N K r st L g b U mi h hU hi hbuf hbl hnr
    apply Ok.pure
    simp [takeCount, RdSt.deliver, layout, put_nil, advanced_zero]
  | succ niov ih =>
    intro N K r st L g b U mi h hU hi hbuf hbl hnr
    have hf := h.farm.farm
    obtain ⟨hbne, hbn, hnW, _⟩ := (next_msg_info_farm h).2 b U hU
    unfold readLoop
    rw [wadd_eq (by rw [hi.len]; omega), hi.len]
    by_cases hfit : b.length > st.len
    · rw [if_pos hfit]
      apply Ok.pure
      have : takeCount (b :: U) st.len (niov + 1) = 0 := by
        unfold takeCount; rw [if_neg (by omega)]
      simp [this, RdSt.deliver, layout, put_nil, advanced_zero]
    · rw [if_neg hfit]
      apply Ok.bind
      have hlt : st.cur.q < L.length := by
        have := congrArg List.length hU; simp at this; omega
      have hlw := h.farm.lw
      refine (readOne_farm hf hi (by omega) hbuf hbl hnr (by omega)).mono (fun _ h => h) ?_
      rintro st' r' ⟨rfl, hr'⟩
      subst hr'
      apply Ok.get_bind
      have htc : takeCount (b :: U) st.len (niov + 1) = takeCount U (st.len - b.length) niov + 1 := by
        rw [takeCount]; rw [if_pos (by omega)]
      have hcur : (st.deliver r' [b]).cur = { st.cur with q := st.cur.q + 1 } := by
        simp [RdSt.deliver, advanced, hf]
      have hv : FView N K r' (st.deliver r' [b]).cur L g := by
        rw [hcur]
        exact ⟨h.farm, by have := h.lo; dsimp only; omega, by dsimp only; omega⟩
      have hU' : L.drop (st.deliver r' [b]).cur.q = U := by
        rw [hcur]
        dsimp only
        rw [← List.drop_drop, hU]; rfl
      obtain ⟨hnil, hcons⟩ := next_msg_info_farm hv
      cases hUc : U with
      | nil =>
        subst hUc
        refine Ok.lift_bind (hnil hU') ?_
        apply Ok.pure
        have : takeCount ([] : List Msg) (st.len - b.length) niov = 0 := by simp [takeCount]
        rw [htc, this]
        simp [RdSt.deliver]
      | cons b' U' =>
        rw [hUc] at hU' htc
        obtain ⟨_, _, _, mi', hnm, hinf⟩ := hcons b' U' hU'
        refine Ok.lift_bind hnm ?_
        dsimp only
        have hbl' : (put st.buf st.off b).length = st.buf.length := put_length (by omega)
        have := ih (st := st.deliver r' [b]) (b := b') (U := U') (mi := mi') hv hU' hinf (by simp [RdSt.deliver, hbl']; omega)
          (by simp [RdSt.deliver, hbl']; omega) (by simp [RdSt.deliver]; omega)
        refine this.mono (fun _ h => h) ?_
        rintro ⟨x1, x2⟩ s ⟨e1, e2, e3⟩
        have hl : (st.deliver r' [b]).len = st.len - b.length := by simp [RdSt.deliver]
        rw [hl] at e1 e2
        rw [htc]
        generalize hk : takeCount (b' :: U') (st.len - b.length) niov = k at *
        have hkb := takeCount_bytes (b' :: U') (st.len - b.length) niov
        rw [hk] at hkb
        refine ⟨?_, ?_, e3⟩
        · rw [e1]
          have := deliver_farm (st := st) (A := [b]) (B := (b' :: U').take k) hf (by simp; omega)
          rw [this]; rfl
        · rw [e2]; rfl

theorem catchUp_farm {N K : Nat} {r : Ring} {sp : Spec} (h : FarmR N K r sp.log sp.base) (hsf : sp.farm = true) {c : RCur} {sh : SHandle}
    (hc : CurRel sp c sh) : CurRel sp (farmCatchUp r c) (sp.catchUp sh) := by
  unfold farmCatchUp Spec.catchUp
  obtain ⟨hq, hle⟩ := hc.q hsf
  have hrq := h.q
  have hgle := h.gle
  have hlw := h.lw
  simp only [if_pos hsf]
  by_cases hlt : c.q < r.q
  · rw [if_pos ⟨h.farm, hlt⟩]
    refine ⟨fun _ => ⟨?_, ?_⟩, ?_⟩
    · show r.q = max sh.pos sp.base; omega
    · show max sh.pos sp.base ≤ _; omega
    · show wadd c.md (wsub r.q c.q) = (sh.missed + (sp.base - sh.pos)) % W
      rw [hc.md, wadd_mod, wsub_eq (by omega) (by omega), hrq, hq]
  · rw [if_neg (fun x => hlt x.2)]
    refine ⟨fun _ => ⟨?_, ?_⟩, ?_⟩
    · show c.q = max sh.pos sp.base; omega
    · show max sh.pos sp.base ≤ _; omega
    · show c.md = (sh.missed + (sp.base - sh.pos)) % W
      rw [hc.md]
      have : sp.base - sh.pos = 0 := by omega
      rw [this, Nat.add_zero]

/-- A read on a farm ring returns what the queue machine returns and leaves the ring as it is, but for two counters. -/
theorem shr_readv_farm {N K : Nat} {r : Ring} {sp : Spec} (hr : FarmR N K r sp.log sp.base) (hsf : sp.farm = true) {h : Handle} {sh : SHandle}
    (hh : HRel sp h sh) (hrd : sh.flags.has SHR_RDONLY = true) (buf : List Byte) (hbl : buf.length < W) (niov : Nat) (env : Env) :
    Ok (shr_readv h buf buf.length niov env) r (fun s => s = { r with stat := s.stat }) (fun x s =>
      s = { r with stat := s.stat } ∧ x.2.out = (sp.readv sh buf niov env).2.2 ∧ HRel sp x.1 (sp.readv sh buf niov env).2.1) := by
  have hS := SSIZE_MAX_val
  have hfl := hh.flags
  have hwr : (!h.flags.has SHR_WRONLY) = true := by rw [hfl]; exact hh.nowr hrd
  unfold shr_readv readvAttempt Spec.readv
  apply Ok.bind
  apply Ok.assert_bind (by rw [hfl]; exact hrd)
  by_cases hb0 : buf.length = 0
  · rw [if_pos hb0, if_pos (Or.inl hb0)]
    exact Ok.pure (Ok.pure ⟨rfl, rfl, hh⟩)
  rw [if_neg hb0]
  by_cases hn0 : niov = 0
  · rw [if_pos hn0, if_pos (Or.inr (Or.inl hn0))]
    exact Ok.pure (Ok.pure ⟨rfl, rfl, hh⟩)
  rw [if_neg hn0]
  by_cases hlk : env.lockOk = false
  · rw [if_pos hlk, if_pos (Or.inr (Or.inr hlk))]
    exact Ok.pure (Ok.pure ⟨rfl, rfl, hh⟩)
  rw [if_neg hlk]
  rw [if_neg (show ¬ (buf.length = 0 ∨ niov = 0 ∨ env.lockOk = false) by rintro (h | h | h) <;> contradiction)]
  apply Ok.get_bind
  have hcr := catchUp_farm hr hsf hh.cur
  have hcu : (sp.catchUp sh).pos = max sh.pos sp.base := by simp [Spec.catchUp, hsf]
  obtain ⟨cq, cle⟩ := hcr.q hsf
  have hv : FView N K r (farmCatchUp r h.cur) sp.log sp.base := ⟨hr, by rw [cq, hcu]; omega, by rw [cq]; exact cle⟩
  have hh1 : HRel sp { h with cur := farmCatchUp r h.cur } (sp.catchUp sh) := by
    obtain ⟨a1, a2, a3, _, a5, a6, a7, a8, a9, a10⟩ := hh
    refine ⟨?_, a2, a3, hcr, ?_, ?_, ?_, ?_, ?_, ?_⟩ <;> (simp only [Spec.catchUp, hsf, if_true]; assumption)
  have hUe : sp.readable sh = sp.log.drop (farmCatchUp r h.cur).q := by
    unfold Spec.readable; rw [if_pos hsf, cq, hcu]
  have hnf : (sp.catchUp sh).flags = sh.flags := by simp [Spec.catchUp, hsf]
  rw [next_msg_info_catchUp]
  obtain ⟨hnil, hcons⟩ := next_msg_info_farm hv
  have hlen : (if buf.length > SSIZE_MAX then SSIZE_MAX else buf.length) = min buf.length SSIZE_MAX := by
    split <;> omega
  dsimp only
  rw [hUe]
  cases hU : sp.log.drop (farmCatchUp r h.cur).q with
  | nil =>
    refine Ok.lift_bind (hnil hU) ?_
    dsimp only
    apply Ok.assert_bind hwr
    simp only [if_true]
    rw [hfl] at hh1 ⊢
    by_cases hnbk : sh.flags.has SHR_NONBLOCK = true
    · simp only [if_pos hnbk]
      refine Ok.pure (Ok.pure ⟨rfl, rfl, hh1⟩)
    · simp only [if_neg hnbk]
      cases env.waitRc with
      | none => exact Ok.pure (Ok.pure ⟨rfl, rfl, hh1⟩)
      | some sc => exact Ok.pure (Ok.pure ⟨rfl, rfl, hh1⟩)
  | cons b U =>
    obtain ⟨_, _, _, mi, hnm, hinf⟩ := hcons b U hU
    refine Ok.lift_bind hnm ?_
    simp only [List.cons_ne_nil, if_false]
    unfold readvBody
    apply Ok.bind
    rw [hlen]
    have hrl := readLoop_farm niov (st := ⟨farmCatchUp r h.cur, buf, 0, min buf.length SSIZE_MAX, 0, []⟩) hv hU hinf
      (by simp; omega) hbl (by simp; omega)
    refine hrl.mono (fun _ h => h.elim) ?_
    rintro ⟨st, fl⟩ r1 ⟨e1, e2, rfl⟩
    dsimp only at e1 e2
    generalize ht : takeCount (b :: U) (min buf.length SSIZE_MAX) niov = t at *
    have htle : t ≤ (b :: U).length := by rw [← ht]; exact takeCount_le_length _ _ _
    have hst : st = ⟨{ farmCatchUp r1 h.cur with q := (farmCatchUp r1 h.cur).q + t }, put buf 0 ((b :: U).take t).flatten,
        bytesOf ((b :: U).take t), min buf.length SSIZE_MAX - bytesOf ((b :: U).take t),
        bytesOf ((b :: U).take t), layout 0 ((b :: U).take t)⟩ := by
      rw [e1]
      simp only [RdSt.deliver, advanced, hr.farm, if_true, Nat.zero_add, List.nil_append, List.length_take, Nat.min_eq_left htle]
    subst hst
    refine Ok.store_bind rfl ?_
    refine Ok.store_bind rfl ?_
    apply Ok.assert_bind hwr
    apply Ok.pure
    apply Ok.pure
    have hll : (layout 0 ((b :: U).take t)).length = t := by
      rw [layout_length, List.length_take, Nat.min_eq_left htle]
    rw [hll]
    refine ⟨rfl, ?_, ?_⟩
    · show Out.read _ _ _ = _
      dsimp only
      congr 1
      by_cases h0 : t = 0
      · subst h0; rfl
      · rw [if_pos (by omega), if_neg h0]
    · rw [if_pos hsf]
      obtain ⟨a1, a2, a3, a4, a5, a6, a7, a8, a9, a10⟩ := hh1
      refine ⟨a1, a2, a3, ⟨fun _ => ?_, a4.md⟩, a5, a6, a7, a8, a9, a10⟩
      dsimp only
      have := congrArg List.length hU
      simp only [List.length_drop] at this
      rw [cq] at this
      exact ⟨by rw [cq], by omega⟩

end Shr
