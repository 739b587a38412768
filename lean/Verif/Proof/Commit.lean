import Verif.Proof.Write
namespace Shr

/-- The ring memory `r` holds the messages `P`, the first of them being number `gq` of all messages
ever written, and the first `nread` of them are already consumed. -/
structure Rep (r : Ring) (gq nread : Nat) (P : List Msg) : Prop where
  geo : ∃ p0, GeoAt r gq p0 P
  nr : nread ≤ P.length
  mp : r.mp = P.length
  m : r.m = P.length - nread
  u : r.u = bytesOf (P.drop nread)
  e : r.e = gq % r.mm
  q : r.gflags.has SHR_FARM = true → r.q = gq % W
  r : r.r = (gq + nread) % r.mm

theorem getElem?_lt {α : Type} {l : List α} {j : Nat} {a : α} (h : l[j]? = some a) :
    j < l.length := by
  rcases Nat.lt_or_ge j l.length with h' | h'
  · exact h'
  · rw [List.getElem?_eq_none h'] at h; simp at h

/-! ## Advancing the eldest position -/

theorem eldestLoop_spec {r : Ring} {new : List Msg} :
    ∀ (P : List Msg) (gq p0 a : Nat), GeoAt r gq p0 P → a + P.length < W →
      eldestLoop r.mv r.n r.i r.mm (bytesOf new) new.length P.length (gq % r.mm) a =
        .ok ((gq + evictCount r.n r.mm new P) % r.mm, a + evictCount r.n r.mm new P,
          P.length - evictCount r.n r.mm new P) := by
  intro P
  induction P with
  | nil => intro gq p0 a _ _; simp [eldestLoop, evictCount]
  | cons b bs ih =>
    intro gq p0 a h ha
    have hC := h.toCore
    have nbd := hC.nbd; have mmbd := hC.mmbd; have npos := hC.npos; have mmpos := hC.mmpos
    rw [SSIZE_MAX_val] at nbd mmbd
    have hs := hC.slots 0 b (by simp)
    simp at hs
    rw [Nat.mod_eq_of_lt hC.p0lt] at hs
    have hb : 0 < b.length := List.length_pos_iff.mpr (hC.ne b (by simp))
    have tot := hC.tot; have cnt := hC.cnt; have p0lt := hC.p0lt
    have ieq := h.ieq
    simp only [bytesOf_cons, List.length_cons] at tot cnt ieq
    have hilt : r.i < r.n := by rw [ieq]; exact Nat.mod_lt _ npos
    rw [mod_two (by omega)] at ieq
    simp only [List.length_cons] at ha ⊢
    unfold eldestLoop
    rw [hs]
    dsimp only
    have hgap : (if r.i > p0 then wadd (wsub r.n r.i) p0 else wsub p0 r.i) =
        r.n - (b.length + bytesOf bs) := by
      split
      · rw [wsub_eq (by omega) (by rw [W_val]; omega), wadd_eq (by rw [W_val]; omega)]
        split at ieq <;> omega
      · rw [wsub_eq (by omega) (by rw [W_val]; omega)]
        split at ieq <;> omega
    rw [hgap, wsub_eq (by omega) (by rw [W_val]; omega)]
    have hiff : (bytesOf new ≤ r.n - (b.length + bytesOf bs) ∧ r.mm - (bs.length + 1) ≥ new.length) ↔
        Fits r.n r.mm (b :: bs) new := by
      unfold Fits; simp; omega
    unfold evictCount
    by_cases hf : Fits r.n r.mm (b :: bs) new
    · rw [if_pos hf, if_pos (hiff.mpr hf)]
      simp
    · rw [if_neg hf, if_neg (fun x => hf (hiff.mp x))]
      have hg := h.drop 1
      simp only [List.drop_succ_cons, List.drop_zero] at hg
      have hgl := Nat.mod_lt gq mmpos
      rw [wadd_eq (a := gq % r.mm) (by rw [W_val]; omega), wadd_eq (a := a) (by omega), succ_mod hgl, mod_add_mod_left,
        ih _ _ (a + 1) hg (by omega)]
      have := evictCount_le_length r.n r.mm new bs
      congr 2
      · congr 1; omega
      · congr 1 <;> omega

/-! ## Dropping unread messages -/

theorem dropLoop_spec {r : Ring} {new : List Msg} (hnb : bytesOf new ≤ r.n) (hnm : new.length ≤ r.mm) :
    ∀ (U : List Msg) (gr p0 fuel i z am ab : Nat), Core r gr p0 U →
      am + i + U.length = r.mm → ab + z + bytesOf U = r.n →
      U.length < fuel →
      dropLoop r.mv r.mm am ab new.length (bytesOf new) fuel i z (gr % r.mm) =
        .ok (i + evictCount r.n r.mm new U, z + bytesOf (U.take (evictCount r.n r.mm new U)),
          (gr + evictCount r.n r.mm new U) % r.mm) := by
  intro U
  induction U with
  | nil =>
    intro gr p0 fuel i z am ab hC h1 h2 hfu
    have nbd := hC.nbd; have mmbd := hC.mmbd
    rw [SSIZE_MAX_val] at nbd mmbd
    simp at h1 h2
    obtain ⟨fuel, rfl⟩ : ∃ f, fuel = f + 1 := ⟨fuel - 1, by omega⟩
    unfold dropLoop
    rw [wadd_eq (by rw [W_val]; omega), wadd_eq (by rw [W_val]; omega), if_neg (by omega)]
    simp [evictCount]
  | cons b bs ih =>
    intro gr p0 fuel i z am ab hC h1 h2 hfu
    have nbd := hC.nbd; have mmbd := hC.mmbd
    rw [SSIZE_MAX_val] at nbd mmbd
    simp at h1 h2 hfu
    have hs := hC.slots 0 b (by simp)
    simp at hs
    obtain ⟨fuel, rfl⟩ : ∃ f, fuel = f + 1 := ⟨fuel - 1, by omega⟩
    unfold dropLoop evictCount
    rw [wadd_eq (by rw [W_val]; omega), wadd_eq (by rw [W_val]; omega)]
    have hiff : (new.length > am + i ∨ bytesOf new > ab + z) ↔ ¬ Fits r.n r.mm (b :: bs) new := by
      unfold Fits; simp; omega
    by_cases hf : Fits r.n r.mm (b :: bs) new
    · rw [if_pos hf, if_neg (fun x => hiff.mp x hf)]
      simp
    · rw [if_neg hf, if_pos (hiff.mpr hf), hs]
      dsimp only
      have hg := hC.drop 1
      simp only [List.drop_succ_cons, List.drop_zero] at hg
      have hgl := Nat.mod_lt gr hC.mmpos
      rw [wadd_eq (a := gr % r.mm) (by rw [W_val]; omega), wadd_eq (a := i) (by rw [W_val]; omega),
        wadd_eq (a := z) (by rw [W_val]; omega), succ_mod hgl, mod_add_mod_left,
        ih _ _ fuel (i + 1) (z + b.length) am ab hg (by omega) (by omega) (by omega)]
      congr 2
      · omega
      · congr 1
        · simp; omega
        · congr 1; omega

/-- Fields the geometry depends on. -/
theorem GeoAt.congr {r s : Ring} {gq p0 : Nat} {P : List Msg} (h : GeoAt r gq p0 P)
    (hn : s.n = r.n) (hmm : s.mm = r.mm) (hd : s.d = r.d) (hmv : s.mv = r.mv) (hi : s.i = r.i) :
    GeoAt s gq p0 P := by
  obtain ⟨⟨a1, a2, a3, a4, a5, a6, a7, a8, a9, a10, a11, a12⟩, a13⟩ := h
  refine ⟨⟨?_, ?_, ?_, ?_, ?_, ?_, a7, ?_, ?_, ?_, ?_, ?_⟩, ?_⟩ <;> simp only [hn, hmm, hd, hmv, hi] <;> assumption

theorem Core.congr {r s : Ring} {gq p0 : Nat} {P : List Msg} (h : Core r gq p0 P)
    (hn : s.n = r.n) (hmm : s.mm = r.mm) (hd : s.d = r.d) (hmv : s.mv = r.mv) :
    Core s gq p0 P := by
  obtain ⟨a1, a2, a3, a4, a5, a6, a7, a8, a9, a10, a11, a12⟩ := h
  refine ⟨?_, ?_, ?_, ?_, ?_, ?_, a7, ?_, ?_, ?_, ?_, ?_⟩ <;> simp only [hn, hmm, hd, hmv] <;> assumption

/-- The state after dropping `k` unread messages. -/
def dropped (r : Ring) (k z gq nread : Nat) : Ring :=
  { r with
    r := (gq + nread + k) % r.mm
    u := r.u - z
    m := r.m - k
    stat := { r.stat with bd := wadd r.stat.bd z, md := wadd r.stat.md k } }

theorem drop_unread_spec {r : Ring} {gq nread : Nat} {P new : List Msg} (h : Rep r gq nread P)
    (hdrop : r.gflags.has SHR_DROP = true) (hnb : bytesOf new ≤ r.n) (hnm : new.length ≤ r.mm)
    (hno : ¬ Fits r.n r.mm (P.drop nread) new) (T : Ring → Prop)
    (hT : ∀ s, s = { r with r := s.r, u := s.u, m := s.m, stat := s.stat } → s.u ≤ r.u → s.r < r.mm → T s) :
    Ok (drop_unread r.mm (bytesOf new) new.length) r T
      (fun _ r' => r' = dropped r (evictCount r.n r.mm new (P.drop nread))
        (bytesOf ((P.drop nread).take (evictCount r.n r.mm new (P.drop nread)))) gq nread) := by
  obtain ⟨p0, hg⟩ := h.geo
  have hC := hg.toCore
  have nbd := hC.nbd; have mmbd := hC.mmbd; have tot := hC.tot; have cnt := hC.cnt
  rw [SSIZE_MAX_val] at nbd mmbd
  have hu := h.u; have hm := h.m; have hmp := h.mp
  have hdle := bytesOf_drop_le P nread
  generalize hk : evictCount r.n r.mm new (P.drop nread) = k
  generalize hz : bytesOf ((P.drop nread).take k) = z
  have hfit : Fits r.n r.mm ((P.drop nread).drop k) new := by
    rw [← hk]; exact evictCount_fits hnb hnm _
  have hkle : k ≤ P.length - nread := by
    have := evictCount_le_length r.n r.mm new (P.drop nread); simp at this; omega
  have hzle := bytesOf_take_add_drop (P.drop nread) k
  have hPne : P.length ≠ 0 := by
    intro h0
    apply hno
    have : P = [] := List.length_eq_zero_iff.mp h0
    subst this
    unfold Fits; simp; omega
  have hdl : dropLoop r.mv r.mm (wsub r.mm r.m) (wsub r.n r.u) new.length (bytesOf new)
      (W * W * (r.mm + 1)) 0 0 r.r = .ok (k, z, (gq + nread + k) % r.mm) := by
    have hfu : r.mm + 1 ≤ W * W * (r.mm + 1) := Nat.le_mul_of_pos_left _ (by decide)
    generalize W * W * (r.mm + 1) = fu at hfu ⊢
    rw [h.r, wsub_eq (by omega) (by rw [W_val]; omega), wsub_eq (by omega) (by rw [W_val]; omega)]
    rw [dropLoop_spec hnb hnm (P.drop nread) (gq + nread) _ _ 0 0 _ _ (hC.drop nread)
      (by simp; omega) (by omega) (by simp; omega), hk, hz]
    simp
  unfold drop_unread
  apply Ok.get_bind
  apply Ok.assert_bind hdrop
  apply Ok.assert_bind (decide_eq_true hnm)
  apply Ok.assert_bind (decide_eq_true (by omega))
  apply Ok.assert_bind (decide_eq_true (by omega))
  apply Ok.assert_bind (decide_eq_true (by omega))
  refine Ok.lift_bind hdl ?_
  have e1 : wsub r.u z = r.u - z := wsub_eq (by omega) (by rw [W_val]; omega)
  have e0 : wsub r.u z ≤ r.u := by rw [e1]; exact Nat.sub_le _ _
  have er : (gq + nread + k) % r.mm < r.mm := Nat.mod_lt _ hC.mmpos
  refine Ok.store_bind (hT _ rfl (Nat.le_refl _) (by rw [h.r]; exact Nat.mod_lt _ hC.mmpos)) ?_
  refine Ok.store_bind (hT _ rfl (Nat.le_refl _) er) ?_
  refine Ok.store_bind (hT _ rfl e0 er) ?_
  refine Ok.store_bind (hT _ rfl e0 er) ?_
  refine Ok.store_bind (hT _ rfl e0 er) ?_
  apply Ok.get_bind
  dsimp only
  have e2 : wsub r.m k = r.m - k := wsub_eq (by omega) (by rw [W_val]; omega)
  have hf1 := hfit.1; have hf2 := hfit.2
  simp at hf2
  rw [e1, e2, wsub_eq (a := r.n) (by omega) (by rw [W_val]; omega),
    wsub_eq (a := r.mm) (by omega) (by rw [W_val]; omega)]
  apply Ok.assert_bind (decide_eq_true (by omega))
  apply Ok.assert (decide_eq_true (by omega))
  rfl

theorem Rep.dropped {r : Ring} {gq nread : Nat} {P : List Msg} (h : Rep r gq nread P) {k z : Nat}
    (hk : k ≤ P.length - nread) (hz : z = bytesOf ((P.drop nread).take k)) :
    Rep (dropped r k z gq nread) gq (nread + k) P := by
  obtain ⟨p0, hg⟩ := h.geo
  have := bytesOf_take_add_drop (P.drop nread) k
  have hnr := h.nr
  refine ⟨⟨p0, hg.congr rfl rfl rfl rfl rfl⟩, by omega, h.mp, ?_, ?_, h.e, h.q, ?_⟩
  · show r.m - k = _; rw [h.m]; omega
  · show r.u - z = _; rw [h.u, ← List.drop_drop]; omega
  · show (gq + nread + k) % r.mm = _; rw [Nat.add_assoc]; rfl

/-! ## Committing messages -/

/-- What a consuming reader's view depends on: the unread messages `U` are stored from slot `gr`, and
the counters it looks at say so. -/
structure CView (r : Ring) (gr : Nat) (U : List Msg) : Prop where
  core : ∃ p0, Core r gr p0 U
  ult : r.u < W
  m : r.m = U.length
  r : r.r = gr % r.mm

theorem Rep.cview {r : Ring} {gq nread : Nat} {P : List Msg} (h : Rep r gq nread P) :
    CView r (gq + nread) (P.drop nread) := by
  obtain ⟨p0, hg⟩ := h.geo
  have := hg.nbd; have := hg.tot; have := bytesOf_drop_le P nread
  rw [SSIZE_MAX_val] at *
  exact ⟨⟨_, hg.toCore.drop nread⟩, by rw [h.u, W_val]; omega, by rw [h.m]; simp, h.r⟩

/-- Slots and bytes of the messages `U` stored from slot `gr` on are where they were. -/
def Stay (r s : Ring) (gr : Nat) (U : List Msg) : Prop := s.n = r.n ∧ ∀ p0, Core r gr p0 U → Core s gr p0 U

theorem Core.same {r : Ring} {g p q : Nat} {U : List Msg} (h : Core r g p U) (h' : Core r g q U) : U = [] ∨ p = q := by
  cases U with
  | nil => exact .inl rfl
  | cons b U =>
    refine .inr ?_
    have h1 := h.slots 0 b rfl
    rw [h'.slots 0 b rfl] at h1
    simp [bytesOf, Nat.mod_eq_of_lt h.p0lt, Nat.mod_eq_of_lt h'.p0lt] at h1
    exact h1.symm

theorem Core.stay {r s : Ring} {g p : Nat} {U : List Msg} (h : Core r g p U) (h' : Core s g p U) (hn : s.n = r.n) : Stay r s g U := by
  refine ⟨hn, fun q hq => ?_⟩
  rcases h.same hq with rfl | rfl
  · exact ⟨h'.npos, h'.nbd, h'.mmpos, h'.mmbd, h'.dlen, h'.mvlen, h'.ne, h'.tot, h'.cnt, by rw [hn]; exact hq.p0lt,
      fun j b hj => by simp at hj, fun t x ht => by simp at ht⟩
  · exact h'

theorem Stay.refl (r : Ring) (g : Nat) (U : List Msg) : Stay r r g U := ⟨rfl, fun _ h => h⟩
theorem Stay.trans {r s t : Ring} {g : Nat} {U : List Msg} (h : Stay r s g U) (h' : Stay s t g U) : Stay r t g U :=
  ⟨h'.1.trans h.1, fun p hp => h'.2 p (h.2 p hp)⟩
theorem Stay.congr {r s t : Ring} {g : Nat} {U : List Msg} (h : Stay r s g U) (hn : t.n = s.n) (hmm : t.mm = s.mm) (hd : t.d = s.d)
    (hmv : t.mv = s.mv) : Stay r t g U := ⟨hn.trans h.1, fun p hp => (h.2 p hp).congr hn hmm hd hmv⟩

/-- The commit of a write.  At each of its crash points a consuming reader still sees exactly the
messages that were unread before. -/
theorem writevCommit_spec {r : Ring} {gq nread : Nat} {P new : List Msg} (h : Rep r gq nread P)
    (hl : Legal r.n r.mm new) (hf : Fits r.n r.mm (P.drop nread) new) :
    Ok (writevCommit r.mm new (bytesOf new)) r (fun s => CView s (gq + nread) (P.drop nread) ∧ Stay r s (gq + nread) (P.drop nread))
      (fun _ r' => Stay r r' (gq + nread) (P.drop nread) ∧ (∃ mv d i, r' = { r with
          mv := mv, d := d, i := i, u := r'.u, mp := r'.mp, m := r'.m, e := r'.e, q := r'.q }) ∧
        Rep r' (gq + evictCount r.n r.mm new P) (nread - evictCount r.n r.mm new P)
          (P.drop (evictCount r.n r.mm new P) ++ new)) := by
  obtain ⟨p0, hg⟩ := h.geo
  have hC := hg.toCore
  have nbd := hC.nbd; have mmbd := hC.mmbd; have tot := hC.tot; have cnt := hC.cnt
  have mmpos := hC.mmpos
  rw [SSIZE_MAX_val] at nbd mmbd
  have hu := h.u; have hm := h.m; have hmp := h.mp; have hnr := h.nr
  obtain ⟨hnn, hne, hnb, hnm⟩ := hl
  have hdle := bytesOf_drop_le P nread
  obtain ⟨hf1, hf2⟩ := hf
  simp at hf2
  have hel := eldestLoop_spec (new := new) P gq p0 0 hg (by rw [W_val]; omega)
  have hkn : evictCount r.n r.mm new P ≤ nread := evictCount_le_of_fits ⟨hf1, by simpa using hf2⟩
  have hfit : Fits r.n r.mm (P.drop (evictCount r.n r.mm new P)) new := evictCount_fits hnb hnm P
  generalize evictCount r.n r.mm new P = k at *
  have hfb := hfit.1; have hfm := hfit.2
  simp at hfm
  have hcv := h.cview
  -- states that differ only in fields a consuming reader does not look at
  have hview0 : ∀ e q mp, CView { r with e := e, q := q, mp := mp } (gq + nread) (P.drop nread) ∧
      Stay r { r with e := e, q := q, mp := mp } (gq + nread) (P.drop nread) := by
    intro e q mp
    obtain ⟨p1, hc⟩ := hcv.core
    exact ⟨⟨⟨p1, hc.congr rfl rfl rfl rfl⟩, hcv.ult, hcv.m, hcv.r⟩, (Stay.refl r _ _).congr rfl rfl rfl rfl⟩
  unfold writevCommit
  apply Ok.get_bind
  rw [wsub_eq (by omega) (by rw [W_val]; omega), wadd_eq (by rw [W_val]; omega)]
  apply Ok.assert_bind (decide_eq_true (by omega))
  apply Ok.assert_bind (decide_eq_true (by omega))
  apply Ok.assert_bind (decide_eq_true (by omega))
  rw [hmp, h.e]
  refine Ok.lift_bind hel ?_
  refine Ok.store_bind ⟨hcv, Stay.refl r _ _⟩ ?_
  refine Ok.store_bind (hview0 _ _ _) ?_
  refine Ok.store_bind (hview0 _ _ _) ?_
  apply Ok.get_bind
  dsimp only
  rw [if_neg (by omega)]
  have hgl := Nat.mod_lt (gq + k) mmpos
  rw [wadd_eq (a := (gq + k) % r.mm) (by rw [W_val]; omega), mod_add_mod_left]
  apply Ok.bind
  have hgd : GeoAt { r with e := (gq + k) % r.mm, q := wadd r.q (0 + k), mp := P.length - k }
      (gq + k) _ (P.drop k) := (hg.drop k).congr rfl rfl rfl rfl rfl
  have hcl := copyLoop_spec (iov := new) hgd hne hfb (by simpa using hfm)
  have hpl : (gq + k + (P.length - k)) = gq + k + (P.drop k).length := by simp
  rw [hpl]
  have hview1 : ∀ s, Frame { r with e := (gq + k) % r.mm, q := wadd r.q (0 + k), mp := P.length - k } s →
      Core s (gq + k) ((p0 + bytesOf (P.take k)) % r.n) (P.drop k) →
      CView s (gq + nread) (P.drop nread) ∧ Stay r s (gq + nread) (P.drop nread) := by
    intro s hfr hc
    have h1 := hc.drop (nread - k)
    have h1r := (hC.drop k).drop (nread - k)
    rw [List.drop_drop] at h1 h1r
    have e1 : k + (nread - k) = nread := by omega
    have e2 : gq + k + (nread - k) = gq + nread := by omega
    rw [e1, e2] at h1 h1r
    have esn : s.n = r.n := by rw [hfr]
    rw [esn] at h1
    refine ⟨⟨⟨_, h1⟩, ?_, ?_, ?_⟩, h1r.stay h1 esn⟩
    · have : s.u = r.u := by rw [hfr]
      rw [this]; exact hcv.ult
    · have : s.m = r.m := by rw [hfr]
      rw [this]; exact hcv.m
    · have e3 : s.r = r.r := by rw [hfr]
      have e4 : s.mm = r.mm := by rw [hfr]
      rw [e3, e4]; exact hcv.r
  refine hcl.mono (fun s hs => hview1 s hs.1 hs.2) ?_
  rintro _ s ⟨hgs, hfr⟩
  obtain ⟨hvs, hst⟩ := hview1 s hfr hgs.toCore.left
  have hsn := hfr.n; have hsm := hfr.mm
  dsimp only at hsn hsm
  have hview2 : ∀ u mp, u < W → CView { s with u := u, mp := mp } (gq + nread) (P.drop nread) ∧
      Stay r { s with u := u, mp := mp } (gq + nread) (P.drop nread) := by
    intro u mp hu
    obtain ⟨p1, hc⟩ := hvs.core
    exact ⟨⟨⟨p1, hc.congr rfl rfl rfl rfl⟩, hu, hvs.m, hvs.r⟩, hst.congr rfl rfl rfl rfl⟩
  refine Ok.store_bind ⟨hvs, hst⟩ ?_
  refine Ok.store_bind (hview2 _ s.mp (wadd_lt _ _)) ?_
  refine Ok.store (hview2 _ _ (wadd_lt _ _)) ?_
  dsimp only
  have su : s.u = r.u := by rw [hfr]
  have sm : s.m = r.m := by rw [hfr]
  have smp : s.mp = P.length - k := by rw [hfr]
  have sq : s.q = wadd r.q (0 + k) := by rw [hfr]
  have se : s.e = (gq + k) % r.mm := by rw [hfr]
  have sr : s.r = r.r := by rw [hfr]
  refine ⟨hst.congr rfl rfl rfl rfl, ⟨s.mv, s.d, s.i, ?_⟩, ?_⟩
  · rw [hfr]
  · have hdd : (P.drop k ++ new).drop (nread - k) = P.drop nread ++ new := by
      rw [List.drop_append_of_le_length (by simp; omega), List.drop_drop]
      congr 2; omega
    refine ⟨⟨_, hgs.congr rfl rfl rfl rfl rfl⟩, by simp; omega, ?_, ?_, ?_, ?_, ?_, ?_⟩
    · dsimp only
      rw [smp, wadd_eq (by rw [W_val]; omega)]; simp
    · dsimp only
      rw [sm, wadd_eq (by rw [W_val]; omega)]; simp; omega
    · dsimp only
      rw [su, wadd_eq (by rw [W_val]; omega), hdd, bytesOf_append, hu]
    · dsimp only
      rw [se, hsm]
    · dsimp only
      intro hfm
      have : s.gflags = r.gflags := by rw [hfr]
      rw [this] at hfm
      rw [sq, h.q hfm, wadd_mod, Nat.zero_add]
    · dsimp only
      rw [sr, h.r, hsm]; congr 1; omega

end Shr
