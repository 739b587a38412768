import Verif.Proof.Settled
import Verif.Proof.ReadFrame
/-! # The numbers that `shr_open` checks stay in their ranges at every store of every call -/
namespace Shr
open M

/-- Unread bytes and read slot are in range. -/
structure InRange (N M : Nat) (p : Ring) : Prop where
  u : p.u ≤ N
  r : p.r < M

theorem Ring.Consistent.inRange {p : Ring} (h : p.Consistent) : InRange p.n p.mm p :=
  ⟨by rw [h.u]; have := h.fit; omega, by rw [h.r]; exact Nat.mod_lt _ (Nat.lt_of_le_of_lt (Nat.zero_le _) h.e)⟩

theorem RingRel.inRange {r : Ring} {sp : Spec} (h : RingRel r sp) : InRange sp.cap sp.maxm r := by
  rw [← h.n, ← h.mm]; exact h.consistent.inRange

theorem InRange.stat {N M : Nat} {p : Ring} (h : InRange N M p) (st : Stat) : InRange N M { p with stat := st } :=
  ⟨h.u, h.r⟩

theorem writevFinish_range {N M : Nat} {r1 : Ring} (h : InRange N M r1) (len niov : Nat) (env : Env) :
    Ok (writevFinish len niov env) r1 (InRange N M) (fun _ p => InRange N M p) := by
  unfold writevFinish
  split
  · exact Ok.pure h
  refine Ok.store_bind h ?_
  refine Ok.store_bind (h.stat _) ?_
  apply Ok.get_bind
  split
  · exact Ok.pure ((h.stat _).stat _)
  · exact Ok.pure ((h.stat _).stat _)

theorem writevCommit_range {r : Ring} {gq nread : Nat} {P new : List Msg} (h : Rep r gq nread P)
    (hl : Legal r.n r.mm new) (hf : Fits r.n r.mm (P.drop nread) new) :
    Ok (writevCommit r.mm new (bytesOf new)) r (InRange r.n r.mm) (fun _ p => InRange r.n r.mm p) := by
  have h0 := h.consistent.inRange
  have hnb : r.u + bytesOf new ≤ r.n := by rw [h.u]; have := hf.1; omega
  refine ((writevCommit_points h hl hf).and (writevCommit_spec h hl hf)).mono ?_ ?_
  · rintro p ⟨hp, _⟩
    cases hp with
    | eldest e q hpe => subst hpe; exact ⟨h0.u, h0.r⟩
    | copying _ h1 h2 _ => exact ⟨by rw [h1]; exact h0.u, by rw [h2]; exact h0.r⟩
    | counting h1 _ h2 => exact ⟨by rw [h1]; exact hnb, by rw [h2]; exact h0.r⟩
  · rintro _ p ⟨hp, -, ⟨mv, d, i, he⟩, _⟩
    have := hp.inRange
    have hn : p.n = r.n := by rw [he]
    have hm : p.mm = r.mm := by rw [he]
    rw [hn, hm] at this
    exact this

/-- One attempt to write. -/
theorem attempt_range {r : Ring} {sp : Spec} (h : RingRel r sp) {new : List Msg} (hl : Legal sp.cap sp.maxm new) (flags : Flags) (env : Env) :
    Ok (writevAttempt flags sp.maxm new (bytesOf new) env) r (InRange sp.cap sp.maxm) (fun _ p => InRange sp.cap sp.maxm p) := by
  obtain ⟨hnn, hne, hnb, hnm⟩ := hl
  have hl' : Legal sp.cap sp.maxm new := ⟨hnn, hne, hnb, hnm⟩
  obtain ⟨p0, hg⟩ := h.rep.geo
  have hC := hg.toCore
  have nbd := hC.nbd; have mmbd := hC.mmbd; have tot := hC.tot; have cnt := hC.cnt
  rw [SSIZE_MAX_val] at nbd mmbd
  have hu := h.rep.u; have hm := h.rep.m
  rw [h.unread_eq] at hu
  have hm' : r.m = sp.unread.length := by rw [hm, ← h.unread_eq]; simp
  have hule : bytesOf sp.unread ≤ r.n := by
    rw [← h.unread_eq]; have := bytesOf_drop_le sp.retained (sp.first - sp.base); omega
  have hmle : r.m ≤ r.mm := by omega
  have hn := h.n; have hmm := h.mm
  have h0 := h.inRange
  unfold writevAttempt
  cases hlk : env.lockOk
  · simp only [if_true]; exact Ok.pure h0
  simp only [Bool.true_eq_false, if_false]
  apply Ok.get_bind
  rw [wsub_eq (a := r.n) (by omega) (by rw [W_val]; omega),
    wsub_eq (a := r.mm) (by omega) (by rw [W_val]; omega)]
  have hiff : (r.n - r.u ≥ bytesOf new ∧ r.mm - r.m ≥ new.length) ↔
      Fits sp.cap sp.maxm sp.unread new := by
    unfold Fits; omega
  by_cases hfit : Fits sp.cap sp.maxm sp.unread new
  · rw [if_pos (hiff.mpr hfit)]
    have hfit' : Fits r.n r.mm (sp.retained.drop (sp.first - sp.base)) new := by
      rw [h.unread_eq, hn, hmm]; exact hfit
    have hcs := writevCommit_range h.rep (by rw [hn, hmm]; exact hl') hfit'
    rw [hn, hmm] at hcs
    apply Ok.bind
    exact hcs.mono (fun _ h => h) (fun _ _ hc => writevFinish_range hc _ _ _)
  · rw [if_neg (fun x => hfit (hiff.mp x))]
    by_cases hdr : sp.drop = true
    · have hdr' : r.gflags.has SHR_DROP = true := by rw [h.gf]; exact hdr
      rw [if_pos hdr']
      have hno : ¬ Fits r.n r.mm (sp.retained.drop (sp.first - sp.base)) new := by
        rw [h.unread_eq, hn, hmm]; exact hfit
      have hds := drop_unread_spec h.rep hdr' (by rw [hn]; exact hnb) (by rw [hmm]; exact hnm) hno
        (InRange sp.cap sp.maxm) (fun p _ h1 h2 => ⟨Nat.le_trans h1 h0.u, by rw [← hmm]; exact h2⟩)
      rw [h.unread_eq, hn] at hds
      rw [hmm] at hds
      apply Ok.bind
      refine hds.mono (fun _ h => h) ?_
      rintro _ rd rfl
      generalize hk : evictCount sp.cap sp.maxm new sp.unread = k
      generalize hz : bytesOf (sp.unread.take k) = z
      have hkle : k ≤ sp.unread.length := by rw [← hk]; exact evictCount_le_length _ _ _ _
      have hrepd : Rep (dropped r k z sp.base (sp.first - sp.base)) sp.base (sp.first - sp.base + k)
          sp.retained := by
        refine h.rep.dropped ?_ ?_
        · have : sp.unread.length = sp.retained.length - (sp.first - sp.base) := by
            rw [← h.unread_eq]; simp
          omega
        · rw [h.unread_eq]; exact hz.symm
      have hfitd : Fits sp.cap sp.maxm (sp.retained.drop (sp.first - sp.base + k)) new := by
        rw [← List.drop_drop, h.unread_eq, ← hk]
        exact evictCount_fits hnb hnm _
      have hcs := writevCommit_range hrepd (new := new) (by show Legal r.n r.mm new; rw [hn, hmm]; exact hl')
        (by show Fits r.n r.mm _ _; rw [hn, hmm]; exact hfitd)
      have ednm : (dropped r k z sp.base (sp.first - sp.base)).mm = sp.maxm := hmm
      have edn : (dropped r k z sp.base (sp.first - sp.base)).n = sp.cap := hn
      rw [ednm, edn] at hcs
      apply Ok.bind
      exact hcs.mono (fun _ h => h) (fun _ _ hc => writevFinish_range hc _ _ _)
    · have hdr' : ¬ r.gflags.has SHR_DROP = true := by rw [h.gf]; exact hdr
      rw [if_neg hdr']
      split
      · exact Ok.pure h0
      · split
        · exact Ok.pure h0
        · exact Ok.pure h0

theorem attemptH_range {r : Ring} {sp : Spec} {h : Handle} {sh : SHandle} (hr : RingRel r sp) (hh : HRel sp h sh) {iov : List Msg}
    (hL : Legal sp.cap sp.maxm iov) (env : Env) :
    Ok (do let out ← writevAttempt h.flags h.mm iov (bytesOf iov) env; pure (h, out)) r
      (InRange sp.cap sp.maxm) (fun _ p => InRange sp.cap sp.maxm p) := by
  apply Ok.bind
  rw [hh.mm]
  exact (attempt_range hr hL h.flags env).mono (fun _ h => h) (fun _ _ h => Ok.pure h)

theorem flushCache_range {r : Ring} {sp : Spec} (hr : RingRel r sp) {h : Handle} {sh : SHandle}
    (hn : h.n = sp.cap) (hmm : h.mm = sp.maxm) (hc : CRel h.c sh.pend sh.csz sh.cvt)
    (hw : h.flags.getLsbD 14 = true) (hp : Legal sp.cap sp.maxm sh.pend) (hcs : sh.csz ≤ sp.cap) (env : Env) :
    Ok (flushCache h env) r (InRange sp.cap sp.maxm) (fun _ p => InRange sp.cap sp.maxm p) := by
  unfold flushCache
  refine Ok.lift_bind hc.read ?_
  unfold writevDirect
  have hw' : (h.flags.clear SHR_BUFFERED).has SHR_WRONLY = true := by
    rw [has_WRONLY, clear_BUFFERED _ _ (by decide), hw]; rfl
  apply Ok.assert_bind hw'
  have hbd := pend_bd hc (by have := hr.cap_le; omega)
  rw [hn, hmm, lenCheck_spec hr.cap_le (fun b hb => ⟨hp.2.1 b hb, hbd b hb⟩), if_pos hp]
  dsimp only
  exact attempt_range hr hp (h.flags.clear SHR_BUFFERED) env

/-- Points of a flush. -/
theorem shr_flush_range {r : Ring} {sp : Spec} (hr : RingRel r sp) {h : Handle} {sh : SHandle}
    (hh : HRel sp h sh) (hw : sh.flags.has SHR_WRONLY = true) (wait : Bool) (env : Env) :
    Ok (shr_flush h wait env) r (InRange sp.cap sp.maxm) (fun _ p => InRange sp.cap sp.maxm p) := by
  have h0 := hr.inRange
  obtain ⟨fl, cur, c, n, mm, r2w⟩ := h
  have hfl : fl = sh.flags := hh.flags
  subst hfl
  unfold shr_flush
  apply Ok.assert_bind hw
  by_cases hp : sh.pend = []
  · rw [if_pos (hh.cache.n_zero.mpr hp)]
    exact Ok.pure h0
  rw [if_neg (fun x => hp (hh.cache.n_zero.mp x))]
  have hfb := hh.buffered hp
  have hpl := hh.pend_legal hp
  have fl : ∀ f : Flags, ∀ b, f.getLsbD 14 = true → Ok (flushCache ⟨f, cur, c, n, mm, b⟩ env) r
      (InRange sp.cap sp.maxm) (fun _ p => InRange sp.cap sp.maxm p) := fun f b hf =>
    flushCache_range (h := ⟨f, cur, c, n, mm, b⟩) hr hh.n hh.mm hh.cache hf hpl hh.csz env
  cases ht : (sh.flags.has SHR_NONBLOCK && wait)
  · simp only [Bool.false_eq_true, false_and, if_false]
    apply Ok.bind
    refine (fl _ _ hfb.2).mono (fun _ h => h) ?_
    rintro o r1 h1
    exact Ok.pure h1
  · simp only [if_true, true_and]
    by_cases hbad : r2w = false ∧ (env.lockOk = false ∨ env.bwOpenOk = false)
    · rw [if_pos hbad]
      exact Ok.pure h0
    · rw [if_neg hbad]
      apply Ok.bind
      refine (fl _ _ (by rw [clear_NONBLOCK _ _ (by decide), hfb.2]; rfl)).mono (fun _ h => h) ?_
      rintro o r1 h1
      exact Ok.pure h1

/-- Points of a close. -/
theorem shr_close_range {r : Ring} {sp : Spec} (hr : RingRel r sp) {h : Handle} {sh : SHandle} (hh : HRel sp h sh) (env : Env) :
    Ok (shr_close h env) r (InRange sp.cap sp.maxm) (fun _ p => InRange sp.cap sp.maxm p) := by
  unfold shr_close
  by_cases hp : sh.pend = []
  · rw [if_neg (by simp [hh.cache.n_zero.mpr hp])]
    exact Ok.pure hr.inRange
  · rw [if_pos (fun x => hp (hh.cache.n_zero.mp x))]
    apply Ok.bind
    have hfb := hh.buffered hp
    refine (shr_flush_range hr hh (by rw [has_WRONLY]; exact hfb.2) false env).mono (fun _ h => h) ?_
    rintro x r' h1
    exact Ok.pure h1

/-- Points of a write. -/
theorem shr_writev_range {r : Ring} {sp : Spec} (hr : RingRel r sp) {h : Handle} {sh : SHandle}
    (hh : HRel sp h sh) (hw : sh.flags.has SHR_WRONLY = true) (k : Nat) {iov : List Msg} (hwf : WriteWF iov)
    (envF env : Env) (hlog : sp.farm = true → (sp.writev k sh iov envF env).1.log.length < W) :
    Ok (shr_writev h iov envF env) r (InRange sp.cap sp.maxm) (fun _ p => InRange sp.cap sp.maxm p) := by
  have hfl := hh.flags
  have hw' : h.flags.has SHR_WRONLY = true := by rw [hfl]; exact hw
  have h0 := hr.inRange
  unfold shr_writev
  apply Ok.assert_bind hw'
  rw [hh.n, hh.mm, lenCheck_wf hr.cap_le hwf]
  by_cases hL' : ¬ Legal sp.cap sp.maxm iov
  · rw [if_neg hL']; exact Ok.pure h0
  have hL := Decidable.not_not.mp hL'
  rw [if_pos hL]
  dsimp only
  apply Ok.bind
  have direct := attemptH_range hr hh hL env
  unfold cacheLoop
  by_cases hb : sh.flags.has SHR_BUFFERED = false
  · rw [if_pos (by rw [hfl]; exact hb)]
    apply Ok.pure
    exact direct
  rw [if_neg (by rw [hfl]; exact hb)]
  by_cases hf : Spec.cacheFits sh iov
  · rw [if_pos ((cacheFits_iff hh iov).mpr hf)]
    obtain ⟨c', e', hh'⟩ := hh.cacheAll hL.2.1 hf
    refine Ok.lift_bind e' ?_
    apply Ok.pure
    exact Ok.pure h0
  rw [if_neg (fun x => hf ((cacheFits_iff hh iov).mp x))]
  by_cases hp : sh.pend = []
  · rw [if_pos (hh.cache.n_zero.mpr hp)]
    apply Ok.pure
    exact direct
  rw [if_neg (fun x => hp (hh.cache.n_zero.mp x))]
  have hfb := hh.buffered hp
  have hpl := hh.pend_legal hp
  have hlogF : sp.farm = true → (sp.tryWrite k (sh.flags.has SHR_NONBLOCK) sh.pend envF).1.log.length < W := by
    intro hfm
    have := hlog hfm
    simp only [Spec.writev, if_neg hL', if_neg hb, if_neg hf, if_neg hp] at this
    refine Nat.lt_of_le_of_lt ?_ this
    split
    · exact Nat.le_refl _
    · split
      · exact Nat.le_refl _
      · split
        · exact Nat.le_refl _
        · exact (SpLe.tryWrite _ _ _ _ _).log
  apply Ok.bind
  have hfs := flushCache_spec (who := k) (env := envF) hr hh.n hh.mm hh.cache (by rw [hfl]; exact hfb.2) hpl hh.csz
    (by rw [hfl]; exact hlogF)
  have hfr := flushCache_range hr hh.n hh.mm hh.cache (by rw [hfl]; exact hfb.2) hpl hh.csz envF
  refine (hfs.and hfr).mono (fun _ h => h.2) ?_
  rintro o r1 ⟨⟨_, hr1⟩, hs1⟩
  rw [hfl] at hr1
  have hsl := SpLe.tryWrite sp k (sh.flags.has SHR_NONBLOCK) sh.pend envF
  cases o with
  | wait => apply Ok.pure; exact Ok.pure hs1
  | ret rc wk =>
    dsimp only
    by_cases hrc : rc ≤ 0
    · rw [if_pos hrc]; apply Ok.pure; exact Ok.pure hs1
    rw [if_neg hrc]
    generalize (sp.tryWrite k (sh.flags.has SHR_NONBLOCK) sh.pend envF).1 = sp1 at *
    have hh2 := (hh.mono hsl).cleared
    unfold cacheLoop
    have hfl2 : ({ h with c := { h.c with n := 0, vm := 0 } } : Handle).flags = sh.flags := hfl
    rw [if_neg (by rw [hfl2]; exact hb)]
    have hL1 : Legal sp1.cap sp1.maxm iov := by rw [hsl.cap, hsl.maxm]; exact hL
    by_cases hf2 : Spec.cacheFits { sh with pend := [] } iov
    · rw [if_pos ((cacheFits_iff hh2 iov).mpr hf2)]
      obtain ⟨c', e', hh'⟩ := hh2.cacheAll hL.2.1 hf2
      refine Ok.lift_bind e' ?_
      apply Ok.pure
      exact Ok.pure hs1
    · rw [if_neg (fun x => hf2 ((cacheFits_iff hh2 iov).mp x))]
      rw [if_pos rfl]
      apply Ok.pure
      have := attemptH_range hr1 hh2 hL1 env
      rw [hsl.cap, hsl.maxm] at this
      exact this

/-- Points of a read. -/
theorem readvAttempt_range {r : Ring} {sp : Spec} (h : RingRel r sp) {c : RCur} {sh : SHandle}
    (hc : CurRel sp c sh) (hrd : sh.flags.has SHR_RDONLY = true) (hmd : (!sh.flags.has SHR_WRONLY) = true)
    (buf : List Byte) (hbl : buf.length < W) (niov : Nat) (env : Env) :
    Ok (readvAttempt sh.flags c buf buf.length niov env) r (InRange sp.cap sp.maxm) (fun _ p => InRange sp.cap sp.maxm p) := by
  have hS := SSIZE_MAX_val
  have h0 := h.inRange
  unfold readvAttempt
  apply Ok.assert_bind hrd
  by_cases hb0 : buf.length = 0
  · rw [if_pos hb0]; exact Ok.pure h0
  rw [if_neg hb0]
  by_cases hn0 : niov = 0
  · rw [if_pos hn0]; exact Ok.pure h0
  rw [if_neg hn0]
  by_cases hlk : env.lockOk = false
  · rw [if_pos hlk]; exact Ok.pure h0
  rw [if_neg hlk]
  apply Ok.get_bind
  rw [next_msg_info_catchUp]
  have hv := rview_of h hc
  obtain ⟨hnil, hcons⟩ := next_msg_info_spec hv
  have hlen : (if buf.length > SSIZE_MAX then SSIZE_MAX else buf.length) = min buf.length SSIZE_MAX := by
    split <;> omega
  rcases readable_eq_nil_or (sp := sp) sh with hU | ⟨b, U, hU⟩
  · refine Ok.lift_bind (hnil hU) ?_
    apply Ok.assert_bind hmd
    by_cases hnbk : sh.flags.has SHR_NONBLOCK = true
    · simp only [if_pos hnbk]; exact Ok.pure h0
    · simp only [if_neg hnbk]
      cases env.waitRc with
      | none => exact Ok.pure h0
      | some sc => exact Ok.pure h0
  · obtain ⟨mi, hnm, hinf⟩ := hcons b U hU
    refine Ok.lift_bind hnm ?_
    rw [hU] at hv
    unfold readvBody
    apply Ok.bind
    rw [hlen]
    have hrr : r.r < r.mm := by rw [h.mm]; exact h0.r
    have hbu : bytesOf (b :: U) ≤ r.u := by
      rw [← hU]
      have hu := h.rep.u
      rw [h.unread_eq] at hu
      rw [hu]
      unfold Spec.readable
      split
      · rename_i hf
        obtain ⟨hf1, _⟩ := h.farm hf
        unfold Spec.unread
        rw [hf1]
        have : ∀ n, sp.base ≤ n → bytesOf (sp.log.drop n) ≤ bytesOf (sp.log.drop sp.base) := by
          intro n hn
          have e : n = sp.base + (n - sp.base) := by omega
          rw [e, ← List.drop_drop]
          exact bytesOf_drop_le _ _
        exact this _ (Nat.le_max_right _ _)
      · exact Nat.le_refl _
    have hpt : ∀ s, ReadPt r (bytesOf (b :: U)) s → InRange sp.cap sp.maxm s := fun s hs =>
      ⟨Nat.le_trans (hs.u hbu) h0.u, by rw [← h.mm]; exact hs.r hrr⟩
    have hrl := readLoop_spec niov (st := ⟨farmCatchUp r c, buf, 0, min buf.length SSIZE_MAX, 0, []⟩) hv hinf
      (by simp; omega) hbl (by simp; omega) (fun _ => hrr) (InRange sp.cap sp.maxm) hpt
    refine hrl.mono (fun _ h => h) ?_
    rintro ⟨st, fl⟩ r1 ⟨e1, e2, e3⟩
    dsimp only at e1 e2 e3
    have hr1 : InRange sp.cap sp.maxm r1 := by
      rw [e3]
      generalize takeCount (b :: U) (min buf.length SSIZE_MAX) niov = t
      have hz : bytesOf ((b :: U).take t) ≤ r.u := by
        have := bytesOf_take_add_drop (b :: U) t; omega
      have hult := hv.ult
      unfold consumed
      split
      · exact h0
      · exact ⟨by show wsub r.u _ ≤ _; rw [wsub_eq hz (by omega)]; have := h0.u; omega, by rw [← h.mm]; exact Nat.mod_lt _ (by omega)⟩
    refine Ok.store_bind hr1 ?_
    refine Ok.store_bind (hr1.stat _) ?_
    apply Ok.assert_bind hmd
    apply Ok.pure
    exact (hr1.stat _).stat _

theorem shr_readv_range {r : Ring} {sp : Spec} (hr : RingRel r sp) {h : Handle} {sh : SHandle}
    (hh : HRel sp h sh) (hrd : sh.flags.has SHR_RDONLY = true) (buf : List Byte) (hbl : buf.length < W) (niov : Nat) (env : Env) :
    Ok (shr_readv h buf buf.length niov env) r (InRange sp.cap sp.maxm) (fun _ p => InRange sp.cap sp.maxm p) := by
  unfold shr_readv
  apply Ok.bind
  rw [hh.flags]
  refine (readvAttempt_range hr hh.cur hrd (hh.nowr hrd) buf hbl niov env).mono (fun _ h => h) ?_
  rintro ⟨c, o⟩ r' h1
  exact Ok.pure h1

/-- At every point of every call the numbers checked by `shr_open` are in range. -/
theorem points_inRange {s : Sys} {sp : Spec} (h : Rel s sp) {op : Op} (hwf : op.WF sp.app.length)
    (hlog : sp.farm = true → (sp.step op).1.log.length < W) : ∀ p ∈ s.points op, InRange sp.cap sp.maxm p := by
  obtain ⟨hr, hhs⟩ := h
  have h0 := hr.inRange
  have base : ∀ p ∈ [s.ring], InRange sp.cap sp.maxm p := fun p hp => by rw [List.mem_singleton.mp hp]; exact h0
  cases op with
  | «open» k flags env => exact base
  | writev k iov e1 e2 =>
    have hk := hhs k
    unfold Sys.points; unfold Spec.step at hlog
    dsimp only at hlog ⊢
    cases g1 : s.hs k <;> cases g2 : sp.hs k <;> rw [g1, g2] at hk <;> simp only [LRel] at hk
    · exact base
    · rename_i hd sh
      simp only [g2] at hlog
      dsimp only
      rw [hk.flags]
      cases hw : sh.flags.has SHR_WRONLY
      · exact base
      · simp only [hw, Bool.true_eq_false, if_false] at hlog ⊢
        exact Ok.points (shr_writev_range hr hk hw k hwf e1 e2 hlog) (fun _ _ h => h)
    · exact base
  | readv k buf niov env =>
    have hk := hhs k
    unfold Sys.points
    dsimp only
    cases g1 : s.hs k <;> cases g2 : sp.hs k <;> rw [g1, g2] at hk <;> simp only [LRel] at hk
    · exact base
    · rename_i hd sh
      dsimp only
      rw [hk.flags]
      cases hw : sh.flags.has SHR_RDONLY
      · exact base
      · simp only [Bool.true_eq_false, if_false]
        exact Ok.points (shr_readv_range hr hk hw buf hwf niov env) (fun _ _ h => h)
    · exact base
  | flush k wait env =>
    have hk := hhs k
    unfold Sys.points
    dsimp only
    cases g1 : s.hs k <;> cases g2 : sp.hs k <;> rw [g1, g2] at hk <;> simp only [LRel] at hk
    · exact base
    · rename_i hd sh
      dsimp only
      rw [hk.flags]
      cases hw : sh.flags.has SHR_WRONLY
      · exact base
      · simp only [Bool.true_eq_false, if_false]
        exact Ok.points (shr_flush_range hr hk hw wait env) (fun _ _ h => h)
    · exact base
  | close k env =>
    have hk := hhs k
    unfold Sys.points
    dsimp only
    cases g1 : s.hs k <;> cases g2 : sp.hs k <;> rw [g1, g2] at hk <;> simp only [LRel] at hk
    · exact base
    · exact Ok.points (shr_close_range hr hk env) (fun _ _ h => h)
    · exact base
  | stat k reset env =>
    unfold Sys.points
    dsimp only
    cases g1 : s.hs k
    case live hd =>
      intro p hp
      rcases Ok.points (shr_stat_crash hd reset env s.ring) (fun _ _ x => x) p hp with rfl | ⟨t, rfl⟩
      · exact h0
      · exact h0.stat _
    all_goals exact base
  | farmStat k reset =>
    have hk := hhs k
    unfold Sys.points
    dsimp only
    cases g1 : s.hs k
    case live hd =>
      dsimp only
      cases hw : hd.flags.has SHR_RDONLY
      · exact base
      · simp only [Bool.true_eq_false, if_false]
        have : Ok (shr_farm_stat hd reset) s.ring (InRange sp.cap sp.maxm) (fun _ p => InRange sp.cap sp.maxm p) := by
          unfold shr_farm_stat
          apply Ok.assert_bind hw
          exact Ok.pure h0
        exact Ok.points this (fun _ _ h => h)
    all_goals exact base
  | appdata k get set sz env =>
    unfold Sys.points
    dsimp only
    cases g1 : s.hs k
    case live hd =>
      intro p hp
      have hal : s.ring.app.length = s.ring.app_len := by rw [hr.app, hr.app_len]
      rcases Ok.points (shr_appdata_crash env hal (by rw [hr.app_len]; exact hwf)) (fun _ _ x => x) p hp with rfl | ⟨t, _, rfl⟩
      · exact h0
      · exact ⟨h0.u, h0.r⟩
    all_goals exact base

/-- At every point of every call the write position stays in range. -/
theorem points_i {s : Sys} {sp : Spec} (h : Rel s sp) {op : Op} (hwf : op.WF sp.app.length) : ∀ p ∈ s.points op, p.n = s.ring.n → s.ring.i < s.ring.n → p.i < p.n := by
  have main : ∀ p ∈ s.points op, p.i = s.ring.i ∨ IKeep s.ring p := by
    intro p hp
    cases op with
    | «open» k f e => rw [List.mem_singleton.mp hp]; exact .inl rfl
    | writev k iov e1 e2 =>
      unfold Sys.points at hp; dsimp only at hp
      split at hp
      · split at hp
        · rw [List.mem_singleton.mp hp]; exact .inl rfl
        · exact .inr ((shr_writev_app (R := IKeep) _ _ _ _).points hp)
      · rw [List.mem_singleton.mp hp]; exact .inl rfl
    | readv k buf niov env =>
      unfold Sys.points at hp; dsimp only at hp
      split at hp
      · split at hp
        · rw [List.mem_singleton.mp hp]; exact .inl rfl
        · have := (shr_readv_mv _ _ _ _ _).points hp
          rw [this]; exact .inl rfl
      · rw [List.mem_singleton.mp hp]; exact .inl rfl
    | flush k w env =>
      unfold Sys.points at hp; dsimp only at hp
      split at hp
      · split at hp
        · rw [List.mem_singleton.mp hp]; exact .inl rfl
        · exact .inr ((shr_flush_app (R := IKeep) _ _ _).points hp)
      · rw [List.mem_singleton.mp hp]; exact .inl rfl
    | close k env =>
      unfold Sys.points at hp; dsimp only at hp
      split at hp
      · exact .inr ((shr_close_app (R := IKeep) _ _).points hp)
      · rw [List.mem_singleton.mp hp]; exact .inl rfl
    | stat k reset env =>
      unfold Sys.points at hp; dsimp only at hp
      split at hp
      · rcases Ok.points (shr_stat_crash _ reset env s.ring) (fun _ _ x => x) p hp with rfl | ⟨t, rfl⟩ <;> exact .inl rfl
      · rw [List.mem_singleton.mp hp]; exact .inl rfl
    | farmStat k reset =>
      unfold Sys.points at hp; dsimp only at hp
      split at hp
      · split at hp
        · rw [List.mem_singleton.mp hp]; exact .inl rfl
        · have : Walk MovedR (shr_farm_stat ‹_› reset) := Walk.bind Walk.assert fun _ => Walk.pure
          rw [this.points hp]; exact .inl rfl
      · rw [List.mem_singleton.mp hp]; exact .inl rfl
    | appdata k get set sz env =>
      unfold Sys.points at hp; dsimp only at hp
      split at hp
      · have hal : s.ring.app.length = s.ring.app_len := by rw [h.ring.app, h.ring.app_len]
        rcases Ok.points (shr_appdata_crash env hal (by rw [h.ring.app_len]; exact hwf)) (fun _ _ x => x) p hp with rfl | ⟨t, _, rfl⟩
        · exact .inl rfl
        · exact .inl rfl
      · rw [List.mem_singleton.mp hp]; exact .inl rfl
  intro p hp hn hi
  rcases main p hp with e | ⟨_, e⟩
  · rw [e, hn]; exact hi
  · exact e hi

end Shr
