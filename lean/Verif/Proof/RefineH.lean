import Verif.Proof.RefineR
/-! # Refinement, part 3: handles, the write cache -/
namespace Shr

/-! ## The cache -/

/-- The cache holds exactly the messages `pend`. -/
structure CRel (c : Cache) (pend : List Msg) (csz cvt : Nat) : Prop where
  sz : c.sz = csz
  vt : c.vt = cvt
  blen : c.buf.length = csz
  ilen : c.iov.length = cvt
  n : c.n = bytesOf pend
  vm : c.vm = pend.length
  nle : bytesOf pend ≤ csz
  vle : pend.length ≤ cvt
  szw : csz < W
  vtw : cvt < W
  buf : ∀ t, t < bytesOf pend → c.buf[t]? = pend.flatten[t]?
  iov : c.iov.take pend.length = layout 0 pend
  ne : ∀ b ∈ pend, b ≠ []

theorem cacheOne_spec {c : Cache} {pend : List Msg} {csz cvt : Nat} (h : CRel c pend csz cvt) {b : Msg}
    (hb : b ≠ []) (h1 : bytesOf pend + b.length ≤ csz) (h2 : pend.length + 1 ≤ cvt) :
    ∃ c', cacheOne c b = .ok c' ∧ CRel c' (pend ++ [b]) csz cvt := by
  obtain ⟨sz, vt, blen, ilen, n, vm, nle, vle, szw, vtw, buf, iov, ne⟩ := h
  unfold cacheOne memWrite
  rw [if_pos (by omega)]
  simp only [bind, Except.bind]
  rw [if_pos (by omega)]
  refine ⟨_, rfl, ⟨sz, vt, ?_, ?_, ?_, ?_, ?_, ?_, szw, vtw, ?_, ?_, ?_⟩⟩
  · show (put c.buf c.n b).length = csz; rw [put_length (by omega), blen]
  · simp [ilen]
  · show wadd c.n b.length = _; rw [wadd_eq (by omega), n]; simp
  · show wadd c.vm 1 = _; rw [wadd_eq (by omega), vm]; simp
  · simp; omega
  · simp; omega
  · intro t ht
    simp at ht
    show (put c.buf c.n b)[t]? = _
    rw [List.flatten_append]
    rcases Nat.lt_or_ge t (bytesOf pend) with hlt | hge
    · rw [put_getElem?_out (by omega) (by omega), buf t hlt,
        List.getElem?_append_left (by rw [flatten_length]; exact hlt)]
    · obtain ⟨j, rfl⟩ : ∃ j, t = c.n + j := ⟨t - c.n, by omega⟩
      rw [put_getElem?_in (by omega) (by omega),
        List.getElem?_append_right (by rw [flatten_length]; omega), flatten_length]
      simp only [List.flatten_cons, List.flatten_nil, List.append_nil]
      congr 1; omega
  · show (c.iov.set c.vm (c.n, b.length)).take (pend ++ [b]).length = _
    rw [layout_append, ← iov, vm, n]
    simp only [List.length_append, List.length_cons, List.length_nil, Nat.zero_add, layout]
    apply List.ext_getElem?
    intro j
    rw [List.getElem?_take]
    rcases Nat.lt_trichotomy j pend.length with hj | hj | hj
    · rw [if_pos (by omega), List.getElem?_set_ne (by omega), List.getElem?_append_left (by simp; omega),
        List.getElem?_take, if_pos hj]
    · subst hj
      rw [if_pos (by omega), List.getElem?_set_self (by omega),
        List.getElem?_append_right (by simp; omega)]
      simp [ilen, Nat.min_eq_left vle]
    · rw [if_neg (by omega), List.getElem?_eq_none]
      simp; omega
  · intro x hx
    simp at hx
    rcases hx with hx | rfl
    · exact ne x hx
    · exact hb

theorem cacheAll_spec : ∀ {new : List Msg} {c : Cache} {pend : List Msg} {csz cvt : Nat},
    CRel c pend csz cvt → (∀ b ∈ new, b ≠ []) → bytesOf pend + bytesOf new ≤ csz →
    pend.length + new.length ≤ cvt →
    ∃ c', cacheAll c new = .ok c' ∧ CRel c' (pend ++ new) csz cvt := by
  intro new
  induction new with
  | nil => intro c pend csz cvt h _ _ _; exact ⟨c, rfl, by simpa using h⟩
  | cons b bs ih =>
    intro c pend csz cvt h hne h1 h2
    simp at h1 h2
    obtain ⟨c1, e1, hc1⟩ := cacheOne_spec h (hne b (by simp)) (by omega) (by omega)
    obtain ⟨c2, e2, hc2⟩ := ih hc1 (fun x hx => hne x (by simp [hx])) (by simp; omega) (by simp; omega)
    refine ⟨c2, ?_, by simpa using hc2⟩
    unfold cacheAll
    rw [e1]
    exact e2

theorem cacheRead_spec : ∀ (pend : List Msg) (buf : List Byte) (off : Nat),
    off + bytesOf pend ≤ buf.length →
    (∀ t, t < bytesOf pend → buf[off + t]? = pend.flatten[t]?) →
    cacheRead buf (layout off pend) = .ok pend := by
  intro pend
  induction pend with
  | nil => intro buf off _ _; rfl
  | cons b bs ih =>
    intro buf off hl hd
    simp at hl
    have hb : (buf.drop off).take b.length = b := by
      apply List.ext_getElem?
      intro t
      rw [List.getElem?_take]
      split
      · rename_i ht
        rw [List.getElem?_drop, hd t (by simp; omega), List.flatten_cons, List.getElem?_append_left ht]
      · rename_i ht
        rw [List.getElem?_eq_none (by omega)]
    have hr := ih buf (off + b.length) (by omega) (by
      intro t ht
      have := hd (b.length + t) (by simp; omega)
      rw [List.flatten_cons, List.getElem?_append_right (by omega)] at this
      rw [Nat.add_assoc, this]
      congr 1; omega)
    unfold layout cacheRead memRead
    rw [if_pos (by omega), hb]
    simp only [bind, Except.bind, hr]

theorem CRel.read {c : Cache} {pend : List Msg} {csz cvt : Nat} (h : CRel c pend csz cvt) :
    cacheRead c.buf (c.iov.take c.vm) = .ok pend := by
  rw [h.vm, h.iov]
  apply cacheRead_spec
  · rw [h.blen]; have := h.nle; omega
  · intro t ht
    rw [Nat.zero_add]; exact h.buf t ht

theorem CRel.clear {c : Cache} {pend : List Msg} {csz cvt : Nat} (h : CRel c pend csz cvt) :
    CRel { c with n := 0, vm := 0 } [] csz cvt :=
  ⟨h.sz, h.vt, h.blen, h.ilen, rfl, rfl, by simp, by simp, h.szw, h.vtw, by simp, by simp [layout], by simp⟩

/-! ## Handles -/

structure HRel (sp : Spec) (h : Handle) (sh : SHandle) : Prop where
  flags : h.flags = sh.flags
  n : h.n = sp.cap
  mm : h.mm = sp.maxm
  cur : CurRel sp h.cur sh
  cache : CRel h.c sh.pend sh.csz sh.cvt
  csz : sh.csz ≤ sp.cap
  cvt : sh.cvt ≤ sp.maxm
  nbuf : (sh.flags.has SHR_WRONLY && sh.flags.has SHR_BUFFERED) = false → sh.csz = 0
  r2w : h.hasR2w = sh.canWait
  mode : (sh.flags.has SHR_RDONLY && sh.flags.has SHR_WRONLY) = false

theorem HRel.nowr {sp : Spec} {h : Handle} {sh : SHandle} (hh : HRel sp h sh) (hr : sh.flags.has SHR_RDONLY = true) :
    (!sh.flags.has SHR_WRONLY) = true := by
  have := hh.mode; rw [hr] at this; simpa using this

theorem CRel.pend_nil {c : Cache} {pend : List Msg} {cvt : Nat} (h : CRel c pend 0 cvt) : pend = [] := by
  have h1 := h.nle
  by_cases hp : pend = []
  · exact hp
  · have := bytesOf_pos h.ne hp; omega

theorem CRel.n_zero {c : Cache} {pend : List Msg} {csz cvt : Nat} (h : CRel c pend csz cvt) :
    c.n = 0 ↔ pend = [] := by
  rw [h.n]
  constructor
  · intro h0
    by_cases hp : pend = []
    · exact hp
    · have := bytesOf_pos h.ne hp; omega
  · rintro rfl; rfl

theorem HRel.pend_legal {sp : Spec} {h : Handle} {sh : SHandle}
    (hh : HRel sp h sh) (hp : sh.pend ≠ []) : Legal sp.cap sp.maxm sh.pend := by
  have := hh.cache.nle; have := hh.cache.vle; have := hh.csz; have := hh.cvt
  exact ⟨hp, hh.cache.ne, by omega, by omega⟩

theorem RingRel.cap_le {r : Ring} {sp : Spec} (h : RingRel r sp) : sp.cap ≤ SSIZE_MAX := by
  obtain ⟨p0, hg⟩ := h.rep.geo
  rw [← h.n]; exact hg.nbd

theorem HRel.buffered {sp : Spec} {h : Handle} {sh : SHandle} (hh : HRel sp h sh) (hp : sh.pend ≠ []) :
    sh.flags.getLsbD 16 = true ∧ sh.flags.getLsbD 14 = true := by
  cases hb : (sh.flags.has SHR_WRONLY && sh.flags.has SHR_BUFFERED)
  · have := hh.nbuf hb
    have hc := hh.cache
    rw [this] at hc
    exact absurd hc.pend_nil hp
  · rw [has_WRONLY, has_BUFFERED] at hb
    simp at hb; exact ⟨hb.2, hb.1⟩

/-- What a commit or a read leaves unchanged for handles. -/
structure SpLe (sp sp' : Spec) : Prop where
  cap : sp'.cap = sp.cap
  maxm : sp'.maxm = sp.maxm
  gf : sp'.gflags = sp.gflags
  log : sp.log.length ≤ sp'.log.length

theorem HRel.mono {sp sp' : Spec} {h : Handle} {sh : SHandle} (hh : HRel sp h sh) (hle : SpLe sp sp') :
    HRel sp' h sh := by
  obtain ⟨a1, a2, a3, ⟨a4, a4'⟩, a5, a6, a7, a8, a9, a10⟩ := hh
  refine ⟨a1, by rw [hle.cap]; exact a2, by rw [hle.maxm]; exact a3, ⟨?_, a4'⟩, a5, by rw [hle.cap]; exact a6,
    by rw [hle.maxm]; exact a7, a8, a9, a10⟩
  intro hf
  have : sp.farm = true := by unfold Spec.farm at *; rw [← hle.gf]; exact hf
  obtain ⟨b1, b2⟩ := a4 this
  exact ⟨b1, Nat.le_trans b2 hle.log⟩

theorem SpLe.refl (sp : Spec) : SpLe sp sp := ⟨rfl, rfl, rfl, Nat.le_refl _⟩
theorem SpLe.trans {a b c : Spec} (h1 : SpLe a b) (h2 : SpLe b c) : SpLe a c :=
  ⟨h2.cap.trans h1.cap, h2.maxm.trans h1.maxm, h2.gf.trans h1.gf, Nat.le_trans h1.log h2.log⟩

theorem SpLe.commit (sp : Spec) (who : Nat) (new : List Msg) (c : Bool) : SpLe sp (sp.commit who new c) :=
  ⟨rfl, rfl, rfl, by simp⟩

theorem SpLe.tryWrite (sp : Spec) (who : Nat) (nb : Bool) (new : List Msg) (env : Env) :
    SpLe sp (sp.tryWrite who nb new env).1 := by
  unfold Spec.tryWrite
  split
  · exact SpLe.refl sp
  · split
    · exact SpLe.commit _ _ _ _
    · split
      · exact SpLe.refl sp
      · split <;> exact SpLe.refl sp

theorem tryWrite_hs (sp : Spec) (who : Nat) (nb : Bool) (new : List Msg) (env : Env) :
    (sp.tryWrite who nb new env).1.hs = sp.hs := by
  unfold Spec.tryWrite
  split
  · rfl
  · split
    · rfl
    · split
      · rfl
      · split <;> rfl

/-! ## Flushing -/

theorem pend_bd {c : Cache} {pend : List Msg} {csz cvt : Nat} (h : CRel c pend csz cvt)
    (hcs : csz ≤ SSIZE_MAX) : ∀ b ∈ pend, b.length ≤ SSIZE_MAX := by
  intro b hb
  obtain ⟨j, hj, rfl⟩ := List.getElem_of_mem hb
  have := bytesOf_getElem_le (P := pend) (j := j) (List.getElem?_eq_getElem hj)
  have := h.nle; omega

theorem flushCache_spec {r : Ring} {sp : Spec} (hr : RingRel r sp) {h : Handle} {sh : SHandle}
    (hn : h.n = sp.cap) (hmm : h.mm = sp.maxm) (hc : CRel h.c sh.pend sh.csz sh.cvt)
    (hw : h.flags.getLsbD 14 = true) (hp : Legal sp.cap sp.maxm sh.pend) (hcs : sh.csz ≤ sp.cap)
    (who : Nat) (env : Env)
    (hlog : sp.farm = true →
      (sp.tryWrite who (h.flags.has SHR_NONBLOCK) sh.pend env).1.log.length < W) :
    Ok (flushCache h env) r (fun _ => True) (fun o r' =>
      o.res = (sp.tryWrite who (h.flags.has SHR_NONBLOCK) sh.pend env).2 ∧
      RingRel r' (sp.tryWrite who (h.flags.has SHR_NONBLOCK) sh.pend env).1) := by
  unfold flushCache
  refine Ok.lift_bind hc.read ?_
  unfold writevDirect
  have hw' : (h.flags.clear SHR_BUFFERED).has SHR_WRONLY = true := by
    rw [has_WRONLY, clear_BUFFERED _ _ (by decide), hw]; rfl
  have hnb' : (h.flags.clear SHR_BUFFERED).has SHR_NONBLOCK = h.flags.has SHR_NONBLOCK := by
    rw [has_NONBLOCK, has_NONBLOCK, clear_BUFFERED _ _ (by decide)]; simp
  apply Ok.assert_bind hw'
  have hbd := pend_bd hc (by have := hr.cap_le; omega)
  rw [hn, hmm, lenCheck_spec hr.cap_le (fun b hb => ⟨hp.2.1 b hb, hbd b hb⟩), if_pos hp]
  dsimp only
  rw [← hnb'] at hlog
  refine (writevAttempt_spec hr hp who (h.flags.clear SHR_BUFFERED) env hlog).mono (fun _ _ => trivial) ?_
  rintro o r' ⟨h1, h2, _⟩
  rw [hnb'] at h1 h2
  exact ⟨h1, h2⟩

theorem attempt_spec {r : Ring} {sp : Spec} {h : Handle} {sh : SHandle} (hr : RingRel r sp)
    (hh : HRel sp h sh) {iov : List Msg} (hL : Legal sp.cap sp.maxm iov) (k : Nat) (env : Env)
    (hlog : sp.farm = true → (sp.tryWrite k (sh.flags.has SHR_NONBLOCK) iov env).1.log.length < W) :
    Ok (do let out ← writevAttempt h.flags h.mm iov (bytesOf iov) env; pure (h, out)) r
      (fun _ => True) (fun x r' =>
        x.2.res = (sp.tryWrite k (sh.flags.has SHR_NONBLOCK) iov env).2 ∧
        RingRel r' (sp.tryWrite k (sh.flags.has SHR_NONBLOCK) iov env).1 ∧
        HRel (sp.tryWrite k (sh.flags.has SHR_NONBLOCK) iov env).1 x.1 sh) := by
  apply Ok.bind
  rw [hh.mm, hh.flags]
  refine (writevAttempt_spec hr hL k sh.flags env hlog).mono (fun _ _ => trivial) ?_
  rintro o r' ⟨e1, e2, _⟩
  exact Ok.pure ⟨e1, e2, hh.mono (SpLe.tryWrite _ _ _ _ _)⟩

theorem cacheFits_iff {sp : Spec} {h : Handle} {sh : SHandle} (hh : HRel sp h sh) (iov : List Msg) :
    (bytesOf iov ≤ wsub h.c.sz h.c.n ∧ iov.length ≤ wsub h.c.vt h.c.vm) ↔ Spec.cacheFits sh iov := by
  have hc := hh.cache
  have := hc.nle; have := hc.vle; have := hc.szw; have := hc.vtw
  rw [hc.sz, hc.vt, hc.n, hc.vm, wsub_eq (by omega) (by omega), wsub_eq (by omega) (by omega)]
  unfold Spec.cacheFits
  omega

theorem cacheFits_pend {sh : SHandle} {iov : List Msg} :
    Spec.cacheFits { sh with pend := [] } iov ↔ bytesOf iov ≤ sh.csz ∧ iov.length ≤ sh.cvt := by
  unfold Spec.cacheFits; simp

theorem HRel.cacheAll {sp : Spec} {h : Handle} {sh : SHandle} (hh : HRel sp h sh) {iov : List Msg}
    (hne : ∀ b ∈ iov, b ≠ []) (hf : Spec.cacheFits sh iov) :
    ∃ c', cacheAll h.c iov = .ok c' ∧ HRel sp { h with c := c' } { sh with pend := sh.pend ++ iov } := by
  obtain ⟨c', e, hc'⟩ := cacheAll_spec hh.cache hne hf.1 hf.2
  exact ⟨c', e, ⟨hh.flags, hh.n, hh.mm, hh.cur.2 |> fun md => ⟨hh.cur.1, md⟩, hc', hh.csz, hh.cvt,
    hh.nbuf, hh.r2w, hh.mode⟩⟩

theorem HRel.cleared {sp : Spec} {h : Handle} {sh : SHandle} (hh : HRel sp h sh) :
    HRel sp { h with c := { h.c with n := 0, vm := 0 } } { sh with pend := [] } :=
  ⟨hh.flags, hh.n, hh.mm, ⟨hh.cur.1, hh.cur.2⟩, hh.cache.clear, hh.csz, hh.cvt, hh.nbuf, hh.r2w, hh.mode⟩

/-- The model's write, when nothing is flushed first. -/
theorem writev_tail {r : Ring} {sp : Spec} (hr : RingRel r sp) {h : Handle} {sh : SHandle}
    (hh : HRel sp h sh) {iov : List Msg} (hL : Legal sp.cap sp.maxm iov) (k : Nat) (env : Env)
    (hlog : sp.farm = true → (sp.tryWrite k (sh.flags.has SHR_NONBLOCK) iov env).1.log.length < W)
    (x : Handle × Option WrOut) (hx : x = (h, none)) :
    Ok (match x.2 with
      | some out => pure (x.1, out)
      | none => do
        let out ← writevAttempt x.1.flags x.1.mm iov (bytesOf iov) env
        pure (x.1, out)) r
      (fun _ => True) (fun x r' =>
        x.2.res = (sp.tryWrite k (sh.flags.has SHR_NONBLOCK) iov env).2 ∧
        RingRel r' (sp.tryWrite k (sh.flags.has SHR_NONBLOCK) iov env).1 ∧
        HRel (sp.tryWrite k (sh.flags.has SHR_NONBLOCK) iov env).1 x.1 sh) := by
  subst hx
  exact attempt_spec hr hh hL k env hlog

/-- A write behaves as specified. -/
theorem shr_writev_spec {r : Ring} {sp : Spec} (hr : RingRel r sp) {h : Handle} {sh : SHandle}
    (hh : HRel sp h sh) (hw : sh.flags.has SHR_WRONLY = true) (k : Nat) {iov : List Msg}
    (hwf : WriteWF iov) (envF env : Env)
    (hlog : sp.farm = true → (sp.writev k sh iov envF env).1.log.length < W) :
    Ok (shr_writev h iov envF env) r (fun _ => True) (fun x r' =>
      x.2.res = (sp.writev k sh iov envF env).2.2 ∧
      RingRel r' (sp.writev k sh iov envF env).1 ∧
      HRel (sp.writev k sh iov envF env).1 x.1 (sp.writev k sh iov envF env).2.1) := by
  have hfl := hh.flags
  have hw' : h.flags.has SHR_WRONLY = true := by rw [hfl]; exact hw
  unfold shr_writev
  apply Ok.assert_bind hw'
  rw [hh.n, hh.mm, lenCheck_wf hr.cap_le hwf]
  by_cases hL : ¬ Legal sp.cap sp.maxm iov
  · rw [if_neg hL]
    simp only [Spec.writev, if_pos hL]
    exact Ok.pure ⟨rfl, hr, hh⟩
  have hL' : Legal sp.cap sp.maxm iov := Decidable.not_not.mp hL
  rw [if_pos hL']
  dsimp only
  apply Ok.bind
  by_cases hb : sh.flags.has SHR_BUFFERED = false
  · have e : sp.writev k sh iov envF env = ((sp.tryWrite k (sh.flags.has SHR_NONBLOCK) iov env).1, sh,
        (sp.tryWrite k (sh.flags.has SHR_NONBLOCK) iov env).2) := by
      simp only [Spec.writev, if_neg hL, if_pos hb]
    rw [e] at hlog ⊢
    unfold cacheLoop
    rw [if_pos (by rw [hfl]; exact hb)]
    apply Ok.pure
    exact attempt_spec hr hh hL' k env hlog
  unfold cacheLoop
  rw [if_neg (by rw [hfl]; exact hb)]
  by_cases hf : Spec.cacheFits sh iov
  · have e : sp.writev k sh iov envF env = (sp, { sh with pend := sh.pend ++ iov }, .ret (bytesOf iov : Int)) := by
      simp only [Spec.writev, if_neg hL, if_neg hb, if_pos hf]
    rw [e]
    rw [if_pos ((cacheFits_iff hh iov).mpr hf)]
    obtain ⟨c', e', hh'⟩ := hh.cacheAll hL'.2.1 hf
    refine Ok.lift_bind e' ?_
    apply Ok.pure
    exact Ok.pure ⟨rfl, hr, hh'⟩
  rw [if_neg (fun x => hf ((cacheFits_iff hh iov).mp x))]
  by_cases hp : sh.pend = []
  · have e : sp.writev k sh iov envF env = ((sp.tryWrite k (sh.flags.has SHR_NONBLOCK) iov env).1, sh,
        (sp.tryWrite k (sh.flags.has SHR_NONBLOCK) iov env).2) := by
      simp only [Spec.writev, if_neg hL, if_neg hb, if_neg hf, if_pos hp]
    rw [e] at hlog ⊢
    rw [if_pos (hh.cache.n_zero.mpr hp)]
    apply Ok.pure
    exact attempt_spec hr hh hL' k env hlog
  rw [if_neg (fun x => hp (hh.cache.n_zero.mp x))]
  have hfb := hh.buffered hp
  have hpl := hh.pend_legal hp
  have hlogF : sp.farm = true → (sp.tryWrite k (sh.flags.has SHR_NONBLOCK) sh.pend envF).1.log.length < W := by
    intro hfm
    have := hlog hfm
    simp only [Spec.writev, if_neg hL, if_neg hb, if_neg hf, if_neg hp] at this
    refine Nat.lt_of_le_of_lt ?_ this
    split
    · exact Nat.le_refl _
    · split
      · exact Nat.le_refl _
      · split
        · exact Nat.le_refl _
        · exact (SpLe.tryWrite _ _ _ _ _).log
  apply Ok.bind
  have hfs := flushCache_spec (who := k) (env := envF) hr hh.n hh.mm hh.cache (by rw [hfl]; exact hfb.2) hpl hh.csz
    (by rw [hfl]; exact hlogF)
  rw [hfl] at hfs
  refine hfs.mono (fun _ _ => trivial) ?_
  rintro o r1 ⟨ho, hr1⟩
  have hsl := SpLe.tryWrite sp k (sh.flags.has SHR_NONBLOCK) sh.pend envF
  have e : sp.writev k sh iov envF env =
      (let x := sp.tryWrite k (sh.flags.has SHR_NONBLOCK) sh.pend envF
       match x.2 with
        | .wait => (x.1, sh, .wait)
        | .ret rc =>
          if rc ≤ 0 then (x.1, sh, .ret rc)
          else
            let h' := { sh with pend := [] }
            if Spec.cacheFits h' iov then (x.1, { h' with pend := iov }, .ret (bytesOf iov : Int))
            else
              let y := x.1.tryWrite k (sh.flags.has SHR_NONBLOCK) iov env
              (y.1, h', y.2)) := by
    simp only [Spec.writev, if_neg hL, if_neg hb, if_neg hf, if_neg hp]
    generalize sp.tryWrite k (sh.flags.has SHR_NONBLOCK) sh.pend envF = X
    obtain ⟨_, w⟩ := X
    cases w <;> rfl
  rw [e] at hlog ⊢
  clear e
  generalize hX : sp.tryWrite k (sh.flags.has SHR_NONBLOCK) sh.pend envF = X at *
  obtain ⟨sp1, w⟩ := X
  dsimp only at hr1 ho hsl hlog ⊢
  subst ho
  have hh1 := hh.mono hsl
  cases o with
  | wait => 
    apply Ok.pure
    exact Ok.pure ⟨rfl, hr1, hh1⟩
  | ret rc wk =>
    dsimp only [WrOut.res] at hlog ⊢
    by_cases hrc : rc ≤ 0
    · rw [if_pos hrc]
      simp only [if_pos hrc]
      apply Ok.pure
      exact Ok.pure ⟨rfl, hr1, hh1⟩
    · rw [if_neg hrc]
      simp only [if_neg hrc] at hlog ⊢
      have hh2 := hh1.cleared
      unfold cacheLoop
      have hfl2 : ({ h with c := { h.c with n := 0, vm := 0 } } : Handle).flags = sh.flags := hfl
      rw [if_neg (by rw [hfl2]; exact hb)]
      have hL1 : Legal sp1.cap sp1.maxm iov := by rw [hsl.cap, hsl.maxm]; exact hL'
      by_cases hf2 : Spec.cacheFits { sh with pend := [] } iov
      · rw [if_pos ((cacheFits_iff hh2 iov).mpr hf2)]
        simp only [if_pos hf2]
        obtain ⟨c', e', hh'⟩ := hh2.cacheAll hL'.2.1 hf2
        refine Ok.lift_bind e' ?_
        apply Ok.pure
        exact Ok.pure ⟨rfl, hr1, hh'⟩
      · rw [if_neg (fun x => hf2 ((cacheFits_iff hh2 iov).mp x))]
        simp only [if_neg hf2] at hlog ⊢
        rw [if_pos trivial]
        apply Ok.pure
        exact attempt_spec hr1 hh2 hL1 k env (fun hfm => hlog (by unfold Spec.farm at *; rw [← hsl.gf]; exact hfm))

end Shr
