import Verif.Proof.Abort
import Verif.Props.Hold
import Verif.Props.Total
/-! # C95: an empty message in a buffered write is noticed too late -/
namespace Shr
open M

/-- The cache holds exactly the messages `pend`, empty ones among them perhaps. -/
structure Caches (c : Cache) (pend : List Msg) (csz cvt : Nat) : Prop where
  sz : c.sz = csz
  vt : c.vt = cvt
  blen : c.buf.length = csz
  ilen : c.iov.length = cvt
  n : c.n = bytesOf pend
  vm : c.vm = pend.length
  nle : bytesOf pend ≤ csz
  vle : pend.length ≤ cvt
  szw : csz < W
  vtw : cvt < W
  buf : ∀ t, t < bytesOf pend → c.buf[t]? = pend.flatten[t]?
  iov : c.iov.take pend.length = layout 0 pend

theorem CRel.caches {c : Cache} {pend : List Msg} {csz cvt : Nat} (h : CRel c pend csz cvt) : Caches c pend csz cvt :=
  ⟨h.sz, h.vt, h.blen, h.ilen, h.n, h.vm, h.nle, h.vle, h.szw, h.vtw, h.buf, h.iov⟩

theorem cacheOne_any {c : Cache} {pend : List Msg} {csz cvt : Nat} (h : Caches c pend csz cvt) {b : Msg}
    (h1 : bytesOf pend + b.length ≤ csz) (h2 : pend.length + 1 ≤ cvt) :
    ∃ c', cacheOne c b = .ok c' ∧ Caches c' (pend ++ [b]) csz cvt := by
  obtain ⟨sz, vt, blen, ilen, n, vm, nle, vle, szw, vtw, buf, iov⟩ := h
  unfold cacheOne memWrite
  rw [if_pos (by omega)]
  simp only [bind, Except.bind]
  rw [if_pos (by omega)]
  refine ⟨_, rfl, ⟨sz, vt, ?_, ?_, ?_, ?_, ?_, ?_, szw, vtw, ?_, ?_⟩⟩
  · show (put c.buf c.n b).length = csz; rw [put_length (by omega), blen]
  · simp [ilen]
  · show wadd c.n b.length = _; rw [wadd_eq (by omega), n]; simp
  · show wadd c.vm 1 = _; rw [wadd_eq (by omega), vm]; simp
  · simp; omega
  · simp; omega
  · intro t ht
    simp at ht
    show (put c.buf c.n b)[t]? = _
    rw [List.flatten_append]
    rcases Nat.lt_or_ge t (bytesOf pend) with hlt | hge
    · rw [put_getElem?_out (by omega) (by omega), buf t hlt,
        List.getElem?_append_left (by rw [flatten_length]; exact hlt)]
    · obtain ⟨j, rfl⟩ : ∃ j, t = c.n + j := ⟨t - c.n, by omega⟩
      rw [put_getElem?_in (by omega) (by omega),
        List.getElem?_append_right (by rw [flatten_length]; omega), flatten_length]
      simp only [List.flatten_cons, List.flatten_nil, List.append_nil]
      congr 1; omega
  · show (c.iov.set c.vm (c.n, b.length)).take (pend ++ [b]).length = _
    rw [layout_append, ← iov, vm, n]
    simp only [List.length_append, List.length_cons, List.length_nil, Nat.zero_add, layout]
    apply List.ext_getElem?
    intro j
    rw [List.getElem?_take]
    rcases Nat.lt_trichotomy j pend.length with hj | hj | hj
    · rw [if_pos (by omega), List.getElem?_set_ne (by omega), List.getElem?_append_left (by simp; omega),
        List.getElem?_take, if_pos hj]
    · subst hj
      rw [if_pos (by omega), List.getElem?_set_self (by omega),
        List.getElem?_append_right (by simp; omega)]
      simp [ilen, Nat.min_eq_left vle]
    · rw [if_neg (by omega), List.getElem?_eq_none]
      simp; omega

theorem cacheAll_any : ∀ {new : List Msg} {c : Cache} {pend : List Msg} {csz cvt : Nat},
    Caches c pend csz cvt → bytesOf pend + bytesOf new ≤ csz → pend.length + new.length ≤ cvt →
    ∃ c', cacheAll c new = .ok c' ∧ Caches c' (pend ++ new) csz cvt := by
  intro new
  induction new with
  | nil => intro c pend csz cvt h _ _; exact ⟨c, rfl, by simpa using h⟩
  | cons b bs ih =>
    intro c pend csz cvt h h1 h2
    simp at h1 h2
    obtain ⟨c1, e1, hc1⟩ := cacheOne_any h (b := b) (by omega) (by omega)
    obtain ⟨c2, e2, hc2⟩ := ih hc1 (by simp; omega) (by simp; omega)
    refine ⟨c2, ?_, by simpa using hc2⟩
    unfold cacheAll
    rw [e1]
    exact e2

theorem Caches.read {c : Cache} {pend : List Msg} {csz cvt : Nat} (h : Caches c pend csz cvt) :
    cacheRead c.buf (c.iov.take c.vm) = .ok pend := by
  rw [h.vm, h.iov]
  apply cacheRead_spec
  · rw [h.blen]; have := h.nle; omega
  · intro t ht
    rw [Nat.zero_add]; exact h.buf t ht

theorem Caches.msgs {c : Cache} {pend : List Msg} {csz cvt : Nat} (h : Caches c pend csz cvt) : c.msgs = pend :=
  cacheRead_eq _ _ _ h.read

/-- A handle whose cache holds an empty message behind a nonempty one. -/
structure Poisoned (cap maxm : Nat) (h : Handle) (P : List Msg) : Prop where
  wr : h.flags.has SHR_WRONLY = true
  nord : h.flags.has SHR_RDONLY = false
  buf : h.flags.has SHR_BUFFERED = true
  n : h.n = cap
  mm : h.mm = maxm
  cache : Caches h.c P h.c.sz h.c.vt
  csz : h.c.sz ≤ cap
  cvt : h.c.vt ≤ maxm
  head : P.head? ≠ some []
  mem : [] ∈ P

theorem Poisoned.ne {cap maxm : Nat} {h : Handle} {P : List Msg} (p : Poisoned cap maxm h P) : P ≠ [] := by
  intro e; have := p.mem; rw [e] at this; cases this

theorem Poisoned.checked {cap maxm : Nat} {h : Handle} {P : List Msg} (p : Poisoned cap maxm h P) : Checked cap maxm P := by
  have h1 := p.cache.nle; have h2 := p.cache.vle; have h3 := p.csz; have h4 := p.cvt
  exact ⟨p.ne, p.head, by omega, by omega⟩

theorem head_pos {P : List Msg} (h1 : P ≠ []) (h2 : P.head? ≠ some []) : 0 < bytesOf P := by
  cases P with
  | nil => exact absurd rfl h1
  | cons b bs =>
    have hb : b ≠ [] := fun e => h2 (by rw [e]; rfl)
    have := List.length_pos_iff.mpr hb
    simp [bytesOf]; omega

theorem mem_le_bytesOf {b : Msg} : ∀ {P : List Msg}, b ∈ P → b.length ≤ bytesOf P := by
  intro P
  induction P with
  | nil => intro h; cases h
  | cons x xs ih =>
    intro h
    rcases List.mem_cons.mp h with rfl | h
    · simp [bytesOf]
    · have := ih h; simp [bytesOf] at this ⊢; omega

theorem Poisoned.sizes {cap maxm : Nat} {h : Handle} {P : List Msg} (p : Poisoned cap maxm h P) (hc : cap ≤ SSIZE_MAX) :
    ∀ b ∈ P, b.length ≤ SSIZE_MAX := by
  intro b hb
  have := mem_le_bytesOf hb
  have := p.checked.2.2.1
  omega

/-- An attempt that finds no room, or does not get the lock. -/
theorem attempt_idle {r : Ring} {sp : Spec} (hr : RingRel r sp) {new : List Msg} {flags : Flags} {env : Env}
    (hno : env.lockOk = false ∨ (¬ Fits sp.cap sp.maxm sp.unread new ∧ sp.drop = false)) :
    ∃ out, writevAttempt flags sp.maxm new (bytesOf new) env r = ⟨[], .ok out r⟩ ∧ (∀ rc w, out = .ret rc w → rc ≤ 0) := by
  by_cases hlk : env.lockOk = false
  · refine ⟨.ret (-1) false, ?_, ?_⟩
    · unfold writevAttempt; rw [if_pos hlk]; rfl
    · intro rc w e; cases e; decide
  have hlk' : env.lockOk = true := by simpa using hlk
  obtain ⟨hroom, hd⟩ := hno.resolve_left hlk
  have hdr : r.gflags.has SHR_DROP = false := by rw [hr.gf]; exact hd
  obtain ⟨p0, hg⟩ := hr.rep.geo
  have hC := hg.toCore
  have nbd := hC.nbd; have mmbd := hC.mmbd; have tot := hC.tot; have cnt := hC.cnt
  rw [SSIZE_MAX_val] at nbd mmbd
  have hu := hr.rep.u; have hm := hr.rep.m
  rw [hr.unread_eq] at hu
  have hm' : r.m = sp.unread.length := by rw [hm, ← hr.unread_eq]; simp
  have hule : bytesOf sp.unread ≤ r.n := by
    rw [← hr.unread_eq]; have := bytesOf_drop_le sp.retained (sp.first - sp.base); omega
  have hmle : r.m ≤ r.mm := by omega
  have hn := hr.n; have hmm := hr.mm
  have hno : ¬ (r.n - r.u ≥ bytesOf new ∧ r.mm - r.m ≥ new.length) := by
    intro hx; apply hroom; unfold Fits; omega
  unfold writevAttempt
  rw [if_neg hlk, M.get_bind,
    wsub_eq (a := r.n) (by omega) (by rw [W_val]; omega),
    wsub_eq (a := r.mm) (by omega) (by rw [W_val]; omega), if_neg hno, if_neg (by rw [hdr]; simp)]
  by_cases hnb : flags.has SHR_NONBLOCK = true
  · rw [if_pos hnb]; exact ⟨.ret 0 false, rfl, by intro rc w e; cases e; decide⟩
  · rw [if_neg hnb]
    cases env.waitRc with
    | none => exact ⟨.wait, rfl, by intro rc w e; cases e⟩
    | some sc => exact ⟨.ret sc.rc false, rfl, by intro rc w e; cases e; cases sc <;> decide⟩

/-- Flushing such a cache: it aborts if there is room, else nothing happens. -/
theorem flushCache_poisoned {r : Ring} {sp : Spec} (hr : RingRel r sp) {h h2 : Handle} {P : List Msg} (p : Poisoned sp.cap sp.maxm h P) (env : Env)
    (en : h2.n = h.n) (em : h2.mm = h.mm) (ec : h2.c = h.c) (hw : h2.flags.getLsbD 14 = true) :
    (env.lockOk = true → Fits sp.cap sp.maxm sp.unread P ∨ sp.drop = true → Aborts (flushCache h2 env) r) ∧
    (env.lockOk = false ∨ (¬ Fits sp.cap sp.maxm sp.unread P ∧ sp.drop = false) →
      ∃ out, flushCache h2 env r = ⟨[], .ok out r⟩ ∧ (∀ rc w, out = .ret rc w → rc ≤ 0)) := by
  have hlc := lenCheck_checked (maxm := sp.maxm) hr.cap_le (p.sizes hr.cap_le)
  rw [if_pos p.checked, ← p.n, ← p.mm] at hlc
  have hc := p.checked
  have hw' : (h2.flags.clear SHR_BUFFERED).has SHR_WRONLY = true := by
    rw [has_WRONLY, clear_BUFFERED _ _ (by decide), hw]; rfl
  have e : flushCache h2 env r = writevAttempt (h2.flags.clear SHR_BUFFERED) sp.maxm P (bytesOf P) env r := by
    unfold flushCache
    rw [ec, p.cache.read, M.bind_apply, M.lift_ok, en, em]
    dsimp only
    unfold writevDirect
    rw [M.assert_bind_of hw', hlc]
    simp [p.mm]
  constructor
  · intro hlk hroom
    obtain ⟨t, ht⟩ := writevAttempt_empty hr p.mem hc.2.2.1 hc.2.2.2 (h2.flags.clear SHR_BUFFERED) hlk hroom
    exact ⟨t, by rw [e]; exact ht⟩
  · intro hno
    rw [e]
    exact attempt_idle hr hno

theorem flushCache_cases {r : Ring} {sp : Spec} (hr : RingRel r sp) {h h2 : Handle} {P : List Msg} (p : Poisoned sp.cap sp.maxm h P) (env : Env)
    (en : h2.n = h.n) (em : h2.mm = h.mm) (ec : h2.c = h.c) (hw : h2.flags.getLsbD 14 = true) :
    Aborts (flushCache h2 env) r ∨
    ∃ out, flushCache h2 env r = ⟨[], .ok out r⟩ ∧ (∀ rc w, out = .ret rc w → rc ≤ 0) := by
  obtain ⟨h1, h2⟩ := flushCache_poisoned hr p env en em ec hw
  by_cases hlk : env.lockOk = true
  · by_cases hrm : Fits sp.cap sp.maxm sp.unread P ∨ sp.drop = true
    · exact .inl (h1 hlk hrm)
    · exact .inr (h2 (.inr ⟨fun h => hrm (.inl h), by cases e : sp.drop; rfl; exact absurd (.inr e) hrm⟩))
  · exact .inr (h2 (.inl (by simpa using hlk)))

theorem Poisoned.n_ne {cap maxm : Nat} {h : Handle} {P : List Msg} (p : Poisoned cap maxm h P) : h.c.n ≠ 0 := by
  have := head_pos p.ne p.head
  rw [p.cache.n]; omega

theorem Poisoned.flags {cap maxm : Nat} {h : Handle} {P : List Msg} (p : Poisoned cap maxm h P) {b : Bool} :
    Poisoned cap maxm { h with hasR2w := b } P :=
  ⟨p.wr, p.nord, p.buf, p.n, p.mm, p.cache, p.csz, p.cvt, p.head, p.mem⟩

theorem Aborts.not_ok {α : Type} {x : M Ring α} {r : Ring} (h : Aborts x r) {a : α} {t : Ring} : (x r).res ≠ .ok a t := by
  obtain ⟨s, hs⟩ := h
  rw [hs]; intro e; cases e

/-- `shr_flush` of such a handle. -/
theorem shr_flush_poisoned {r : Ring} {sp : Spec} (hr : RingRel r sp) {h : Handle} {P : List Msg} (p : Poisoned sp.cap sp.maxm h P)
    (wait : Bool) (env : Env) :
    (env.lockOk = true → env.bwOpenOk = true ∨ wait = false → Fits sp.cap sp.maxm sp.unread P ∨ sp.drop = true →
      Aborts (shr_flush h wait env) r) ∧
    (∀ x t, (shr_flush h wait env r).res = .ok x t → t = r ∧ Poisoned sp.cap sp.maxm x.1 P) := by
  have hn0 := p.n_ne
  have hw14 : h.flags.getLsbD 14 = true := by rw [← has_WRONLY]; exact p.wr
  have hb16 : h.flags.getLsbD 16 = true := by rw [← has_BUFFERED]; exact p.buf
  have body : ∀ (f : Flags), f.getLsbD 14 = true → ∀ (b : Bool) (g : WrOut → M Ring (Handle × WrOut)),
      (∀ out, (∀ rc w, out = .ret rc w → rc ≤ 0) → ∃ x, g out = pure x ∧ Poisoned sp.cap sp.maxm x.1 P) →
      (env.lockOk = true → Fits sp.cap sp.maxm sp.unread P ∨ sp.drop = true →
        Aborts (flushCache { h with flags := f, hasR2w := b } env >>= g) r) ∧
      (∀ x t, ((flushCache { h with flags := f, hasR2w := b } env >>= g) r).res = .ok x t → t = r ∧ Poisoned sp.cap sp.maxm x.1 P) := by
    intro f hf b g hg
    refine ⟨fun hlk hrm => .bind_left ((flushCache_poisoned hr p env (h2 := { h with flags := f, hasR2w := b }) rfl rfl rfl hf).1 hlk hrm), ?_⟩
    intro x t ht
    rcases flushCache_cases hr p env (h2 := { h with flags := f, hasR2w := b }) rfl rfl rfl hf with ha | ⟨out, e, ho⟩
    · exact absurd ht (Aborts.bind_left ha).not_ok
    · obtain ⟨y, e2, hy⟩ := hg out ho
      rw [M.bind_apply, e] at ht
      dsimp only at ht
      rw [e2] at ht
      cases ht
      exact ⟨rfl, hy⟩
  have wfl : ∀ f : Flags, f.getLsbD 13 = h.flags.getLsbD 13 → f.getLsbD 14 = true → f.getLsbD 16 = true → ∀ b, Poisoned sp.cap sp.maxm { h with flags := f, hasR2w := b } P := by
    intro f h1 h2 h3 b
    refine ⟨by rw [has_WRONLY]; exact h2, ?_, by rw [has_BUFFERED]; exact h3, p.n, p.mm, p.cache, p.csz, p.cvt, p.head, p.mem⟩
    have := p.nord
    rw [has_RDONLY] at this ⊢
    exact h1.trans this
  by_cases htog : (h.flags.has SHR_NONBLOCK && wait) = true
  · have hnb : h.flags.getLsbD 15 = true := by rw [← has_NONBLOCK]; revert htog; cases h.flags.has SHR_NONBLOCK <;> simp
    have hwt : wait = true := by revert htog; cases wait <;> simp
    have hcl : ∀ j, j < 32 → j ≠ 15 → (h.flags.clear SHR_NONBLOCK).getLsbD j = h.flags.getLsbD j := by
      intro j hj hne; rw [clear_NONBLOCK _ _ hj]; simp [hne]
    have e : shr_flush h wait env r = (if h.hasR2w = false ∧ (env.lockOk = false ∨ env.bwOpenOk = false) then
        pure ({ h with flags := (h.flags.clear SHR_NONBLOCK).set SHR_NONBLOCK }, .ret (-1) false)
      else do
        let out ← flushCache { h with flags := h.flags.clear SHR_NONBLOCK, hasR2w := true } env
        let h3 : Handle := { h with flags := ((h.flags.clear SHR_NONBLOCK).clear SHR_BUFFERED).set SHR_BUFFERED, hasR2w := true }
        let h4 : Handle := match out with
          | .ret rc _ => if rc > 0 then { h3 with c := { h3.c with n := 0, vm := 0 } } else h3
          | .wait => h3
        pure ({ h4 with flags := h4.flags.set SHR_NONBLOCK }, out) : M Ring (Handle × WrOut)) r := by
      unfold shr_flush
      rw [M.assert_bind_of p.wr, if_neg hn0]
      dsimp only
      simp only [htog, if_true, true_and]
      rfl
    have hf14 : (h.flags.clear SHR_NONBLOCK).getLsbD 14 = true := by rw [hcl 14 (by decide) (by decide)]; exact hw14
    have hf16 : (h.flags.clear SHR_NONBLOCK).getLsbD 16 = true := by rw [hcl 16 (by decide) (by decide)]; exact hb16
    have hg := body (h.flags.clear SHR_NONBLOCK) hf14 true (fun out => do
        let h3 : Handle := { h with flags := ((h.flags.clear SHR_NONBLOCK).clear SHR_BUFFERED).set SHR_BUFFERED, hasR2w := true }
        let h4 : Handle := match out with
          | .ret rc _ => if rc > 0 then { h3 with c := { h3.c with n := 0, vm := 0 } } else h3
          | .wait => h3
        pure ({ h4 with flags := h4.flags.set SHR_NONBLOCK }, out)) (by
      intro out ho
      refine ⟨({ h with flags := h.flags, hasR2w := true }, out), ?_, wfl _ rfl hw14 hb16 _⟩
      dsimp only
      rw [clear_set_BUFFERED _ hf16]
      cases out with
      | wait => dsimp only; rw [clear_set_NONBLOCK _ hnb]
      | ret rc w =>
        have := ho rc w rfl
        dsimp only
        rw [if_neg (by omega), clear_set_NONBLOCK _ hnb])
    have ea : ∀ x : M Ring (Handle × WrOut), shr_flush h wait env r = x r → (Aborts x r → Aborts (shr_flush h wait env) r) := by
      intro x ex ⟨t, ht⟩; exact ⟨t, by rw [ex]; exact ht⟩
    constructor
    · intro hlk hbw hrm
      have hbo : env.bwOpenOk = true := by rcases hbw with h | h; exact h; rw [hwt] at h; cases h
      apply ea _ e
      rw [if_neg (by rw [hlk, hbo]; simp)]
      exact hg.1 hlk hrm
    · intro x t ht
      rw [e] at ht
      by_cases hc : h.hasR2w = false ∧ (env.lockOk = false ∨ env.bwOpenOk = false)
      · rw [if_pos hc, clear_set_NONBLOCK _ hnb] at ht
        cases ht
        exact ⟨rfl, p⟩
      · rw [if_neg hc] at ht
        exact hg.2 x t ht
  · have htog' : (h.flags.has SHR_NONBLOCK && wait) = false := by simpa using htog
    have e : shr_flush h wait env r = (do
        let out ← flushCache { h with flags := h.flags, hasR2w := h.hasR2w } env
        let h3 : Handle := { h with flags := (h.flags.clear SHR_BUFFERED).set SHR_BUFFERED }
        let h4 : Handle := match out with
          | .ret rc _ => if rc > 0 then { h3 with c := { h3.c with n := 0, vm := 0 } } else h3
          | .wait => h3
        pure (h4, out) : M Ring (Handle × WrOut)) r := by
      unfold shr_flush
      rw [M.assert_bind_of p.wr, if_neg hn0]
      dsimp only
      simp only [htog', Bool.false_eq_true, if_false, false_and]
      rfl
    have hg := body h.flags hw14 h.hasR2w (fun out => do
        let h3 : Handle := { h with flags := (h.flags.clear SHR_BUFFERED).set SHR_BUFFERED }
        let h4 : Handle := match out with
          | .ret rc _ => if rc > 0 then { h3 with c := { h3.c with n := 0, vm := 0 } } else h3
          | .wait => h3
        pure (h4, out)) (by
      intro out ho
      refine ⟨(h, out), ?_, p⟩
      dsimp only
      rw [clear_set_BUFFERED _ hb16]
      cases out with
      | wait => rfl
      | ret rc w =>
        have := ho rc w rfl
        dsimp only
        rw [if_neg (by omega)])
    constructor
    · intro hlk _ hrm
      obtain ⟨t, ht⟩ := hg.1 hlk hrm
      exact ⟨t, by rw [e]; exact ht⟩
    · intro x t ht
      rw [e] at ht
      exact hg.2 x t ht

/-- `shr_close` of such a handle. -/
theorem shr_close_poisoned {r : Ring} {sp : Spec} (hr : RingRel r sp) {h : Handle} {P : List Msg} (p : Poisoned sp.cap sp.maxm h P) (env : Env) :
    (env.lockOk = true → Fits sp.cap sp.maxm sp.unread P ∨ sp.drop = true → Aborts (shr_close h env) r) ∧
    (∀ x t, (shr_close h env r).res = .ok x t → t = r) := by
  obtain ⟨h1, h2⟩ := shr_flush_poisoned hr p false env
  unfold shr_close
  rw [if_pos p.n_ne]
  refine ⟨fun hlk hrm => .bind_left (h1 hlk (.inr rfl) hrm), ?_⟩
  intro x t ht
  rw [M.bind_apply] at ht
  generalize hq : shr_flush h false env r = q at ht h2
  obtain ⟨tr, res⟩ := q
  cases res with
  | ok y u => obtain ⟨rfl, _⟩ := h2 y u rfl; cases ht; rfl
  | abort _ => cases ht
  | ub => cases ht
  | hang => cases ht

/-- `shr_writev` on such a handle. -/
theorem shr_writev_poisoned {r : Ring} {sp : Spec} (hr : RingRel r sp) {h : Handle} {P : List Msg} (p : Poisoned sp.cap sp.maxm h P)
    {iov : List Msg} (hsz : ∀ b ∈ iov, b.length ≤ SSIZE_MAX) (envF env : Env) :
    ∀ x t, (shr_writev h iov envF env r).res = .ok x t → t = r ∧ ∃ P', Poisoned sp.cap sp.maxm x.1 (P ++ P') := by
  intro x t ht
  have hlc := lenCheck_checked (maxm := sp.maxm) hr.cap_le hsz
  rw [← p.n, ← p.mm] at hlc
  unfold shr_writev at ht
  rw [M.assert_bind_of p.wr] at ht
  by_cases hc : Checked h.n h.mm iov
  · rw [hlc, if_pos hc] at ht
    dsimp only at ht
    have hw14 : h.flags.getLsbD 14 = true := by rw [← has_WRONLY]; exact p.wr
    have hC := p.cache
    have n1 := hC.n; have n2 := hC.vm; have n3 := hC.nle; have n4 := hC.vle; have n5 := hC.szw; have n6 := hC.vtw
    by_cases hf : bytesOf iov ≤ wsub h.c.sz h.c.n ∧ iov.length ≤ wsub h.c.vt h.c.vm
    · have e : cacheLoop iov (bytesOf iov) envF 2 h = (do
          let c ← lift (cacheAll h.c iov)
          pure ({ h with c := c }, some (.ret (bytesOf iov : Int) false))) := by
        unfold cacheLoop
        rw [if_neg (by rw [p.buf]; simp), if_pos hf]
      rw [wsub_eq (by omega) (by omega), wsub_eq (by omega) (by omega)] at hf
      obtain ⟨c', e1, hc'⟩ := cacheAll_any hC (new := iov) (by omega) (by omega)
      rw [e, e1] at ht
      have : t = r ∧ x = ({ h with c := c' }, .ret (bytesOf iov : Int) false) := by
        cases ht; exact ⟨rfl, rfl⟩
      refine ⟨this.1, iov, ?_⟩
      rw [this.2]
      refine ⟨p.wr, p.nord, p.buf, p.n, p.mm, ?_, ?_, ?_, ?_, by simp [p.mem]⟩
      · show Caches c' _ c'.sz c'.vt
        rw [hc'.sz, hc'.vt]; exact hc'
      · show c'.sz ≤ _; rw [hc'.sz]; exact p.csz
      · show c'.vt ≤ _; rw [hc'.vt]; exact p.cvt
      · have h1 := p.head; have h2 := p.ne
        cases P with
        | nil => exact absurd rfl h2
        | cons b bs => exact h1
    · have e : cacheLoop iov (bytesOf iov) envF 2 h = (do
          let out ← flushCache h envF
          match out with
          | .wait => pure (h, some .wait)
          | .ret rc wake =>
            if rc ≤ 0 then pure (h, some (.ret rc wake))
            else cacheLoop iov (bytesOf iov) envF 1 { h with c := { h.c with n := 0, vm := 0 } }) := by
        rw [cacheLoop]
        rw [if_neg (by rw [p.buf]; simp), if_neg hf, if_neg p.n_ne]
        rfl
      rw [e] at ht
      rcases flushCache_cases hr p envF (h2 := h) rfl rfl rfl hw14 with ha | ⟨out, e, ho⟩
      · exact absurd ht (Aborts.bind_left (Aborts.bind_left ha)).not_ok
      · have key : t = r ∧ x.1 = h := by
          rw [M.bind_apply, M.bind_apply, e] at ht
          dsimp only at ht
          cases out with
          | wait => cases ht; exact ⟨rfl, rfl⟩
          | ret rc w =>
            have := ho rc w rfl
            dsimp only at ht
            rw [if_pos this] at ht
            cases ht; exact ⟨rfl, rfl⟩
        refine ⟨key.1, [], ?_⟩
        rw [key.2, List.append_nil]; exact p
  · rw [hlc, if_neg hc] at ht
    cases ht
    exact ⟨rfl, [], by rw [List.append_nil]; exact p⟩

/-- A call on a handle depends on that handle and the ring alone, and changes nothing else. -/
theorem step_frame {s s' t' : Sys} {op : Op} {o : Out} (hr : s.ring = s'.ring) (hk : s.hs op.handle = s'.hs op.handle) (h : s'.step op = .ok (t', o)) :
    ∃ t, s.step op = .ok (t, o) ∧ t.ring = t'.ring ∧ t.hs op.handle = t'.hs op.handle ∧ ∀ j, j ≠ op.handle → t.hs j = s.hs j ∧ t'.hs j = s'.hs j := by
  obtain ⟨r, f⟩ := s
  obtain ⟨r', f'⟩ := s'
  simp only at hr hk
  subst hr
  cases op with
  | «open» k flags env =>
    simp only [Op.handle] at hk ⊢
    simp only [Sys.step] at h ⊢
    rw [← hk] at h
    cases e : f k <;> simp only [e] at h ⊢
    case never =>
      by_cases hv : validate_flags flags = false
      · rw [if_pos hv] at h ⊢; cases h; exact ⟨_, rfl, rfl, hk, fun j _ => ⟨rfl, rfl⟩⟩
      · rw [if_neg hv] at h ⊢
        cases e2 : openLocked r flags env <;> simp only [e2] at h ⊢ <;> cases h
        · exact ⟨_, rfl, rfl, hk, fun j _ => ⟨rfl, rfl⟩⟩
        · exact ⟨_, rfl, rfl, by simp [upd], fun j hj => ⟨by simp [upd, hj], by simp [upd, hj]⟩⟩
    all_goals cases h; exact ⟨_, rfl, rfl, hk, fun j _ => ⟨rfl, rfl⟩⟩
  | writev k iov envF env =>
    simp only [Op.handle] at hk ⊢
    simp only [Sys.step] at h ⊢
    rw [← hk] at h
    cases e : f k with
    | live hd =>
      simp only [e] at h ⊢
      by_cases hv : hd.flags.has SHR_WRONLY = false
      · rw [if_pos hv] at h ⊢; cases h; exact ⟨_, rfl, rfl, hk, fun j _ => ⟨rfl, rfl⟩⟩
      · rw [if_neg hv] at h ⊢
        cases e2 : exec (shr_writev hd iov envF env) r with
        | error _ => simp only [e2] at h; cases h
        | ok x => simp only [e2] at h ⊢; cases h; exact ⟨_, rfl, rfl, by simp [upd], fun j hj => ⟨by simp [upd, hj], by simp [upd, hj]⟩⟩
    | _ => simp only [e] at h ⊢; cases h; exact ⟨_, rfl, rfl, hk, fun j _ => ⟨rfl, rfl⟩⟩
  | readv k buf niov env =>
    simp only [Op.handle] at hk ⊢
    simp only [Sys.step] at h ⊢
    rw [← hk] at h
    cases e : f k with
    | live hd =>
      simp only [e] at h ⊢
      by_cases hv : hd.flags.has SHR_RDONLY = false
      · rw [if_pos hv] at h ⊢; cases h; exact ⟨_, rfl, rfl, hk, fun j _ => ⟨rfl, rfl⟩⟩
      · rw [if_neg hv] at h ⊢
        cases e2 : exec (shr_readv hd buf buf.length niov env) r with
        | error _ => simp only [e2] at h; cases h
        | ok x => simp only [e2] at h ⊢; cases h; exact ⟨_, rfl, rfl, by simp [upd], fun j hj => ⟨by simp [upd, hj], by simp [upd, hj]⟩⟩
    | _ => simp only [e] at h ⊢; cases h; exact ⟨_, rfl, rfl, hk, fun j _ => ⟨rfl, rfl⟩⟩
  | flush k wait env =>
    simp only [Op.handle] at hk ⊢
    simp only [Sys.step] at h ⊢
    rw [← hk] at h
    cases e : f k with
    | live hd =>
      simp only [e] at h ⊢
      by_cases hv : hd.flags.has SHR_WRONLY = false
      · rw [if_pos hv] at h ⊢; cases h; exact ⟨_, rfl, rfl, hk, fun j _ => ⟨rfl, rfl⟩⟩
      · rw [if_neg hv] at h ⊢
        cases e2 : exec (shr_flush hd wait env) r with
        | error _ => simp only [e2] at h; cases h
        | ok x => simp only [e2] at h ⊢; cases h; exact ⟨_, rfl, rfl, by simp [upd], fun j hj => ⟨by simp [upd, hj], by simp [upd, hj]⟩⟩
    | _ => simp only [e] at h ⊢; cases h; exact ⟨_, rfl, rfl, hk, fun j _ => ⟨rfl, rfl⟩⟩
  | close k env =>
    simp only [Op.handle] at hk ⊢
    simp only [Sys.step] at h ⊢
    rw [← hk] at h
    cases e : f k with
    | live hd =>
      simp only [e] at h ⊢
      cases e2 : exec (shr_close hd env) r with
      | error _ => simp only [e2] at h; cases h
      | ok x =>
        obtain ⟨x, u⟩ := x
        cases x <;> simp only [e2] at h ⊢ <;> cases h
        · exact ⟨_, rfl, rfl, by simp [upd], fun j hj => ⟨by simp [upd, hj], by simp [upd, hj]⟩⟩
        · exact ⟨_, rfl, rfl, hk, fun j _ => ⟨rfl, rfl⟩⟩
    | _ => simp only [e] at h ⊢; cases h; exact ⟨_, rfl, rfl, hk, fun j _ => ⟨rfl, rfl⟩⟩
  | stat k reset env =>
    simp only [Op.handle] at hk ⊢
    simp only [Sys.step] at h ⊢
    rw [← hk] at h
    cases e : f k with
    | live hd =>
      simp only [e] at h ⊢
      cases e2 : exec (shr_stat hd reset env) r with
      | error _ => simp only [e2] at h; cases h
      | ok x => simp only [e2] at h ⊢; cases h; exact ⟨_, rfl, rfl, hk, fun j _ => ⟨rfl, rfl⟩⟩
    | _ => simp only [e] at h ⊢; cases h; exact ⟨_, rfl, rfl, hk, fun j _ => ⟨rfl, rfl⟩⟩
  | farmStat k reset =>
    simp only [Op.handle] at hk ⊢
    simp only [Sys.step] at h ⊢
    rw [← hk] at h
    cases e : f k with
    | live hd =>
      simp only [e] at h ⊢
      by_cases hv : hd.flags.has SHR_RDONLY = false
      · rw [if_pos hv] at h ⊢; cases h; exact ⟨_, rfl, rfl, hk, fun j _ => ⟨rfl, rfl⟩⟩
      · rw [if_neg hv] at h ⊢
        cases e2 : exec (shr_farm_stat hd reset) r with
        | error _ => simp only [e2] at h; cases h
        | ok x => simp only [e2] at h ⊢; cases h; exact ⟨_, rfl, rfl, by simp [upd], fun j hj => ⟨by simp [upd, hj], by simp [upd, hj]⟩⟩
    | _ => simp only [e] at h ⊢; cases h; exact ⟨_, rfl, rfl, hk, fun j _ => ⟨rfl, rfl⟩⟩
  | appdata k get set sz env =>
    simp only [Op.handle] at hk ⊢
    simp only [Sys.step] at h ⊢
    rw [← hk] at h
    cases e : f k with
    | live hd =>
      simp only [e] at h ⊢
      cases e2 : exec (shr_appdata get set sz env) r with
      | error _ => simp only [e2] at h; cases h
      | ok x => simp only [e2] at h ⊢; cases h; exact ⟨_, rfl, rfl, hk, fun j _ => ⟨rfl, rfl⟩⟩
    | _ => simp only [e] at h ⊢; cases h; exact ⟨_, rfl, rfl, hk, fun j _ => ⟨rfl, rfl⟩⟩

/-- Two states that agree, except that in the second, handle `k` is poisoned or closed. -/
structure Twin (a : InitArgs) (k : Nat) (P : List Msg) (s s' : Sys) : Prop where
  ring : s'.ring = s.ring
  hs : ∀ j, j ≠ k → s'.hs j = s.hs j
  at_k : s'.hs k = .gone () ∨ ∃ h, s'.hs k = .live h ∧ Poisoned a.dataSz a.max_msgs h P

theorem Twin.other {a : InitArgs} {k : Nat} {P : List Msg} {s s' t' : Sys} {op : Op} {o : Out} (w : Twin a k P s s') (hk : op.handle ≠ k)
    (h : s'.step op = .ok (t', o)) : ∃ t, s.step op = .ok (t, o) ∧ Twin a k P t t' := by
  obtain ⟨t, h1, h2, h3, h4⟩ := step_frame (s := s) w.ring.symm (w.hs _ hk).symm h
  refine ⟨t, h1, h2.symm, ?_, ?_⟩
  · intro j hj
    by_cases e : j = op.handle
    · rw [e]; exact h3.symm
    · rw [(h4 j e).1, (h4 j e).2]; exact w.hs j hj
  · have := (h4 k (fun e => hk e.symm)).2
    rw [this]; exact w.at_k

/-- The calls on handle `k` that the claim is about: all but `shr_stat` and `shr_appdata`; the buffers are not larger than half the address space. -/
def Op.plain : Op → Prop
  | .writev _ iov _ _ => ∀ b ∈ iov, b.length ≤ SSIZE_MAX
  | .stat _ _ _ => False
  | .appdata _ _ _ _ _ => False
  | _ => True

theorem exec_res_ok {α : Type} {x : M Ring α} {r : Ring} {y : α × Ring} (h : exec x r = .ok y) : (x r).res = .ok y.1 y.2 := by
  unfold exec at h
  cases e : (x r).res <;> rw [e] at h <;> cases h
  rfl

theorem Twin.self {a : InitArgs} {k : Nat} {P : List Msg} {s s' t' : Sys} {op : Op} {o : Out} (w : Twin a k P s s') {sp : Spec} (x : AtState a s sp)
    (hk : op.handle = k) (hp : op.plain) (h : s'.step op = .ok (t', o)) : ∃ P', Twin a k (P ++ P') s t' := by
  have stay : t' = s' → ∃ P', Twin a k (P ++ P') s t' := by rintro rfl; exact ⟨[], by rw [List.append_nil]; exact w⟩
  rcases w.at_k with hg | ⟨hd, hl, p⟩
  · apply stay
    cases op <;> simp only [Op.handle] at hk <;> subst hk <;> simp only [Sys.step, hg] at h <;> cases h <;> rfl
  have hr : RingRel s'.ring sp := by rw [w.ring]; exact x.rel.ring
  have p' := p
  rw [← x.cap, ← x.maxm] at p'
  have mk : ∀ (hd' : Handle) (P' : List Msg), Poisoned sp.cap sp.maxm hd' (P ++ P') → t' = ⟨s'.ring, upd s'.hs k (.live hd')⟩ → ∃ P', Twin a k (P ++ P') s t' := by
    rintro hd' P' q rfl
    rw [x.cap, x.maxm] at q
    refine ⟨P', w.ring, fun j hj => ?_, .inr ⟨hd', by simp [upd], q⟩⟩
    show upd s'.hs k _ j = _
    simp only [upd, hj, if_false]; exact w.hs j hj
  cases op with
  | «open» j flags env => simp only [Op.handle] at hk; subst hk; simp only [Sys.step, hl] at h; cases h; exact stay rfl
  | writev j iov envF env =>
    simp only [Op.handle] at hk; subst hk
    simp only [Sys.step, hl, p.wr, Bool.true_eq_false, if_false] at h
    cases e : exec (shr_writev hd iov envF env) s'.ring with
    | error _ => rw [e] at h; cases h
    | ok y =>
      obtain ⟨⟨hd', o'⟩, r'⟩ := y
      rw [e] at h
      cases h
      obtain ⟨rfl, P', q⟩ := shr_writev_poisoned hr p' hp envF env _ _ (exec_res_ok e)
      exact mk hd' P' q rfl
  | readv j buf niov env => simp only [Op.handle] at hk; subst hk; simp only [Sys.step, hl, p.nord, if_true] at h; cases h; exact stay rfl
  | flush j wait env =>
    simp only [Op.handle] at hk; subst hk
    simp only [Sys.step, hl, p.wr, Bool.true_eq_false, if_false] at h
    cases e : exec (shr_flush hd wait env) s'.ring with
    | error _ => rw [e] at h; cases h
    | ok y =>
      obtain ⟨⟨hd', o'⟩, r'⟩ := y
      rw [e] at h
      cases h
      obtain ⟨rfl, q⟩ := (shr_flush_poisoned hr p' wait env).2 _ _ (exec_res_ok e)
      exact mk hd' [] (by rw [List.append_nil]; exact q) rfl
  | close j env =>
    simp only [Op.handle] at hk; subst hk
    simp only [Sys.step, hl] at h
    cases e : exec (shr_close hd env) s'.ring with
    | error _ => rw [e] at h; cases h
    | ok y =>
      obtain ⟨o', r'⟩ := y
      have hr' := (shr_close_poisoned hr p' env).2 _ _ (exec_res_ok e)
      rw [e] at h
      cases o' with
      | wait => cases h; simp only at hr'; subst hr'; exact stay rfl
      | ret _ _ =>
        cases h
        simp only at hr'; subst hr'
        refine ⟨[], w.ring, fun i hi => ?_, .inl (by simp [upd])⟩
        show upd s'.hs j _ i = _
        simp only [upd, hi, if_false]; exact w.hs i hi
  | stat _ _ _ => exact absurd hp id
  | farmStat j reset => simp only [Op.handle] at hk; subst hk; simp only [Sys.step, hl, p.nord, if_true] at h; cases h; exact stay rfl
  | appdata _ _ _ _ _ => exact absurd hp id

theorem sys_run_cons_ok {s s2 : Sys} {op : Op} {ops : List Op} {outs : List Out} (h : s.run (op :: ops) = .ok (s2, outs)) :
    ∃ s1 o os, s.step op = .ok (s1, o) ∧ s1.run ops = .ok (s2, os) ∧ outs = o :: os := by
  unfold Sys.run at h
  cases e : s.step op with
  | error f => rw [e] at h; cases h
  | ok x =>
    obtain ⟨s1, o⟩ := x
    rw [e] at h
    dsimp only at h
    cases e2 : s1.run ops with
    | error f => rw [e2] at h; cases h
    | ok y =>
      obtain ⟨s2', os⟩ := y
      rw [e2] at h
      cases h
      exact ⟨s1, o, os, rfl, e2, rfl⟩

/-- A call on another handle than `k`. -/
def Op.notOn (k : Nat) (op : Op) : Bool := decide (op.handle ≠ k)

theorem Twin.run {a : InitArgs} {k : Nat} : ∀ (rest : List Op) {ops : List Op} {outs : List Out} {P : List Msg} {s s1 s2 : Sys} {outs2 : List Out},
    Valid a (ops ++ rest.filter (·.notOn k)) → (Sys.init a).run ops = .ok (s, outs) → Twin a k P s s1 →
    (∀ op ∈ rest, op.handle = k → op.plain) → s1.run rest = .ok (s2, outs2) →
    ∃ s3 outs3 P', s.run (rest.filter (·.notOn k)) = .ok (s3, outs3) ∧ Twin a k (P ++ P') s3 s2 ∧
      (rest.zip outs2).filter (·.1.notOn k) = (rest.filter (·.notOn k)).zip outs3 := by
  intro rest
  induction rest with
  | nil =>
    intro ops outs P s s1 s2 outs2 v hrun w _ h
    simp only [Sys.run, Except.ok.injEq, Prod.mk.injEq] at h
    obtain ⟨rfl, rfl⟩ := h
    exact ⟨s, [], [], rfl, by rw [List.append_nil]; exact w, rfl⟩
  | cons op rest ih =>
    intro ops outs P s s1 s2 outs2 v hrun w hp h
    obtain ⟨s1', o, os, e1, e2, rfl⟩ := sys_run_cons_ok h
    by_cases hk : op.handle = k
    · have hf : op.notOn k = false := by simp [Op.notOn, hk]
      rw [List.filter_cons_of_neg (by simp [hf])] at v ⊢
      obtain ⟨sp, x, _⟩ := v.left.state hrun
      obtain ⟨P1, w1⟩ := w.self x hk (hp op (by simp) hk) e1
      obtain ⟨s3, outs3, P', h1, h2, h3⟩ := ih v hrun w1 (fun q hq => hp q (by simp [hq])) e2
      refine ⟨s3, outs3, P1 ++ P', h1, by rw [← List.append_assoc]; exact h2, ?_⟩
      rw [List.zip_cons_cons, List.filter_cons_of_neg (by simp [hf])]
      exact h3
    · have hf : op.notOn k = true := by simp [Op.notOn, hk]
      rw [List.filter_cons_of_pos hf] at v ⊢
      obtain ⟨t, f1, w1⟩ := w.other hk e1
      have v' : Valid a ((ops ++ [op]) ++ rest.filter (·.notOn k)) := by
        rw [List.append_assoc]; exact v
      have hrun' : (Sys.init a).run (ops ++ [op]) = .ok (t, outs ++ [o]) := by
        rw [sys_run_append, hrun]
        simp only [Sys.run, f1]
      obtain ⟨s3, outs3, P', h1, h2, h3⟩ := ih v' hrun' w1 (fun q hq => hp q (by simp [hq])) e2
      refine ⟨s3, o :: outs3, P', ?_, h2, ?_⟩
      · simp only [Sys.run, f1, h1]
      · rw [List.zip_cons_cons, List.filter_cons_of_pos (by exact hf), h3, List.zip_cons_cons]

theorem Twin.cached {a : InitArgs} {k : Nat} {P : List Msg} {s s' : Sys} (w : Twin a k P s s') :
    s'.hs k = .gone () ∨ (∃ h, s'.hs k = .live h ∧ Poisoned a.dataSz a.max_msgs h P) ∧ s'.cached k = P := by
  rcases w.at_k with h | ⟨h, e, p⟩
  · exact .inl h
  · refine .inr ⟨⟨h, e, p⟩, ?_⟩
    unfold Sys.cached
    rw [e]
    exact p.cache.msgs

section
variable {a : InitArgs} {ops : List Op} {k : Nat} {iov : List Msg} {envF env : Env} {s : Sys} {outs : List Out} {h : Handle}

/-- What the buffered write with an empty message in it does. -/
theorem poison (v : Valid a ops) (hrun : (Sys.init a).run ops = .ok (s, outs)) (hk : s.hs k = .live h)
    (hw : h.flags.has SHR_WRONLY = true) (hb : h.flags.has SHR_BUFFERED = true) (hhd : iov.head? ≠ some []) (hem : [] ∈ iov)
    (h1 : (s.cached k).length + iov.length ≤ min 10000 a.max_msgs)
    (h2 : if a.dataSz < 10 * 1024 then bytesOf (s.cached k) + bytesOf iov ≤ a.dataSz
      else 10 * (bytesOf (s.cached k) + bytesOf iov) ≤ a.dataSz ∧ bytesOf (s.cached k) + bytesOf iov ≤ 2 ^ 30) (envF env : Env) :
    ∃ s1, s.step (.writev k iov envF env) = .ok (s1, .wrote (bytesOf iov)) ∧ Twin a k (s.cached k ++ iov) s s1 ∧ ∃ h1, s1.hs k = .live h1 := by
  obtain ⟨sp, x, rfl, _⟩ := v.state hrun
  obtain ⟨sh, hsk, hh⟩ := x.rel.live hk
  obtain ⟨e1, e2⟩ := run_hold a ops k sh hsk
  have hcd := x.rel.cached hsk
  rw [hcd] at h1 h2 ⊢
  have hw' := hw; have hb' := hb
  rw [hh.flags] at hw' hb'
  rw [x.cap, hw', hb'] at e1
  rw [x.maxm, hw', hb'] at e2
  simp only [Bool.and_self, if_true] at e1 e2
  have hb2 : bytesOf sh.pend + bytesOf iov ≤ sh.csz := by
    rw [e1]; unfold Spec.holdBytes
    by_cases hs : a.dataSz < 10240
    · rw [if_pos hs]; rw [if_pos hs] at h2; exact h2
    · rw [if_neg hs]; rw [if_neg hs] at h2; omega
  have hvt : sh.pend.length + iov.length ≤ sh.cvt := by omega
  have hcsz := hh.csz; have hcvt := hh.cvt
  rw [x.cap] at hcsz; rw [x.maxm] at hcvt
  have hn : h.n = a.dataSz := hh.n.trans x.cap
  have hm : h.mm = a.max_msgs := hh.mm.trans x.maxm
  have hck : Checked h.n h.mm iov := ⟨(fun e => by rw [e] at hem; cases hem), hhd, by omega, by omega⟩
  have hcl := x.rel.ring.cap_le
  rw [x.cap] at hcl
  have hlc : lenCheck h.n h.mm (iov.map List.length) = some (bytesOf iov) := by
    have := lenCheck_checked (maxm := h.mm) (cap := h.n) (by omega) (iov := iov) (by
      intro b hb; have := mem_le_bytesOf hb; omega)
    rw [if_pos hck] at this
    exact this
  have hC := hh.cache.caches
  have n1 := hC.n; have n2 := hC.vm; have n3 := hC.nle; have n4 := hC.vle; have n5 := hC.szw; have n6 := hC.vtw
  have n7 := hC.sz; have n8 := hC.vt
  obtain ⟨c', ec, hc'⟩ := cacheAll_any hC (new := iov) hb2 hvt
  have hex : exec (shr_writev h iov envF env) s.ring = .ok (({ h with c := c' }, .ret (bytesOf iov : Int) false), s.ring) := by
    have e : cacheLoop iov (bytesOf iov) envF 2 h = (do
        let c ← lift (cacheAll h.c iov)
        pure ({ h with c := c }, some (.ret (bytesOf iov : Int) false))) := by
      unfold cacheLoop
      rw [if_neg (by rw [hb]; simp), if_pos (by rw [n1, n2, n7, n8, wsub_eq (by omega) (by omega), wsub_eq (by omega) (by omega)]; omega)]
    unfold exec shr_writev
    rw [M.assert_bind_of hw, hlc]
    dsimp only
    rw [e, ec]
    rfl
  refine ⟨⟨s.ring, upd s.hs k (.live { h with c := c' })⟩, ?_, ?_, ⟨{ h with c := c' }, by simp [upd]⟩⟩
  · simp only [Sys.step, hk, hw, Bool.true_eq_false, if_false, hex]
    rfl
  · refine ⟨rfl, fun j hj => by simp [upd, hj], .inr ⟨{ h with c := c' }, by simp [upd], ?_⟩⟩
    have hmode := hh.mode
    rw [hw', Bool.and_true] at hmode
    refine ⟨hw, by show h.flags.has SHR_RDONLY = false; rw [hh.flags]; exact hmode, hb, hn, hm, ?_, ?_, ?_, ?_, by simp [hem]⟩
    · show Caches c' _ c'.sz c'.vt
      rw [hc'.sz, hc'.vt]; exact hc'
    · show c'.sz ≤ _; rw [hc'.sz]; exact hcsz
    · show c'.vt ≤ _; rw [hc'.vt]; exact hcvt
    · have hne := hh.cache.ne
      cases ep : sh.pend with
      | nil => exact hhd
      | cons b bs =>
        intro e
        simp only [List.cons_append, List.head?_cons, Option.some.injEq] at e
        exact hne b (by rw [ep]; simp) e

/-- **C95, accepted.** A buffered write whose first message is not empty but a later one is, and which fits beside what is held back already, returns the
number of bytes as if nothing were wrong; the ring is not touched, the messages are held back. -/
theorem C95_accepted (v : Valid a ops) (hrun : (Sys.init a).run ops = .ok (s, outs)) (hk : s.hs k = .live h)
    (hw : h.flags.has SHR_WRONLY = true) (hb : h.flags.has SHR_BUFFERED = true) (hhd : iov.head? ≠ some []) (hem : [] ∈ iov)
    (h1 : (s.cached k).length + iov.length ≤ min 10000 a.max_msgs)
    (h2 : if a.dataSz < 10 * 1024 then bytesOf (s.cached k) + bytesOf iov ≤ a.dataSz
      else 10 * (bytesOf (s.cached k) + bytesOf iov) ≤ a.dataSz ∧ bytesOf (s.cached k) + bytesOf iov ≤ 2 ^ 30) (envF env : Env) :
    ∃ s1, s.step (.writev k iov envF env) = .ok (s1, .wrote (bytesOf iov)) ∧ s1.ring = s.ring ∧ s1.cached k = s.cached k ++ iov ∧
      ∀ j, j ≠ k → s1.hs j = s.hs j := by
  obtain ⟨s1, e, w, hl, ehl⟩ := poison v hrun hk hw hb hhd hem h1 h2 envF env
  refine ⟨s1, e, w.ring, ?_, w.hs⟩
  rcases w.cached with h | ⟨_, h⟩
  · rw [ehl] at h; cases h
  · exact h

/-- **C95, never delivered.** From then on, whatever calls follow on this handle and on others: for everybody else it is as if this handle had not been used at
all since before that write.  The ring, the other handles and the results of all calls on other handles are the same as if the calls on it had been
left out. -/
theorem C95_never_seen {rest : List Op} {s1 s2 : Sys} {o : Out} {outs2 : List Out} (v : Valid a (ops ++ rest.filter (·.notOn k)))
    (hrun : (Sys.init a).run ops = .ok (s, outs)) (hk : s.hs k = .live h)
    (hw : h.flags.has SHR_WRONLY = true) (hb : h.flags.has SHR_BUFFERED = true) (hhd : iov.head? ≠ some []) (hem : [] ∈ iov)
    (h1 : (s.cached k).length + iov.length ≤ min 10000 a.max_msgs)
    (h2 : if a.dataSz < 10 * 1024 then bytesOf (s.cached k) + bytesOf iov ≤ a.dataSz
      else 10 * (bytesOf (s.cached k) + bytesOf iov) ≤ a.dataSz ∧ bytesOf (s.cached k) + bytesOf iov ≤ 2 ^ 30)
    (hstep : s.step (.writev k iov envF env) = .ok (s1, o)) (hp : ∀ op ∈ rest, op.handle = k → op.plain) (hrest : s1.run rest = .ok (s2, outs2)) :
    ∃ s3 outs3, s.run (rest.filter (·.notOn k)) = .ok (s3, outs3) ∧ s2.ring = s3.ring ∧ (∀ j, j ≠ k → s2.hs j = s3.hs j) ∧
      (rest.zip outs2).filter (·.1.notOn k) = (rest.filter (·.notOn k)).zip outs3 := by
  obtain ⟨s1', e, w, _⟩ := poison v.left hrun hk hw hb hhd hem h1 h2 envF env
  rw [hstep] at e
  cases e
  obtain ⟨s3, outs3, P', g1, g2, g3⟩ := Twin.run rest v hrun w hp hrest
  exact ⟨s3, outs3, g1, g2.ring, g2.hs, g3⟩

/-- **C95, the abort.** And as long as the handle is open, the held-back messages are those and perhaps more; a flush, or the flush inside `shr_close`, that gets
the lock and finds room aborts the process. -/
theorem C95_aborts {rest : List Op} {s1 s2 : Sys} {o : Out} {outs2 : List Out} (v : Valid a (ops ++ rest.filter (·.notOn k)))
    (hrun : (Sys.init a).run ops = .ok (s, outs)) (hk : s.hs k = .live h)
    (hw : h.flags.has SHR_WRONLY = true) (hb : h.flags.has SHR_BUFFERED = true) (hhd : iov.head? ≠ some []) (hem : [] ∈ iov)
    (h1 : (s.cached k).length + iov.length ≤ min 10000 a.max_msgs)
    (h2 : if a.dataSz < 10 * 1024 then bytesOf (s.cached k) + bytesOf iov ≤ a.dataSz
      else 10 * (bytesOf (s.cached k) + bytesOf iov) ≤ a.dataSz ∧ bytesOf (s.cached k) + bytesOf iov ≤ 2 ^ 30)
    (hstep : s.step (.writev k iov envF env) = .ok (s1, o)) (hp : ∀ op ∈ rest, op.handle = k → op.plain) (hrest : s1.run rest = .ok (s2, outs2)) :
    s2.hs k = .gone () ∨
    ∃ more, s2.cached k = s.cached k ++ iov ++ more ∧ ∀ env' : Env, env'.lockOk = true → Room a s2 (s2.cached k) →
      s2.step (.close k env') = .error .abort ∧
      ∀ wait, env'.bwOpenOk = true ∨ wait = false → s2.step (.flush k wait env') = .error .abort := by
  obtain ⟨s1', e, w, _⟩ := poison v.left hrun hk hw hb hhd hem h1 h2 envF env
  rw [hstep] at e
  cases e
  obtain ⟨s3, outs3, P', g1, g2, g3⟩ := Twin.run rest v hrun w hp hrest
  rcases g2.cached with hg | ⟨⟨hd, hl, p⟩, hc⟩
  · exact .inl hg
  refine .inr ⟨P', hc, ?_⟩
  intro env' hlk hroom
  have hrun3 : (Sys.init a).run (ops ++ rest.filter (·.notOn k)) = .ok (s3, outs ++ outs3) := by
    rw [sys_run_append, hrun]
    simp only [g1]
  obtain ⟨sp, x, _⟩ := v.state hrun3
  have hr : RingRel s2.ring sp := by rw [g2.ring]; exact x.rel.ring
  rw [hc] at hroom
  unfold Room at hroom
  rw [hr.unreadMsgs, ← x.cap, ← x.maxm] at hroom
  have hfit : Fits sp.cap sp.maxm sp.unread (s.cached k ++ iov ++ P') ∨ sp.drop = true := by
    rcases hroom with h1 | h1 | h1
    · exact .inl h1
    · right; rw [x.drop, h1]; rfl
    · right; rw [x.drop, h1]; simp
  rw [← x.cap, ← x.maxm] at p
  refine ⟨?_, fun wait hwt => ?_⟩
  · have := exec_abort ((shr_close_poisoned hr p env').1 hlk hfit)
    simp only [Sys.step, hl, this]
  · have := exec_abort ((shr_flush_poisoned hr p wait env').1 hlk hwt hfit)
    simp only [Sys.step, hl, p.wr, Bool.true_eq_false, if_false, this]
end

/-! Case: a buffered writer 0 and a reader 1. -/

def poisonOps : List Op := [opn 0 (SHR_WRONLY ||| SHR_BUFFERED), opn 1 (SHR_RDONLY ||| SHR_NONBLOCK), wr 0 [[5]]]

/-- A later write that would have to flush but does not get the lock, a read, a flush without the lock: they complete. -/
def poisonRest : List Op := [.writev 0 [[9]] { lockOk := false } {}, rd 1 5 1, .flush 0 false { lockOk := false }]

/-- What the calls returned, if all completed. -/
def outcome (x : Except Fault (Sys × List Out)) : Option (List Out) :=
  match x with
  | .ok (_, o) => some o
  | .error _ => none

theorem of_outcome {x : Except Fault (Sys × List Out)} {o : List Out} (h : outcome x = some o) : ∃ s, x = .ok (s, o) := by
  cases x with
  | error _ => cases h
  | ok y => obtain ⟨s, o'⟩ := y; simp only [outcome, Option.some.injEq] at h; exact ⟨s, by rw [h]⟩

/-- The write is accepted, `shr_close` and `shr_flush` abort. -/
example : ∃ s1, (final demoA poisonOps).step (wr 0 [[6], []]) = .ok (s1, .wrote 1) ∧ s1.cached 0 = [[5], [6], []] ∧
    s1.step (.close 0 {}) = .error .abort ∧ s1.step (.flush 0 true {}) = .error .abort := by
  have v : Valid demoA (poisonOps ++ ([] : List Op).filter (·.notOn 0)) := valid_of (by decide +kernel)
  have v0 : Valid demoA poisonOps := valid_of (by decide +kernel)
  obtain ⟨s1, e, er, ec, _⟩ := C95_accepted v0 v0.runs (k := 0) (iov := [[6], []]) (live_handle (by decide +kernel)) (by decide +kernel) (by decide +kernel)
    (by decide) (by decide) (by decide +kernel) (by decide +kernel) {} {}
  have hc0 : (final demoA poisonOps).cached 0 = [[5]] := by decide +kernel
  rcases C95_aborts (rest := []) v v0.runs (k := 0) (iov := [[6], []]) (live_handle (by decide +kernel)) (by decide +kernel) (by decide +kernel)
    (by decide) (by decide) (by decide +kernel) (by decide +kernel) e (fun _ h => nomatch h) rfl with hg | ⟨more, hm, ha⟩
  · unfold Sys.cached at ec
    rw [hg] at ec
    simp at ec
  · rw [hc0] at ec
    have hroom : Room demoA s1 (s1.cached 0) := by
      have : (final demoA poisonOps).ring.unreadMsgs = [] := by decide +kernel
      unfold Room
      rw [ec, er, this]
      decide
    have h := ha {} rfl hroom
    exact ⟨s1, e, ec, h.1, h.2 true (.inl rfl)⟩

/-- The reader finds nothing, whatever the writer does. -/
example : ∃ s1 s2 s3, (final demoA poisonOps).step (wr 0 [[6], []]) = .ok (s1, .wrote 1) ∧
    s1.run poisonRest = .ok (s2, [.wrote (-1), .read 0 [] (List.replicate 5 0), .wrote (-1)]) ∧
    (final demoA poisonOps).run [rd 1 5 1] = .ok (s3, [.read 0 [] (List.replicate 5 0)]) ∧ s2.ring = s3.ring := by
  have v : Valid demoA (poisonOps ++ poisonRest.filter (·.notOn 0)) := valid_of (by decide +kernel)
  obtain ⟨s1, e, er, ec, _⟩ := C95_accepted v.left v.left.runs (k := 0) (iov := [[6], []]) (live_handle (by decide +kernel)) (by decide +kernel) (by decide +kernel)
    (by decide) (by decide) (by decide +kernel) (by decide +kernel) {} {}
  have hall : outcome ((final demoA poisonOps).run (wr 0 [[6], []] :: poisonRest)) =
    some [.wrote 1, .wrote (-1), .read 0 [] (List.replicate 5 0), .wrote (-1)] := by decide +kernel
  obtain ⟨s2, h2⟩ := of_outcome hall
  obtain ⟨s1', o, os, f1, f2, f3⟩ := sys_run_cons_ok h2
  simp only [List.cons.injEq] at f3
  obtain ⟨rfl, rfl⟩ := f3
  have f1' : (final demoA poisonOps).step (.writev 0 [[6], []] {} {}) = .ok (s1', .wrote 1) := f1
  obtain ⟨s3, outs3, g1, g2, _, g4⟩ := C95_never_seen (rest := poisonRest) v v.left.runs (k := 0) (iov := [[6], []]) (live_handle (by decide +kernel)) (by decide +kernel)
    (by decide +kernel) (by decide) (by decide) (by decide +kernel) (by decide +kernel) f1' (by
      intro op ho hk
      simp only [poisonRest, List.mem_cons, List.not_mem_nil, or_false] at ho
      rcases ho with rfl | rfl | rfl
      · intro b hb; simp only [List.mem_cons, List.not_mem_nil, or_false] at hb; subst hb; decide
      · trivial
      · trivial) f2
  have hl := sys_run_length _ _ _ _ g1
  refine ⟨s1', s2, s3, f1, f2, ?_, g2⟩
  match outs3, hl, g4, g1 with
  | [o], _, g4, g1 =>
    have ho : o = .read 0 [] (List.replicate 5 0) := by
      have : [(rd 1 5 1, Out.read 0 [] (List.replicate 5 0))] = [(rd 1 5 1, o)] := g4
      simp only [List.cons.injEq, Prod.mk.injEq, true_and, and_true] at this
      exact this.symm
    rw [ho] at g1
    exact g1
end Shr
