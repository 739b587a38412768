import Verif.Proof.ReadFrame
import Verif.Proof.Demo
/-! # Properties of reads: C02, C09 – C11, C15, C16, C37, C44 (reader side) -/
namespace Shr

theorem readable_bytes {r : Ring} {sp : Spec} (h : RingRel r sp) (sh : SHandle) :
    bytesOf (sp.readable sh) ≤ sp.cap := by
  obtain ⟨p0, hg⟩ := h.rep.geo
  have h1 := hg.tot
  rw [h.n] at h1
  unfold Spec.readable
  split
  · have : sp.log.drop (max sh.pos sp.base) = sp.retained.drop (sh.pos - sp.base) := by
      unfold Spec.retained; rw [List.drop_drop]; congr 1; omega
    rw [this]
    have := bytesOf_drop_le sp.retained (sh.pos - sp.base)
    omega
  · exact h.unread_bounds.1

theorem readable_ne {r : Ring} {sp : Spec} (h : RingRel r sp) (sh : SHandle) :
    ∀ b ∈ sp.readable sh, b ≠ [] := by
  obtain ⟨p0, hg⟩ := h.rep.geo
  intro b hb
  unfold Spec.readable at hb
  split at hb
  · have : sp.log.drop (max sh.pos sp.base) = sp.retained.drop (sh.pos - sp.base) := by
      unfold Spec.retained; rw [List.drop_drop]; congr 1; omega
    rw [this] at hb
    exact hg.ne b (List.mem_of_mem_drop hb)
  · exact h.unread_ne b hb

theorem layout_getElem? : ∀ (V : List Msg) (off j : Nat), j < V.length →
    (layout off V)[j]? = some (off + bytesOf (V.take j), (V.getD j []).length) := by
  intro V
  induction V with
  | nil => intro off j h; simp at h
  | cons b bs ih =>
    intro off j h
    cases j with
    | zero => simp [layout]
    | succ j =>
      simp at h
      simp only [layout, List.getElem?_cons_succ, List.take_succ_cons, bytesOf_cons, List.getD_cons_succ]
      rw [ih _ _ h]
      congr 2; omega

section
variable {a : InitArgs} {ops : List Op} {k : Nat} {buf : List Byte} {niov : Nat} {env : Env}
  {s s' : Sys} {outs : List Out} {o : Out} {h : Handle}

/-- The specification of a read, in terms of ring memory. -/
theorem read_cases
    (v : Valid a (ops ++ [.readv k buf niov env]))
    (hrun : (Sys.init a).run ops = .ok (s, outs))
    (hstep : s.step (.readv k buf niov env) = .ok (s', o))
    (hk : s.hs k = .live h) (hr : h.flags.has SHR_RDONLY = true)
    (hb : buf ≠ []) (hn : niov ≠ 0) (hlk : env.lockOk = true) :
    ∃ sp sh h', AtStep a s s' (.readv k buf niov env) o sp ∧ sp.hs k = .live sh ∧ HRel sp h sh ∧
      s'.hs k = .live h' ∧ h'.flags = h.flags ∧
      s.ring.readableBy h = sp.readable sh ∧
      (sp.readable sh = [] → s'.ring.readableBy h' = [] ∧
        o = if h.flags.has SHR_NONBLOCK then .read 0 [] buf else
          match env.waitRc with
          | some sc => .read sc.rc [] buf
          | none => .blocked) ∧
      (sp.readable sh ≠ [] →
        let t := takeCount (sp.readable sh) buf.length niov
        s'.ring.readableBy h' = (sp.readable sh).drop t ∧
        o = .read (if t = 0 then -2 else (bytesOf ((sp.readable sh).take t) : Int))
          (layout 0 ((sp.readable sh).take t)) (put buf 0 ((sp.readable sh).take t).flatten)) := by
  obtain ⟨sp, x⟩ := v.at hrun hstep
  obtain ⟨sh, hsk, hh⟩ := x.rel.live hk
  have hr' := hr
  rw [hh.flags] at hr'
  have ho := x.out
  have hrel' := x.rel'
  rw [step_readv_eq hsk hr'] at ho hrel'
  have hls : ∃ h', s'.hs k = .live h' ∧ HRel { (sp.readv sh buf niov env).1 with
      hs := upd sp.hs k (.live (sp.readv sh buf niov env).2.1) } h' (sp.readv sh buf niov env).2.1 := by
    have := hrel'.hs k
    dsimp only at this
    have e : upd sp.hs k (.live (sp.readv sh buf niov env).2.1) k = .live (sp.readv sh buf niov env).2.1 := by
      simp [upd]
    rw [e] at this
    cases h2 : s'.hs k with
    | never => rw [h2] at this; exact this.elim
    | live h' => rw [h2] at this; exact ⟨h', rfl, this⟩
    | gone b => rw [h2] at this; exact this.elim
  obtain ⟨h', hk', hh'⟩ := hls
  have hrb := readableBy_eq hrel'.ring hh'
  have hg : ¬ (buf.length = 0 ∨ niov = 0 ∨ env.lockOk = false) := by
    rintro (h | h | h)
    · exact hb (List.length_eq_zero_iff.mp h)
    · exact hn h
    · rw [hlk] at h; cases h
  refine ⟨sp, sh, h', x, hsk, hh, hk', ?_, readableBy_eq x.rel.ring hh, ?_, ?_⟩
  · rw [hh'.flags, hh.flags]
    unfold Spec.readv Spec.catchUp
    dsimp only
    repeat' split
    all_goals rfl
  · intro hU
    rw [hh.flags]
    have e : sp.readv sh buf niov env = (sp, sp.catchUp sh,
        if sh.flags.has SHR_NONBLOCK = true then .read 0 [] buf else
          match env.waitRc with
          | some sc => .read sc.rc [] buf
          | none => .blocked) := by
      unfold Spec.readv
      rw [if_neg hg]
      simp only [hU, if_true]
      split
      · rfl
      · cases env.waitRc <;> rfl
    rw [e] at ho hrb
    refine ⟨?_, ho⟩
    rw [hrb]
    show sp.readable (sp.catchUp sh) = []
    rw [← hU]
    unfold Spec.readable Spec.catchUp
    cases sp.farm <;> simp
  · intro hU
    have htk : takeCount (sp.readable sh) (min buf.length SSIZE_MAX) niov =
        takeCount (sp.readable sh) buf.length niov := by
      have hcap := x.rel.ring.cap_le
      have hby := readable_bytes x.rel.ring sh
      apply Nat.le_antisymm
      · apply takeCount_max (takeCount_le_length _ _ _) (takeCount_le_niov _ _ _)
        have := takeCount_bytes (sp.readable sh) (min buf.length SSIZE_MAX) niov
        omega
      · apply takeCount_max (takeCount_le_length _ _ _) (takeCount_le_niov _ _ _)
        have := takeCount_bytes (sp.readable sh) buf.length niov
        have := bytesOf_take_le (sp.readable sh) (takeCount (sp.readable sh) buf.length niov)
        omega
    dsimp only
    unfold Spec.readv at ho hrb
    rw [if_neg hg] at ho hrb
    simp only [hU, if_false, htk] at ho hrb
    refine ⟨?_, ho⟩
    rw [hrb]
    generalize takeCount (sp.readable sh) buf.length niov = t
    cases hf : sp.farm
    · simp only [Spec.readable, Spec.farm, Spec.unread, Spec.log] at *
      simp [hf, List.drop_drop]
    · have hcu : (sp.catchUp sh).pos = max sh.pos sp.base := by simp [Spec.catchUp, hf]
      simp only [if_true, hcu]
      unfold Spec.readable
      have : max (max sh.pos sp.base + t) sp.base = max sh.pos sp.base + t := by omega
      simp only [Spec.farm, Spec.log] at *
      simp [hf, List.drop_drop, this]

/-- **C09.** A vectored read delivers the longest prefix of the messages this reader has yet to read
that fits the caller's iov count and buffer: the return value is the total length (-2 if not even the
first fits), `iov[j]` delimits message `j`, the messages are consecutive in the buffer, the rest of
the buffer is untouched, and what remains to be read is exactly the rest. -/
theorem C09_longest_prefix
    (v : Valid a (ops ++ [.readv k buf niov env]))
    (hrun : (Sys.init a).run ops = .ok (s, outs))
    (hstep : s.step (.readv k buf niov env) = .ok (s', o))
    (hk : s.hs k = .live h) (hr : h.flags.has SHR_RDONLY = true)
    (hb : buf ≠ []) (hn : niov ≠ 0) (hlk : env.lockOk = true)
    (hU : s.ring.readableBy h ≠ []) :
    ∃ t iov buf', o = .read (if t = 0 then -2 else (bytesOf ((s.ring.readableBy h).take t) : Int)) iov buf' ∧
      -- t is the greatest number of messages that fits
      t ≤ niov ∧ t ≤ (s.ring.readableBy h).length ∧ bytesOf ((s.ring.readableBy h).take t) ≤ buf.length ∧
      (∀ t', t' ≤ niov → t' ≤ (s.ring.readableBy h).length →
        bytesOf ((s.ring.readableBy h).take t') ≤ buf.length → t' ≤ t) ∧
      -- the caller gets exactly these messages
      iov.length = t ∧ iov.map (sliceOf buf') = (s.ring.readableBy h).take t ∧
      (∀ j < t, iov[j]? = some (bytesOf ((s.ring.readableBy h).take j), ((s.ring.readableBy h).getD j []).length)) ∧
      buf'.length = buf.length ∧
      buf'.drop (bytesOf ((s.ring.readableBy h).take t)) = buf.drop (bytesOf ((s.ring.readableBy h).take t)) ∧
      -- the rest remains
      ∃ h', s'.hs k = .live h' ∧ s'.ring.readableBy h' = (s.ring.readableBy h).drop t := by
  obtain ⟨sp, sh, h', x, hsk, hh, hk', _, hrb, _, hcons⟩ := read_cases v hrun hstep hk hr hb hn hlk
  rw [hrb] at hU ⊢
  obtain ⟨h1, h2⟩ := hcons hU
  have hfit := takeCount_bytes (sp.readable sh) buf.length niov
  have htl := takeCount_le_length (sp.readable sh) buf.length niov
  refine ⟨_, _, _, h2, takeCount_le_niov _ _ _, htl, hfit, fun t' h3 h4 h5 => takeCount_max h4 h3 h5, ?_, ?_, ?_, ?_, ?_, h', hk', h1⟩
  · rw [layout_length, List.length_take, Nat.min_eq_left htl]
  · exact slices_layout _ _ _ (by omega)
  · intro j hj
    rw [layout_getElem? _ _ _ (by rw [List.length_take]; omega), List.take_take, Nat.min_eq_left (by omega)]
    simp [List.getD, hj]
  · rw [put_length (by rw [flatten_length]; omega)]
  · generalize takeCount (sp.readable sh) buf.length niov = t at *
    unfold put
    rw [List.take_zero, List.nil_append, Nat.zero_add, ← flatten_length, List.drop_left]

/-- **C10.** If the oldest message this reader has yet to read is longer than the buffer, the read
returns -2 without any message, the caller's buffer is untouched, ring memory is as before (counters
included) and the message is still the next to be read. -/
theorem C10_message_left_in_place
    (v : Valid a (ops ++ [.readv k buf niov env]))
    (hrun : (Sys.init a).run ops = .ok (s, outs))
    (hstep : s.step (.readv k buf niov env) = .ok (s', o))
    (hk : s.hs k = .live h) (hr : h.flags.has SHR_RDONLY = true)
    (hb : buf ≠ []) (hn : niov ≠ 0) (hlk : env.lockOk = true)
    {b : Msg} {U : List Msg} (hU : s.ring.readableBy h = b :: U) (hbig : buf.length < b.length) :
    o = .read (-2) [] buf ∧ s'.ring = s.ring ∧
      ∃ h', s'.hs k = .live h' ∧ s'.ring.readableBy h' = b :: U := by
  obtain ⟨sp, sh, h', x, hsk, hh, hk', _, hrb, _, hcons⟩ := read_cases v hrun hstep hk hr hb hn hlk
  rw [hrb] at hU
  obtain ⟨h1, h2⟩ := hcons (by rw [hU]; simp)
  have h0 : ∀ len, len ≤ buf.length → takeCount (sp.readable sh) len niov = 0 := by
    intro len hl
    rw [hU]
    cases niov with
    | zero => rfl
    | succ n => unfold takeCount; rw [if_neg (by omega)]
  rw [h0 _ (Nat.le_refl _)] at h1 h2
  refine ⟨?_, ?_, h', hk', by rw [h1, hU]; rfl⟩
  · rw [h2]; simp [layout, put_nil]
  · obtain ⟨hfr, _⟩ := readv_frame x.rel hk hh hr x.wf hstep
    rcases hfr with e | e
    · exact e
    · rw [e, h0 _ (Nat.min_le_left _ _)]
      have hst := x.rel.ring.stat
      have hc0 : consumed s.ring 0 0 = s.ring := by
        cases hf : s.ring.gflags.has SHR_FARM
        · apply consumed_zero x.rel.ring.cview.ult
          obtain ⟨p0, hC⟩ := x.rel.ring.cview.core
          rw [x.rel.ring.cview.r]; exact Nat.mod_lt _ hC.mmpos
        · unfold consumed; simp [hf]
      unfold afterRead
      simp only [List.take_zero, bytesOf_nil, hc0]
      have e1 : wadd s.ring.stat.br 0 = s.ring.stat.br := by
        rw [hst]; simp [SStat.toStat, wadd]
      have e2 : wadd s.ring.stat.mr 0 = s.ring.stat.mr := by
        rw [hst]; simp [SStat.toStat, wadd]
      rw [e1, e2]

/-- **C11.** With a nonempty buffer and iov, a read on a non-blocking handle returns 0 iff this
reader has no unread message, and it is the only case in which a blocking read waits (or returns early
because waiting was interrupted). -/
theorem C11_zero_iff_nothing_unread
    (v : Valid a (ops ++ [.readv k buf niov env]))
    (hrun : (Sys.init a).run ops = .ok (s, outs))
    (hstep : s.step (.readv k buf niov env) = .ok (s', o))
    (hk : s.hs k = .live h) (hr : h.flags.has SHR_RDONLY = true)
    (hb : buf ≠ []) (hn : niov ≠ 0) (hlk : env.lockOk = true) :
    (h.flags.has SHR_NONBLOCK = true →
      ((∃ iov buf', o = .read 0 iov buf') ↔ s.ring.readableBy h = [])) ∧
    (h.flags.has SHR_NONBLOCK = false → env.waitRc = none →
      (o = .blocked ↔ s.ring.readableBy h = [])) := by
  obtain ⟨sp, sh, h', x, hsk, hh, hk', _, hrb, hnil, hcons⟩ := read_cases v hrun hstep hk hr hb hn hlk
  rw [hrb]
  by_cases hU : sp.readable sh = []
  · obtain ⟨_, ho⟩ := hnil hU
    refine ⟨fun hnb => ?_, fun hnb hw => ?_⟩
    · rw [if_pos hnb] at ho
      exact ⟨fun _ => hU, fun _ => ⟨_, _, ho⟩⟩
    · rw [if_neg (by simp [hnb]), hw] at ho
      exact ⟨fun _ => hU, fun _ => ho⟩
  · obtain ⟨_, ho⟩ := hcons hU
    refine ⟨fun hnb => ⟨?_, fun e => absurd e hU⟩, fun hnb hw => ⟨?_, fun e => absurd e hU⟩⟩
    · rintro ⟨iov, buf', e⟩
      rw [ho] at e
      injection e with e _ _
      split at e
      · cases e
      · rename_i ht
        have : 0 < bytesOf ((sp.readable sh).take (takeCount (sp.readable sh) buf.length niov)) := by
          apply bytesOf_pos
          · intro b hb; exact readable_ne x.rel.ring sh b (List.mem_of_mem_take hb)
          · simp [ht, hU]
        omega
    · intro e; rw [ho] at e; cases e

/-- **C44 (reader).** A read that returns -3 consumed nothing: ring memory is unchanged and the reader
has the same messages before it (there are none). -/
theorem C44_interrupted_read_no_effect {iov : List (Nat × Nat)} {buf' : List Byte}
    (v : Valid a (ops ++ [.readv k buf niov env]))
    (hrun : (Sys.init a).run ops = .ok (s, outs))
    (hstep : s.step (.readv k buf niov env) = .ok (s', .read (-3) iov buf'))
    (hk : s.hs k = .live h) (hr : h.flags.has SHR_RDONLY = true) :
    s'.ring.unreadMsgs = s.ring.unreadMsgs ∧ iov = [] ∧ buf' = buf ∧
      ∃ h', s'.hs k = .live h' ∧ s'.ring.readableBy h' = s.ring.readableBy h := by
  obtain ⟨sp, x⟩ := v.at hrun hstep
  obtain ⟨sh, hsk, hh⟩ := x.rel.live hk
  have hr' := hr
  rw [hh.flags] at hr'
  have ho := x.out
  rw [step_readv_eq hsk hr'] at ho
  by_cases hg : buf.length = 0 ∨ niov = 0 ∨ env.lockOk = false
  · unfold Spec.readv at ho
    rw [if_pos hg] at ho
    injection ho with h1 _ _; cases h1
  · have hb : buf ≠ [] := fun e => hg (.inl (by simp [e]))
    have hn : niov ≠ 0 := fun e => hg (.inr (.inl e))
    have hlk : env.lockOk = true := by
      cases h : env.lockOk
      · exact absurd (.inr (.inr h)) hg
      · rfl
    obtain ⟨sp, sh, h', x, hsk, hh, hk', _, hrb, hnil, hcons⟩ := read_cases v hrun hstep hk hr hb hn hlk
    by_cases hU : sp.readable sh = []
    · obtain ⟨h1, ho⟩ := hnil hU
      have hio : iov = [] ∧ buf' = buf := by
        split at ho
        · injection ho with h1 _ _; cases h1
        · split at ho
          · injection ho with _ h2 h3; exact ⟨h2, h3⟩
          · cases ho
      refine ⟨?_, hio.1, hio.2, h', hk', by rw [h1, hrb, hU]⟩
      obtain ⟨hfr, _⟩ := readv_frame x.rel hk hh hr x.wf hstep
      rcases hfr with e | e
      · rw [e]
      · rw [e, hU]
        simp only [takeCount, List.take_nil, bytesOf_nil]
        have : (afterRead s.ring 0 0).unreadMsgs = (consumed s.ring 0 0).unreadMsgs := rfl
        rw [this]
        cases hf : s.ring.gflags.has SHR_FARM
        · rw [consumed_zero x.rel.ring.cview.ult]
          obtain ⟨p0, hC⟩ := x.rel.ring.cview.core
          rw [x.rel.ring.cview.r]; exact Nat.mod_lt _ hC.mmpos
        · unfold consumed; simp [hf]
    · obtain ⟨_, ho⟩ := hcons hU
      injection ho with e _ _
      split at e
      · cases e
      · omega

/-- **C15.** On a farm ring a read changes nothing but the reader's own handle and the two read
counters: all ring memory (data, slots, positions, app data) and every other handle are the same, so
no other reader and no writer can tell. -/
theorem C15_farm_readers_independent
    (v : Valid a (ops ++ [.readv k buf niov env]))
    (hrun : (Sys.init a).run ops = .ok (s, outs))
    (hstep : s.step (.readv k buf niov env) = .ok (s', o))
    (hk : s.hs k = .live h) (hr : h.flags.has SHR_RDONLY = true)
    (hf : a.flags.has SHR_FARM = true) :
    (∃ br mr, s'.ring = { s.ring with stat := { s.ring.stat with br := br, mr := mr } }) ∧
    (∀ j, j ≠ k → s'.hs j = s.hs j) ∧
    (∀ j hj, j ≠ k → s.hs j = .live hj → s'.ring.readableBy hj = s.ring.readableBy hj) := by
  obtain ⟨sp, x⟩ := v.at hrun hstep
  obtain ⟨sh, hsk, hh⟩ := x.rel.live hk
  obtain ⟨hfr, hoth⟩ := readv_frame x.rel hk hh hr x.wf hstep
  have hff : s.ring.gflags.has SHR_FARM = true := by
    rw [x.rel.ring.gf]; show sp.farm = true; rw [x.farm, hf]
  have key : ∃ br mr, s'.ring = { s.ring with stat := { s.ring.stat with br := br, mr := mr } } := by
    rcases hfr with e | e
    · exact ⟨s.ring.stat.br, s.ring.stat.mr, e⟩
    · unfold afterRead consumed at e
      rw [if_pos hff] at e
      exact ⟨_, _, e⟩
  refine ⟨key, hoth, fun j hj _ _ => ?_⟩
  obtain ⟨br, mr, e⟩ := key
  rw [e]
  rfl

/-- **C16.** A reader opened on a farm ring starts at the oldest message still present. -/
theorem C16_new_reader_starts_at_oldest {flags : Flags}
    (v : Valid a (ops ++ [.open k flags env]))
    (hrun : (Sys.init a).run ops = .ok (s, outs))
    (hstep : s.step (.open k flags env) = .ok (s', .opened true))
    (hf : a.flags.has SHR_FARM = true) :
    s'.ring = s.ring ∧ ∃ h, s'.hs k = .live h ∧ h.flags = flags ∧
      s'.ring.readableBy h = s.ring.presentMsgs := by
  obtain ⟨sp, x⟩ := v.at hrun hstep
  have hff : s.ring.gflags.has SHR_FARM = true := by
    rw [x.rel.ring.gf]; show sp.farm = true; rw [x.farm, hf]
  unfold Sys.step at hstep
  dsimp only at hstep
  split at hstep
  · split at hstep
    · simp at hstep
    · split at hstep
      · simp at hstep
      · rename_i h heq
        simp only [Except.ok.injEq, Prod.mk.injEq, and_true] at hstep
        subst hstep
        refine ⟨rfl, h, by simp [upd], ?_⟩
        have hq : h.cur.q = s.ring.q ∧ h.flags = flags := by
          unfold openLocked at heq
          split at heq
          · cases heq
          split at heq
          · cases heq
          split at heq
          · cases heq
          split at heq
          · cases heq
          split at heq
          · cases heq
          cases heq; exact ⟨rfl, rfl⟩
        refine ⟨hq.2, ?_⟩
        unfold Ring.readableBy
        rw [if_pos hff, hq.1, Nat.sub_self]
        rfl
  · simp at hstep

/-- **C16.** What is retained on any ring: an accepted write keeps all messages present except the
smallest number of oldest ones that must make room, and appends its own; so the retained messages are
always the newest ones. -/
theorem C16_retention {iov : List Msg} {envF : Env}
    (v : Valid a (ops ++ [.writev k iov envF env]))
    (hrun : (Sys.init a).run ops = .ok (s, outs))
    (hstep : s.step (.writev k iov envF env) = .ok (s', o))
    (hk : s.hs k = .live h) (hw : h.flags.has SHR_WRONLY = true) (hub : h.flags.has SHR_BUFFERED = false) :
    s'.ring.presentMsgs = s.ring.presentMsgs ∨
    ∃ d, s'.ring.presentMsgs = s.ring.presentMsgs.drop d ++ iov ∧ d ≤ s.ring.presentMsgs.length ∧
      bytesOf (s'.ring.presentMsgs) ≤ a.dataSz ∧ s'.ring.presentMsgs.length ≤ a.max_msgs ∧
      (∀ d' < d, ¬ (bytesOf (s.ring.presentMsgs.drop d') + bytesOf iov ≤ a.dataSz ∧
        (s.ring.presentMsgs.drop d').length + iov.length ≤ a.max_msgs)) := by
  obtain ⟨sp, x⟩ := v.at hrun hstep
  obtain ⟨sh, hsk, hh⟩ := x.rel.live hk
  rw [hh.flags] at hw hub
  have hp' := x.rel'.ring.presentMsgs
  rw [x.rel.ring.presentMsgs, hp']
  clear hp'
  by_cases hl : Legal sp.cap sp.maxm iov
  · rw [step_writev_eq hsk hw, writev_direct hub hl, retained_with_hs]
    have hfits := evictCount_fits hl.2.2.1 hl.2.2.2 sp.retained
    have hble : sp.base ≤ sp.log.length := Nat.le_trans x.rel.ring.ble x.rel.ring.fle
    generalize hx : sp.tryWrite k (sh.flags.has SHR_NONBLOCK) iov env = y
    have hc := tryCase sp k (sh.flags.has SHR_NONBLOCK) iov env
    rw [hx] at hc
    have fin : ∀ c, (sp.commit k iov c).retained = sp.retained ∨
        ∃ d, (sp.commit k iov c).retained = sp.retained.drop d ++ iov ∧ d ≤ sp.retained.length ∧
        bytesOf ((sp.commit k iov c).retained) ≤ a.dataSz ∧ (sp.commit k iov c).retained.length ≤ a.max_msgs ∧
        (∀ d' < d, ¬ (bytesOf (sp.retained.drop d') + bytesOf iov ≤ a.dataSz ∧
          (sp.retained.drop d').length + iov.length ≤ a.max_msgs)) := by
      intro c
      refine .inr ⟨_, commit_retained _ _ _ _ hble, evictCount_le_length _ _ _ _, ?_, ?_, ?_⟩
      · rw [commit_retained _ _ _ _ hble, ← x.cap, bytesOf_append]; exact hfits.1
      · rw [commit_retained _ _ _ _ hble, ← x.maxm, List.length_append]; exact hfits.2
      · intro d' hd'
        rw [← x.cap, ← x.maxm]
        exact evictCount_min hd'
    cases hc with
    | no => exact .inl rfl
    | full => exact .inl rfl
    | wait => exact .inl rfl
    | done => exact fin _
    | bad => exact fin _
  · rw [step_writev_eq hsk hw, writev_illegal hl, retained_with_hs]
    exact .inl rfl

/-- **C02.** A round trip at any position of the ring: whatever the history, if a write of `iov` is
accepted and a reader then reads with enough room, it gets byte for byte what was unread before,
followed by `iov`.  (Consuming ring, unbuffered writer.) -/
theorem C02_round_trip {iov : List Msg} {envF : Env} {j : Nat} {env2 : Env} {s'' : Sys} {o2 : Out} {hr : Handle}
    (v : Valid a (ops ++ [.writev k iov envF env] ++ [.readv j buf niov env2]))
    (hrun : (Sys.init a).run ops = .ok (s, outs))
    (hstep : s.step (.writev k iov envF env) = .ok (s', .wrote (bytesOf iov)))
    (hstep2 : s'.step (.readv j buf niov env2) = .ok (s'', o2))
    (hk : s.hs k = .live h) (hw : h.flags.has SHR_WRONLY = true) (hub : h.flags.has SHR_BUFFERED = false)
    (hnd : a.flags.has SHR_DROP = false) (hnf : a.flags.has SHR_FARM = false)
    (hj : s'.hs j = .live hr) (hro : hr.flags.has SHR_RDONLY = true) (hlk : env2.lockOk = true)
    (hlen : bytesOf s.ring.unreadMsgs + bytesOf iov ≤ buf.length)
    (hni : s.ring.unreadMsgs.length + iov.length ≤ niov) :
    o2.msgs = s.ring.unreadMsgs ++ iov ∧ s''.ring.unreadMsgs = [] := by
  have hrun' : (Sys.init a).run (ops ++ [.writev k iov envF env]) = .ok (s', outs ++ [.wrote (bytesOf iov)]) := by
    rw [sys_run_append, hrun]
    simp only [Sys.run, hstep]
  have hw1 : s'.ring.unreadMsgs = s.ring.unreadMsgs ++ iov ∧ 0 < bytesOf iov := by
    obtain ⟨sp, x⟩ := v.left.at hrun hstep
    obtain ⟨sh, hsk, hh⟩ := x.rel.live hk
    rw [hh.flags] at hw hub
    have ho := x.out
    have hu' := x.rel'.ring.unreadMsgs
    rw [x.rel.ring.unreadMsgs, hu']
    clear hu'
    by_cases hl : Legal sp.cap sp.maxm iov
    · rw [step_writev_eq hsk hw, writev_direct hub hl] at ho
      rw [step_writev_eq hsk hw, writev_direct hub hl, unread_with_hs]
      have hpos : 0 < bytesOf iov := bytesOf_pos hl.2.1 hl.1
      generalize hx : sp.tryWrite k (sh.flags.has SHR_NONBLOCK) iov env = y at ho ⊢
      have hc := tryCase sp k (sh.flags.has SHR_NONBLOCK) iov env
      rw [hx] at hc
      cases hc with
      | no rc h => injection ho with ho; omega
      | full => injection ho with ho; omega
      | wait => cases ho
      | bad => injection ho with ho; omega
      | done _ hf =>
        have : sp.drop = false := by rw [x.drop, hnd, hnf]; rfl
        rw [this] at hf
        refine ⟨?_, hpos⟩
        rw [commit_unread _ _ _ _ x.rel.ring.fle, evictCount_zero_of_fits (hf.resolve_right (by simp))]
        rfl
    · rw [step_writev_eq hsk hw, writev_illegal hl] at ho
      injection ho with ho; omega
  obtain ⟨hu, hpos⟩ := hw1
  have hb : buf ≠ [] := by rintro rfl; simp at hlen; omega
  have hn : niov ≠ 0 := by
    intro e
    have : iov = [] := List.length_eq_zero_iff.mp (by omega)
    rw [this] at hpos; simp at hpos
  obtain ⟨sp, x⟩ := v.at hrun' hstep2
  have hff : s'.ring.gflags.has SHR_FARM = false := by
    rw [x.rel.ring.gf]; show sp.farm = false; rw [x.farm, hnf]
  have hrb : s'.ring.readableBy hr = s.ring.unreadMsgs ++ iov := by
    unfold Ring.readableBy; rw [hff]; simpa using hu
  have hne : s'.ring.readableBy hr ≠ [] := by
    rw [hrb]; intro e
    have := congrArg bytesOf e; simp at this; omega
  obtain ⟨t, io, buf', h1, h2, h3, h4, h5, h6, h7, _, _, _, hr', h8, h9⟩ :=
    C09_longest_prefix v hrun' hstep2 hj hro hb hn hlk hne
  rw [hrb] at h3 h4 h5 h7 h9
  have ht : t = (s.ring.unreadMsgs ++ iov).length := by
    apply Nat.le_antisymm h3
    apply h5 _ (by simpa using hni) (Nat.le_refl _)
    rw [List.take_length]; simpa using hlen
  rw [ht, List.take_length] at h7
  rw [ht, List.drop_length] at h9
  refine ⟨by rw [h1]; exact h7, ?_⟩
  have hff' : s''.ring.gflags.has SHR_FARM = false := by
    rw [x.rel'.ring.gf, (step_le sp _).gf, x.gf]
    exact (gflags_farm a).trans hnf
  unfold Ring.readableBy at h9
  rw [hff'] at h9
  simpa using h9

/-- **C37.** A selectable descriptor is handed out exactly to non-blocking readers. -/
theorem C37_selectable_fd (h : Handle) (fd : Int) (hfd : fd ≠ -1) :
    shr_get_selectable_fd h fd = fd ↔ h.flags.has SHR_RDONLY = true ∧ h.flags.has SHR_NONBLOCK = true := by
  unfold shr_get_selectable_fd
  split
  · simp_all
  · rename_i hn
    constructor
    · intro e; exact absurd e.symm hfd
    · intro e; exact absurd e hn

theorem C37_otherwise_minus_one (h : Handle) (fd : Int)
    (hn : h.flags.has SHR_RDONLY = false ∨ h.flags.has SHR_NONBLOCK = false) :
    shr_get_selectable_fd h fd = -1 := by
  unfold shr_get_selectable_fd
  rw [if_neg]
  rintro ⟨h1, h2⟩
  rcases hn with h | h <;> simp_all

end

/-! ## The hypotheses can be met -/

/-- Two messages are unread, the second straddles the end of the data area; 7 bytes of buffer hold only
the first, 8 hold both. -/
example : ∃ iov buf', lastOut demoA (demoOps ++ [rd 1 8 5]) = .read 8 iov buf' ∧
    iov.map (sliceOf buf') = [[4, 5, 6, 7], [8, 9, 10, 11]] := by
  have v : Valid demoA (demoOps ++ [rd 1 8 5]) := valid_of (by decide +kernel)
  obtain ⟨t, iov, buf', h1, h2, h3, h4, h5, h6, h7, _⟩ := C09_longest_prefix v v.left.runs v.steps
    (live_handle (by decide +kernel)) (by decide +kernel) (by decide) (by decide) rfl (by decide +kernel)
  have e : (final demoA demoOps).ring.readableBy ((final demoA demoOps).handle 1) =
    [[4, 5, 6, 7], [8, 9, 10, 11]] := by decide +kernel
  rw [e] at h1 h3 h4 h5 h7
  have ht : t = 2 := by
    have := h5 2 (by omega) (by decide) (by decide)
    simp at h3; omega
  subst ht
  exact ⟨iov, buf', h1, h7⟩

example : lastOut demoA (demoOps ++ [rd 1 3 5]) = .read (-2) [] (List.replicate 3 0) := by
  have v : Valid demoA (demoOps ++ [rd 1 3 5]) := valid_of (by decide +kernel)
  exact (C10_message_left_in_place (b := [4, 5, 6, 7]) (U := [[8, 9, 10, 11]]) v v.left.runs v.steps
    (live_handle (by decide +kernel)) (by decide +kernel) (by decide) (by decide) rfl (by decide +kernel)
    (by decide)).1

example : ∃ iov buf', lastOut demoA (demoOps ++ [rd 1 8 5] ++ [rd 1 8 5]) = .read 0 iov buf' := by
  have v : Valid demoA (demoOps ++ [rd 1 8 5] ++ [rd 1 8 5]) := valid_of (by decide +kernel)
  exact ((C11_zero_iff_nothing_unread v v.left.runs v.steps (live_handle (by decide +kernel))
    (by decide +kernel) (by decide) (by decide) rfl).1 (by decide +kernel)).mpr (by decide +kernel)

/-- A blocking reader on an empty ring waits. -/
example : lastOut demoA ([opn 0 SHR_RDONLY] ++ [rd 0 8 1]) = .blocked := by
  have v : Valid demoA ([opn 0 SHR_RDONLY] ++ [rd 0 8 1]) := valid_of (by decide +kernel)
  exact ((C11_zero_iff_nothing_unread v v.left.runs v.steps (live_handle (by decide +kernel))
    (by decide +kernel) (by decide) (by decide) rfl).2 (by decide +kernel) rfl).mpr (by decide +kernel)

example : ([] : List (Nat × Nat)) = [] := by
  have v : Valid demoA ([opn 0 SHR_RDONLY] ++ [.readv 0 [1, 2] 1 { waitRc := some .pollfd }]) :=
    valid_of (by decide +kernel)
  have h3 : lastOut demoA ([opn 0 SHR_RDONLY] ++ [.readv 0 [1, 2] 1 { waitRc := some .pollfd }]) =
    .read (-3) [] [1, 2] := by decide +kernel
  exact (C44_interrupted_read_no_effect v v.left.runs (h3 ▸ v.steps) (live_handle (by decide +kernel))
    (by decide +kernel)).2.1

/-- Two farm readers; the first reads, the second still has everything. -/
def farmOps : List Op := [opn 0 (SHR_WRONLY ||| SHR_NONBLOCK), opn 1 (SHR_RDONLY ||| SHR_NONBLOCK),
  opn 2 (SHR_RDONLY ||| SHR_NONBLOCK), wr 0 [[1, 2, 3], [4, 5, 6, 7]]]

example : (final demoF (farmOps ++ [rd 1 8 5])).ring.readableBy ((final demoF farmOps).handle 2) =
    [[1, 2, 3], [4, 5, 6, 7]] ∧
    lastOut demoF (farmOps ++ [rd 1 8 5]) = .read 7 [(0, 3), (3, 4)] [1, 2, 3, 4, 5, 6, 7, 0] := by
  have v : Valid demoF (farmOps ++ [rd 1 8 5]) := valid_of (by decide +kernel)
  refine ⟨?_, by decide +kernel⟩
  rw [(C15_farm_readers_independent v v.left.runs v.steps (live_handle (by decide +kernel))
    (by decide +kernel) (by decide +kernel)).2.2 2 _ (by decide) (live_handle (by decide +kernel))]
  decide +kernel

/-- A reader that opens late still gets the retained messages; an accepted write evicts minimally. -/
example : ∃ h, (final demoF (farmOps ++ [opn 3 SHR_RDONLY])).ring.readableBy h = [[1, 2, 3], [4, 5, 6, 7]] := by
  have v : Valid demoF (farmOps ++ [opn 3 SHR_RDONLY]) := valid_of (by decide +kernel)
  have h3 : lastOut demoF (farmOps ++ [opn 3 SHR_RDONLY]) = .opened true := by decide +kernel
  obtain ⟨_, h, _, _, h4⟩ := C16_new_reader_starts_at_oldest v v.left.runs (h3 ▸ v.steps) (by decide +kernel)
  exact ⟨h, h4.trans (by decide +kernel)⟩

example : ∃ d, (final demoF (farmOps ++ [wr 0 [[9, 9, 9, 9]]])).ring.presentMsgs =
    [[1, 2, 3], [4, 5, 6, 7]].drop d ++ [[9, 9, 9, 9]] := by
  have v : Valid demoF (farmOps ++ [wr 0 [[9, 9, 9, 9]]]) := valid_of (by decide +kernel)
  have e : (final demoF farmOps).ring.presentMsgs = [[1, 2, 3], [4, 5, 6, 7]] := by decide +kernel
  rcases C16_retention v v.left.runs v.steps (live_handle (by decide +kernel)) (by decide +kernel)
    (by decide +kernel) with h | ⟨d, h, _⟩
  · exact absurd h (by decide +kernel)
  · exact ⟨d, by rw [h, e]⟩

/-- Round trip of a message that straddles the end of the data area (offsets 7..10 of 10). -/
example : (lastOut demoA (demoOps.take 4 ++ [wr 0 [[8, 9, 10, 11]]] ++ [rd 1 20 9])).msgs =
    [[4, 5, 6, 7], [8, 9, 10, 11]] := by
  have v : Valid demoA (demoOps.take 4 ++ [wr 0 [[8, 9, 10, 11]]] ++ [rd 1 20 9]) := valid_of (by decide +kernel)
  have h3 : lastOut demoA (demoOps.take 4 ++ [wr 0 [[8, 9, 10, 11]]]) = .wrote (bytesOf [[8, 9, 10, 11]]) := by
    decide +kernel
  rw [(C02_round_trip v v.left.left.runs (h3 ▸ v.left.steps) v.steps (live_handle (by decide +kernel))
    (by decide +kernel) (by decide +kernel) (by decide +kernel) (by decide +kernel)
    (live_handle (by decide +kernel)) (by decide +kernel) rfl (by decide +kernel) (by decide +kernel)).1]
  decide +kernel

end Shr
