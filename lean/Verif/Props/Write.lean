import Verif.Proof.Demo
/-! # Properties of writes: C03 – C08, C12, C43, C44 (writer side) -/
namespace Shr

section
variable {a : InitArgs} {ops : List Op} {k : Nat} {iov : List Msg} {envF env : Env}
  {s s' : Sys} {outs : List Out} {o : Out} {h : Handle}

/-- **C04.** A valid write on a non-blocking, unbuffered handle of a ring without DROP returns 0 iff
the unread messages and the new ones together exceed the byte size or the message count; otherwise it
writes everything.  (Only unread messages count: what has been read is free space.) -/
theorem C04_nonblocking_write_refuses_iff
    (v : Valid a (ops ++ [.writev k iov envF env]))
    (hrun : (Sys.init a).run ops = .ok (s, outs))
    (hstep : s.step (.writev k iov envF env) = .ok (s', o))
    (hk : s.hs k = .live h) (hw : h.flags.has SHR_WRONLY = true)
    (hnb : h.flags.has SHR_NONBLOCK = true) (hub : h.flags.has SHR_BUFFERED = false)
    (hnd : a.flags.has SHR_DROP = false) (hnf : a.flags.has SHR_FARM = false)
    (hlk : env.lockOk = true) (hl : Legal a.dataSz a.max_msgs iov) :
    (o = .wrote 0 ↔ ¬ (bytesOf s.ring.unreadMsgs + bytesOf iov ≤ a.dataSz ∧
        s.ring.unreadMsgs.length + iov.length ≤ a.max_msgs)) ∧
    (bytesOf s.ring.unreadMsgs + bytesOf iov ≤ a.dataSz ∧
        s.ring.unreadMsgs.length + iov.length ≤ a.max_msgs → env.good →
      o = .wrote (bytesOf iov) ∧ s'.ring.unreadMsgs = s.ring.unreadMsgs ++ iov) := by
  obtain ⟨sp, x⟩ := v.at hrun hstep
  obtain ⟨sh, hsk, hh⟩ := x.rel.live hk
  rw [hh.flags] at hw hnb hub
  have hl' : Legal sp.cap sp.maxm iov := by rw [x.cap, x.maxm]; exact hl
  have hd : sp.drop = false := by rw [x.drop, hnd, hnf]; rfl
  have ho := x.out
  have hu' := x.rel'.ring.unreadMsgs
  rw [step_writev_eq hsk hw, writev_direct hub hl', hnb] at ho hu'
  rw [x.rel.ring.unreadMsgs]
  rw [unread_with_hs] at hu'
  have hfit : (bytesOf sp.unread + bytesOf iov ≤ a.dataSz ∧ sp.unread.length + iov.length ≤ a.max_msgs) ↔
      Fits sp.cap sp.maxm sp.unread iov := by rw [x.cap, x.maxm]; exact Iff.rfl
  rw [hfit]
  have hpos : 0 < bytesOf iov := bytesOf_pos hl.2.1 hl.1
  unfold Spec.tryWrite at ho hu'
  rw [if_neg (by simp [hlk])] at ho hu'
  by_cases hf : Fits sp.cap sp.maxm sp.unread iov
  · rw [if_pos (Or.inl hf)] at ho hu'
    refine ⟨⟨?_, fun h => absurd hf h⟩, fun _ hg => ?_⟩
    · intro h0
      rw [ho] at h0
      dsimp only at h0
      by_cases c1 : env.wakeOk = false
      · rw [if_pos c1] at h0; cases h0
      · rw [if_neg c1] at h0
        by_cases c2 : sp.gflags.has SHR_SYNC = true ∧ env.syncOk = false
        · rw [if_pos c2] at h0; cases h0
        · rw [if_neg c2] at h0; simp [Spec.WRes.out] at h0; omega
    · rw [hu', ho, commit_unread _ _ _ _ x.rel.ring.fle, evictCount_zero_of_fits hf]
      simp [hg.1, hg.2, Spec.WRes.out]
  · rw [if_neg (by simp [hf, hd])] at ho hu'
    refine ⟨⟨fun _ => hf, fun _ => by rw [ho]; rfl⟩, fun h => absurd h hf⟩

/-- **C06.** A write with no messages or no bytes, more bytes than the ring size, or more messages
than the maximum returns -1 and leaves the whole system as it was, for every mode of handle and ring. -/
theorem C06_invalid_write_rejected
    (v : Valid a (ops ++ [.writev k iov envF env]))
    (hrun : (Sys.init a).run ops = .ok (s, outs))
    (hstep : s.step (.writev k iov envF env) = .ok (s', o))
    (hk : s.hs k = .live h) (hw : h.flags.has SHR_WRONLY = true)
    (hbad : bytesOf iov = 0 ∨ a.dataSz < bytesOf iov ∨ a.max_msgs < iov.length) :
    o = .wrote (-1) ∧ s'.ring = s.ring ∧ ∀ j, s'.hs j = s.hs j := by
  obtain ⟨sp, x⟩ := v.at hrun hstep
  obtain ⟨sh, hsk, hh⟩ := x.rel.live hk
  have hl : ¬ Legal sp.cap sp.maxm iov := by
    rw [x.cap, x.maxm]
    rintro ⟨h1, h2, h3, h4⟩
    have := bytesOf_pos h2 h1
    omega
  have hwf : WriteWF iov := x.wf
  unfold Sys.step at hstep
  simp only [hk, hw, Bool.true_eq_false, if_false] at hstep
  have : exec (shr_writev h iov envF env) s.ring = .ok ((h, .ret (-1) false), s.ring) := by
    unfold exec shr_writev
    rw [M.assert_bind_of hw, hh.n, hh.mm, lenCheck_wf x.rel.ring.cap_le hwf, if_neg hl]
    rfl
  rw [this] at hstep
  simp only [Except.ok.injEq, Prod.mk.injEq] at hstep
  obtain ⟨e1, e2⟩ := hstep
  refine ⟨e2.symm, by rw [← e1], fun j => ?_⟩
  rw [← e1]
  show upd s.hs k (.live h) j = s.hs j
  unfold upd
  split
  · rename_i e; rw [e, hk]
  · rfl

/-- What a write attempt does to the unread messages, for every mode and every environment: nothing,
or the whole batch is appended (after dropping some of the oldest on a DROP ring); a positive return
value means the latter. -/
theorem C03_batch_is_atomic
    (v : Valid a (ops ++ [.writev k iov envF env]))
    (hrun : (Sys.init a).run ops = .ok (s, outs))
    (hstep : s.step (.writev k iov envF env) = .ok (s', o))
    (hk : s.hs k = .live h) (hw : h.flags.has SHR_WRONLY = true) (hub : h.flags.has SHR_BUFFERED = false) :
    (s'.ring.unreadMsgs = s.ring.unreadMsgs ∧ (o = .blocked ∨ ∃ rc : Int, rc ≤ 0 ∧ o = .wrote rc)) ∨
    (∃ d, s'.ring.unreadMsgs = s.ring.unreadMsgs.drop d ++ iov ∧
      (a.flags.has SHR_DROP = false → a.flags.has SHR_FARM = false → d = 0) ∧
      (o = .wrote (bytesOf iov) ∧ 0 < bytesOf iov ∨ o = .wrote (-1) ∧ ¬ env.good)) := by
  obtain ⟨sp, x⟩ := v.at hrun hstep
  obtain ⟨sh, hsk, hh⟩ := x.rel.live hk
  rw [hh.flags] at hw hub
  have ho := x.out
  have hu' := x.rel'.ring.unreadMsgs
  rw [x.rel.ring.unreadMsgs, hu']
  clear hu'
  by_cases hl : Legal sp.cap sp.maxm iov
  · rw [step_writev_eq hsk hw, writev_direct hub hl] at ho
    rw [step_writev_eq hsk hw, writev_direct hub hl, unread_with_hs]
    have hpos : 0 < bytesOf iov := bytesOf_pos hl.2.1 hl.1
    generalize hx : sp.tryWrite k (sh.flags.has SHR_NONBLOCK) iov env = y at ho ⊢
    have hc := tryCase sp k (sh.flags.has SHR_NONBLOCK) iov env
    rw [hx] at hc
    have hd0 : Fits sp.cap sp.maxm sp.unread iov ∨ sp.drop = true → a.flags.has SHR_DROP = false →
        a.flags.has SHR_FARM = false → evictCount sp.cap sp.maxm iov sp.unread = 0 := by
      intro hf h1 h2
      have : sp.drop = false := by rw [x.drop, h1, h2]; rfl
      rw [this] at hf
      exact evictCount_zero_of_fits (hf.resolve_right (by simp))
    cases hc with
    | no rc h _ => exact .inl ⟨rfl, .inr ⟨rc, by omega, ho⟩⟩
    | full => exact .inl ⟨rfl, .inr ⟨0, by decide, ho⟩⟩
    | wait => exact .inl ⟨rfl, .inl ho⟩
    | done _ hf _ => exact .inr ⟨_, commit_unread _ _ _ _ x.rel.ring.fle, hd0 hf, .inl ⟨ho, hpos⟩⟩
    | bad _ hf hg => exact .inr ⟨_, commit_unread _ _ _ _ x.rel.ring.fle, hd0 hf, .inr ⟨ho, hg⟩⟩
  · rw [step_writev_eq hsk hw, writev_illegal hl] at ho
    rw [step_writev_eq hsk hw, writev_illegal hl, unread_with_hs]
    exact .inl ⟨rfl, .inr ⟨-1, by decide, ho⟩⟩

/-- **C03 (partial).** If wake-ups and msync succeed: a write returns the total byte count and all
its messages are appended contiguously, or it returns 0, -1 or -3 (or waits) and the unread messages are
as before.  Missing: the case of a failing wake-up or msync, for which the claim is false, see
`C03_counterexample`. -/
theorem C03_all_or_nothing_partial
    (v : Valid a (ops ++ [.writev k iov envF env]))
    (hrun : (Sys.init a).run ops = .ok (s, outs))
    (hstep : s.step (.writev k iov envF env) = .ok (s', o))
    (hk : s.hs k = .live h) (hw : h.flags.has SHR_WRONLY = true) (hub : h.flags.has SHR_BUFFERED = false)
    (hg : env.good) :
    (o = .wrote (bytesOf iov) ∧ 0 < bytesOf iov ∧ ∃ d, s'.ring.unreadMsgs = s.ring.unreadMsgs.drop d ++ iov ∧
      (a.flags.has SHR_DROP = false → a.flags.has SHR_FARM = false → d = 0)) ∨
    ((o = .blocked ∨ ∃ rc : Int, rc ≤ 0 ∧ o = .wrote rc) ∧ s'.ring.unreadMsgs = s.ring.unreadMsgs) := by
  rcases C03_batch_is_atomic v hrun hstep hk hw hub with ⟨h1, h2⟩ | ⟨d, h1, h2, ⟨h3, h4⟩ | ⟨_, h3⟩⟩
  · exact .inr ⟨h2, h1⟩
  · exact .inl ⟨h3, h4, d, h1, h2⟩
  · exact absurd hg h3

/-- **C05.** Unread bytes and messages never exceed the ring's limits. -/
theorem C05_capacity (v : Valid a ops) (hrun : (Sys.init a).run ops = .ok (s, outs)) :
    bytesOf s.ring.unreadMsgs ≤ a.dataSz ∧ s.ring.unreadMsgs.length ≤ a.max_msgs := by
  obtain ⟨sp, x, _, _⟩ := v.state hrun
  rw [x.rel.ring.unreadMsgs, ← x.cap, ← x.maxm]
  exact x.rel.ring.unread_bounds

/-- **C05.** `shr_stat` reports exactly the unread bytes and messages, the limits and the ring's
attributes. -/
theorem C05_stat_reports_unread {reset : Option Timeval} (v : Valid a (ops ++ [.stat k reset env]))
    (hrun : (Sys.init a).run ops = .ok (s, outs))
    (hstep : s.step (.stat k reset env) = .ok (s', o))
    (hk : s.hs k = .live h) (hlk : env.lockOk = true) :
    ∃ rc st, o = .stat rc (some st) ∧ st.bu = bytesOf s.ring.unreadMsgs ∧
      st.mu = s.ring.unreadMsgs.length ∧ st.bn = a.dataSz ∧ st.mm = a.max_msgs ∧ st.flags = a.gflags ∧
      (env.syncOk = true → rc = 0) := by
  obtain ⟨sp, x⟩ := v.at hrun hstep
  obtain ⟨sh, hsk, hh⟩ := x.rel.live hk
  have ho := x.out
  rw [x.rel.ring.unreadMsgs]
  unfold Spec.step at ho
  simp only [hsk, hlk, Bool.true_eq_false, if_false] at ho
  refine ⟨_, _, ho, rfl, rfl, x.cap, x.maxm, x.gf, ?_⟩
  intro h; simp [h]

/-- **C08.** If nothing is unread, every legal write succeeds, blocking or not, whatever happened
before; afterwards exactly the new messages are unread. -/
theorem C08_drained_ring_accepts
    (v : Valid a (ops ++ [.writev k iov envF env]))
    (hrun : (Sys.init a).run ops = .ok (s, outs))
    (hstep : s.step (.writev k iov envF env) = .ok (s', o))
    (hk : s.hs k = .live h) (hw : h.flags.has SHR_WRONLY = true) (hub : h.flags.has SHR_BUFFERED = false)
    (hlk : env.lockOk = true) (hg : env.good) (hl : Legal a.dataSz a.max_msgs iov)
    (hempty : s.ring.unreadMsgs = []) :
    o = .wrote (bytesOf iov) ∧ s'.ring.unreadMsgs = iov := by
  obtain ⟨sp, x⟩ := v.at hrun hstep
  obtain ⟨sh, hsk, hh⟩ := x.rel.live hk
  rw [hh.flags] at hw hub
  have hl' : Legal sp.cap sp.maxm iov := by rw [x.cap, x.maxm]; exact hl
  have ho := x.out
  have hu' := x.rel'.ring.unreadMsgs
  rw [step_writev_eq hsk hw, writev_direct hub hl'] at ho hu'
  rw [unread_with_hs] at hu'
  rw [x.rel.ring.unreadMsgs] at hempty
  have hf : Fits sp.cap sp.maxm sp.unread iov := by
    rw [hempty]; obtain ⟨_, _, h1, h2⟩ := hl'; exact ⟨by simpa using h1, by simpa using h2⟩
  unfold Spec.tryWrite at ho hu'
  rw [if_neg (by simp [hlk]), if_pos (Or.inl hf)] at ho hu'
  rw [hu', ho, commit_unread _ _ _ _ x.rel.ring.fle, hempty]
  simp [hg.1, hg.2, Spec.WRes.out]

/-- **C08.** A write that needs exactly the free space succeeds: the unread bytes and the new ones
together may equal the ring size (and likewise for the message count). -/
theorem C08_exact_fit
    (v : Valid a (ops ++ [.writev k iov envF env]))
    (hrun : (Sys.init a).run ops = .ok (s, outs))
    (hstep : s.step (.writev k iov envF env) = .ok (s', o))
    (hk : s.hs k = .live h) (hw : h.flags.has SHR_WRONLY = true) (hub : h.flags.has SHR_BUFFERED = false)
    (hlk : env.lockOk = true) (hg : env.good) (hne : iov ≠ []) (hnz : ∀ b ∈ iov, b ≠ [])
    (hb : bytesOf s.ring.unreadMsgs + bytesOf iov = a.dataSz)
    (hm : s.ring.unreadMsgs.length + iov.length ≤ a.max_msgs) :
    o = .wrote (bytesOf iov) ∧ s'.ring.unreadMsgs = s.ring.unreadMsgs ++ iov := by
  obtain ⟨sp, x⟩ := v.at hrun hstep
  obtain ⟨sh, hsk, hh⟩ := x.rel.live hk
  rw [hh.flags] at hw hub
  rw [x.rel.ring.unreadMsgs] at hb hm ⊢
  have hl' : Legal sp.cap sp.maxm iov := by rw [x.cap, x.maxm]; exact ⟨hne, hnz, by omega, by omega⟩
  have ho := x.out
  have hu' := x.rel'.ring.unreadMsgs
  rw [step_writev_eq hsk hw, writev_direct hub hl'] at ho hu'
  rw [unread_with_hs] at hu'
  have hf : Fits sp.cap sp.maxm sp.unread iov := by rw [x.cap, x.maxm]; exact ⟨by omega, hm⟩
  unfold Spec.tryWrite at ho hu'
  rw [if_neg (by simp [hlk]), if_pos (Or.inl hf)] at ho hu'
  rw [hu', ho, commit_unread _ _ _ _ x.rel.ring.fle, evictCount_zero_of_fits hf]
  simp [hg.1, hg.2, Spec.WRes.out]

/-- **C12.** On a DROP (or FARM) ring every valid write succeeds at once; the smallest number `d` of
oldest unread messages that makes room for the batch is discarded, the others stay as they are, the
new ones follow them, and the drop counters grow by exactly what was discarded. -/
theorem C12_drop_write
    (v : Valid a (ops ++ [.writev k iov envF env]))
    (hrun : (Sys.init a).run ops = .ok (s, outs))
    (hstep : s.step (.writev k iov envF env) = .ok (s', o))
    (hk : s.hs k = .live h) (hw : h.flags.has SHR_WRONLY = true) (hub : h.flags.has SHR_BUFFERED = false)
    (hd : a.flags.has SHR_DROP = true ∨ a.flags.has SHR_FARM = true)
    (hlk : env.lockOk = true) (hg : env.good) (hl : Legal a.dataSz a.max_msgs iov) :
    o = .wrote (bytesOf iov) ∧ ∃ d, d ≤ s.ring.unreadMsgs.length ∧
      s'.ring.unreadMsgs = s.ring.unreadMsgs.drop d ++ iov ∧
      bytesOf (s.ring.unreadMsgs.drop d) + bytesOf iov ≤ a.dataSz ∧
      (s.ring.unreadMsgs.drop d).length + iov.length ≤ a.max_msgs ∧
      (∀ d' < d, ¬ (bytesOf (s.ring.unreadMsgs.drop d') + bytesOf iov ≤ a.dataSz ∧
        (s.ring.unreadMsgs.drop d').length + iov.length ≤ a.max_msgs)) ∧
      s'.ring.stat.md = (s.ring.stat.md + d) % W ∧
      s'.ring.stat.bd = (s.ring.stat.bd + bytesOf (s.ring.unreadMsgs.take d)) % W := by
  obtain ⟨sp, x⟩ := v.at hrun hstep
  obtain ⟨sh, hsk, hh⟩ := x.rel.live hk
  rw [hh.flags] at hw hub
  have hl' : Legal sp.cap sp.maxm iov := by rw [x.cap, x.maxm]; exact hl
  have hdr : sp.drop = true := by
    rw [x.drop]; rcases hd with h | h <;> simp [h]
  have ho := x.out
  have hu' := x.rel'.ring.unreadMsgs
  have hst' := x.rel'.ring.stat
  have hst := x.rel.ring.stat
  rw [step_writev_eq hsk hw, writev_direct hub hl'] at ho hu' hst'
  rw [unread_with_hs] at hu'
  rw [x.rel.ring.unreadMsgs]
  unfold Spec.tryWrite at ho hu' hst'
  rw [if_neg (by simp [hlk]), if_pos (Or.inr hdr)] at ho hu' hst'
  have hfits := evictCount_fits hl'.2.2.1 hl'.2.2.2 sp.unread
  refine ⟨by rw [ho]; simp [hg.1, hg.2, Spec.WRes.out], evictCount sp.cap sp.maxm iov sp.unread,
    evictCount_le_length _ _ _ _, by rw [hu', commit_unread _ _ _ _ x.rel.ring.fle], ?_, ?_, ?_, ?_, ?_⟩
  · rw [← x.cap]; exact hfits.1
  · rw [← x.maxm]; exact hfits.2
  · intro d' hlt
    rw [← x.cap, ← x.maxm]
    exact evictCount_min hlt
  · rw [hst', hst]; simp [Spec.commit, SStat.toStat]
  · rw [hst', hst]; simp [Spec.commit, SStat.toStat]

/-- **C44 (writer).** A write that returns -3 (a descriptor added with `shr_ctl` became ready) has
stored nothing. -/
theorem C44_interrupted_write_no_effect
    (v : Valid a (ops ++ [.writev k iov envF env]))
    (hrun : (Sys.init a).run ops = .ok (s, outs))
    (hstep : s.step (.writev k iov envF env) = .ok (s', .wrote (-3)))
    (hk : s.hs k = .live h) (hw : h.flags.has SHR_WRONLY = true) (hub : h.flags.has SHR_BUFFERED = false) :
    s'.ring.unreadMsgs = s.ring.unreadMsgs := by
  rcases C03_batch_is_atomic v hrun hstep hk hw hub with ⟨h1, _⟩ | ⟨d, _, _, ⟨h3, h4⟩ | ⟨h3, _⟩⟩
  · exact h1
  · injection h3 with h3; omega
  · injection h3 with h3; omega

end

/-! ## C07, C43: the length check -/

theorem lenLoop_some {sn smm k : Nat} : ∀ {ls : List Nat} {acc t : Nat}, acc ≤ SSIZE_MAX →
    (∀ l ∈ ls, l ≤ SSIZE_MAX) → lenLoop sn smm k ls acc = some t →
    t = acc + ls.sum ∧ t ≤ SSIZE_MAX ∧ (ls ≠ [] → t ≤ sn ∧ k ≤ smm ∧ 0 < t) := by
  intro ls
  induction ls with
  | nil => intro acc t ha _ h; simp [lenLoop] at h; subst h; simp [ha]
  | cons l ls ih =>
    intro acc t ha hl h
    have hl1 := hl l (by simp)
    have e : wadd acc l = acc + l := by
      unfold wadd; apply Nat.mod_eq_of_lt; unfold SSIZE_MAX at *; unfold W; omega
    unfold lenLoop at h
    dsimp only at h
    rw [e] at h
    split at h
    · cases h
    split at h
    · cases h
    split at h
    · cases h
    split at h
    · cases h
    rename_i h1 h2 h3 h4
    obtain ⟨h5, h6, h7⟩ := ih (by omega) (fun x hx => hl x (by simp [hx])) h
    refine ⟨by rw [h5, List.sum_cons]; omega, h6, fun _ => ?_⟩
    by_cases hn : ls = []
    · subst hn; simp at h5; omega
    · exact h7 hn

/-- **C43.** The accepted total is the exact sum: for every vector of buffers that can exist (each at
most SSIZE_MAX bytes), whatever their number, a total that passes the check equals the mathematical
sum of the lengths and is between 1 and the ring size. -/
theorem C43_total_is_exact (sn smm : Nat) (lens : List Nat) (hl : ∀ l ∈ lens, l ≤ SSIZE_MAX) (t : Nat)
    (h : lenCheck sn smm lens = some t) : t = lens.sum ∧ 0 < t ∧ t ≤ sn ∧ lens.length ≤ smm := by
  unfold lenCheck at h
  split at h
  · cases h
  · rename_i len heq
    split at h
    · cases h
    · cases h
      rename_i hz
      obtain ⟨h1, h2, h3⟩ := lenLoop_some (by simp [SSIZE_MAX]) hl heq
      have hne : lens ≠ [] := by rintro rfl; simp at h1; omega
      obtain ⟨h4, h5, h6⟩ := h3 hne
      exact ⟨by omega, h6, h4, h5⟩

/-- **C43.** A vector whose true total exceeds the ring size is rejected in every state of ring and
handle, even if the sum of the lengths wraps around modulo 2^64. -/
theorem C43_oversize_rejected (h : Handle) (r : Ring) (iov : List Msg) (envF env : Env)
    (hw : h.flags.has SHR_WRONLY = true) (hl : ∀ b ∈ iov, b.length ≤ SSIZE_MAX)
    (hbig : h.n < bytesOf iov ∨ h.mm < iov.length) :
    exec (shr_writev h iov envF env) r = .ok ((h, .ret (-1) false), r) := by
  unfold exec shr_writev
  rw [M.assert_bind_of hw]
  cases e : lenCheck h.n h.mm (iov.map List.length) with
  | none => rfl
  | some t =>
    obtain ⟨h1, _, h3, h4⟩ := C43_total_is_exact _ _ _ (by simpa using hl) _ e
    rw [List.length_map] at h4
    unfold bytesOf at hbig
    omega

/-- **C07 (partial).** A vector whose first message is empty is rejected in every state of ring and
handle.  Missing: an empty message in a later position, for which the claim is false
(`C07_counterexample`). -/
theorem C07_first_empty_rejected_partial (h : Handle) (r : Ring) (iov : List Msg) (envF env : Env)
    (hw : h.flags.has SHR_WRONLY = true) (he : iov.head? = some []) :
    exec (shr_writev h iov envF env) r = .ok ((h, .ret (-1) false), r) := by
  unfold exec shr_writev
  rw [M.assert_bind_of hw]
  cases iov with
  | nil => simp at he
  | cons b bs =>
    simp at he; subst he
    have : lenCheck h.n h.mm (List.map List.length ([] :: bs)) = none := by
      simp [lenCheck, lenLoop, wadd, W]
    rw [this]
    rfl

/-- **C07 is false** for an empty message that is not the first: on a fresh ring, writing the two
messages `[1]` and `[]` kills the writer with a failed assertion (src/shr.c:984), while it holds the
lock and after it has modified the ring. -/
theorem C07_counterexample :
    (Sys.init demoA).run [opn 0 SHR_WRONLY] = .ok (final demoA [opn 0 SHR_WRONLY], [.opened true]) ∧
    ((Sys.init demoA).run [opn 0 SHR_WRONLY, wr 0 [[1], []]]).isOk = false ∧
    (match (shr_writev ((final demoA [opn 0 SHR_WRONLY]).handle 0) [[1], []] {} {} (initRing demoA)).res with
      | .abort r => decide (r ≠ initRing demoA)
      | _ => false) = true := by
  refine ⟨Valid.runs (valid_of (by decide +kernel)), by decide +kernel, by decide +kernel⟩

/-- **C03 is false** if waking the readers fails: the write returns -1 although its message is in the
ring and will be read. -/
theorem C03_counterexample :
    let ops : List Op := [opn 0 SHR_WRONLY, opn 1 (SHR_RDONLY ||| SHR_NONBLOCK),
      .writev 0 [[1, 2, 3]] {} { wakeOk := false }, rd 1 10 1]
    Valid demoA ops ∧ outsOf demoA ops =
      [.opened true, .opened true, .wrote (-1), .read 3 [(0, 3)] [1, 2, 3, 0, 0, 0, 0, 0, 0, 0]] := by
  exact ⟨valid_of (by decide +kernel), by decide +kernel⟩

/-! ## The hypotheses can be met -/

/-- 8 of 10 bytes and 2 of 3 messages are unread: 2 more bytes fit, 3 do not. -/
example : lastOut demoA (demoOps ++ [wr 0 [[1, 2, 3]]]) = .wrote 0 := by
  have v : Valid demoA (demoOps ++ [wr 0 [[1, 2, 3]]]) := valid_of (by decide +kernel)
  exact (C04_nonblocking_write_refuses_iff v v.left.runs v.steps (live_handle (by decide +kernel))
    (by decide +kernel) (by decide +kernel) (by decide +kernel) (by decide +kernel) (by decide +kernel) rfl
    (by decide +kernel)).1.mpr (by decide +kernel)

example : (final demoA (demoOps ++ [wr 0 [[1, 2]]])).ring.unreadMsgs = [[4, 5, 6, 7], [8, 9, 10, 11], [1, 2]] := by
  have v : Valid demoA (demoOps ++ [wr 0 [[1, 2]]]) := valid_of (by decide +kernel)
  rw [((C04_nonblocking_write_refuses_iff v v.left.runs v.steps (live_handle (by decide +kernel))
    (by decide +kernel) (by decide +kernel) (by decide +kernel) (by decide +kernel) (by decide +kernel) rfl
    (by decide +kernel)).2 (by decide +kernel) (by decide +kernel)).2]
  decide +kernel

/-- Too many bytes, too many messages, no bytes. -/
example : lastOut demoA (demoOps ++ [wr 0 [List.replicate 11 7]]) = .wrote (-1) := by
  have v : Valid demoA (demoOps ++ [wr 0 [List.replicate 11 7]]) := valid_of (by decide +kernel)
  exact (C06_invalid_write_rejected v v.left.runs v.steps (live_handle (by decide +kernel))
    (by decide +kernel) (by decide +kernel)).1
example : lastOut demoA (demoOps ++ [wr 0 [[1], [1], [1], [1]]]) = .wrote (-1) := by
  have v : Valid demoA (demoOps ++ [wr 0 [[1], [1], [1], [1]]]) := valid_of (by decide +kernel)
  exact (C06_invalid_write_rejected v v.left.runs v.steps (live_handle (by decide +kernel))
    (by decide +kernel) (by decide +kernel)).1
example : lastOut demoA (demoOps ++ [wr 0 []]) = .wrote (-1) := by
  have v : Valid demoA (demoOps ++ [wr 0 []]) := valid_of (by decide +kernel)
  exact (C06_invalid_write_rejected v v.left.runs v.steps (live_handle (by decide +kernel))
    (by decide +kernel) (by decide +kernel)).1

/-- A write that is accepted, and one that is not, in the sense of C03. -/
example : ∃ d, (final demoD (demoOps ++ [wr 0 [[1, 2, 3]]])).ring.unreadMsgs =
    (final demoD demoOps).ring.unreadMsgs.drop d ++ [[1, 2, 3]] := by
  have v : Valid demoD (demoOps ++ [wr 0 [[1, 2, 3]]]) := valid_of (by decide +kernel)
  rcases C03_all_or_nothing_partial v v.left.runs v.steps (live_handle (by decide +kernel)) (by decide +kernel)
    (by decide +kernel) (by decide +kernel) with ⟨_, _, d, h, _⟩ | ⟨_, h⟩
  · exact ⟨d, h⟩
  · exact absurd h (by decide +kernel)

example : bytesOf (final demoA demoOps).ring.unreadMsgs = 8 ∧
    bytesOf (final demoA demoOps).ring.unreadMsgs ≤ demoA.dataSz :=
  ⟨by decide +kernel, (C05_capacity (valid_of (by decide +kernel)) (Valid.runs (valid_of (by decide +kernel)))).1⟩

example : ∃ rc st, lastOut demoA (demoOps ++ [.stat 1 none {}]) = .stat rc (some st) ∧ st.bu = 8 ∧ st.mu = 2 := by
  have v : Valid demoA (demoOps ++ [.stat 1 none {}]) := valid_of (by decide +kernel)
  obtain ⟨rc, st, h1, h2, h3, _⟩ := C05_stat_reports_unread v v.left.runs v.steps (live_handle (by decide +kernel)) rfl
  exact ⟨rc, st, h1, h2.trans (by decide +kernel), h3.trans (by decide +kernel)⟩

/-- Drained in the middle of the data area; the next write uses the whole ring. -/
example : lastOut demoA (demoOps ++ [rd 1 10 3] ++ [wr 0 [List.replicate 10 7]]) = .wrote 10 := by
  have v : Valid demoA (demoOps ++ [rd 1 10 3] ++ [wr 0 [List.replicate 10 7]]) := valid_of (by decide +kernel)
  exact (C08_drained_ring_accepts v v.left.runs v.steps (live_handle (by decide +kernel)) (by decide +kernel)
    (by decide +kernel) rfl (by decide +kernel) (by decide +kernel) (by decide +kernel)).1

example : lastOut demoA (demoOps ++ [wr 0 [[1, 2]]]) = .wrote 2 := by
  have v : Valid demoA (demoOps ++ [wr 0 [[1, 2]]]) := valid_of (by decide +kernel)
  exact (C08_exact_fit v v.left.runs v.steps (live_handle (by decide +kernel)) (by decide +kernel)
    (by decide +kernel) rfl (by decide +kernel) (by decide) (by decide) (by decide +kernel) (by decide +kernel)).1

/-- Two messages have to go: one would make enough room in bytes but not in messages. -/
example : ∃ d, (final demoD (demoOps ++ [wr 0 [[1], [2], [3]]])).ring.unreadMsgs =
    (final demoD demoOps).ring.unreadMsgs.drop d ++ [[1], [2], [3]] ∧
    (final demoD (demoOps ++ [wr 0 [[1], [2], [3]]])).ring.stat.md = 2 := by
  have v : Valid demoD (demoOps ++ [wr 0 [[1], [2], [3]]]) := valid_of (by decide +kernel)
  obtain ⟨_, d, _, h, _⟩ := C12_drop_write v v.left.runs v.steps (live_handle (by decide +kernel))
    (by decide +kernel) (by decide +kernel) (by decide +kernel) rfl (by decide +kernel) (by decide +kernel)
  exact ⟨d, h, by decide +kernel⟩

/-- A blocking writer on a full ring, interrupted. -/
example : lastOut demoA ([opn 0 SHR_WRONLY, wr 0 [List.replicate 10 7]] ++
      [.writev 0 [[1]] {} { waitRc := some .pollfd }]) = .wrote (-3) ∧
    (final demoA ([opn 0 SHR_WRONLY, wr 0 [List.replicate 10 7]] ++
      [.writev 0 [[1]] {} { waitRc := some .pollfd }])).ring.unreadMsgs = [List.replicate 10 7] := by
  have v : Valid demoA ([opn 0 SHR_WRONLY, wr 0 [List.replicate 10 7]] ++
      [.writev 0 [[1]] {} { waitRc := some .pollfd }]) := valid_of (by decide +kernel)
  have h3 : lastOut demoA ([opn 0 SHR_WRONLY, wr 0 [List.replicate 10 7]] ++
      [.writev 0 [[1]] {} { waitRc := some .pollfd }]) = .wrote (-3) := by decide +kernel
  refine ⟨h3, ?_⟩
  rw [C44_interrupted_write_no_effect v v.left.runs (h3 ▸ v.steps) (live_handle (by decide +kernel))
    (by decide +kernel) (by decide +kernel)]
  decide +kernel

/-- Three buffers of which the first two are as large as objects can be: the sum wraps to 98, the
check rejects. -/
example : lenCheck 1000 10 [SSIZE_MAX, SSIZE_MAX, 100] = none ∧
    wadd (wadd SSIZE_MAX SSIZE_MAX) 100 = 98 := by decide

end Shr
