import Verif.Spec.Buffered
import Verif.Props.Handle
/-! # Buffered writers on rings that overwrite: C12, C13, C16 -/
namespace Shr

theorem enter_commit {sp : Spec} {k : Nat} {new : List Msg} {c : Bool} (hf : sp.first ≤ sp.log.length)
    (h1 : bytesOf new ≤ sp.cap) (h2 : new.length ≤ sp.maxm) {bs : List (List Msg)} {U' lost' : List Msg}
    (h : Enter sp.cap sp.maxm (sp.commit k new c).unread bs U' lost') :
    Enter sp.cap sp.maxm sp.unread (new :: bs) U' (sp.unread.take (evictCount sp.cap sp.maxm new sp.unread) ++ lost') := by
  refine ⟨_, lost', evictCount_le_length _ _ _ _, evictCount_fits h1 h2 sp.unread, fun d' hd => evictCount_min hd, ?_, rfl⟩
  rw [commit_unread _ _ _ _ hf] at h
  exact h

theorem enter_commit' {sp : Spec} {k : Nat} {new : List Msg} {c : Bool} (hf : sp.base ≤ sp.log.length)
    (h1 : bytesOf new ≤ sp.cap) (h2 : new.length ≤ sp.maxm) {bs : List (List Msg)} {U' lost' : List Msg}
    (h : Enter sp.cap sp.maxm (sp.commit k new c).retained bs U' lost') :
    Enter sp.cap sp.maxm sp.retained (new :: bs) U' (sp.retained.take (evictCount sp.cap sp.maxm new sp.retained) ++ lost') := by
  refine ⟨_, lost', evictCount_le_length _ _ _ _, evictCount_fits h1 h2 sp.retained, fun d' hd => evictCount_min hd, ?_, rfl⟩
  rw [commit_retained _ _ _ _ hf] at h
  exact h

theorem tryWrite_drop {sp : Spec} {k : Nat} {nb : Bool} {new : List Msg} {env : Env} (hd : sp.drop = true)
    (hlk : env.lockOk = true) (hg : env.good) :
    sp.tryWrite k nb new env = (sp.commit k new true, .ret (bytesOf new)) := by
  unfold Spec.tryWrite
  rw [if_neg (by simp [hlk]), if_pos (Or.inr hd), hg.1]
  simp [hg.2]

section
variable {a : InitArgs} {ops : List Op} {k : Nat} {env envF : Env} {iov : List Msg}
  {s s' : Sys} {outs : List Out} {o : Out} {h : Handle}

/-- **C12 (flush).** A flush of a non-empty cache on a SHR_DROP or SHR_FARM ring succeeds at once, empties the cache, and discards
exactly the fewest oldest unread messages; they are counted. -/
theorem C12_drop_flush {wait : Bool} (v : Valid a (ops ++ [.flush k wait env]))
    (hrun : (Sys.init a).run ops = .ok (s, outs)) (hstep : s.step (.flush k wait env) = .ok (s', o))
    (hk : s.hs k = .live h) (hw : h.flags.has SHR_WRONLY = true)
    (hd : a.flags.has SHR_DROP = true ∨ a.flags.has SHR_FARM = true)
    (hlk : env.lockOk = true) (hg : env.good) (hbw : env.bwOpenOk = true) (hc : s.cached k ≠ []) :
    o = .wrote (bytesOf (s.cached k)) ∧ s'.cached k = [] ∧
    ∃ lost, Enter a.dataSz a.max_msgs s.ring.unreadMsgs [s.cached k] s'.ring.unreadMsgs lost ∧
      s'.ring.stat.md = (s.ring.stat.md + lost.length) % W ∧
      s'.ring.stat.bd = (s.ring.stat.bd + bytesOf lost) % W := by
  obtain ⟨sp, x⟩ := v.at hrun hstep
  obtain ⟨sh, hsk, hh⟩ := x.rel.live hk
  have hb := C27_cache_bounds v.left hrun k
  rw [x.rel.cached hsk] at hc hb ⊢
  rw [hh.flags] at hw
  have hdr : sp.drop = true := by rw [x.drop]; rcases hd with h | h <;> simp [h]
  have hpos := bytesOf_pos hb.2.2 hc
  have hfl : ∃ cw, sp.flush k sh wait env = (sp.commit k sh.pend true, { sh with pend := [], canWait := cw }, .ret (bytesOf sh.pend)) := by
    unfold Spec.flush
    rw [if_neg hc]
    dsimp only
    rw [if_neg (by rintro ⟨_, _, h | h⟩ <;> simp_all), tryWrite_drop hdr hlk hg]
    dsimp only
    rw [if_pos (by omega)]
    exact ⟨_, rfl⟩
  obtain ⟨cw, hfl⟩ := hfl
  have ho := x.out
  have hrel' := x.rel'
  rw [step_flush_eq hsk hw, hfl] at ho hrel'
  have hu' := hrel'.ring.unreadMsgs
  have hst' := hrel'.ring.stat
  have hst := x.rel.ring.stat
  rw [unread_with_hs] at hu'
  refine ⟨ho, hrel'.cached (upd_same _ _ _), sp.unread.take (evictCount sp.cap sp.maxm sh.pend sp.unread) ++ [], ?_, ?_⟩
  · rw [hu', x.rel.ring.unreadMsgs, ← x.cap, ← x.maxm]
    exact enter_commit x.rel.ring.fle (by rw [x.cap]; exact hb.1) (by rw [x.maxm]; exact hb.2.1) ⟨rfl, rfl⟩
  · have hle := evictCount_le_length sp.cap sp.maxm sh.pend sp.unread
    rw [hst', hst]
    simp [Spec.commit, SStat.toStat, Nat.min_eq_left hle]

/-- **C12 (close).** Closing a handle whose cache is not empty on a SHR_DROP or SHR_FARM ring does the same. -/
theorem C12_drop_close (v : Valid a (ops ++ [.close k env]))
    (hrun : (Sys.init a).run ops = .ok (s, outs)) (hstep : s.step (.close k env) = .ok (s', o))
    (hk : s.hs k = .live h) (hd : a.flags.has SHR_DROP = true ∨ a.flags.has SHR_FARM = true)
    (hlk : env.lockOk = true) (hg : env.good) (hc : s.cached k ≠ []) :
    o = .closed ∧
    ∃ lost, Enter a.dataSz a.max_msgs s.ring.unreadMsgs [s.cached k] s'.ring.unreadMsgs lost ∧
      s'.ring.stat.md = (s.ring.stat.md + lost.length) % W ∧
      s'.ring.stat.bd = (s.ring.stat.bd + bytesOf lost) % W := by
  obtain ⟨sp, x⟩ := v.at hrun hstep
  obtain ⟨sh, hsk, hh⟩ := x.rel.live hk
  have hb := C27_cache_bounds v.left hrun k
  rw [x.rel.cached hsk] at hc hb ⊢
  have hdr : sp.drop = true := by rw [x.drop]; rcases hd with h | h <;> simp [h]
  have hpos := bytesOf_pos hb.2.2 hc
  have hfl : ∃ cw, sp.flush k sh false env = (sp.commit k sh.pend true, { sh with pend := [], canWait := cw }, .ret (bytesOf sh.pend)) := by
    unfold Spec.flush
    rw [if_neg hc]
    dsimp only
    rw [if_neg (by simp), tryWrite_drop hdr hlk hg]
    dsimp only
    rw [if_pos (by omega)]
    exact ⟨_, rfl⟩
  obtain ⟨cw, hfl⟩ := hfl
  have hse : sp.step (.close k env) = ({ (sp.commit k sh.pend true) with hs := upd sp.hs k (.gone []) }, .closed) := by
    unfold Spec.step; simp only [hsk, hfl]
  have ho := x.out
  have hrel' := x.rel'
  rw [hse] at ho hrel'
  have hu' := hrel'.ring.unreadMsgs
  have hst' := hrel'.ring.stat
  have hst := x.rel.ring.stat
  rw [unread_with_hs] at hu'
  refine ⟨ho, sp.unread.take (evictCount sp.cap sp.maxm sh.pend sp.unread) ++ [], ?_, ?_⟩
  · rw [hu', x.rel.ring.unreadMsgs, ← x.cap, ← x.maxm]
    exact enter_commit x.rel.ring.fle (by rw [x.cap]; exact hb.1) (by rw [x.maxm]; exact hb.2.1) ⟨rfl, rfl⟩
  · have hle := evictCount_le_length sp.cap sp.maxm sh.pend sp.unread
    rw [hst', hst]
    simp [Spec.commit, SStat.toStat, Nat.min_eq_left hle]

/-- **C12 (any writer).** A legal write, buffered or not, on a SHR_DROP or SHR_FARM ring succeeds at once; what it puts into the ring
(nothing, the cache, itself, or the cache and then itself) displaces, batch by batch, exactly the fewest oldest unread messages; they are
counted; and what it caches and what it puts into the ring are together, in order, the cache and the write. -/
theorem C12_drop_any_write (v : Valid a (ops ++ [.writev k iov envF env]))
    (hrun : (Sys.init a).run ops = .ok (s, outs)) (hstep : s.step (.writev k iov envF env) = .ok (s', o))
    (hk : s.hs k = .live h) (hw : h.flags.has SHR_WRONLY = true)
    (hd : a.flags.has SHR_DROP = true ∨ a.flags.has SHR_FARM = true)
    (hlk : env.lockOk = true) (hg : env.good) (hlF : envF.lockOk = true) (hgF : envF.good)
    (hl : Legal a.dataSz a.max_msgs iov) :
    o = .wrote (bytesOf iov) ∧
    ∃ bs lost, Enter a.dataSz a.max_msgs s.ring.unreadMsgs bs s'.ring.unreadMsgs lost ∧
      bs.flatten ++ s'.cached k = s.cached k ++ iov ∧
      (bs = [] ∨ bs = [s.cached k] ∨ bs = [iov] ∨ bs = [s.cached k, iov]) ∧
      s'.ring.stat.md = (s.ring.stat.md + lost.length) % W ∧
      s'.ring.stat.bd = (s.ring.stat.bd + bytesOf lost) % W := by
  obtain ⟨sp, x⟩ := v.at hrun hstep
  obtain ⟨sh, hsk, hh⟩ := x.rel.live hk
  have hb := C27_cache_bounds v.left hrun k
  rw [x.rel.cached hsk] at hb ⊢
  rw [hh.flags] at hw
  have hdr : sp.drop = true := by rw [x.drop]; rcases hd with h | h <;> simp [h]
  have hl' : Legal sp.cap sp.maxm iov := by rw [x.cap, x.maxm]; exact hl
  have ho := x.out
  have hrel' := x.rel'
  rw [step_writev_eq hsk hw] at ho hrel'
  have hu' := hrel'.ring.unreadMsgs
  have hst' := hrel'.ring.stat
  have hst := x.rel.ring.stat
  rw [unread_with_hs] at hu'
  have hc' : s'.cached k = (sp.writev k sh iov envF env).2.1.pend := hrel'.cached (upd_same _ _ _)
  have hub : sh.flags.has SHR_BUFFERED = false → sh.pend = [] := by
    intro hnb
    have h0 := hh.nbuf (by simp [hnb])
    have hcr := hh.cache
    rw [h0] at hcr
    exact hcr.pend_nil
  rw [hu', hc', hst', hst, x.rel.ring.unreadMsgs, ← x.cap, ← x.maxm]
  clear hu' hc' hst' hst hrel' hstep
  have hfle := x.rel.ring.fle
  have hbc : bytesOf sh.pend ≤ sp.cap := by rw [x.cap]; exact hb.1
  have hbm : sh.pend.length ≤ sp.maxm := by rw [x.maxm]; exact hb.2.1
  have hbn := hb.2.2
  rw [ho]
  clear ho x v hb hk hh hrun
  unfold Spec.writev
  dsimp only
  rw [if_neg (by simp [hl'])]
  have one : (sp.commit k iov true, (Spec.WRes.ret (bytesOf iov))).2.out = .wrote (bytesOf iov) ∧
    ∃ bs lost, Enter sp.cap sp.maxm sp.unread bs (sp.commit k iov true).unread lost ∧
      bs.flatten = iov ∧ bs = [iov] ∧
      (sp.commit k iov true).st.toStat.md = (sp.st.toStat.md + lost.length) % W ∧
      (sp.commit k iov true).st.toStat.bd = (sp.st.toStat.bd + bytesOf lost) % W := by
    refine ⟨rfl, [iov], _, enter_commit hfle hl'.2.2.1 hl'.2.2.2 ⟨rfl, rfl⟩, by simp, rfl, ?_⟩
    have hle := evictCount_le_length sp.cap sp.maxm iov sp.unread
    simp [Spec.commit, SStat.toStat, Nat.min_eq_left hle]
  by_cases hbf : sh.flags.has SHR_BUFFERED = false
  · rw [if_pos hbf, tryWrite_drop hdr hlk hg]
    obtain ⟨e0, bs, lost, e1, e2, e3, e4⟩ := one
    exact ⟨e0, bs, lost, e1, by rw [e2, hub hbf]; simp, .inr (.inr (.inl e3)), e4⟩
  rw [if_neg hbf]
  by_cases hcf : Spec.cacheFits sh iov
  · rw [if_pos hcf]
    exact ⟨rfl, [], [], ⟨rfl, rfl⟩, by simp, .inl rfl, by simp [SStat.toStat], by simp [SStat.toStat, bytesOf]⟩
  rw [if_neg hcf]
  by_cases hpe : sh.pend = []
  · rw [if_pos hpe, tryWrite_drop hdr hlk hg]
    obtain ⟨e0, bs, lost, e1, e2, e3, e4⟩ := one
    exact ⟨e0, bs, lost, e1, by rw [e2, hpe]; simp, .inr (.inr (.inl e3)), e4⟩
  rw [if_neg hpe, tryWrite_drop hdr hlF hgF]
  have hpos := bytesOf_pos hbn hpe
  dsimp only
  rw [if_neg (by omega)]
  by_cases hcf2 : Spec.cacheFits { sh with pend := [] } iov
  · rw [if_pos hcf2]
    refine ⟨rfl, [sh.pend], _, enter_commit hfle hbc hbm ⟨rfl, rfl⟩, by simp, .inr (.inl rfl), ?_⟩
    have hle := evictCount_le_length sp.cap sp.maxm sh.pend sp.unread
    simp [Spec.commit, SStat.toStat, Nat.min_eq_left hle]
  · rw [if_neg hcf2]
    have hdr2 : (sp.commit k sh.pend true).drop = true := hdr
    rw [tryWrite_drop hdr2 hlk hg]
    have hfle2 : (sp.commit k sh.pend true).first ≤ (sp.commit k sh.pend true).log.length := by
      have hle := evictCount_le_length sp.cap sp.maxm sh.pend sp.unread
      simp [Spec.commit, Spec.log, Spec.unread] at hle hfle ⊢
      omega
    refine ⟨rfl, [sh.pend, iov], _, enter_commit hfle hbc hbm
      (enter_commit (sp := sp.commit k sh.pend true) hfle2 hl'.2.2.1 hl'.2.2.2 ⟨rfl, rfl⟩), by simp,
      .inr (.inr (.inr rfl)), ?_⟩
    have hle := evictCount_le_length sp.cap sp.maxm sh.pend sp.unread
    have hle2 := evictCount_le_length sp.cap sp.maxm iov (sp.commit k sh.pend true).unread
    have e1 : (sp.commit k sh.pend true).cap = sp.cap := rfl
    have e2 : (sp.commit k sh.pend true).maxm = sp.maxm := rfl
    rw [e1, e2]
    have f1 : ((sp.commit k sh.pend true).commit k iov true).st.toStat.md = 
        (sp.st.md + evictCount sp.cap sp.maxm sh.pend sp.unread + evictCount sp.cap sp.maxm iov (sp.commit k sh.pend true).unread) % W := rfl
    have f2 : ((sp.commit k sh.pend true).commit k iov true).st.toStat.bd = 
        (sp.st.bd + bytesOf (sp.unread.take (evictCount sp.cap sp.maxm sh.pend sp.unread)) +
        bytesOf ((sp.commit k sh.pend true).unread.take (evictCount sp.cap sp.maxm iov (sp.commit k sh.pend true).unread))) % W := rfl
    have f3 : sp.st.toStat.md = sp.st.md % W := rfl
    have f4 : sp.st.toStat.bd = sp.st.bd % W := rfl
    rw [f1, f2, f3, f4]
    constructor
    · simp only [List.append_nil, List.length_append, List.length_take, Nat.min_eq_left hle, Nat.min_eq_left hle2]
      unfold W; omega
    · simp only [List.append_nil, bytesOf_append]
      unfold W; omega

/-- The batches a call may put into the ring: the cache of its handle, or what it writes. -/
def batchOf (s : Sys) (op : Op) (b : List Msg) : Prop :=
  b = s.cached op.handle ∨ ∃ k envF env, op = .writev k b envF env

/-- Messages of one writer. -/
def tagged (k : Nat) (l : List Msg) : List (Nat × Msg) := l.map fun m => (k, m)

theorem enter_try {sp : Spec} {k : Nat} {nb : Bool} {new : List Msg} {env : Env} (hf : sp.base ≤ sp.log.length)
    (h1 : bytesOf new ≤ sp.cap) (h2 : new.length ≤ sp.maxm) :
    ∃ bs lost, Enter sp.cap sp.maxm sp.retained bs (sp.tryWrite k nb new env).1.retained lost ∧ (bs = [] ∨ bs = [new]) ∧
      (sp.tryWrite k nb new env).1.tlog = sp.tlog ++ tagged k bs.flatten := by
  have hc := tryCase sp k nb new env
  generalize sp.tryWrite k nb new env = y at *
  cases hc with
  | no => exact ⟨[], [], ⟨rfl, rfl⟩, .inl rfl, by simp [tagged]⟩
  | full => exact ⟨[], [], ⟨rfl, rfl⟩, .inl rfl, by simp [tagged]⟩
  | wait => exact ⟨[], [], ⟨rfl, rfl⟩, .inl rfl, by simp [tagged]⟩
  | done => exact ⟨[new], _, enter_commit' hf h1 h2 ⟨rfl, rfl⟩, .inr rfl, by simp [tagged, Spec.commit]⟩
  | bad => exact ⟨[new], _, enter_commit' hf h1 h2 ⟨rfl, rfl⟩, .inr rfl, by simp [tagged, Spec.commit]⟩

theorem enter_append {cap maxm : Nat} : ∀ {bs bs' : List (List Msg)} {U U' U'' lost lost' : List Msg},
    Enter cap maxm U bs U' lost → Enter cap maxm U' bs' U'' lost' → Enter cap maxm U (bs ++ bs') U'' (lost ++ lost') := by
  intro bs
  induction bs with
  | nil => intro bs' U U' U'' lost lost' h h'; obtain ⟨rfl, rfl⟩ := h; exact h'
  | cons b bs ih =>
    intro bs' U U' U'' lost lost' ⟨d, l, h1, h2, h3, h4, h5⟩ h'
    exact ⟨d, _, h1, h2, h3, ih h4 h', by rw [h5, List.append_assoc]⟩

theorem flush_try (sp : Spec) (k : Nat) (sh : SHandle) (wait : Bool) (env : Env) :
    (sp.flush k sh wait env).1 = sp ∨
    ∃ nb, sh.pend ≠ [] ∧ (sp.flush k sh wait env).1 = (sp.tryWrite k nb sh.pend env).1 := by
  unfold Spec.flush
  split
  · exact .inl rfl
  · rename_i hne
    dsimp only
    split
    · exact .inl rfl
    · exact .inr ⟨_, hne, rfl⟩

theorem commit_ble {sp : Spec} {k : Nat} {new : List Msg} {c : Bool} (hf : sp.base ≤ sp.log.length) :
    (sp.commit k new c).base ≤ (sp.commit k new c).log.length := by
  have hle := evictCount_le_length sp.cap sp.maxm new sp.retained
  simp [Spec.commit, Spec.log, Spec.retained] at hle hf ⊢
  omega

theorem try_ble {sp : Spec} {k : Nat} {nb : Bool} {new : List Msg} {env : Env} (hf : sp.base ≤ sp.log.length) :
    (sp.tryWrite k nb new env).1.base ≤ (sp.tryWrite k nb new env).1.log.length ∧
    (sp.tryWrite k nb new env).1.cap = sp.cap ∧ (sp.tryWrite k nb new env).1.maxm = sp.maxm := by
  have hc := tryCase sp k nb new env
  generalize sp.tryWrite k nb new env = y at *
  cases hc <;> first | exact ⟨hf, rfl, rfl⟩ | exact ⟨commit_ble hf, rfl, rfl⟩

theorem enter_writev {sp : Spec} {k : Nat} {sh : SHandle} {iov : List Msg} {envF env : Env} (hf : sp.base ≤ sp.log.length)
    (h1 : bytesOf sh.pend ≤ sp.cap) (h2 : sh.pend.length ≤ sp.maxm) :
    ∃ bs lost, Enter sp.cap sp.maxm sp.retained bs (sp.writev k sh iov envF env).1.retained lost ∧
      (bs ≠ [] → Legal sp.cap sp.maxm iov) ∧ (bs = [] ∨ bs = [sh.pend] ∨ bs = [iov] ∨ bs = [sh.pend, iov]) ∧
      (sp.writev k sh iov envF env).1.tlog = sp.tlog ++ tagged k bs.flatten := by
  unfold Spec.writev
  dsimp only
  by_cases hl : Legal sp.cap sp.maxm iov
  rotate_left
  · rw [if_pos hl]; exact ⟨[], [], ⟨rfl, rfl⟩, fun h => absurd rfl h, .inl rfl, by simp [tagged]⟩
  rw [if_neg (by simp [hl])]
  have one : ∃ bs lost, Enter sp.cap sp.maxm sp.retained bs (sp.tryWrite k (sh.flags.has SHR_NONBLOCK) iov env).1.retained lost ∧
      (bs = [] ∨ bs = [iov]) ∧
      (sp.tryWrite k (sh.flags.has SHR_NONBLOCK) iov env).1.tlog = sp.tlog ++ tagged k bs.flatten := enter_try hf hl.2.2.1 hl.2.2.2
  obtain ⟨bs, lost, e1, e2, e3⟩ := one
  have e2' : bs = [] ∨ bs = [sh.pend] ∨ bs = [iov] ∨ bs = [sh.pend, iov] := by
    rcases e2 with h | h
    · exact .inl h
    · exact .inr (.inr (.inl h))
  by_cases hbf : sh.flags.has SHR_BUFFERED = false
  · rw [if_pos hbf]; exact ⟨bs, lost, e1, fun _ => hl, e2', e3⟩
  rw [if_neg hbf]
  by_cases hcf : Spec.cacheFits sh iov
  · rw [if_pos hcf]; exact ⟨[], [], ⟨rfl, rfl⟩, fun _ => hl, .inl rfl, by simp [tagged]⟩
  rw [if_neg hcf]
  by_cases hpe : sh.pend = []
  · rw [if_pos hpe]; exact ⟨bs, lost, e1, fun _ => hl, e2', e3⟩
  rw [if_neg hpe]
  obtain ⟨bs1, lost1, d1, d2, d3⟩ := enter_try (k := k) (nb := sh.flags.has SHR_NONBLOCK) (env := envF) hf h1 h2
  obtain ⟨b1, b2, b3⟩ := try_ble (k := k) (nb := sh.flags.has SHR_NONBLOCK) (new := sh.pend) (env := envF) hf
  have hc := tryCase sp k (sh.flags.has SHR_NONBLOCK) sh.pend envF
  generalize sp.tryWrite k (sh.flags.has SHR_NONBLOCK) sh.pend envF = y at *
  have d2' : bs1 = [] ∨ bs1 = [sh.pend] ∨ bs1 = [iov] ∨ bs1 = [sh.pend, iov] := by
    rcases d2 with h | h
    · exact .inl h
    · exact .inr (.inl h)
  cases hy : y.2 with
  | wait => dsimp only; exact ⟨bs1, lost1, d1, fun _ => hl, d2', d3⟩
  | ret rc =>
    dsimp only
    by_cases hrc : rc ≤ 0
    · rw [if_pos hrc]; exact ⟨bs1, lost1, d1, fun _ => hl, d2', d3⟩
    rw [if_neg hrc]
    by_cases hcf2 : Spec.cacheFits { sh with pend := [] } iov
    · rw [if_pos hcf2]; exact ⟨bs1, lost1, d1, fun _ => hl, d2', d3⟩
    rw [if_neg hcf2]
    obtain ⟨bs3, lost3, c1, c2, c3⟩ := enter_try (k := k) (nb := sh.flags.has SHR_NONBLOCK) (env := env) b1
      (by rw [b2]; exact hl.2.2.1) (by rw [b3]; exact hl.2.2.2)
    rw [b2, b3] at c1
    refine ⟨bs1 ++ bs3, lost1 ++ lost3, enter_append d1 c1, fun _ => hl, ?_, by rw [c3, d3]; simp [tagged]⟩
    rcases d2 with rfl | rfl <;> rcases c2 with rfl | rfl <;> simp

theorem enter_step {op : Op} {sp : Spec} (v : Valid a (ops ++ [op]))
    (hrun : (Sys.init a).run ops = .ok (s, outs)) (x : AtStep a s s' op o sp) :
    ∃ bs lost, Enter sp.cap sp.maxm sp.retained bs (sp.step op).1.retained lost ∧ bs.length ≤ 2 ∧
      (∀ b ∈ bs, batchOf s op b) ∧
      ((∀ k wait env, op ≠ .flush k wait env) → (∀ k iov envF env, op ≠ .writev k iov envF env) → (∀ k env, op ≠ .close k env) →
        (sp.step op).1.retained = sp.retained) ∧
      (sp.step op).1.tlog = sp.tlog ++ tagged op.handle bs.flatten := by
  have hble : sp.base ≤ sp.log.length := Nat.le_trans x.rel.ring.ble x.rel.ring.fle
  have same : (sp.step op).1.retained = sp.retained ∧ (sp.step op).1.tlog = sp.tlog → ∃ bs lost, Enter sp.cap sp.maxm sp.retained bs (sp.step op).1.retained lost ∧
      bs.length ≤ 2 ∧ (∀ b ∈ bs, batchOf s op b) ∧
      ((∀ k wait env, op ≠ .flush k wait env) → (∀ k iov envF env, op ≠ .writev k iov envF env) → (∀ k env, op ≠ .close k env) →
        (sp.step op).1.retained = sp.retained) ∧
      (sp.step op).1.tlog = sp.tlog ++ tagged op.handle bs.flatten :=
    fun h => ⟨[], [], ⟨h.1, rfl⟩, by simp, by simp, fun _ _ _ => h.1, by simp [tagged, h.2]⟩
  have bnd : ∀ {k sh}, sp.hs k = .live sh → bytesOf sh.pend ≤ sp.cap ∧ sh.pend.length ≤ sp.maxm := by
    intro k sh hsk
    have hb := C27_cache_bounds v.left hrun k
    rw [x.rel.cached hsk, ← x.cap, ← x.maxm] at hb
    exact ⟨hb.1, hb.2.1⟩
  have hrel := x.rel
  clear x v hrun
  cases op with
  | «open» k flags env =>
    apply same
    unfold Spec.step
    dsimp only
    repeat' split
    all_goals exact ⟨rfl, rfl⟩
  | stat k reset env =>
    apply same
    unfold Spec.step
    dsimp only
    repeat' split
    all_goals exact ⟨rfl, rfl⟩
  | farmStat k reset =>
    apply same
    unfold Spec.step
    dsimp only
    repeat' split
    all_goals exact ⟨rfl, rfl⟩
  | appdata k get set sz env =>
    apply same
    unfold Spec.step Spec.appdata
    dsimp only
    repeat' split
    all_goals exact ⟨rfl, rfl⟩
  | readv k buf niov env =>
    apply same
    unfold Spec.step Spec.readv
    dsimp only
    repeat' split
    all_goals exact ⟨rfl, rfl⟩
  | flush k wait env =>
    cases hsk : sp.hs k with
    | never => apply same; unfold Spec.step; simp [hsk]
    | gone _ => apply same; unfold Spec.step; simp [hsk]
    | live sh =>
      by_cases hw : sh.flags.has SHR_WRONLY = true
      rotate_left
      · apply same; unfold Spec.step; simp only [hsk]; simp [hw]
      rw [step_flush_eq hsk hw, retained_with_hs]
      rcases flush_try sp k sh wait env with h | ⟨nb, _, h⟩
      · exact ⟨[], [], by rw [h]; exact ⟨rfl, rfl⟩, by simp, by simp, fun h => absurd rfl (h k wait env), by dsimp only; rw [h]; simp [tagged]⟩
      · dsimp only; rw [h]
        obtain ⟨bs, lost, e1, e2, e3⟩ := enter_try (k := k) (nb := nb) (env := env) hble (bnd hsk).1 (bnd hsk).2
        refine ⟨bs, lost, e1, by rcases e2 with rfl | rfl <;> simp, ?_, fun h => absurd rfl (h k wait env), e3⟩
        intro b hb
        rcases e2 with rfl | rfl
        · simp at hb
        · simp at hb; subst hb; exact .inl (hrel.cached hsk).symm
  | close k env =>
    cases hsk : sp.hs k with
    | never => apply same; unfold Spec.step; simp [hsk]
    | gone _ => apply same; unfold Spec.step; simp [hsk]
    | live sh =>
      have hst : (sp.step (.close k env)).1.retained = (sp.flush k sh false env).1.retained := by
        unfold Spec.step; simp only [hsk]; split <;> rfl
      have hst2 : (sp.step (.close k env)).1.tlog = (sp.flush k sh false env).1.tlog := by
        unfold Spec.step; simp only [hsk]; split <;> rfl
      rw [hst]
      rcases flush_try sp k sh false env with h | ⟨nb, _, h⟩
      · exact ⟨[], [], by rw [h]; exact ⟨rfl, rfl⟩, by simp, by simp, fun _ _ h => absurd rfl (h k env), by rw [hst2, h]; simp [tagged]⟩
      · rw [hst2, h]
        obtain ⟨bs, lost, e1, e2, e3⟩ := enter_try (k := k) (nb := nb) (env := env) hble (bnd hsk).1 (bnd hsk).2
        refine ⟨bs, lost, e1, by rcases e2 with rfl | rfl <;> simp, ?_, fun _ _ h => absurd rfl (h k env), e3⟩
        intro b hb
        rcases e2 with rfl | rfl
        · simp at hb
        · simp at hb; subst hb; exact .inl (hrel.cached hsk).symm
  | writev k iov envF env =>
    cases hsk : sp.hs k with
    | never => apply same; unfold Spec.step; simp [hsk]
    | gone _ => apply same; unfold Spec.step; simp [hsk]
    | live sh =>
      by_cases hw : sh.flags.has SHR_WRONLY = true
      rotate_left
      · apply same; unfold Spec.step; simp only [hsk]; simp [hw]
      rw [step_writev_eq hsk hw, retained_with_hs]
      obtain ⟨bs, lost, e1, _, e2, e3⟩ := enter_writev (k := k) (iov := iov) (envF := envF) (env := env) hble (bnd hsk).1 (bnd hsk).2
      refine ⟨bs, lost, e1, by rcases e2 with rfl | rfl | rfl | rfl <;> simp, ?_, fun _ h => absurd rfl (h k iov envF env), e3⟩
      have hc : sh.pend = s.cached k := (hrel.cached hsk).symm
      intro b hb
      rcases e2 with rfl | rfl | rfl | rfl
      · simp at hb
      · simp at hb; subst hb; exact .inl hc
      · simp at hb; subst hb; exact .inr ⟨k, envF, env, rfl⟩
      · simp at hb
        rcases hb with rfl | rfl
        · exact .inl hc
        · exact .inr ⟨k, envF, env, rfl⟩

/-- **C16 (every call).** Whatever the call, whatever the environment: the messages present in the ring change only by batches
entering, at most two, each displacing exactly the fewest oldest messages present; the batches are the cache of the handle and the
messages written. -/
theorem C16_every_call {op : Op} (v : Valid a (ops ++ [op]))
    (hrun : (Sys.init a).run ops = .ok (s, outs)) (hstep : s.step op = .ok (s', o)) :
    ∃ bs lost, Enter a.dataSz a.max_msgs s.ring.presentMsgs bs s'.ring.presentMsgs lost ∧ bs.length ≤ 2 ∧
      (∀ b ∈ bs, batchOf s op b) ∧
      ((∀ k wait env, op ≠ .flush k wait env) → (∀ k iov envF env, op ≠ .writev k iov envF env) → (∀ k env, op ≠ .close k env) →
        s'.ring.presentMsgs = s.ring.presentMsgs) := by
  obtain ⟨sp, x⟩ := v.at hrun hstep
  rw [x.rel.ring.presentMsgs, x.rel'.ring.presentMsgs, ← x.cap, ← x.maxm]
  obtain ⟨bs, lost, h1, h2, h3, h4, _⟩ := enter_step v hrun x
  exact ⟨bs, lost, h1, h2, h3, h4⟩

theorem enter_history : ∀ (ops : List Op) (_ : Valid a ops),
    ∃ bs lost, Enter a.dataSz a.max_msgs [] bs (specAfter a ops).retained lost ∧ bs.flatten = (specAfter a ops).log := by
  refine snoc_induction ?_ ?_
  · intro v
    exact ⟨[], [], ⟨rfl, rfl⟩, rfl⟩
  · intro ops op ih v
    obtain ⟨bs, lost, h3, h5⟩ := ih v.left
    obtain ⟨sp, r1, r2, e, w, hsp⟩ := v.last v.left.runs v.steps
    obtain ⟨p1, p2, p3⟩ := spec_params a ops
    have x : AtStep a (final a ops) _ op _ sp := ⟨r1, r2, e, w, by rw [hsp]; exact p1, by rw [hsp]; exact p2, by rw [hsp]; exact p3⟩
    obtain ⟨bs', lost', h4, _, _, _, h6⟩ := enter_step v v.left.runs x
    have hsp' : specAfter a ops = sp := hsp.symm
    rw [specAfter_snoc, hsp']
    rw [hsp'] at h3 h5
    rw [x.cap, x.maxm] at h4
    refine ⟨_, _, enter_append h3 h4, ?_⟩
    rw [List.flatten_append, h5]
    unfold Spec.log
    rw [h6]
    simp [tagged, Function.comp_def]

theorem accounts (v : Valid a ops) (hg : ∀ op ∈ ops, op.good) (hrun : (Sys.init a).run ops = .ok (s, outs)) {sp : Spec}
    (x : AtState a s sp) (hsp : sp = ((Spec.init a).run ops).1) :
    ∀ k, ∃ disc, byHandle k sp.tlog ++ s.cached k ++ disc = acceptedFrom k ops outs ∧
        ((∀ b, s.hs k ≠ .gone b) → disc = []) := by
  intro k
  have h1 := hist_accepted v hg hrun k
  unfold specAfter at h1
  rw [← hsp] at h1
  have hl := x.rel.hs k
  unfold Sys.cached
  cases e : s.hs k with
  | never =>
    rw [e] at hl
    cases e2 : sp.hs k with
    | never => rw [e2] at h1; exact ⟨[], by simpa [pendOf] using h1, fun _ => rfl⟩
    | live _ => rw [e2] at hl; exact hl.elim
    | gone _ => rw [e2] at hl; exact hl.elim
  | live hd =>
    rw [e] at hl
    cases e2 : sp.hs k with
    | live sh =>
      rw [e2] at h1 hl
      refine ⟨[], ?_, fun _ => rfl⟩
      have := HRel.cache hl
      dsimp only
      rw [this.msgs, List.append_nil]; exact h1
    | never => rw [e2] at hl; exact hl.elim
    | gone _ => rw [e2] at hl; exact hl.elim
  | gone _ =>
    refine ⟨pendOf (sp.hs k), by simpa using h1, fun h => absurd rfl (h _)⟩

/-- **C16 (whole history).** Any history in which wake-ups and msync succeed: there is a sequence of batches such that what is present is
what is left when they enter an empty queue one after another, each displacing exactly the fewest oldest messages; and the messages of
the batches are what the writers wrote (`T`, tagged with the writer): for each writer, in order, what it put into the ring followed by
what it has cached is what its successful writes accepted (for a closed handle: up to messages discarded at close). -/
theorem C16_history (v : Valid a ops) (hg : ∀ op ∈ ops, op.good) (hrun : (Sys.init a).run ops = .ok (s, outs)) :
    ∃ (T : List (Nat × Msg)) (bs : List (List Msg)) (lost : List Msg),
      Enter a.dataSz a.max_msgs [] bs s.ring.presentMsgs lost ∧ bs.flatten = T.map Prod.snd ∧
      ∀ k, ∃ disc, byHandle k T ++ s.cached k ++ disc = acceptedFrom k ops outs ∧
        ((∀ b, s.hs k ≠ .gone b) → disc = []) := by
  obtain ⟨sp, x, hsp, _⟩ := v.state hrun
  obtain ⟨bs, lost, h1, h2⟩ := enter_history ops v
  refine ⟨sp.tlog, bs, lost, ?_, ?_, accounts v hg hrun x hsp⟩
  · rw [x.rel.ring.presentMsgs, hsp]; exact h1
  · rw [h2, hsp]; rfl

/-- **C13 (buffered writers).** Ring with SHR_DROP (without SHR_FARM), any mixture of buffered and unbuffered writers, wake-ups and msync
succeed: there is one sequence `T` of messages, tagged with their writers, that entered the ring.  Of each writer, what entered followed
by what it has cached is exactly what its successful writes accepted (for a closed handle: up to messages discarded at close).  The
sequence is, in order, the messages delivered and the messages dropped, interleaved, and then those unread; the dropped ones are what
`shr_stat` counts (now, plus at each reset). -/
theorem C13_buffered (v : Valid a ops) (hf : a.flags.has SHR_FARM = false) (hg : ∀ op ∈ ops, op.good)
    (hrun : (Sys.init a).run ops = .ok (s, outs)) :
    ∃ (T : List (Nat × Msg)) (X : List (Msg × Bool)),
      (∀ k, ∃ disc, byHandle k T ++ s.cached k ++ disc = acceptedFrom k ops outs ∧
        ((∀ b, s.hs k ≠ .gone b) → disc = [])) ∧
      X.map Prod.fst ++ s.ring.unreadMsgs = T.map Prod.snd ∧
      kept X = delivered outs ∧
      (lostIn X).length % W = (reported Stat.md ops outs + s.ring.stat.md) % W ∧
      bytesOf (lostIn X) % W = (reported Stat.bd ops outs + s.ring.stat.bd) % W := by
  obtain ⟨sp, x, hsp, _⟩ := v.state hrun
  obtain ⟨X, hX⟩ := hist_cons hf v hrun
  refine ⟨sp.tlog, X, accounts v hg hrun x hsp, ?_, hX.got, ?_, ?_⟩
  · rw [x.rel.ring.unreadMsgs, hsp, hX.log]; rfl
  · rw [x.rel.ring.stat, hsp, ← hX.md]
    show _ = (_ + (specAfter a ops).st.md % W) % W
    simp
  · rw [x.rel.ring.stat, hsp, ← hX.bd]
    show _ = (_ + (specAfter a ops).st.bd % W) % W
    simp

end

/-! ## The hypotheses can be met -/

/-- A buffered writer on the SHR_DROP ring of 10 bytes and 3 messages: the third write flushes, the ring holds one message by then. -/
def dropBuf : List Op := [opn 0 (SHR_WRONLY ||| SHR_BUFFERED), opn 1 SHR_WRONLY, wr 1 [[9, 9, 9]],
  wr 0 [[1, 1, 1, 1]], wr 0 [[2, 2, 2, 2]]]

example : ∃ lost, Enter 10 3 [[9, 9, 9]] [[[1, 1, 1, 1], [2, 2, 2, 2]]] [[1, 1, 1, 1], [2, 2, 2, 2]] lost ∧ lost.length % W = 1 := by
  have v : Valid demoD (dropBuf ++ [.flush 0 true {}]) := valid_of (by decide +kernel)
  obtain ⟨_, _, lost, h1, h2, _⟩ := C12_drop_flush v v.left.runs v.steps (live_handle (by decide +kernel)) (by decide +kernel)
    (by decide) rfl (by simp [Env.good]) rfl (by decide +kernel)
  have e1 : (final demoD dropBuf).ring.unreadMsgs = [[9, 9, 9]] := by decide +kernel
  have e2 : (final demoD dropBuf).cached 0 = [[1, 1, 1, 1], [2, 2, 2, 2]] := by decide +kernel
  have e3 : (final demoD (dropBuf ++ [.flush 0 true {}])).ring.unreadMsgs = [[1, 1, 1, 1], [2, 2, 2, 2]] := by decide +kernel
  have e4 : (final demoD (dropBuf ++ [.flush 0 true {}])).ring.stat.md = 1 := by decide +kernel
  have e5 : (final demoD dropBuf).ring.stat.md = 0 := by decide +kernel
  rw [e1, e2, e3] at h1
  rw [e4, e5, Nat.zero_add] at h2
  exact ⟨lost, h1, h2.symm⟩

example : ∃ lost, Enter 10 3 [[9, 9, 9]] [[[1, 1, 1, 1], [2, 2, 2, 2]]] [[1, 1, 1, 1], [2, 2, 2, 2]] lost := by
  have v : Valid demoD (dropBuf ++ [.close 0 {}]) := valid_of (by decide +kernel)
  obtain ⟨_, lost, h1, _⟩ := C12_drop_close v v.left.runs v.steps (live_handle (by decide +kernel))
    (by decide) rfl (by simp [Env.good]) (by decide +kernel)
  have e1 : (final demoD dropBuf).ring.unreadMsgs = [[9, 9, 9]] := by decide +kernel
  have e2 : (final demoD dropBuf).cached 0 = [[1, 1, 1, 1], [2, 2, 2, 2]] := by decide +kernel
  have e3 : (final demoD (dropBuf ++ [.close 0 {}])).ring.unreadMsgs = [[1, 1, 1, 1], [2, 2, 2, 2]] := by decide +kernel
  rw [e1, e2, e3] at h1
  exact ⟨lost, h1⟩

/-- A write that does not fit into the cache: the cache is flushed (displacing one message), the write is cached. -/
example : ∃ bs lost, Enter 10 3 [[9, 9, 9]] bs [[1, 1, 1, 1], [2, 2, 2, 2]] lost ∧
    bs.flatten ++ [[3, 3, 3]] = [[1, 1, 1, 1], [2, 2, 2, 2], [3, 3, 3]] ∧ lost.length % W = 1 := by
  have v : Valid demoD (dropBuf ++ [wr 0 [[3, 3, 3]]]) := valid_of (by decide +kernel)
  obtain ⟨_, bs, lost, h1, h3, _, h2, _⟩ := C12_drop_any_write v v.left.runs v.steps (live_handle (by decide +kernel)) (by decide +kernel)
    (by decide) rfl (by simp [Env.good]) rfl (by simp [Env.good]) (by decide)
  have e1 : (final demoD dropBuf).ring.unreadMsgs = [[9, 9, 9]] := by decide +kernel
  have e2 : (final demoD dropBuf).cached 0 = [[1, 1, 1, 1], [2, 2, 2, 2]] := by decide +kernel
  have e3 : (final demoD (dropBuf ++ [wr 0 [[3, 3, 3]]])).ring.unreadMsgs = [[1, 1, 1, 1], [2, 2, 2, 2]] := by decide +kernel
  have e4 : (final demoD (dropBuf ++ [wr 0 [[3, 3, 3]]])).ring.stat.md = 1 := by decide +kernel
  have e5 : (final demoD dropBuf).ring.stat.md = 0 := by decide +kernel
  have e6 : (final demoD (dropBuf ++ [wr 0 [[3, 3, 3]]])).cached 0 = [[3, 3, 3]] := by decide +kernel
  rw [e1, e3] at h1
  rw [e4, e5, Nat.zero_add] at h2
  rw [e2, e6] at h3
  exact ⟨bs, lost, h1, h3, h2.symm⟩

example : ∃ (T : List (Nat × Msg)) (X : List (Msg × Bool)), byHandle 0 T ++ [[3, 3, 3]] = [[1, 1, 1, 1], [2, 2, 2, 2], [3, 3, 3]] ∧
    X.map Prod.fst ++ [[1, 1, 1, 1], [2, 2, 2, 2]] = T.map Prod.snd ∧ kept X = [] ∧ (lostIn X).length % W = 1 := by
  have v : Valid demoD (dropBuf ++ [wr 0 [[3, 3, 3]]]) := valid_of (by decide +kernel)
  have hg : ∀ op ∈ dropBuf ++ [wr 0 [[3, 3, 3]]], op.good := by
    intro op ho
    simp [dropBuf, opn, wr] at ho
    rcases ho with rfl | rfl | rfl | rfl | rfl | rfl <;> simp [Op.good, Env.good]
  obtain ⟨T, X, h1, h2, h3, h4, _⟩ := C13_buffered v (by decide) hg v.runs
  obtain ⟨d0, e0, f0⟩ := h1 0
  have g0 := f0 (fun b => by rw [live_handle (by decide +kernel)]; simp)
  rw [g0, List.append_nil] at e0
  have e3 : (final demoD (dropBuf ++ [wr 0 [[3, 3, 3]]])).ring.unreadMsgs = [[1, 1, 1, 1], [2, 2, 2, 2]] := by decide +kernel
  have e6 : (final demoD (dropBuf ++ [wr 0 [[3, 3, 3]]])).cached 0 = [[3, 3, 3]] := by decide +kernel
  rw [e6] at e0
  rw [e3] at h2
  exact ⟨T, X, e0.trans (by decide +kernel), h2, h3.trans (by decide +kernel), h4.trans (by decide +kernel)⟩

/-- C16: on the farm ring the same writes. -/
example : ∃ (T : List (Nat × Msg)) (bs : List (List Msg)) (lost : List Msg),
    Enter 10 3 [] bs [[1, 1, 1, 1], [2, 2, 2, 2]] lost ∧ bs.flatten = T.map Prod.snd ∧ byHandle 1 T = [[9, 9, 9]] := by
  have v : Valid demoF (dropBuf ++ [wr 0 [[3, 3, 3]]]) := valid_of (by decide +kernel)
  have hg : ∀ op ∈ dropBuf ++ [wr 0 [[3, 3, 3]]], op.good := by
    intro op ho
    simp [dropBuf, opn, wr] at ho
    rcases ho with rfl | rfl | rfl | rfl | rfl | rfl <;> simp [Op.good, Env.good]
  obtain ⟨T, bs, lost, h1, h2, h3⟩ := C16_history v hg v.runs
  obtain ⟨d0, e0, f0⟩ := h3 1
  have g0 := f0 (fun b => by rw [live_handle (by decide +kernel)]; simp)
  rw [g0, List.append_nil] at e0
  have e3 : (final demoF (dropBuf ++ [wr 0 [[3, 3, 3]]])).ring.presentMsgs = [[1, 1, 1, 1], [2, 2, 2, 2]] := by decide +kernel
  have e6 : (final demoF (dropBuf ++ [wr 0 [[3, 3, 3]]])).cached 1 = [] := by decide +kernel
  rw [e6, List.append_nil] at e0
  rw [e3] at h1
  exact ⟨T, bs, lost, h1, h2, e0.trans (by decide +kernel)⟩

end Shr
