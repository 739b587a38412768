import Verif.Proof.Abort
import Verif.Props.Handle
/-! # What `shr_writev` does, for all inputs and whatever fails: C69.  The library against its reference semantics: C70 -/
namespace Shr
open M

theorem exec_abort {α : Type} {x : M Ring α} {r : Ring} (h : Aborts x r) : exec x r = .error .abort := by
  obtain ⟨t, ht⟩ := h
  unfold exec; rw [ht]

/-- An unbuffered `shr_writev` whose arguments pass the check is one attempt. -/
theorem writev_unbuffered {h : Handle} {iov : List Msg} {len : Nat} (envF env : Env) (r : Ring) (hw : h.flags.has SHR_WRONLY = true)
    (hub : h.flags.has SHR_BUFFERED = false) (hl : lenCheck h.n h.mm (iov.map List.length) = some len) :
    shr_writev h iov envF env r = (writevAttempt h.flags h.mm iov len env >>= fun out => pure (h, out)) r := by
  unfold shr_writev
  rw [M.assert_bind_of hw, hl]
  dsimp only
  unfold cacheLoop
  rw [if_pos hub, M.pure_bind]

theorem upd_idem {α : Type} {f : Nat → α} {k : Nat} {x : α} (h : f k = x) : upd f k x = f := by
  funext j
  unfold upd
  split
  · rename_i e; rw [e, h]
  · rfl

theorem gflags_sync (a : InitArgs) : a.gflags.has SHR_SYNC = a.flags.has SHR_SYNC := by
  rw [has_SYNC]
  unfold InitArgs.gflags
  dsimp only
  cases a.flags.has SHR_SYNC <;> cases a.flags.has SHR_DROP <;> cases a.flags.has SHR_FARM <;>
    cases a.flags.has SHR_MLOCK <;> rfl

section
variable {a : InitArgs} {ops : List Op} {k : Nat} {iov : List Msg} {envF env : Env}
  {s : Sys} {outs : List Out} {h : Handle}

/-- There is room for the batch: the unread messages leave enough, or the ring drops. -/
def Room (a : InitArgs) (s : Sys) (iov : List Msg) : Prop :=
  (bytesOf s.ring.unreadMsgs + bytesOf iov ≤ a.dataSz ∧ s.ring.unreadMsgs.length + iov.length ≤ a.max_msgs) ∨
  a.flags.has SHR_DROP = true ∨ a.flags.has SHR_FARM = true

instance (a : InitArgs) (s : Sys) (iov : List Msg) : Decidable (Room a s iov) := by unfold Room; infer_instance

/-- **C69, refused.** A batch that is empty, starts with an empty message, or exceeds the byte size or the message
count of the ring, or a lock that cannot be taken: -1, and nothing changes. -/
theorem C69_refused (v : Valid a ops) (hrun : (Sys.init a).run ops = .ok (s, outs))
    (hk : s.hs k = .live h) (hw : h.flags.has SHR_WRONLY = true) (hub : h.flags.has SHR_BUFFERED = false)
    (hsz : ∀ b ∈ iov, b.length ≤ SSIZE_MAX)
    (hbad : iov = [] ∨ iov.head? = some [] ∨ a.dataSz < bytesOf iov ∨ a.max_msgs < iov.length ∨ env.lockOk = false) :
    s.step (.writev k iov envF env) = .ok (s, .wrote (-1)) := by
  obtain ⟨sp, x, _, _⟩ := v.state hrun
  obtain ⟨sh, hsk, hh⟩ := x.rel.live hk
  have hlc := lenCheck_checked (maxm := sp.maxm) x.rel.ring.cap_le hsz
  unfold Sys.step
  simp only [hk, hw, Bool.true_eq_false, if_false]
  have : exec (shr_writev h iov envF env) s.ring = .ok ((h, .ret (-1) false), s.ring) := by
    by_cases hc : Checked sp.cap sp.maxm iov
    · rw [if_pos hc, ← hh.n, ← hh.mm] at hlc
      unfold exec
      rw [writev_unbuffered _ _ _ hw hub hlc]
      have hlk : env.lockOk = false := by
        rw [x.cap, x.maxm] at hc
        rcases hbad with e | e | e | e | e
        · exact absurd e hc.1
        · exact absurd e hc.2.1
        · have := hc.2.2.1; omega
        · have := hc.2.2.2; omega
        · exact e
      unfold writevAttempt
      rw [if_pos hlk]
      rfl
    · rw [if_neg hc, ← hh.n, ← hh.mm] at hlc
      unfold exec shr_writev
      rw [M.assert_bind_of hw, hlc]
      rfl
  rw [this]
  simp only [upd_idem hk]
  rfl

/-- **C69, no room.** The batch passes the check, but the ring has no room for it and does not drop: a non-blocking
handle returns 0, a blocking one waits (or returns what the wait returned); nothing changes. -/
theorem C69_no_room (v : Valid a ops) (hrun : (Sys.init a).run ops = .ok (s, outs))
    (hk : s.hs k = .live h) (hw : h.flags.has SHR_WRONLY = true) (hub : h.flags.has SHR_BUFFERED = false)
    (hsz : ∀ b ∈ iov, b.length ≤ SSIZE_MAX) (hc : Checked a.dataSz a.max_msgs iov) (hlk : env.lockOk = true)
    (hroom : ¬ Room a s iov) :
    s.step (.writev k iov envF env) = .ok (s,
      if h.flags.has SHR_NONBLOCK then .wrote 0
      else match env.waitRc with
        | some sc => .wrote sc.rc
        | none => .blocked) := by
  obtain ⟨sp, x, _, _⟩ := v.state hrun
  obtain ⟨sh, hsk, hh⟩ := x.rel.live hk
  have hr := x.rel.ring
  have hlc := lenCheck_checked (maxm := sp.maxm) hr.cap_le hsz
  rw [x.cap, x.maxm, if_pos hc, ← x.cap, ← x.maxm, ← hh.n, ← hh.mm] at hlc
  unfold Room at hroom
  rw [hr.unreadMsgs, ← x.cap, ← x.maxm] at hroom
  have hd : sp.drop = false := by
    rw [x.drop]
    cases h1 : a.flags.has SHR_DROP <;> cases h2 : a.flags.has SHR_FARM <;> simp [h1, h2] at hroom ⊢
  have hdr : s.ring.gflags.has SHR_DROP = false := by rw [hr.gf]; exact hd
  obtain ⟨p0, hg⟩ := hr.rep.geo
  have hC := hg.toCore
  have nbd := hC.nbd; have mmbd := hC.mmbd; have tot := hC.tot; have cnt := hC.cnt
  rw [SSIZE_MAX_val] at nbd mmbd
  have hu := hr.rep.u; have hm := hr.rep.m
  rw [hr.unread_eq] at hu
  have hm' : s.ring.m = sp.unread.length := by rw [hm, ← hr.unread_eq]; simp
  have hule : bytesOf sp.unread ≤ s.ring.n := by
    rw [← hr.unread_eq]; have := bytesOf_drop_le sp.retained (sp.first - sp.base); omega
  have hmle : s.ring.m ≤ s.ring.mm := by omega
  have hn := hr.n; have hmm := hr.mm
  unfold Sys.step
  simp only [hk, hw, Bool.true_eq_false, if_false]
  have hno : ¬ (s.ring.n - s.ring.u ≥ bytesOf iov ∧ s.ring.mm - s.ring.m ≥ iov.length) := by
    intro hx; apply hroom; left; omega
  have hatt : writevAttempt h.flags h.mm iov (bytesOf iov) env s.ring = ⟨[], .ok
      (if h.flags.has SHR_NONBLOCK then .ret 0 false
      else match env.waitRc with
        | some sc => .ret sc.rc false
        | none => .wait) s.ring⟩ := by
    unfold writevAttempt
    rw [if_neg (by rw [hlk]; simp), M.get_bind,
      wsub_eq (a := s.ring.n) (by omega) (by rw [W_val]; omega),
      wsub_eq (a := s.ring.mm) (by omega) (by rw [W_val]; omega), if_neg hno, if_neg (by rw [hdr]; simp)]
    by_cases hnb : h.flags.has SHR_NONBLOCK = true
    · rw [if_pos hnb, if_pos hnb]; rfl
    · rw [if_neg hnb, if_neg hnb]; cases env.waitRc <;> rfl
  have : exec (shr_writev h iov envF env) s.ring = .ok ((h, if h.flags.has SHR_NONBLOCK then .ret 0 false
      else match env.waitRc with
        | some sc => .ret sc.rc false
        | none => .wait), s.ring) := by
    unfold exec
    rw [writev_unbuffered _ _ _ hw hub hlc, M.bind_apply, hatt]
    rfl
  rw [this]
  simp only [upd_idem hk]
  by_cases hnb : h.flags.has SHR_NONBLOCK = true
  · rw [if_pos hnb, if_pos hnb]; rfl
  · rw [if_neg hnb, if_neg hnb]; cases env.waitRc <;> rfl

/-- **C69, abort.** The batch passes the check, there is room, and a message behind the first is empty: the process
aborts. -/
theorem C69_abort (v : Valid a ops) (hrun : (Sys.init a).run ops = .ok (s, outs))
    (hk : s.hs k = .live h) (hw : h.flags.has SHR_WRONLY = true) (hub : h.flags.has SHR_BUFFERED = false)
    (hsz : ∀ b ∈ iov, b.length ≤ SSIZE_MAX) (hc : Checked a.dataSz a.max_msgs iov) (hlk : env.lockOk = true)
    (hroom : Room a s iov) (he : [] ∈ iov) :
    s.step (.writev k iov envF env) = .error .abort := by
  obtain ⟨sp, x, _, _⟩ := v.state hrun
  obtain ⟨sh, hsk, hh⟩ := x.rel.live hk
  have hr := x.rel.ring
  have hlc := lenCheck_checked (maxm := sp.maxm) hr.cap_le hsz
  rw [x.cap, x.maxm, if_pos hc, ← x.cap, ← x.maxm, ← hh.n, ← hh.mm] at hlc
  rw [← x.cap, ← x.maxm] at hc
  unfold Room at hroom
  rw [hr.unreadMsgs, ← x.cap, ← x.maxm] at hroom
  have hfit : Fits sp.cap sp.maxm sp.unread iov ∨ sp.drop = true := by
    rcases hroom with h1 | h1 | h1
    · exact .inl h1
    · right; rw [x.drop, h1]; rfl
    · right; rw [x.drop, h1]; simp
  unfold Sys.step
  simp only [hk, hw, Bool.true_eq_false, if_false]
  have := writevAttempt_empty hr he hc.2.2.1 hc.2.2.2 h.flags hlk hfit
  rw [← hh.mm] at this
  have : exec (shr_writev h iov envF env) s.ring = .error .abort := by
    have hb : Aborts (writevAttempt h.flags h.mm iov (bytesOf iov) env >>= fun out => pure (h, out)) s.ring := .bind_left this
    obtain ⟨t, ht⟩ := hb
    unfold exec
    rw [writev_unbuffered _ _ _ hw hub hlc, ht]
  rw [this]

/-- **C69, success.** The batch passes the check, holds no empty message and there is room: the oldest unread messages
are dropped, as few as make room, and the batch is appended; the total number of bytes is returned if the wake-up (and the msync
of a SYNC ring) succeeded, else -1.  No handle changes.  The dropped messages are counted; the written ones are counted iff the
wake-up succeeded. -/
theorem C69_written (v : Valid a ops) (hrun : (Sys.init a).run ops = .ok (s, outs))
    (hk : s.hs k = .live h) (hw : h.flags.has SHR_WRONLY = true) (hub : h.flags.has SHR_BUFFERED = false)
    (hsz : ∀ b ∈ iov, b.length ≤ SSIZE_MAX)
    (hcnt : a.flags.has SHR_FARM = true → (ops.length + 1) * (offered ops + iov.length) < W)
    (hc : Checked a.dataSz a.max_msgs iov) (hlk : env.lockOk = true) (hroom : Room a s iov) (he : [] ∉ iov) :
    ∃ s' d, s.step (.writev k iov envF env) = .ok (s', .wrote
        (if env.wakeOk = true ∧ (a.flags.has SHR_SYNC = true → env.syncOk = true) then bytesOf iov else -1)) ∧
      s'.hs = s.hs ∧ s'.ring.unreadMsgs = s.ring.unreadMsgs.drop d ++ iov ∧
      (∀ d', Fits a.dataSz a.max_msgs (s.ring.unreadMsgs.drop d') iov ↔ d ≤ d') ∧
      s'.ring.stat = { s.ring.stat with
        mw := wadd s.ring.stat.mw (if env.wakeOk = true then iov.length else 0)
        bw := wadd s.ring.stat.bw (if env.wakeOk = true then bytesOf iov else 0)
        md := wadd s.ring.stat.md d
        bd := wadd s.ring.stat.bd (bytesOf (s.ring.unreadMsgs.take d)) } := by
  have v' : Valid a (ops ++ [.writev k iov envF env]) := by
    refine ⟨v.init, ?_, ?_⟩
    · intro op hop
      rcases List.mem_append.mp hop with h1 | h1
      · exact v.wf op h1
      · rw [List.mem_singleton.mp h1]
        exact ⟨hsz, .inr (fun b hb e => he (e ▸ hb))⟩
    · intro hf
      have := hcnt hf
      rw [offered_append, List.length_append]
      exact this
  obtain ⟨s', o, hstep⟩ : ∃ s' o, s.step (.writev k iov envF env) = .ok (s', o) := by
    have h1 := v'.left.runs
    rw [hrun] at h1; cases h1
    exact ⟨_, _, v'.steps⟩
  obtain ⟨sp, x⟩ := v'.at hrun hstep
  obtain ⟨sh, hsk, hh⟩ := x.rel.live hk
  have hw2 := hw; have hub2 := hub
  rw [hh.flags] at hw2 hub2
  have hl' : Legal sp.cap sp.maxm iov := by rw [x.cap, x.maxm]; exact hc.legal he
  have hsync : sp.gflags.has SHR_SYNC = a.flags.has SHR_SYNC := by rw [x.gf, gflags_sync]
  have ho := x.out
  have hu' := x.rel'.ring.unreadMsgs
  have hst' := x.rel'.ring.stat
  rw [step_writev_eq hsk hw2, writev_direct hub2 hl'] at ho hu' hst'
  rw [unread_with_hs] at hu'
  have hroom' : Fits sp.cap sp.maxm sp.unread iov ∨ sp.drop = true := by
    unfold Room at hroom
    rw [x.rel.ring.unreadMsgs, ← x.cap, ← x.maxm] at hroom
    rcases hroom with h1 | h1 | h1
    · exact .inl h1
    · right; rw [x.drop, h1]; rfl
    · right; rw [x.drop, h1]; simp
  unfold Spec.tryWrite at ho hu' hst'
  rw [if_neg (by simp [hlk]), if_pos hroom'] at ho hu' hst'
  refine ⟨s', evictCount sp.cap sp.maxm iov sp.unread, ?_, ?_, ?_, ?_, ?_⟩
  · rw [hstep, ho, hsync]
    congr 2
    dsimp only
    cases env.wakeOk <;> cases env.syncOk <;> cases a.flags.has SHR_SYNC <;> rfl
  · have hlc := lenCheck_checked (maxm := sp.maxm) x.rel.ring.cap_le hsz
    rw [if_pos hl'.checked, ← hh.n, ← hh.mm] at hlc
    unfold Sys.step at hstep
    simp only [hk, hw, Bool.true_eq_false, if_false] at hstep
    unfold exec at hstep
    rw [writev_unbuffered _ _ _ hw hub hlc, M.bind_apply] at hstep
    generalize writevAttempt h.flags h.mm iov (bytesOf iov) env s.ring = y at hstep
    obtain ⟨tr, res⟩ := y
    cases res with
    | ok o' r' =>
      simp only [M.pure_apply, Except.ok.injEq, Prod.mk.injEq] at hstep
      rw [← hstep.1]
      exact upd_idem hk
    | _ => cases hstep
  · rw [hu', commit_unread _ _ _ _ x.rel.ring.fle, x.rel.ring.unreadMsgs]
  · intro d'
    rw [x.rel.ring.unreadMsgs, ← x.cap, ← x.maxm]
    refine ⟨evictCount_le_of_fits, fun hle => ?_⟩
    have := evictCount_fits hl'.2.2.1 hl'.2.2.2 sp.unread
    generalize evictCount sp.cap sp.maxm iov sp.unread = e at this hle
    obtain ⟨h1, h2⟩ := this
    have e1 : sp.unread.drop d' = (sp.unread.drop e).drop (d' - e) := by rw [List.drop_drop]; congr 1; omega
    have := bytesOf_drop_le (sp.unread.drop e) (d' - e)
    rw [e1]
    refine ⟨by omega, ?_⟩
    rw [List.length_drop]; omega
  · rw [hst', x.rel.ring.stat, x.rel.ring.unreadMsgs]
    unfold Spec.commit
    cases env.wakeOk <;> simp [SStat.toStat, wadd]

/-- **C69, exactly when it faults.** An unbuffered write ends the process iff it gets as far as copying an empty message:
the batch passes the check, the lock is taken, there is room, and a message behind the first is empty. -/
theorem C69_aborts_iff (v : Valid a ops) (hrun : (Sys.init a).run ops = .ok (s, outs))
    (hk : s.hs k = .live h) (hw : h.flags.has SHR_WRONLY = true) (hub : h.flags.has SHR_BUFFERED = false)
    (hsz : ∀ b ∈ iov, b.length ≤ SSIZE_MAX)
    (hcnt : a.flags.has SHR_FARM = true → (ops.length + 1) * (offered ops + iov.length) < W) (f : Fault) :
    s.step (.writev k iov envF env) = .error f ↔
      f = .abort ∧ Checked a.dataSz a.max_msgs iov ∧ env.lockOk = true ∧ Room a s iov ∧ [] ∈ iov := by
  by_cases hc : Checked a.dataSz a.max_msgs iov
  · cases hlk : env.lockOk with
    | false =>
      rw [C69_refused v hrun hk hw hub hsz (.inr (.inr (.inr (.inr hlk))))]
      simp
    | true =>
      by_cases hr : Room a s iov
      · by_cases he : [] ∈ iov
        · rw [C69_abort v hrun hk hw hub hsz hc hlk hr he]
          constructor
          · intro e; cases e; exact ⟨rfl, hc, rfl, hr, he⟩
          · rintro ⟨rfl, _⟩; rfl
        · obtain ⟨s', d, e, _⟩ := C69_written v hrun hk hw hub hsz hcnt hc hlk hr he (envF := envF)
          rw [e]
          constructor
          · intro e; cases e
          · rintro ⟨_, _, _, _, h5⟩; exact absurd h5 he
      · rw [C69_no_room v hrun hk hw hub hsz hc hlk hr]
        constructor
        · intro e; cases e
        · rintro ⟨_, _, _, h4, _⟩; exact absurd h4 hr
  · have : iov = [] ∨ iov.head? = some [] ∨ a.dataSz < bytesOf iov ∨ a.max_msgs < iov.length ∨ env.lockOk = false := by
      by_cases h1 : iov = []
      · exact .inl h1
      by_cases h2 : iov.head? = some []
      · exact .inr (.inl h2)
      by_cases h3 : a.dataSz < bytesOf iov
      · exact .inr (.inr (.inl h3))
      by_cases h4 : a.max_msgs < iov.length
      · exact .inr (.inr (.inr (.inl h4)))
      exact absurd ⟨h1, h2, by omega, by omega⟩ hc
    rw [C69_refused v hrun hk hw hub hsz this]
    constructor
    · intro e; cases e
    · rintro ⟨_, h2, _⟩; exact absurd h2 hc
end

/-- **C70.** Whatever the history and whatever fails in it, every call returns exactly what the reference queue
(`Spec.step`, Spec/Machine.lean) returns, and the ring holds exactly the reference queue's unread and retained messages,
its counters (modulo 2^64), its app data and its attributes. -/
theorem C70_reference_semantics {a : InitArgs} {ops : List Op} {s : Sys} {outs : List Out} (v : Valid a ops)
    (hrun : (Sys.init a).run ops = .ok (s, outs)) :
    outs = ((Spec.init a).run ops).2 ∧
    s.ring.unreadMsgs = ((Spec.init a).run ops).1.unread ∧ s.ring.presentMsgs = ((Spec.init a).run ops).1.retained ∧
    s.ring.stat = ((Spec.init a).run ops).1.st.toStat ∧ s.ring.app = ((Spec.init a).run ops).1.app ∧
    s.ring.gflags = a.gflags ∧
    ∀ k, s.cached k = match ((Spec.init a).run ops).1.hs k with | .live sh => sh.pend | _ => [] := by
  obtain ⟨sp, x, e, e2⟩ := v.state hrun
  rw [← e]
  refine ⟨e2, x.rel.ring.unreadMsgs, x.rel.ring.presentMsgs, x.rel.ring.stat, x.rel.ring.app, x.rel.ring.gf.trans x.gf, ?_⟩
  intro k
  have := x.rel.hs k
  cases h1 : s.hs k <;> cases h2 : sp.hs k <;> rw [h1, h2] at this <;> try exact this.elim
  · unfold Sys.cached; rw [h1]
  · exact x.rel.cached h2
  · unfold Sys.cached; rw [h1]

/-! ## The hypotheses can be met -/

/-- The demo ring (10 bytes, 3 messages) holds 8 bytes in 2 messages; the batch `[7], []` passes the check and would fit
in bytes, but not in messages: 0, nothing changes. -/
example : (final demoA demoOps).step (wr 0 [[7], []]) = .ok (final demoA demoOps, .wrote 0) := by
  have v : Valid demoA demoOps := valid_of (by decide +kernel)
  rw [wr, C69_no_room v v.runs (live_handle (by decide +kernel)) (by decide +kernel) (by decide +kernel) (by decide) (by decide +kernel) rfl
    (by decide +kernel)]
  rw [if_pos (by decide +kernel)]

/-- On the DROP ring there is room for it: the process aborts. -/
example : (final demoD demoOps).step (wr 0 [[7], []]) = .error .abort := by
  have v : Valid demoD demoOps := valid_of (by decide +kernel)
  exact C69_abort v v.runs (live_handle (by decide +kernel)) (by decide +kernel) (by decide +kernel) (by decide) (by decide +kernel) rfl
    (by decide +kernel) (by decide)

/-- An empty message in front: refused. -/
example : (final demoD demoOps).step (wr 0 [[], [7]]) = .ok (final demoD demoOps, .wrote (-1)) := by
  have v : Valid demoD demoOps := valid_of (by decide +kernel)
  exact C69_refused v v.runs (live_handle (by decide +kernel)) (by decide +kernel) (by decide +kernel) (by decide) (by decide +kernel)

/-- Written although the result is -1: the wake-up failed. -/
example : ∃ s' d, (final demoD demoOps).step (.writev 0 [[7], [8, 9]] {} { wakeOk := false }) = .ok (s', .wrote (-1)) ∧
    s'.ring.unreadMsgs = (final demoD demoOps).ring.unreadMsgs.drop d ++ [[7], [8, 9]] ∧ d = 1 := by
  have v : Valid demoD demoOps := valid_of (by decide +kernel)
  obtain ⟨s', d, e, _, hu, hd, _⟩ := C69_written (k := 0) v v.runs (live_handle (by decide +kernel)) (by decide +kernel) (by decide +kernel)
    (iov := [[7], [8, 9]]) (envF := {}) (env := { wakeOk := false }) (by decide) (by decide +kernel) (by decide +kernel) rfl (by decide +kernel) (by decide)
  refine ⟨s', d, e, hu, ?_⟩
  have h1 := (hd 1).mp (by decide +kernel)
  have h0 : ¬ d ≤ 0 := fun h => absurd ((hd 0).mpr h) (by decide +kernel)
  omega

/-- A buffered handle takes an empty message behind another one into its cache and returns the total; the flush aborts. -/
example : outsOf demoA [opn 0 (SHR_WRONLY ||| SHR_BUFFERED), wr 0 [[7], []]] = [.opened true, .wrote 1] ∧
    ((Sys.init demoA).run [opn 0 (SHR_WRONLY ||| SHR_BUFFERED), wr 0 [[7], []], .flush 0 false {}]).isOk = false := by
  decide +kernel

/-- A history on the DROP ring, with a drop in it, and what the reference queue says about it. -/
example : outsOf demoD demoOps = ((Spec.init demoD).run demoOps).2 ∧
    (final demoD demoOps).ring.unreadMsgs = ((Spec.init demoD).run demoOps).1.unread ∧
    ((Spec.init demoD).run demoOps).1.unread.length ≠ 0 ∧ ((Spec.init demoD).run demoOps).2.length = demoOps.length := by
  have v : Valid demoD demoOps := valid_of (by decide +kernel)
  obtain ⟨h1, h2, _⟩ := C70_reference_semantics v v.runs
  exact ⟨by decide +kernel, h2, by decide +kernel, by decide +kernel⟩
end Shr
