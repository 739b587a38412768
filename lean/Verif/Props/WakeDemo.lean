import Verif.Proof.WakeOpen
/-! # C54, C57; C34 – C36, C55, C56: reachable states that meet the hypotheses, and counterexamples when a system call fails -/
namespace Shr

/-! ## C54, C57 -/

/-- **C54.** If `shr_open` fails, the caller has no waiter slot and no socket that it did not have before, no block/wake handle, and
the ring is unchanged.  Missing: failure of the cache allocation, or of msync on a ring with SHR_SYNC
(`C54_counterexample_malloc`, `C54_counterexample_sync`). -/
theorem C54_failed_open_partial {pid : Nat → Nat} {w w' : WSys} {k : Nat} {flags : Flags} {env : Env} {os : WOs} {ops : List BOp}
    (h : WSys.Step pid w (.call (.open k flags env) os) w' (.opened false) ops) (hpid : pid k ≠ 0)
    (hm : env.mallocOk = true) (hs : env.syncOk = true) :
    (∀ hi n, ((w'.b.hd hi).wr n).pid = pid k → ((w.b.hd hi).wr n).pid = pid k) ∧
    (∀ y ∈ w'.b.kern.socks, y.pid = pid k → ∃ x ∈ w.b.kern.socks, x.sid = y.sid ∧ x.pid = pid k) ∧
    w'.b.ts (2 * k) = none ∧ w'.b.ts (2 * k + 1) = none ∧ w'.sys = w.sys := by
  cases h with
  | call hca hat =>
    obtain ⟨t0, t1⟩ := hca.2.2 k flags env rfl
    unfold WSys.attempt at hat
    simp only [WSys.fill] at hat
    unfold Sys.step at hat
    dsimp only at hat
    have fin : ∀ ops', w'.b = w.b.runs ops' → Shrunk w.b (w.b.runs ops') → (w.b.runs ops').ts (2 * k) = none → (w.b.runs ops').ts (2 * k + 1) = none → w'.sys = w.sys →
        (∀ hi n, ((w'.b.hd hi).wr n).pid = pid k → ((w.b.hd hi).wr n).pid = pid k) ∧
        (∀ y ∈ w'.b.kern.socks, y.pid = pid k → ∃ x ∈ w.b.kern.socks, x.sid = y.sid ∧ x.pid = pid k) ∧
        w'.b.ts (2 * k) = none ∧ w'.b.ts (2 * k + 1) = none ∧ w'.sys = w.sys := by
      intro ops' e hsh a1 a2 a3
      rw [e]
      refine ⟨fun hi n hn => ?_, fun y hy hp => ?_, a1, a2, a3⟩
      · rw [← hsh.slots hi n (by rw [hn]; exact hpid)]; exact hn
      · obtain ⟨x, hx, ex⟩ := hsh.ids y hy
        have e1 : x.sid = y.sid := congrArg Prod.fst ex
        have e2 : x.pid = y.pid := congrArg (fun z => z.2.2) ex
        exact ⟨x, hx, e1, e2.trans hp⟩
    cases e : w.sys.hs k with
    | never =>
      rw [e] at hat
      dsimp only at hat
      by_cases hv : validate_flags flags = false
      · rw [if_pos hv] at hat
        dsimp only at hat
        cases hat
        refine fin [] ?_ (.refl _) t0 t1 rfl
        simp only [WSys.bops, WSys.opens, e, hv]
        rfl
      · rw [if_neg hv] at hat
        have hv : validate_flags flags = true := by simpa using hv
        unfold openLocked at hat
        dsimp only at hat
        by_cases hl : env.lockOk = false
        · rw [if_pos hl] at hat
          cases hat
          refine fin [] ?_ (.refl _) t0 t1 rfl
          simp only [WSys.bops, WSys.opens, e, hv, hl]
          rfl
        rw [if_neg hl] at hat
        by_cases hk : w.sys.ring.gflags.has SHR_MLOCK = true ∧ env.mlockOk = false
        · rw [if_pos hk] at hat
          cases hat
          refine fin [] ?_ (.refl _) t0 t1 rfl
          simp only [WSys.bops, WSys.opens, e, hv, hk.1, hk.2]
          simp
        rw [if_neg hk] at hat
        by_cases hb : (open_blockwake w.b k (pid k) flags (w.needR2w flags) w.sys.ring.u os).2 = false
        · rw [if_pos hb] at hat
          cases hat
          have hf := open_blockwake_fail t0 t1 hb
          refine fin _ ?_ hf.1 hf.2.1 hf.2.2 rfl
          have : w.opens k flags { env with bwOpenOk := (open_blockwake w.b k (pid k) flags (w.needR2w flags) w.sys.ring.u os).2 } = true := by
            unfold WSys.opens
            rw [e]
            dsimp only
            rw [hv]
            have hl' : env.lockOk = true := by simpa using hl
            rw [hl']
            revert hk
            cases w.sys.ring.gflags.has SHR_MLOCK <;> cases env.mlockOk <;> simp
          simp only [WSys.bops]
          rw [if_pos this]
        · rw [if_neg hb] at hat
          exfalso
          unfold init_cache at hat
          dsimp only at hat
          rw [hm, hs] at hat
          cases hw : flags.has SHR_WRONLY <;> cases hbf : flags.has SHR_BUFFERED <;> rw [hw] at hat <;> try rw [hbf] at hat
          all_goals simp at hat
    | live hd => rw [e] at hat; cases hat
    | gone b => rw [e] at hat; cases hat

/-- **C57.** When `shr_close` has returned, having obtained the lock for it, the waiter slots of the handle are free, its sockets are closed, and
it has no block/wake handle. -/
theorem C57_close_releases {pid : Nat → Nat} {w w' : WSys} {k : Nat} {env : Env} {os : WOs} {ops : List BOp}
    (h : WSys.Step pid w (.call (.close k env) os) w' .closed ops) (hl : os.lock2 = true) :
    w'.b.ts (2 * k) = none ∧ w'.b.ts (2 * k + 1) = none ∧
    ∀ i, i = 2 * k ∨ i = 2 * k + 1 → ∀ hi p t, w.b.ts i = some (.wait hi p t) →
      ((w'.b.hd hi).wr t.slotno).pid = 0 ∧ w'.b.kern.isOpen t.sid = false := by
  cases h with
  | call hca hat =>
    unfold WSys.attempt at hat
    split at hat
    · cases hat
    · rename_i s' o e
      simp only [Option.some.injEq, Prod.mk.injEq] at hat
      obtain ⟨hw', ho, hops⟩ := hat
      subst ho
      have hb : w'.b = w.b.runs (w.bops pid os .closed (w.fill pid os (.close k env))) := by rw [← hw']
      rw [hb]
      simp only [WSys.fill, WSys.bops, hl, and_self, if_true]
      rw [runs_append]
      generalize hpre : (if (w.sys.signal (Op.close k { env with wakeOk := (w.b.step (.wake (2 * k) os.o1)).2, waitRc := none })).wake = true
        then [BOp.wake (2 * k) os.o1] else []) = pre
      have hts : ∀ i hi p t, w.b.ts i = some (.wait hi p t) → (w.b.runs pre).ts i = some (.wait hi p t) := by
        intro i hi p t e
        rw [← hpre]
        split
        · show (w.b.wake _ _).1.ts i = _
          rw [wake_ts _ _ _ e]; exact e
        · exact e
      generalize w.b.runs pre = b1 at hts
      show ((b1.close (2 * k)).close (2 * k + 1)).ts (2 * k) = none ∧ ((b1.close (2 * k)).close (2 * k + 1)).ts (2 * k + 1) = none ∧ _
      refine ⟨by rw [close_ts_other _ (by omega)]; exact close_ts_self _ _, close_ts_self _ _, ?_⟩
      intro i hi hj p t et
      have et1 := hts i hj p t et
      have key : ∀ b : BSys, b.ts i = some (.wait hj p t) → (((b.close i).hd hj).wr t.slotno).pid = 0 ∧ (b.close i).kern.isOpen t.sid = false := by
        intro b eb
        unfold BSys.close
        rw [eb]
        dsimp only
        rw [upd_same]
        refine ⟨release_pid _ _, ?_⟩
        unfold bw_close_wait Kern.close Kern.isOpen
        dsimp only
        rw [List.any_eq_false]
        intro x hx
        simpa using (List.mem_filter.1 hx).2
      rcases hi with rfl | rfl
      · obtain ⟨k1, k2⟩ := key b1 et1
        have sh := shrunk_close (b1.close (2 * k)) (2 * k + 1)
        constructor
        · by_cases h0 : ((((b1.close (2 * k)).close (2 * k + 1)).hd hj).wr t.slotno).pid = 0
          · exact h0
          · have := sh.slots _ _ h0
            rw [k1] at this; exact this
        · show ((b1.close (2 * k)).close (2 * k + 1)).kern.isOpen t.sid = false
          cases hz : ((b1.close (2 * k)).close (2 * k + 1)).kern.isOpen t.sid
          · rfl
          · obtain ⟨y, hy, e2⟩ := isOpen_iff.1 hz
            obtain ⟨x, hx, ex⟩ := sh.ids y hy
            have : (b1.close (2 * k)).kern.isOpen t.sid = true := isOpen_iff.2 ⟨x, hx, (congrArg Prod.fst ex).trans e2⟩
            rw [k2] at this; cases this
      · have : (b1.close (2 * k)).ts (2 * k + 1) = some (.wait hj p t) := by rw [close_ts_other _ (by omega)]; exact et1
        exact key _ this

/-! ## Scripts -/

/-- Handle `k` is used by process `k + 1`. -/
def dpid (k : Nat) : Nat := k + 1

/-- Names 100 + 2k, 101 + 2k for the sockets of handle `k`. -/
def dos (k : Nat) : WOs := { o1 := pick (100 + 2 * k), o2 := pick (101 + 2 * k) }

def dcall (op : Op) : WOp := .call op (dos op.handle)

theorem dsends (xs : List WOp) (h : ∀ x ∈ xs, (∃ op, x = dcall op) ∨ (∃ k, x = .wakeup k {}) ∨ (∃ k, x = .resume k {} (dos k))) : ∀ x ∈ xs, x.sends := by
  intro x hx
  rcases h x hx with ⟨op, rfl⟩ | ⟨k, rfl⟩ | ⟨k, rfl⟩
  · intro n; simp [dos, pick]
  · trivial
  · intro n; simp [dos, pick]

theorem demoA_wf : demoA.WF := ⟨by decide, by decide, by decide, by decide +kernel⟩

/-- A writer 0 and a reader 1, both blocking; the reader waits. -/
def scrRead : List WOp := [dcall (opn 0 SHR_WRONLY), dcall (opn 1 SHR_RDONLY), dcall (rd 1 5 1)]

/-- The same; then the writer fills the ring (the reader has not yet run) and waits itself. -/
def scrBoth : List WOp := scrRead ++ [dcall (wr 0 [[1, 2, 3, 4, 5], [6, 7, 8, 9, 10]]), dcall (wr 0 [[11]])]

/-- A waiting writer whose ring was filled; nobody reads. -/
def scrWrite : List WOp := [dcall (opn 1 SHR_RDONLY), dcall (opn 0 SHR_WRONLY), dcall (wr 0 [[1, 2, 3, 4, 5], [6, 7, 8, 9, 10]]), dcall (wr 0 [[11]])]

/-- A non-blocking reader to which two messages are available. -/
def scrSel : List WOp := [dcall (opn 0 SHR_WRONLY), dcall (opn 1 (SHR_RDONLY ||| SHR_NONBLOCK)), dcall (wr 0 [[1, 2, 3, 4, 5], [6, 7, 8, 9, 10]])]

/-! ## The hypotheses can be met -/

/-- C34, C55: a reader waits, and nothing is pending. -/
example : ∃ hist w hd, AReach demoA dpid hist w ∧ Announced demoA dpid 0 (BOp.wakes 0) hist w ∧ w.sys.hs 1 = .live hd ∧ w.blk 1 = some (rd 1 5 1, false) ∧
    w.b.pending (2 * 1) = 0 := by
  obtain ⟨hist, w, h1, h2⟩ := plays_reach (st := true) (P := fun w => (w.sys.hs 1).isLive && decide (w.blk 1 = some (rd 1 5 1, false)) && decide (w.b.pending (2 * 1) = 0))
    demoA_wf (dsends scrRead (by simp [scrRead])) (show plays true demoA dpid 4 scrRead _ = true by decide +kernel)
  simp only [Bool.and_eq_true, decide_eq_true_eq] at h2
  exact ⟨hist, w, _, h1.clean.any, h1.ann rfl _ _ wakes_isSignal, live_handle h2.1.1, h2.1.2, h2.2⟩

/-- The writer cannot create a socket in `bw_sync`, so its `bw_wake` fails. -/
def noSock : WOs := { o1 := { sockOk := fun _ => false } }

/-- C34, C36, after a failure: the wake-up of the first write fails and the waiting reader sleeps on; the second write succeeds, which makes up for it.  (This is a state
of `Announced`, by `renews`, that follows a failing wake-up, and it meets the hypotheses of `C34_successful_write_wakes`.) -/
example : ∃ hist w w' ops hd, CReach demoA dpid hist w ∧ w.blk 1 = some (rd 1 5 1, false) ∧ w.b.pending (2 * 1) = 0 ∧ w.sys.ring.unreadMsgs = [[1, 2, 3]] ∧
    AStep demoA dpid hist w (dcall (wr 0 [[4]])) w' (.wrote 1) ops ∧ w.b.CleanRun ops ∧ (dcall (wr 0 [[4]])).issued w = [wr 0 [[4]]] ∧ w'.sys.cached 0 = [] ∧
    w'.sys.hs 1 = .live hd ∧ hd.flags.has SHR_RDONLY = true ∧ w.b.Woke 0 ops := by
  obtain ⟨hist, w, w', o, ops, h1, h2, h3⟩ := plays_step (st := false) (x := dcall (wr 0 [[4]])) (P := fun w w' o => decide (w.blk 1 = some (rd 1 5 1, false)) &&
      decide (w.b.pending (2 * 1) = 0) && decide (w.sys.ring.unreadMsgs = [[1, 2, 3]]) && decide (o = .wrote 1) && decide (w'.sys.cached 0 = []) && (w'.sys.hs 1).isLive &&
      decide ((w'.sys.handle 1).flags.has SHR_RDONLY = true)) (xs := scrRead ++ [.call (wr 0 [[1, 2, 3]]) noSock])
    demoA_wf (by decide) (by
      intro x hx
      rcases List.mem_append.1 hx with hx | hx
      · exact dsends scrRead (by simp [scrRead]) x hx
      · simp only [List.mem_singleton] at hx; subst hx; intro n; simp [noSock]) (dsends [dcall (wr 0 [[4]])] (by simp) _ (by simp))
    (show plays false demoA dpid 4 _ _ = true by decide +kernel)
  simp only [Bool.and_eq_true, decide_eq_true_eq] at h3
  obtain ⟨⟨⟨⟨⟨⟨g1, g2⟩, g3⟩, g4⟩, g5⟩, g6⟩, g7⟩ := h3
  subst g4
  refine ⟨hist, w, w', ops, _, h1.clean, g1, g2, g3, h2.any, h2.clean, rfl, g5, live_handle g6, g7, ?_⟩
  obtain ⟨sp, hr⟩ := h1.clean.any.state
  have hst := h2.any.step
  cases hst with
  | call hca hat =>
    refine (wrote_woke hr.inv (h2.any.wf _ _ rfl) ?_ ?_ hat (by omega) ?_).2
    · rintro k iov e1 e2 sh he hk hwo
      have he : Op.writev 0 [[4]] {} {} = .writev k iov e1 e2 := he
      cases he
      have hrl := hr.inv.rel.hs 0
      rw [hk] at hrl
      cases e : w.sys.hs 0 with
      | never => rw [e] at hrl; exact hrl.elim
      | gone b => rw [e] at hrl; exact hrl.elim
      | live hd =>
        rw [e] at hrl
        refine noFlush_of (k := 0) (e1 := {}) (e2 := {}) hr.inv.rel.ring hrl hwo (h2.any.wf _ _ rfl) ?_
        rw [← e]; exact hca.2.1
    · intro hf
      exact absurd (farm_flag hr.inv.gf hf) (by decide)
    · intro sh hsh
      obtain ⟨hrel, _⟩ := wattempt_spec hr.inv (h2.any.wf _ _ rfl) (by
        intro hf
        exact absurd (farm_flag hr.inv.gf hf) (by decide)) hat
      have hrl := hrel.hs 0
      have hsh : (sp.step (w.fill dpid (dos 0) (wr 0 [[4]]))).1.hs 0 = .live sh := hsh
      rw [show (sp.step (w.fill dpid (dos (wr 0 [[4]]).handle) (wr 0 [[4]]))).1.hs 0 = .live sh from hsh] at hrl
      cases e : w'.sys.hs 0 with
      | never => rw [e] at hrl; exact hrl.elim
      | gone b => rw [e] at hrl; exact hrl.elim
      | live hd =>
        rw [e] at hrl
        unfold Sys.cached at g5
        rw [e] at g5
        dsimp only at g5
        rw [← hrl.cache.msgs]; exact g5

/-- C35: a writer waits, and nothing is pending. -/
example : ∃ hist w, Announced demoA dpid 1 (BOp.wakes 1) hist w ∧ w.blk 0 = some (wr 0 [[11]], false) ∧ w.b.pending (2 * 0 + 1) = 0 := by
  obtain ⟨hist, w, h1, h2⟩ := plays_reach (st := true) (P := fun w => decide (w.blk 0 = some (wr 0 [[11]], false)) && decide (w.b.pending (2 * 0 + 1) = 0))
    demoA_wf (dsends scrWrite (by simp [scrWrite])) (show plays true demoA dpid 4 scrWrite _ = true by decide +kernel)
  simp only [Bool.and_eq_true, decide_eq_true_eq] at h2
  exact ⟨hist, w, h1.ann rfl _ _ wakes_isSignal, h2⟩

/-- C56: both wait. -/
example : ∃ hist w, Announced demoA dpid 0 (BOp.wakes 0) hist w ∧ Announced demoA dpid 1 (BOp.wakes 1) hist w ∧
    w.sys.ring.gflags.has SHR_FARM = false ∧ w.blk 1 = some (rd 1 5 1, false) ∧ w.blk 0 = some (wr 0 [[11]], false) := by
  obtain ⟨hist, w, h1, h2⟩ := plays_reach (st := true) (P := fun w => decide (w.sys.ring.gflags.has SHR_FARM = false) && decide (w.blk 1 = some (rd 1 5 1, false)) &&
      decide (w.blk 0 = some (wr 0 [[11]], false)))
    demoA_wf (dsends scrBoth (by simp [scrBoth, scrRead])) (show plays true demoA dpid 4 scrBoth _ = true by decide +kernel)
  simp only [Bool.and_eq_true, decide_eq_true_eq] at h2
  exact ⟨hist, w, h1.ann rfl _ _ wakes_isSignal, h1.ann rfl _ _ wakes_isSignal, h2.1.1, h2.1.2, h2.2⟩

/-- C36, first part: messages are available to a non-blocking reader. -/
example : ∃ hist w hd, Announced demoA dpid 0 (fun x => x.wakes 0 || x.forces (2 * 1)) hist w ∧ w.sys.hs 1 = .live hd ∧ hd.flags.has SHR_RDONLY = true ∧
    hd.flags.has SHR_NONBLOCK = true ∧ w.sys.ring.readableBy hd ≠ [] := by
  obtain ⟨hist, w, h1, h2⟩ := plays_reach (st := true) (P := fun w => (w.sys.hs 1).isLive && decide ((w.sys.handle 1).flags.has SHR_RDONLY = true) &&
      decide ((w.sys.handle 1).flags.has SHR_NONBLOCK = true) && decide (w.sys.ring.readableBy (w.sys.handle 1) ≠ []))
    demoA_wf (dsends scrSel (by simp [scrSel])) (show plays true demoA dpid 4 scrSel _ = true by decide +kernel)
  simp only [Bool.and_eq_true, decide_eq_true_eq] at h2
  refine ⟨hist, w, _, h1.ann rfl _ _ ?_, live_handle h2.1.1.1, h2.1.1.2, h2.1.2, h2.2⟩
  intro y hy
  rw [Bool.or_eq_true] at hy
  rcases hy with h | h
  · exact wakes_isSignal y h
  · exact forces_isSignal y h

/-- C36, second part: the reader reads everything. -/
example : ∃ hist w w' rc iov buf' ops hd, CReach demoA dpid hist w ∧ AStep demoA dpid hist w (dcall (rd 1 20 5)) w' (.read rc iov buf') ops ∧ w.b.CleanRun ops ∧
    w.b.Succeed (BOp.forces (2 * 1)) ops ∧ rc ≠ -1 ∧ w'.sys.hs 1 = .live hd ∧ hd.flags.has SHR_NONBLOCK = true ∧ w'.sys.ring.readableBy hd = [] := by
  obtain ⟨hist, w, w', o, ops, h1, h2, h3⟩ := plays_step (st := true) (x := dcall (rd 1 20 5)) (P := fun _ w' o => (match o with | .read rc _ _ => decide (rc ≠ -1) | _ => false) &&
      (w'.sys.hs 1).isLive && decide ((w'.sys.handle 1).flags.has SHR_NONBLOCK = true) && decide (w'.sys.ring.readableBy (w'.sys.handle 1) = []))
    demoA_wf (by decide) (dsends scrSel (by simp [scrSel])) (dsends [dcall (rd 1 20 5)] (by simp) _ (by simp))
    (show plays true demoA dpid 4 scrSel _ = true by decide +kernel)
  simp only [Bool.and_eq_true, decide_eq_true_eq] at h3
  obtain ⟨⟨⟨h3, h4⟩, h5⟩, h6⟩ := h3
  cases o with
  | read rc iov buf' => exact ⟨hist, w, w', rc, iov, buf', ops, _, h1.clean, h2.any, h2.clean, h2.ok rfl rfl _ forces_isSignal, by simpa using h3, live_handle h4, h5, h6⟩
  | _ => cases h3

/-- What happens to the waiting reader: the write leaves a datagram, the reader takes it, reads again and gets the message. -/
example : runsTo demoA dpid (scrBoth ++ [.wakeup 1 {}, .resume 1 {} (dos 1), .wakeup 0 {}, .resume 0 {} (dos 0)]) (fun w outs =>
    decide (outs.drop 5 = [.blocked, .read 5 [(0, 5)] [1, 2, 3, 4, 5], .blocked, .wrote 1]) && decide (w.sys.ring.unreadMsgs = [[6, 7, 8, 9, 10], [11]])) = true := by
  decide +kernel

/-! ## Counterexamples -/

/-- **C34 is false if `bw_wake` fails.**  The reader waits; the writer cannot create a socket (out of descriptors, say) in `bw_sync`.  The write
returns -1, the message is in the ring, and the reader sleeps with nothing pending. -/
theorem C34_counterexample_failed_wake : ∃ w outs, WSys.Steps dpid (WSys.init demoA) outs w ∧ outs.getLast? = some (.wrote (-1)) ∧
    w.blk 1 = some (rd 1 5 1, false) ∧ w.b.pending (2 * 1) = 0 ∧ w.sys.ring.unreadMsgs = [[1, 2, 3]] := by
  obtain ⟨w, outs, h1, h2⟩ := runsTo_steps (a := demoA) (pid := dpid) (xs := scrRead ++ [.call (wr 0 [[1, 2, 3]]) { o1 := { sockOk := fun _ => false } }])
    (P := fun w outs => decide (outs.getLast? = some (.wrote (-1))) && decide (w.blk 1 = some (rd 1 5 1, false)) && decide (w.b.pending (2 * 1) = 0) &&
      decide (w.sys.ring.unreadMsgs = [[1, 2, 3]])) (by decide +kernel)
  simp only [Bool.and_eq_true, decide_eq_true_eq] at h2
  exact ⟨w, outs, h1, h2.1.1.1, h2.1.1.2, h2.1.2, h2.2⟩

/-- **C35 is false if `bw_wake` fails.**  The reader cannot create a socket in `bw_sync`; its read ignores this and returns the messages, so the
ring is empty, and the writer sleeps with nothing pending. -/
theorem C35_counterexample_failed_wake : ∃ w outs, WSys.Steps dpid (WSys.init demoA) outs w ∧
    outs.getLast? = some (.read 10 [(0, 5), (5, 5)] [1, 2, 3, 4, 5, 6, 7, 8, 9, 10]) ∧ w.blk 0 = some (wr 0 [[11]], false) ∧ w.b.pending (2 * 0 + 1) = 0 ∧
    w.sys.ring.unreadMsgs = [] := by
  obtain ⟨w, outs, h1, h2⟩ := runsTo_steps (a := demoA) (pid := dpid) (xs := scrWrite ++ [.call (rd 1 10 5) { o1 := { sockOk := fun _ => false } }])
    (P := fun w outs => decide (outs.getLast? = some (.read 10 [(0, 5), (5, 5)] [1, 2, 3, 4, 5, 6, 7, 8, 9, 10])) &&
      decide (w.blk 0 = some (wr 0 [[11]], false)) && decide (w.b.pending (2 * 0 + 1) = 0) &&
      decide (w.sys.ring.unreadMsgs = [])) (by decide +kernel)
  simp only [Bool.and_eq_true, decide_eq_true_eq] at h2
  exact ⟨w, outs, h1, h2.1.1.1, h2.1.1.2, h2.1.2, h2.2⟩

/-- **C36 is false if `bw_wake` fails**: the write returns -1, its message is available to the non-blocking reader, but the reader's descriptor is
not readable. -/
theorem C36_counterexample_failed_wake : ∃ w outs, WSys.Steps dpid (WSys.init demoA) outs w ∧ outs.getLast? = some (.wrote (-1)) ∧
    (w.sys.hs 1).isLive = true ∧ (w.sys.handle 1).flags = SHR_RDONLY ||| SHR_NONBLOCK ∧ w.sys.ring.readableBy (w.sys.handle 1) = [[1, 2, 3]] ∧
    w.b.pending (2 * 1) = 0 := by
  obtain ⟨w, outs, h1, h2⟩ := runsTo_steps (a := demoA) (pid := dpid)
    (xs := [dcall (opn 0 SHR_WRONLY), dcall (opn 1 (SHR_RDONLY ||| SHR_NONBLOCK)), .call (wr 0 [[1, 2, 3]]) { o1 := { sockOk := fun _ => false } }])
    (P := fun w outs => decide (outs.getLast? = some (.wrote (-1))) && (w.sys.hs 1).isLive && decide ((w.sys.handle 1).flags = SHR_RDONLY ||| SHR_NONBLOCK) &&
      decide (w.sys.ring.readableBy (w.sys.handle 1) = [[1, 2, 3]]) && decide (w.b.pending (2 * 1) = 0)) (by decide +kernel)
  simp only [Bool.and_eq_true, decide_eq_true_eq] at h2
  exact ⟨w, outs, h1, h2.1.1.1.1, h2.1.1.1.2, h2.1.1.2, h2.1.2, h2.2⟩

/-- **C36, second part, is false if `bw_force` fails**, which `shr_readv` ignores (src/shr.c:851): the read took the only message, but the
descriptor stays readable. -/
theorem C36_counterexample_failed_force : ∃ w outs, WSys.Steps dpid (WSys.init demoA) outs w ∧ outs.getLast? = some (.read 3 [(0, 3)] [1, 2, 3, 0, 0]) ∧
    (w.sys.hs 1).isLive = true ∧ (w.sys.handle 1).flags = SHR_RDONLY ||| SHR_NONBLOCK ∧ w.sys.ring.unreadMsgs = [] ∧
    w.b.pending (2 * 1) = 1 := by
  obtain ⟨w, outs, h1, h2⟩ := runsTo_steps (a := demoA) (pid := dpid)
    (xs := [dcall (opn 0 SHR_WRONLY), dcall (opn 1 (SHR_RDONLY ||| SHR_NONBLOCK)), dcall (wr 0 [[1, 2, 3]]), .call (rd 1 5 1) { o2 := { drainOk := false } }])
    (P := fun w outs => decide (outs.getLast? = some (.read 3 [(0, 3)] [1, 2, 3, 0, 0])) && (w.sys.hs 1).isLive && decide ((w.sys.handle 1).flags = SHR_RDONLY ||| SHR_NONBLOCK) &&
      decide (w.sys.ring.unreadMsgs = []) && decide (w.b.pending (2 * 1) = 1)) (by decide +kernel)
  simp only [Bool.and_eq_true, decide_eq_true_eq] at h2
  exact ⟨w, outs, h1, h2.1.1.1.1, h2.1.1.1.2, h2.1.1.2, h2.1.2, h2.2⟩

/-- **C36, second part, is false on a farm ring if a reader's socket gets the name of a dead writer's** and `has_pid_socket` could not tell that the writer is dead when
the reader opened the ring: another reader's read wakes "writers", and makes the descriptor readable although there is nothing to read.  (The dead writer was
non-blocking and had waited in `shr_flush(s, 1)`.) -/
theorem C36_counterexample_farm_name : ∃ w outs, WSys.Steps dpid (WSys.init demoF) outs w ∧
    outs = [.opened true, .opened true, .wrote 3, .wrote 3, .misuse, .opened true, .read 3 [(0, 3)] [1, 2, 3, 0, 0], .read 3 [(0, 3)] [1, 2, 3, 0, 0]] ∧
    (w.sys.hs 1).isLive = true ∧ (w.sys.handle 1).flags = SHR_RDONLY ||| SHR_NONBLOCK ∧ w.sys.ring.readableBy (w.sys.handle 1) = [] ∧
    w.b.pending (2 * 1) = 1 := by
  obtain ⟨w, outs, h1, h2⟩ := runsTo_steps (a := demoF) (pid := dpid)
    (xs := [dcall (opn 2 (SHR_RDONLY ||| SHR_NONBLOCK)), dcall (opn 0 (SHR_WRONLY ||| SHR_NONBLOCK ||| SHR_BUFFERED)), dcall (wr 0 [[1, 2, 3]]),
      dcall (.flush 0 true {}), .kill (dpid 0),
      .call (opn 1 (SHR_RDONLY ||| SHR_NONBLOCK)) { o1 := pick 101, o2 := { pidKnown := fun _ => false } }, dcall (rd 1 5 1), dcall (rd 2 5 1)])
    (P := fun w outs => decide (outs = [.opened true, .opened true, .wrote 3, .wrote 3, .misuse, .opened true, .read 3 [(0, 3)] [1, 2, 3, 0, 0], .read 3 [(0, 3)] [1, 2, 3, 0, 0]]) && (w.sys.hs 1).isLive &&
      decide ((w.sys.handle 1).flags = SHR_RDONLY ||| SHR_NONBLOCK) &&
      decide (w.sys.ring.readableBy (w.sys.handle 1) = []) && decide (w.b.pending (2 * 1) = 1)) (by decide +kernel)
  simp only [Bool.and_eq_true, decide_eq_true_eq] at h2
  exact ⟨w, outs, h1, h2.1.1.1.1, h2.1.1.1.2, h2.1.1.2, h2.1.2, h2.2⟩

/-- **C54 is false if the cache cannot be allocated**: `shr_open` of a blocking buffered writer returns NULL, but the process keeps a slot of
the "reader to writer" handle, with its socket. -/
theorem C54_counterexample_malloc : ∃ w outs, WSys.Steps dpid (WSys.init demoA) outs w ∧ outs = [.opened false] ∧
    ((w.b.hd 1).wr 0).pid = dpid 0 ∧ w.b.kern.held (dpid 0) ((w.b.hd 1).wr 0).name = true := by
  obtain ⟨w, outs, h1, h2⟩ := runsTo_steps (a := demoA) (pid := dpid)
    (xs := [.call (.open 0 (SHR_WRONLY ||| SHR_BUFFERED) { mallocOk := false }) (dos 0)])
    (P := fun w outs => decide (outs = [.opened false]) && decide (((w.b.hd 1).wr 0).pid = dpid 0) &&
      w.b.kern.held (dpid 0) ((w.b.hd 1).wr 0).name) (by decide +kernel)
  simp only [Bool.and_eq_true, decide_eq_true_eq] at h2
  exact ⟨w, outs, h1, h2.1.1, h2.1.2, h2.2⟩

/-- **C54 is false if msync fails** on a ring with SHR_SYNC: `shr_open` of a reader returns NULL, but the process keeps a slot of the "writer to
reader" handle.  Since the process and its socket live, nobody ever reclaims the slot. -/
theorem C54_counterexample_sync : ∃ w outs, WSys.Steps dpid (WSys.init { demoA with flags := SHR_MAXMSGS_2 ||| SHR_SYNC }) outs w ∧ outs = [.opened false] ∧
    ((w.b.hd 0).wr 0).pid = dpid 0 ∧ w.b.kern.held (dpid 0) ((w.b.hd 0).wr 0).name = true := by
  obtain ⟨w, outs, h1, h2⟩ := runsTo_steps (a := { demoA with flags := SHR_MAXMSGS_2 ||| SHR_SYNC }) (pid := dpid)
    (xs := [.call (.open 0 SHR_RDONLY { syncOk := false }) (dos 0)])
    (P := fun w outs => decide (outs = [.opened false]) && decide (((w.b.hd 0).wr 0).pid = dpid 0) &&
      w.b.kern.held (dpid 0) ((w.b.hd 0).wr 0).name) (by decide +kernel)
  simp only [Bool.and_eq_true, decide_eq_true_eq] at h2
  exact ⟨w, outs, h1, h2.1.1, h2.1.2, h2.2⟩

/-- C54: a failing open that meets the hypotheses: no epoll descriptor. -/
example : ∃ w ops, WSys.Step dpid (WSys.init demoA) (.call (.open 0 SHR_RDONLY {}) { o1 := { epollOk := false } }) w (.opened false) ops := by
  have h : ((WSys.init demoA).next dpid (.call (.open 0 SHR_RDONLY {}) { o1 := { epollOk := false } })).any (fun x => x.2.1 == .opened false) = true := by
    decide +kernel
  obtain ⟨⟨w, o, ops⟩, e, h2⟩ := (Option.any_eq_true _ _).1 h
  have : o = .opened false := by simpa using h2
  subst this
  exact ⟨w, ops, WSys.next_sound e⟩

/-- **C57 without the lock**: if `shr_close` cannot lock the ring file (EDEADLK, ENOLCK), the slot stays reserved although the handle is gone. -/
theorem C57_counterexample_lock : ∃ w outs, WSys.Steps dpid (WSys.init demoA) outs w ∧ outs = [.opened true, .closed] ∧
    ((w.b.hd 0).wr 0).pid = dpid 1 ∧ w.b.kern.held (dpid 1) ((w.b.hd 0).wr 0).name = true := by
  obtain ⟨w, outs, h1, h2⟩ := runsTo_steps (a := demoA) (pid := dpid)
    (xs := [dcall (opn 1 SHR_RDONLY), .call (.close 1 {}) { lock2 := false }])
    (P := fun w outs => decide (outs = [.opened true, .closed]) && decide (((w.b.hd 0).wr 0).pid = dpid 1) &&
      w.b.kern.held (dpid 1) ((w.b.hd 0).wr 0).name) (by decide +kernel)
  simp only [Bool.and_eq_true, decide_eq_true_eq] at h2
  exact ⟨w, outs, h1, h2.1.1, h2.1.2, h2.2⟩

/-- C57: an open handle with a slot is closed, and the slot is free. -/
example : runsTo demoA dpid [dcall (opn 1 SHR_RDONLY), dcall (.close 1 {})] (fun w outs =>
    decide (outs = [.opened true, .closed]) && decide (((w.b.hd 0).wr 0).pid = 0)) = true := by
  decide +kernel

end Shr
