import Verif.Proof.Power
/-! # C81: power failures on SHR_SYNC rings -/
namespace Shr

theorem Power.step_ok {x y : Power} {op : Op} {o : Out} (h : x.step op = .ok (y, o)) :
    x.sys.step op = .ok (y.sys, o) ∧ y.imgs = if x.sys.synced op then [y.sys.ring] else x.imgs ++ x.sys.points op := by
  unfold Power.step at h
  split at h
  · cases h
  · rename_i s o' e; cases h; exact ⟨e, rfl⟩

theorem Power.run_sys : ∀ (ops : List Op) {x y : Power} {os : List Out}, x.run ops = .ok (y, os) → x.sys.run ops = .ok (y.sys, os) := by
  intro ops
  induction ops with
  | nil => intro x y os h; cases h; rfl
  | cons op ops ih =>
    intro x y os h
    unfold Power.run at h
    split at h
    · cases h
    rename_i x1 o1 e1
    split at h
    · cases h
    rename_i x2 o2 e2
    cases h
    unfold Sys.run
    rw [(Power.step_ok e1).1]
    dsimp only
    rw [ih e2]

/-- Every history of calls is one of a machine that may lose power. -/
theorem Power.runs : ∀ (ops : List Op) {s s' : Sys} {os : List Out} (imgs : List Ring), s.run ops = .ok (s', os) →
    ∃ imgs', (Power.mk s imgs).run ops = .ok (⟨s', imgs'⟩, os) := by
  intro ops
  induction ops with
  | nil => intro s s' os imgs h; cases h; exact ⟨imgs, rfl⟩
  | cons op ops ih =>
    intro s s' os imgs h
    unfold Sys.run at h
    split at h
    · cases h
    rename_i s1 o1 e1
    split at h
    · cases h
    rename_i s2 o2 e2
    cases h
    obtain ⟨imgs', e⟩ := ih (if s.synced op then [s1.ring] else imgs ++ s.points op) e2
    refine ⟨imgs', ?_⟩
    have h1 : (Power.mk s imgs).step op = .ok (⟨s1, if s.synced op then [s1.ring] else imgs ++ s.points op⟩, o1) := by
      unfold Power.step; dsimp only; rw [e1]
    unfold Power.run
    rw [h1]; dsimp only; rw [e]

theorem Power.run_append : ∀ (ops more : List Op) {x y : Power} {os : List Out}, x.run ops = .ok (y, os) →
    x.run (ops ++ more) = match y.run more with
      | .error f => .error f
      | .ok (z, os') => .ok (z, os ++ os') := by
  intro ops more
  induction ops with
  | nil =>
    intro x y os h
    cases h
    rw [List.nil_append]
    cases x.run more with
    | error f => rfl
    | ok z => rfl
  | cons op ops ih =>
    intro x y os h
    unfold Power.run at h
    split at h
    · cases h
    rename_i x1 o1 e1
    split at h
    · cases h
    rename_i x2 o2 e2
    cases h
    rw [List.cons_append]
    show Power.run _ _ = _
    conv => lhs; unfold Power.run
    rw [e1]
    dsimp only
    rw [ih e2]
    cases y.run more with
    | error f => rfl
    | ok z => rfl

theorem Power.step_synced {s s' t : Sys} {op : Op} {o o' : Out} {imgs : List Ring} (h : s.step op = .ok (s', o)) (hs : s.synced op = true)
    (es : s' = t) (eo : o = o') : (Power.mk s imgs).step op = .ok (⟨t, [t.ring]⟩, o') := by
  subst es eo
  unfold Power.step
  dsimp only
  rw [h, hs]
  rfl

theorem Power.run_snoc {ops : List Op} {op : Op} {x y z w : Power} {os os' : List Out} {o : Out} (h : x.run ops = .ok (y, os))
    (hs : y.step op = .ok (z, o)) (hw : x.run (ops ++ [op]) = .ok (w, os')) : w = z := by
  rw [Power.run_append ops [op] h] at hw
  unfold Power.run at hw
  rw [hs] at hw
  cases hw
  rfl

theorem gflags_sync (a : InitArgs) : a.gflags.has SHR_SYNC = a.flags.has SHR_SYNC := by
  unfold InitArgs.gflags
  cases a.flags.has SHR_SYNC <;> cases a.flags.has SHR_DROP <;> cases a.flags.has SHR_FARM <;> cases a.flags.has SHR_MLOCK <;> decide

section
variable {a : InitArgs} {env : InitEnv} {fs fs' : FS}

/-- **C81.** A call on a ring with SHR_SYNC that reports success to its caller has left nothing that is not on the disk, whatever happened
before. -/
theorem C81_confirmed {ops : List Op} {op : Op} {outs : List Out} {o : Out} {x y : Power} (v : Valid a (ops ++ [op])) (ht : TimesOk (ops ++ [op]))
    (hrun : (Sys.init a).run ops = .ok (x.sys, outs)) (hsync : a.flags.has SHR_SYNC = true)
    (hstep : x.step op = .ok (y, o)) (hc : Confirms x.sys op o) : y.imgs = [y.sys.ring] := by
  obtain ⟨h1, h2⟩ := Power.step_ok hstep
  obtain ⟨sp, w, _⟩ := v.left.state hrun
  have hs : x.sys.ring.gflags.has SHR_SYNC = true := by rw [w.rel.ring.gf, w.gf, gflags_sync]; exact hsync
  have := confirms_synced h1 hc (v.small (by simp) (ht op (by simp))) hs w.rel.ring.typed (fun h hk => by
    obtain ⟨sh, _, hh⟩ := w.rel.live hk
    rw [hh.cache.blen]; exact hh.cache.szw) false
  change x.sys.synced op = true at this
  rw [h2, if_pos this]

/-! ## Without a successful msync nothing is forgotten -/

/-- In this call every msync fails. -/
def Op.msyncFails : Op → Prop
  | .open _ _ e => e.syncOk = false
  | .writev _ _ e1 e2 => e1.syncOk = false ∧ e2.syncOk = false
  | .readv _ _ _ e => e.syncOk = false
  | .flush _ _ e => e.syncOk = false
  | .close _ e => e.syncOk = false
  | .stat _ _ e => e.syncOk = false
  | .farmStat _ _ => True
  | .appdata _ _ _ _ e => e.syncOk = false

theorem attempt_unsynced {r : Ring} {len niov : Nat} {env : Env} (hn : (r.gflags.has SHR_SYNC && env.syncOk) = false) :
    attemptSync r len niov env false = false := by
  unfold attemptSync
  split
  · rfl
  split
  · rw [hn, Bool.and_false]
  · rfl

theorem flushCache_unsynced {h : Handle} {r : Ring} {env : Env} (hn : (r.gflags.has SHR_SYNC && env.syncOk) = false) :
    flushCacheSync h env r false = false := by
  unfold flushCacheSync
  split
  · rfl
  unfold directSync
  split
  · rfl
  · exact attempt_unsynced hn

theorem cacheLoop_unsynced {iov : List Msg} {len : Nat} {envF : Env} (fuel : Nat) (h : Handle) (r : Ring)
    (hn : (r.gflags.has SHR_SYNC && envF.syncOk) = false) (hc : h.c.buf.length < W) (t : Typed r) :
    (cacheLoopSync iov len envF fuel h r false).1 = false ∧
      ∀ r', (cacheLoopSync iov len envF fuel h r false).2 = some r' → r'.gflags = r.gflags := by
  cases fuel with
  | zero => exact ⟨rfl, fun _ h => by cases h⟩
  | succ fuel =>
    unfold cacheLoopSync
    rw [flushCache_unsynced hn]
    split
    · exact ⟨rfl, fun _ h => by cases h; rfl⟩
    split
    · exact ⟨rfl, fun _ h => by cases h⟩
    split
    · exact ⟨rfl, fun _ h => by cases h; rfl⟩
    split
    · rename_i rc w r' e
      split
      · exact ⟨rfl, fun _ h => by cases h⟩
      · obtain ⟨g1, _, g3⟩ := cacheLoop_empty_sync (iov := iov) (len := len) (envF := envF) fuel
          { h with c := { h.c with n := 0, vm := 0 } } r' false rfl
        exact ⟨g1, fun q hq => by rw [g3 q hq, flushCache_gflags hc t e]⟩
    · exact ⟨rfl, fun _ h => by cases h⟩

theorem unsynced {s : Sys} {op : Op} (hn : s.ring.gflags.has SHR_SYNC = false ∨ op.msyncFails) (t : Typed s.ring)
    (hc : ∀ h, s.hs op.handle = .live h → h.c.buf.length < W) : s.synced op = false := by
  have go : ∀ e : Env, s.ring.gflags.has SHR_SYNC = false ∨ e.syncOk = false → (s.ring.gflags.has SHR_SYNC && e.syncOk) = false := by
    intro e h; rcases h with h | h <;> rw [h] <;> simp
  unfold Sys.synced Sys.syncAfter
  cases op with
  | «open» k flags e =>
    dsimp only
    split
    · split
      · rfl
      unfold openSync
      split
      · rfl
      rename_i h ho
      rw [Bool.or_false]
      cases hS : s.ring.gflags.has SHR_SYNC
      · rfl
      · exfalso
        rcases hn with hn | hn
        · rw [hS] at hn; cases hn
        · unfold openLocked at ho
          change e.syncOk = false at hn
          rw [hS, hn] at ho
          repeat' (split at ho)
          all_goals first | exact absurd ⟨rfl, rfl⟩ ‹¬(true = true ∧ false = false)› | cases ho
    · rfl
  | writev k iov e1 e2 =>
    dsimp only
    split
    · rename_i h hk
      split
      · rfl
      unfold writevSync
      split
      · rfl
      rename_i len _
      have n1 := go e1 (hn.imp id And.left)
      have n2 := go e2 (hn.imp id And.right)
      obtain ⟨g1, g2⟩ := cacheLoop_unsynced (iov := iov) (len := len) 2 h s.ring n1 (hc h hk) t
      split
      · rename_i c e; rw [e] at g1; exact g1
      · rename_i c r' e
        rw [e] at g1 g2
        change c = false at g1
        rw [g1]
        exact attempt_unsynced (by rw [g2 r' rfl]; exact n2)
    · rfl
  | readv k buf niov e =>
    dsimp only
    split
    · split
      · rfl
      unfold readvSync
      split
      · rfl
      split
      · exact go e hn
      · rfl
    · rfl
  | flush k wait e =>
    dsimp only
    split
    · split
      · rfl
      unfold flushSync
      split
      · rfl
      split
      · rfl
      exact flushCache_unsynced (go e hn)
    · rfl
  | close k e =>
    dsimp only
    split
    · unfold closeSync
      split
      · unfold flushSync
        split
        · rfl
        split
        · rfl
        exact flushCache_unsynced (go e hn)
      · rfl
    · rfl
  | stat k reset e =>
    dsimp only
    split
    · unfold statSync
      rw [go e hn]
      repeat' split
      all_goals first | rfl | contradiction
    · rfl
  | farmStat k b => rfl
  | appdata k get set sz e =>
    dsimp only
    split
    · unfold appdataSync
      rw [go e hn]
      repeat' split
      all_goals first | rfl | contradiction
    · rfl

/-- **C81, the converse.**  Without SHR_SYNC, or in a call in which every msync fails, no call (whatever it reports) is taken to have written
anything to the disk: all earlier contents that a power failure could have left are still possible, and so are the ones this call adds. -/
theorem C81_unsynced {ops : List Op} {op : Op} {outs : List Out} {o : Out} {x y : Power} (v : Valid a (ops ++ [op]))
    (hrun : (Sys.init a).run ops = .ok (x.sys, outs)) (hn : a.flags.has SHR_SYNC = false ∨ op.msyncFails)
    (hstep : x.step op = .ok (y, o)) : y.imgs = x.imgs ++ x.sys.points op := by
  obtain ⟨_, h2⟩ := Power.step_ok hstep
  obtain ⟨sp, w, _⟩ := v.left.state hrun
  have := unsynced (s := x.sys) (op := op) (hn.imp (fun h => by rw [w.rel.ring.gf, w.gf, gflags_sync]; exact h) id) w.rel.ring.typed
    (fun h hk => by
      obtain ⟨sh, _, hh⟩ := w.rel.live hk
      rw [hh.cache.blen]; exact hh.cache.szw)
  rw [h2, this]; rfl

/-- As long as msync and the wake-ups succeed, each call keeps everything on the disk that is changed. -/
theorem clean_step {ops : List Op} {op : Op} {outs : List Out} {o : Out} {x y : Power} (v : Valid a (ops ++ [op]))
    (hrun : (Sys.init a).run ops = .ok (x.sys, outs)) (hsync : a.flags.has SHR_SYNC = true) (hg : op.good)
    (hstep : x.step op = .ok (y, o)) (hcl : ∀ p ∈ x.imgs, p = x.sys.ring) : ∀ p ∈ y.imgs, p = y.sys.ring := by
  obtain ⟨h1, h2⟩ := Power.step_ok hstep
  obtain ⟨sp, w, _⟩ := v.left.state hrun
  have hs : x.sys.ring.gflags.has SHR_SYNC = true := by rw [w.rel.ring.gf, w.gf, gflags_sync]; exact hsync
  rcases synced_or_quiet hg hs w.rel.ring.typed (fun h hk => by
    obtain ⟨sh, _, hh⟩ := w.rel.live hk
    rw [hh.cache.blen]; exact hh.cache.szw) with h3 | h3
  · rw [h2, if_pos h3]; exact fun p hp => List.mem_singleton.mp hp
  · have h4 := h3 _ (step_points h1)
    rw [h2, h4]
    intro p hp
    split at hp
    · exact List.mem_singleton.mp hp
    · rcases List.mem_append.mp hp with h | h
      · exact hcl p h
      · exact h3 p h

theorem clean_run : ∀ (more : List Op) {ops : List Op} {outs os : List Out} {x y : Power}, Valid a (ops ++ more) →
    (Sys.init a).run ops = .ok (x.sys, outs) → a.flags.has SHR_SYNC = true → (∀ op ∈ more, op.good) →
    x.run more = .ok (y, os) → (∀ p ∈ x.imgs, p = x.sys.ring) → ∀ p ∈ y.imgs, p = y.sys.ring := by
  intro more
  induction more with
  | nil => intro ops outs os x y _ _ _ _ h; cases h; exact id
  | cons op more ih =>
    intro ops outs os x y v hrun hs hg h hcl
    unfold Power.run at h
    split at h
    · cases h
    rename_i x1 o1 e1
    split at h
    · cases h
    rename_i x2 o2 e2
    cases h
    have v' : Valid a ((ops ++ [op]) ++ more) := by rw [List.append_assoc]; exact v
    refine ih v' (outs := outs ++ [o1]) ?_ hs (fun q hq => hg q (by simp [hq])) e2 ?_
    · rw [sys_run_append, hrun]
      dsimp only
      unfold Sys.run
      rw [(Power.step_ok e1).1]
      rfl
    · exact clean_step v'.left hrun hs (hg op (by simp)) e1 hcl

/-- The file that `shr_init` makes. -/
theorem fresh_layout (hs : SizesOk a) (he : env.WF a) (hf : fs.WF) (h : Inits a env fs 0 fs')
    (hnew : fs.path = none ∨ a.flags.has SHR_KEEPEXIST = false) {ino : Nat} (hp : fs'.path = some ino) :
    LayoutOk (fs'.files ino) ∧ mvOff (fs'.files ino) % 8 = 0 ∧ Whole a (env.trunc.len a.fileSz) (fs'.files ino) := by
  have e := h.end_ hs he hf
  rcases e.ok rfl with ⟨_, h1, h2⟩ | ⟨_, hp', hw, _⟩
  · rcases hnew with hn | hn
    · rw [hn] at h1; cases h1
    · rw [hn] at h2; cases h2
  rw [hp] at hp'; cases hp'
  obtain ⟨g1, g2, g3, g4, g5⟩ := whole_fields hw
  have hL : a.fileSz ≤ env.trunc.len a.fileSz := by
    unfold Trunc.len; split
    · rename_i l h; exact he _ h
    · exact Nat.le_refl _
  have hpad := pad_lt a
  refine ⟨?_, ?_, hw⟩
  · unfold LayoutOk appOff mvOff
    rw [g1, g2, g3, g4, hw.1, hs.mv]
    have hsz := hs.fileSz
    omega
  · unfold mvOff
    rw [g1, g2]
    unfold SIZEOF_CTRL
    omega

/-- **C81.** A ring with SHR_SYNC is made by `shr_init` and used.  Some call (for example the first `shr_open`, or a write) reports
success, whatever happened before it, and in the calls after it msync and the wake-ups succeed.  Then the power fails.  The file
that is found on the disk is exactly the ring in its last state, with all messages, counters and app data, and it is in working
order (C72: everything behaves as if the power had not failed, for new handles). -/
theorem C81_power_failure (hs : SizesOk a) (he : env.WF a) (hf : fs.WF) (h : Inits a env fs 0 fs') (hlen : env.trunc.len a.fileSz < 2 ^ 63)
    (hnew : fs.path = none ∨ a.flags.has SHR_KEEPEXIST = false) {ino : Nat} (hp : fs'.path = some ino)
    {ops more : List Op} {op : Op} {o1 o2 : List Out} {o : Out} {imgs : List Ring} {x y z : Power}
    (v : Valid a (ops ++ op :: more)) (ht : TimesOk (ops ++ op :: more)) (hsync : a.flags.has SHR_SYNC = true)
    (h1 : (Power.mk (Sys.init a) imgs).run ops = .ok (x, o1)) (h2 : x.step op = .ok (y, o)) (hc : Confirms x.sys op o)
    (h3 : y.run more = .ok (z, o2)) (hg : ∀ q ∈ more, q.good)
    {B : Nat} (hB : BlockSize B) {D : List Byte} (hD : Torn B (fs'.files ino) z.imgs D) :
    decode D = z.sys.ring ∧ RingFile D := by
  have v' : Valid a ((ops ++ [op]) ++ more) := by rw [List.append_assoc]; exact v
  have hr1 : (Sys.init a).run ops = .ok (x.sys, o1) := Power.run_sys ops h1
  have hcl := C81_confirmed v'.left (fun q hq => ht q (by
    rcases List.mem_append.mp hq with hq | hq
    · exact List.mem_append_left _ hq
    · exact List.mem_append_right _ (by rw [List.mem_singleton.mp hq]; simp))) hr1 hsync h2 hc
  have hr2 : (Sys.init a).run (ops ++ [op]) = .ok (y.sys, o1 ++ [o]) := by
    rw [sys_run_append, hr1]; dsimp only; unfold Sys.run; rw [(Power.step_ok h2).1]; rfl
  have hz := clean_run more v' hr2 hsync hg h3 (by rw [hcl]; exact fun p hp => List.mem_singleton.mp hp)
  obtain ⟨hl, hal, hw⟩ := fresh_layout hs he hf h hnew hp
  obtain ⟨m1, m2, m3, m4⟩ := hD.mixed hB hl hal
  have hd := m1.const hz
  refine ⟨hd, ?_⟩
  have hr3 : (Sys.init a).run ((ops ++ [op]) ++ more) = .ok (z.sys, (o1 ++ [o]) ++ o2) := by
    rw [sys_run_append, hr2]; dsimp only; rw [Power.run_sys more h3]
  obtain ⟨sp, w, _⟩ := v'.state hr3
  have hr := w.rel.ring
  rw [← hd] at hr
  obtain ⟨g1, g2, g3, g4, g5⟩ := whole_fields hw
  refine hr.ringFile ?_ m2 ?_ ?_
  · have : ld D 0 8 = ld (fs'.files ino) 0 8 := ld_congr fun k _ hk => m4 k (.inl (by unfold OFF_I; omega))
    rw [this]; exact hw.2.1
  · rw [hD.len, hw.1]; exact hlen
  · have e1 : ld64 D OFF_MV_LEN = a.mv_bytes := (congrArg (fun z => z.2.2.1) m3).trans g3
    have e2 : ld64 D OFF_MM = a.max_msgs := hr.mm.trans w.maxm
    rw [e1, e2, hs.mv, Nat.mul_comm]

/-- The ring right after its creation, when the file has reached the disk.  (`shr_init` does not call msync; the first `shr_open` of
a SHR_SYNC ring does, src/shr.c:611.) -/
def Power.start (a : InitArgs) : Power := ⟨Sys.init a, [initRing a]⟩

theorem moments_run : ∀ (more : List Op) {ops : List Op} {outs os : List Out} {x y : Power}, Valid a (ops ++ more) → TimesOk (ops ++ more) →
    (Sys.init a).run ops = .ok (x.sys, outs) → x.run more = .ok (y, os) → (∀ p ∈ x.imgs, Moment a p) → ∀ p ∈ y.imgs, Moment a p := by
  intro more
  induction more with
  | nil => intro ops outs os x y _ _ _ h; cases h; exact id
  | cons op more ih =>
    intro ops outs os x y v ht hrun h hm
    unfold Power.run at h
    split at h
    · cases h
    rename_i x1 o1 e1
    split at h
    · cases h
    rename_i x2 o2 e2
    cases h
    have v' : Valid a ((ops ++ [op]) ++ more) := by rw [List.append_assoc]; exact v
    have ht' : TimesOk ((ops ++ [op]) ++ more) := by rw [List.append_assoc]; exact ht
    obtain ⟨s1, s2⟩ := Power.step_ok e1
    have mom : ∀ p ∈ x.sys.points op, Moment a p := fun p hp =>
      ⟨ops, op, x.sys, outs, v'.left, fun q hq => ht' q (List.mem_append_left _ hq), hrun, hp⟩
    refine ih v' ht' (outs := outs ++ [o1]) ?_ e2 ?_
    · rw [sys_run_append, hrun]
      dsimp only
      unfold Sys.run
      rw [s1]
      rfl
    · rw [s2]
      intro p hp
      split at hp
      · rw [List.mem_singleton.mp hp]; exact mom _ (step_points s1)
      · rcases List.mem_append.mp hp with h | h
        · exact hm p h
        · exact mom p h

/-- **C81.** A power failure at any moment, in the middle of a call and even if all calls of msync have failed since the creation reached
the disk, leaves a file that passes the checks of `shr_open`, with the sizes, attributes and identification that it was created with. -/
theorem C81_accepted (hs : SizesOk a) (he : env.WF a) (hf : fs.WF) (h : Inits a env fs 0 fs')
    (hnew : fs.path = none ∨ a.flags.has SHR_KEEPEXIST = false) {ino : Nat} (hp : fs'.path = some ino)
    {ops : List Op} {op : Op} {outs : List Out} {x : Power} (v : Valid a (ops ++ [op])) (ht : TimesOk (ops ++ [op]))
    (hrun : (Power.start a).run ops = .ok (x, outs))
    {B : Nat} (hB : BlockSize B) {D : List Byte} (hD : Torn B (fs'.files ino) (x.imgs ++ x.sys.points op) D) :
    Accepted D ∧ D.length = (fs'.files ino).length ∧ ∀ k, Fixed (fs'.files ino) k → D[k]? = (fs'.files ino)[k]? := by
  have hr : (Sys.init a).run ops = .ok (x.sys, outs) := Power.run_sys ops hrun
  have h0 : Moment a (initRing a) := by
    refine ⟨[], .farmStat 0 false, Sys.init a, [], ?_, ?_, rfl, ?_⟩
    · refine ⟨v.init, fun q hq => ?_, fun _ => ?_⟩
      · rw [List.mem_singleton.mp hq]; trivial
      · decide
    · intro q hq k t env e
      rw [List.mem_singleton.mp hq] at e; cases e
    · exact List.mem_singleton.mpr rfl
  have hm : ∀ p ∈ x.imgs ++ x.sys.points op, Moment a p := by
    intro p hp
    rcases List.mem_append.mp hp with h | h
    · refine moments_run ops (ops := []) (x := Power.start a) (outs := []) v.left (fun q hq => ht q (List.mem_append_left _ hq)) rfl hrun ?_ p h
      intro q hq
      rw [List.mem_singleton.mp hq]; exact h0
    · exact ⟨ops, op, x.sys, outs, v, ht, hr, h⟩
  obtain ⟨hl, hal, hw⟩ := fresh_layout hs he hf h hnew hp
  obtain ⟨m1, m2, m3, m4⟩ := hD.mixed hB hl hal
  obtain ⟨q, hq, e⟩ := m1.head
  refine ⟨?_, hD.len, m4⟩
  refine C73_torn_header_accepted hs he hf h hnew hp hD.len ?_ (hm q hq) (hm q hq) (hm q hq) ?_ ?_ ?_
  · intro k hk
    refine m4 k ?_
    rcases hk with hk | hk
    · exact .inl hk
    · exact .inr (.inl hk)
  all_goals rw [e]

/-- **C82, power failure during a write.**  The file was completely on the disk; then a write, flush or close that does not need to drop was
in progress when the power failed.  The messages that were unread are still there, unchanged and in front of everything else.  Behind
them is either nothing, and then reads deliver exactly these messages, or as many messages as the batch has.  (Missing: that the latter
are the messages of the batch.  That is false, `C82_counterexample_torn_write`.) -/
theorem C82_during_write_partial (hs : SizesOk a) (he : env.WF a) (hf : fs.WF) (h : Inits a env fs 0 fs')
    (hnew : fs.path = none ∨ a.flags.has SHR_KEEPEXIST = false) {ino : Nat} (hp : fs'.path = some ino)
    {ops : List Op} {op : Op} {k : Nat} {iov : List Msg} {s : Sys} {outs : List Out} (v : Valid a (ops ++ [op]))
    (hrun : (Sys.init a).run ops = .ok (s, outs)) (hc : WriterCall k iov op) (hnf : a.flags.has SHR_FARM = false)
    (hfit : a.flags.has SHR_DROP = false ∨ Fits a.dataSz a.max_msgs s.ring.unreadMsgs (s.cached k ++ iov))
    {B : Nat} (hB : BlockSize B) {D : List Byte} (hD : Torn B (fs'.files ino) (s.points op) D) :
    ∃ X ∈ [[], s.cached k, s.cached k ++ iov], ∃ Y, (decode D).unreadMsgs = s.ring.unreadMsgs ++ Y ∧ Y.length = X.length ∧
      (X = [] → ∀ hs, NoBoth hs → ∀ reads, ReadsOnly reads → ∃ s' outs', (Sys.mk (decode D) hs).run reads = .ok (s', outs') ∧
        delivered outs' ++ s'.ring.unreadMsgs = s.ring.unreadMsgs) := by
  obtain ⟨hl, hal, hw⟩ := fresh_layout hs he hf h hnew hp
  obtain ⟨m1, m2, m3, m4⟩ := hD.mixed hB hl hal
  obtain ⟨sp, w, _⟩ := v.left.state hrun
  have hcv : CView s.ring sp.first s.ring.unreadMsgs := by rw [w.rel.ring.unreadMsgs]; exact w.rel.ring.cview
  obtain ⟨p0, hC⟩ := hcv.core
  have hsm : op.Small := by
    have hwf := v.wf op (by simp)
    cases hc with
    | write iov e1 e2 =>
      intro b hb
      have : b.length ≤ SSIZE_MAX := hwf.1 b hb
      rw [SSIZE_MAX_val] at this; rw [W_val]; omega
    | flush => trivial
    | close => trivial
  have hpar := points_steps hsm (fun h hk => by
    obtain ⟨sh, _, hh⟩ := w.rel.live hk
    rw [hh.cache.blen]; exact hh.cache.szw) w.rel.ring.typed
  have all : ∀ p ∈ s.points op, Core p sp.first p0 s.ring.unreadMsgs ∧ p.n = s.ring.n ∧ p.mm = s.ring.mm := by
    intro p hp
    obtain ⟨_, g, _, hst, hg⟩ := writer_points v hrun hc hnf hfit hp
    have hmm := (hpar p hp).params.2.2.1
    have hmod : sp.first % s.ring.mm = g % s.ring.mm := by rw [← hcv.r, hg.r]
    refine ⟨(hst.2 p0 (hC.mod hmod)).mod (by rw [hmm]; exact hmod.symm), hst.1, hmm⟩
  have hx := m1.core all
  obtain ⟨q, hq, e⟩ := m1.head
  obtain ⟨hfm, g, ⟨X, hX, hv⟩, hst, hg⟩ := writer_points v hrun hc hnf hfit hq
  have hmm := (hpar q hq).params.2.2.1
  have hmod : sp.first % s.ring.mm = g % s.ring.mm := by rw [← hcv.r, hg.r]
  have xr : (decode D).r = sp.first % (decode D).mm := by
    have e1 : (decode D).r = q.r := by rw [e]
    have e2 : (decode D).mm = q.mm := by rw [e]
    rw [e1, e2, hv.r, hmm]; exact hmod.symm
  have xm : (decode D).m = s.ring.unreadMsgs.length + X.length := by
    have e1 : (decode D).m = q.m := by rw [e]
    rw [e1, hv.m, List.length_append]
  refine ⟨X, hX, (decode D).msgsFrom ((decode D).r + s.ring.unreadMsgs.length) X.length, ?_, ?_, ?_⟩
  · unfold Ring.unreadMsgs
    rw [xm, msgsFrom_add]
    congr 1
    rw [xr]
    exact hx.decode
  · unfold Ring.msgsFrom; simp
  · rintro rfl hs nb reads hr
    refine reads_deliver reads (s := ⟨decode D, hs⟩) (g := sp.first) ?_ nb ?_ hr
    · show (decode D).gflags.has SHR_FARM = false
      have : (decode D).gflags = q.gflags := by rw [e]
      rw [this]; exact hfm
    · refine ⟨⟨p0, hx⟩, ?_, ?_, xr⟩
      · have : (decode D).u = q.u := by rw [e]
        show (decode D).u < W
        rw [this]; exact hv.ult
      · rw [List.length_nil, Nat.add_zero] at xm; exact xm

/-- **C82, power failure during a read.**  What is found is the ring at one of the points at which the reader could have been killed. -/
theorem C82_during_read (hs : SizesOk a) (he : env.WF a) (hf : fs.WF) (h : Inits a env fs 0 fs')
    (hnew : fs.path = none ∨ a.flags.has SHR_KEEPEXIST = false) {ino : Nat} (hp : fs'.path = some ino) {s : Sys}
    {k : Nat} {buf : List Byte} {niov : Nat} {e : Env} {B : Nat} (hB : BlockSize B) {D : List Byte}
    (hD : Torn B (fs'.files ino) (s.points (.readv k buf niov e)) D) : decode D ∈ s.points (.readv k buf niov e) := by
  obtain ⟨hl, hal, hw⟩ := fresh_layout hs he hf h hnew hp
  obtain ⟨m1, m2, m3, m4⟩ := hD.mixed hB hl hal
  refine m1.same_body (r := s.ring) ?_
  intro p hp
  unfold Sys.points at hp
  have base : p ∈ [s.ring] → p.d = s.ring.d ∧ p.mv = s.ring.mv ∧ p.app = s.ring.app := fun h => by
    rw [List.mem_singleton.mp h]; exact ⟨rfl, rfl, rfl⟩
  dsimp only at hp
  split at hp
  · split at hp
    · exact base hp
    · have := (shr_readv_mv _ _ _ _ _).points hp
      unfold MovedR at this
      rw [this]; exact ⟨rfl, rfl, rfl⟩
  · exact base hp

/-- **C82, power failure during `shr_stat`.** -/
theorem C82_during_stat (hs : SizesOk a) (he : env.WF a) (hf : fs.WF) (h : Inits a env fs 0 fs')
    (hnew : fs.path = none ∨ a.flags.has SHR_KEEPEXIST = false) {ino : Nat} (hp : fs'.path = some ino) {s : Sys}
    {k : Nat} {reset : Option Timeval} {e : Env} {B : Nat} (hB : BlockSize B) {D : List Byte}
    (hD : Torn B (fs'.files ino) (s.points (.stat k reset e)) D) : decode D ∈ s.points (.stat k reset e) := by
  obtain ⟨hl, hal, hw⟩ := fresh_layout hs he hf h hnew hp
  obtain ⟨m1, m2, m3, m4⟩ := hD.mixed hB hl hal
  refine m1.same_body (r := s.ring) ?_
  intro p hp
  unfold Sys.points at hp
  have base : p ∈ [s.ring] → p.d = s.ring.d ∧ p.mv = s.ring.mv ∧ p.app = s.ring.app := fun h => by
    rw [List.mem_singleton.mp h]; exact ⟨rfl, rfl, rfl⟩
  dsimp only at hp
  split at hp
  · have := (stat_walk _ _ _).points hp
    unfold StatR at this
    rw [this]; exact ⟨rfl, rfl, rfl⟩
  · exact base hp

/-- **C82, power failure while app data is stored.**  Each byte of the app data is the old or the new one; nothing else has changed. -/
theorem C82_during_appdata (hs : SizesOk a) (he : env.WF a) (hf : fs.WF) (h : Inits a env fs 0 fs')
    (hnew : fs.path = none ∨ a.flags.has SHR_KEEPEXIST = false) {ino : Nat} (hp : fs'.path = some ino) {s : Sys}
    {k : Nat} {get : GetArg} {new : List Byte} {sz : Nat} {e : Env} {B : Nat} (hB : BlockSize B) {D : List Byte}
    (hD : Torn B (fs'.files ino) (s.points (.appdata k get (some new) sz e)) D) :
    decode D = { s.ring with app := (decode D).app } ∧
      ∀ j : Nat, (decode D).app[j]? = s.ring.app[j]? ∨ (decode D).app[j]? = new[j]? := by
  obtain ⟨hl, hal, hw⟩ := fresh_layout hs he hf h hnew hp
  obtain ⟨m1, m2, m3, m4⟩ := hD.mixed hB hl hal
  have key : ∀ p ∈ s.points (.appdata k get (some new) sz e), AppR new s.ring p := by
    intro p hp
    unfold Sys.points at hp
    dsimp only at hp
    split at hp
    · exact (appdata_walk _ _ _ _).points hp
    · rw [List.mem_singleton.mp hp]; exact Preo.refl _
  refine ⟨?_, fun j => ?_⟩
  · obtain ⟨q, hq, e1⟩ := m1.head
    have e2 := (key q hq).1
    have b1 : (decode D).d = s.ring.d := List.ext_getElem? fun j => by
      obtain ⟨q, hq, e⟩ := m1.dat j
      rw [e, (key q hq).1]
    have b2 : (decode D).mv = s.ring.mv := mv_ext fun j => by
      obtain ⟨q, hq, e⟩ := m1.pos j
      obtain ⟨q', hq', e'⟩ := m1.len j
      rw [(key q hq).1] at e
      rw [(key q' hq').1] at e'
      exact ⟨e, e'⟩
    rw [e1, b1, b2, e2]
  · obtain ⟨q, hq, e⟩ := m1.app j
    rw [e]; exact (key q hq).2 j

end

/-! ## Two images of a file mixed at a block boundary -/

theorem torn_two {B : Nat} {f0 g1 g2 : List Byte} {imgs : List Ring} (hB : 0 < B) (hl : LayoutOk f0) (hf : B ≤ f0.length)
    (s1 : FSteps f0 g1) (m1 : decode g1 ∈ imgs) (s2 : FSteps f0 g2) (m2 : decode g2 ∈ imgs) :
    Torn B f0 imgs (g1.take B ++ g2.drop B) := by
  have l1 := (C19_fixed_bytes hl s1).1
  have l2 := (C19_fixed_bytes hl s2).1
  refine ⟨by simp; omega, fun j => ?_⟩
  by_cases hj : j = 0
  · refine ⟨g1, s1, m1, fun k hk => ?_⟩
    subst hj
    have : k < B := by
      rcases Nat.lt_or_ge k B with h | h
      · exact h
      · have := Nat.div_pos h hB; omega
    rw [List.getElem?_append_left (by simp; omega), List.getElem?_take, if_pos this]
  · refine ⟨g2, s2, m2, fun k hk => ?_⟩
    have : B ≤ k := by
      rcases Nat.lt_or_ge k B with h | h
      · rw [Nat.div_eq_of_lt h] at hk; omega
      · exact h
    rw [List.getElem?_append_right (by simp; omega), List.getElem?_drop]
    congr 1
    simp; omega

theorem torn_two_decode {B : Nat} {f0 g1 g2 : List Byte} (hl : LayoutOk f0) (hB : SIZEOF_CTRL ≤ B) (hm : B ≤ mvOff f0)
    (s1 : FSteps f0 g1) (s2 : FSteps f0 g2) :
    decode (g1.take B ++ g2.drop B) = { decode g1 with
      d := (decode g1).d.take (B - SIZEOF_CTRL) ++ (decode g2).d.drop (B - SIZEOF_CTRL), mv := (decode g2).mv, app := (decode g2).app } := by
  obtain ⟨l1, y1, z1, _⟩ := C19_fixed_bytes hl s1
  obtain ⟨l2, y2, z2, _⟩ := C19_fixed_bytes hl s2
  have hlen : B ≤ f0.length := by
    unfold LayoutOk appOff at hl; omega
  generalize hD : g1.take B ++ g2.drop B = D
  have lo : ∀ k, k < B → D[k]? = g1[k]? := fun k hk => by
    rw [← hD, List.getElem?_append_left (by simp; omega), List.getElem?_take, if_pos hk]
  have hi : ∀ k, B ≤ k → D[k]? = g2[k]? := fun k hk => by
    rw [← hD, List.getElem?_append_right (by simp; omega), List.getElem?_drop]
    congr 1
    simp; omega
  have hld : ∀ o n, o + n ≤ SIZEOF_CTRL → ld D o n = ld g1 o n := fun o n hn => ld_congr fun k _ h2 => lo k (by omega)
  have h64 : ∀ o, o + 8 ≤ SIZEOF_CTRL → ld64 D o = ld64 g1 o := fun o ho => by unfold ld64; rw [hld o 8 ho]
  have h32 : ∀ o, o + 4 ≤ SIZEOF_CTRL → ld32 D o = ld32 g1 o := fun o ho => by unfold ld32; rw [hld o 4 ho]
  have zz : ∀ {g : List Byte}, sizesOf g = sizesOf f0 → ld64 g OFF_N = ld64 f0 OFF_N ∧ ld64 g OFF_MV_LEN = ld64 f0 OFF_MV_LEN ∧
      ld64 g OFF_APP_LEN = ld64 f0 OFF_APP_LEN ∧ mvOff g = mvOff f0 ∧ appOff g = appOff f0 := by
    intro g hg
    unfold sizesOf at hg
    simp only [Prod.mk.injEq] at hg
    obtain ⟨e1, e2, e3, e4⟩ := hg
    unfold appOff mvOff
    rw [e1, e2, e3, e4]
    exact ⟨rfl, rfl, rfl, rfl, rfl⟩
  have zD : sizesOf D = sizesOf f0 := by
    rw [← z1]
    unfold sizesOf
    rw [h64 OFF_N (by decide), h64 OFF_PAD_LEN (by decide), h64 OFF_MV_LEN (by decide), h64 OFF_APP_LEN (by decide)]
  obtain ⟨a1, a2, a3, a4, a5⟩ := zz z1
  obtain ⟨b1, b2, b3, b4, b5⟩ := zz z2
  obtain ⟨c1, c2, c3, c4, c5⟩ := zz zD
  have hst : decodeStat D = decodeStat g1 := by
    unfold decodeStat
    rw [h64 _ (by decide), h64 _ (by decide), h64 _ (by decide), h64 _ (by decide), h64 _ (by decide), h64 _ (by decide), h64 _ (by decide),
      h64 _ (by decide), h64 _ (by decide), h64 _ (by decide), h64 _ (by decide), h64 _ (by decide), h64 _ (by decide), h64 _ (by decide),
      h64 _ (by decide), h32 _ (by decide)]
  have e1 : (decode D).d = (decode g1).d.take (B - SIZEOF_CTRL) ++ (decode g2).d.drop (B - SIZEOF_CTRL) := by
    have d1 : (decode g1).d.length = ld64 f0 OFF_N := by
      show (ld g1 SIZEOF_CTRL (ld64 g1 OFF_N)).length = _
      unfold ld
      unfold LayoutOk appOff mvOff at y1
      simp only [List.length_take, List.length_drop]
      omega
    refine List.ext_getElem? fun k => ?_
    have hn : ld64 f0 OFF_N ≤ ld64 f0 OFF_N := Nat.le_refl _
    rw [decode_d_get, c1]
    rcases Nat.lt_or_ge k (B - SIZEOF_CTRL) with hk | hk
    · rcases Nat.lt_or_ge k (ld64 f0 OFF_N) with hk2 | hk2
      · rw [List.getElem?_append_left (by simp; omega), List.getElem?_take, if_pos hk, decode_d_get, a1, lo _ (by omega)]
      · rw [if_neg (by omega), List.getElem?_append_right (by simp; omega), List.getElem?_drop, decode_d_get, b1, if_neg (by simp; omega)]
    · rcases Nat.lt_or_ge k (ld64 f0 OFF_N) with hk2 | hk2
      · rw [List.getElem?_append_right (by simp; omega), List.getElem?_drop, decode_d_get, b1, hi _ (by omega)]
        have : B - SIZEOF_CTRL + (k - (List.take (B - SIZEOF_CTRL) (decode g1).d).length) = k := by simp; omega
        rw [this]
      · rw [if_neg (by omega), List.getElem?_append_right (by simp; omega), List.getElem?_drop, decode_d_get, b1, if_neg (by simp; omega)]
  have e2 : (decode D).mv = (decode g2).mv := List.ext_getElem? fun j => by
    rw [decode_mv_get, decode_mv_get, c2, c4, b2, b4]
    have : ∀ o, mvOff f0 ≤ o → ld64 D o = ld64 g2 o := fun o ho => by
      unfold ld64
      rw [ld_congr fun k h1 _ => hi k (by omega)]
    rw [this _ (by omega), this _ (by omega)]
  have e3 : (decode D).app = (decode g2).app := List.ext_getElem? fun j => by
    rw [decode_app_get, decode_app_get, c3, c5, b3, b5]
    rw [hi _ (by unfold appOff; omega)]
  rw [← e1, ← e2, ← e3]
  simp only [decode, Ring.mk.injEq]
  refine ⟨?_, ?_, ?_, ?_, ?_, ?_, ?_, ?_, ?_, hst, ?_, ?_, ?_, ?_, trivial, trivial, trivial⟩
  · rw [h32 _ (by decide)]
  all_goals exact h64 _ (by decide)

/-! ## Counterexamples: a ring whose data area ends with the first page of 4096 bytes -/

/-- 2312 data bytes after the 1784 bytes of the control block; the two message slots are in the second page. -/
def pwA : InitArgs := { dataSz := 2312, maxMsgs := 2, flags := SHR_MAXMSGS_2 ||| SHR_SYNC }
def pwD : InitArgs := { dataSz := 2312, maxMsgs := 2, flags := SHR_MAXMSGS_2 ||| SHR_SYNC ||| SHR_DROP }

theorem pwA_ok : SizesOk pwA := ⟨by decide, by decide, by decide⟩
theorem pwD_ok : SizesOk pwD := ⟨by decide, by decide, by decide⟩
theorem pwA_init : Inits pwA {} emptyFS 0 (afterInit pwA {} emptyFS) := inits_of (by decide +kernel)
theorem pwD_init : Inits pwD {} emptyFS 0 (afterInit pwD {} emptyFS) := inits_of (by decide +kernel)
theorem pwEnv_wf (a : InitArgs) : InitEnv.WF {} a := fun _ h => nomatch h

/-- Two images of the ring can always be mixed at the end of the first page. -/
theorem pw_mix {a : InitArgs} (ha : a = pwA ∨ a = pwD) {ops : List Op} {op : Op} (v : Valid a (ops ++ [op])) (ht : TimesOk (ops ++ [op]))
    {p1 p2 : Ring} (h1 : p1 ∈ (final a ops).points op) (h2 : p2 ∈ (final a ops).points op) :
    ∃ ino D, (afterInit a {} emptyFS).path = some ino ∧ Torn 4096 ((afterInit a {} emptyFS).files ino) ((final a ops).points op) D ∧
      decode D = { p1 with d := p1.d.take 2312 ++ p2.d.drop 2312, mv := p2.mv, app := p2.app } := by
  have hs : SizesOk a := ha.elim (fun e => e ▸ pwA_ok) (fun e => e ▸ pwD_ok)
  have hi : Inits a {} emptyFS 0 (afterInit a {} emptyFS) := ha.elim (fun e => e ▸ pwA_init) (fun e => e ▸ pwD_init)
  obtain ⟨ino, f, k1, hl, k2, k3, k4⟩ := C19_every_store hs (pwEnv_wf a) emptyFS_wf hi (.inl rfl) v ht v.left.runs
  obtain ⟨g1, s1, d1⟩ := k4 p1 h1
  obtain ⟨g2, s2, d2⟩ := k4 p2 h2
  obtain ⟨_, _, hw⟩ := fresh_layout hs (pwEnv_wf a) emptyFS_wf hi (.inl rfl) k1
  obtain ⟨w1, w2, _⟩ := whole_fields hw
  have hoff : mvOff ((afterInit a {} emptyFS).files ino) = 4096 := by
    unfold mvOff
    rw [w1, w2]
    rcases ha with rfl | rfl <;> decide
  have hlen : 4096 ≤ ((afterInit a {} emptyFS).files ino).length := by
    have := hl
    unfold LayoutOk appOff at this
    omega
  refine ⟨ino, _, k1, torn_two (by decide) hl hlen (k2.trans s1) (d1 ▸ h1) (k2.trans s2) (d2 ▸ h2), ?_⟩
  rw [torn_two_decode hl (by decide) (by omega) (k2.trans s1) (k2.trans s2), d1, d2]
  rfl

/-- Two messages have been written and read. -/
def pwOps : List Op := [opn 0 (SHR_WRONLY ||| SHR_NONBLOCK), opn 1 (SHR_RDONLY ||| SHR_NONBLOCK), wr 0 [[1, 2, 3]], rd 1 4 1, wr 0 [[4, 5]],
  rd 1 4 1]
theorem pw_valid : Valid pwA (pwOps ++ [wr 0 [[9]]]) := valid_of (by decide +kernel)
theorem noTimes {l : List Op} (h : l.all (fun op => match op with | .stat _ (some _) _ => false | _ => true) = true) : TimesOk l := by
  intro op hm k t env e
  have := List.all_eq_true.mp h op hm
  rw [e] at this; cases this

/-- What is found after the power failure: the first page is new, the second is not. -/
def pwTorn : Ring := { (final pwA (pwOps ++ [wr 0 [[9]]])).ring with mv := (final pwA pwOps).ring.mv }

/-- **C82 during a write, what is missing.**  The message 9 is being written when the power fails; the first page had been written to the
disk, the second not yet.  In the place of the message is 1 2 3, which was read long ago, and it is read again. -/
theorem C82_counterexample_torn_write : ∃ ino D, (afterInit pwA {} emptyFS).path = some ino ∧
    Torn 4096 ((afterInit pwA {} emptyFS).files ino) ((final pwA pwOps).points (wr 0 [[9]])) D ∧
    (final pwA pwOps).ring.unreadMsgs = [] ∧ (decode D).unreadMsgs = [[1, 2, 3]] ∧
    (Sys.mk (decode D) fun _ => .never).outs [opn 1 (SHR_RDONLY ||| SHR_NONBLOCK), rd 1 4 1] =
      [.opened true, .read 3 [(0, 3)] [1, 2, 3, 0]] := by
  obtain ⟨ino, D, h1, h2, h3⟩ := pw_mix (.inl rfl) pw_valid (noTimes (by decide +kernel)) (step_points pw_valid.steps)
    (p2 := (final pwA pwOps).ring) (by
      have : ((final pwA pwOps).points (wr 0 [[9]])).getD 0 (final pwA []).ring = (final pwA pwOps).ring := by decide +kernel
      rw [← this]
      exact crash_getD_mem (by decide +kernel))
  have hd : decode D = pwTorn := by rw [h3]; decide +kernel
  refine ⟨ino, D, h1, h2, by decide +kernel, ?_, ?_⟩
  · rw [hd]; decide +kernel
  · rw [hd]; decide +kernel

/-- A DROP ring with two unread messages. -/
def pwDOps : List Op := [opn 0 (SHR_WRONLY ||| SHR_NONBLOCK), wr 0 [[1, 2]], wr 0 [[3, 4]]]
theorem pwD_valid : Valid pwD (pwDOps ++ [wr 0 [[5, 6, 7]]]) := valid_of (by decide +kernel)
def pwDTorn : Ring := { (final pwD pwDOps).ring with mv := (final pwD (pwDOps ++ [wr 0 [[5, 6, 7]]])).ring.mv }

/-- **C82 during a write that drops.**  Two messages are unread in a DROP ring, both confirmed and on the disk.  A third one is being written
(which drops the first) when the power fails; this time the second page had been written to the disk.  The first message is lost, and
in its place is one that nobody wrote. -/
theorem C82_counterexample_torn_drop : ∃ ino D, (afterInit pwD {} emptyFS).path = some ino ∧
    Torn 4096 ((afterInit pwD {} emptyFS).files ino) ((final pwD pwDOps).points (wr 0 [[5, 6, 7]])) D ∧
    (final pwD pwDOps).ring.unreadMsgs = [[1, 2], [3, 4]] ∧ (decode D).unreadMsgs = [[0, 0, 0], [3, 4]] := by
  obtain ⟨ino, D, h1, h2, h3⟩ := pw_mix (.inr rfl) pwD_valid (noTimes (by decide +kernel)) (p1 := (final pwD pwDOps).ring) (by
      have : ((final pwD pwDOps).points (wr 0 [[5, 6, 7]])).getD 0 (final pwD []).ring = (final pwD pwDOps).ring := by decide +kernel
      rw [← this]
      exact crash_getD_mem (by decide +kernel)) (step_points pwD_valid.steps)
  have hd : decode D = pwDTorn := by rw [h3]; decide +kernel
  refine ⟨ino, D, h1, h2, by decide +kernel, ?_⟩
  rw [hd]; decide +kernel

/-- A read during which msync fails. -/
def pwRd : Op := .readv 1 (List.replicate 4 0) 1 { syncOk := false }
def pwROps : List Op := [opn 0 (SHR_WRONLY ||| SHR_NONBLOCK), opn 1 (SHR_RDONLY ||| SHR_NONBLOCK), wr 0 [[1, 2, 3]]]
theorem pwR_split : [opn 0 (SHR_WRONLY ||| SHR_NONBLOCK), opn 1 (SHR_RDONLY ||| SHR_NONBLOCK)] ++ [wr 0 [[1, 2, 3]]] = pwROps := rfl
theorem pwR_valid : Valid pwA (pwROps ++ [pwRd]) := valid_of (by decide +kernel)

/-- **Why reads do not confirm.**  A read reports success although its msync failed (src/shr.c:852); after a power failure the message is
unread again.  The images since the last msync contain the ring before the read. -/
theorem C81_counterexample_read : ∃ ino D, (afterInit pwA {} emptyFS).path = some ino ∧
    lastOut pwA (pwROps ++ [pwRd]) = .read 3 [(0, 3)] [1, 2, 3, 0] ∧
    Torn 4096 ((afterInit pwA {} emptyFS).files ino) ((final pwA pwROps).points pwRd) D ∧
    (∀ imgs y o, (Power.mk (final pwA pwROps) imgs).step pwRd = .ok (y, o) → ∀ p ∈ (final pwA pwROps).points pwRd, p ∈ y.imgs) ∧
    (decode D).unreadMsgs = [[1, 2, 3]] := by
  have h0 : (final pwA pwROps).ring ∈ (final pwA pwROps).points pwRd := by
    have : ((final pwA pwROps).points pwRd).getD 0 (final pwA []).ring = (final pwA pwROps).ring := by decide +kernel
    rw [← this]
    exact crash_getD_mem (by decide +kernel)
  obtain ⟨ino, D, h1, h2, h3⟩ := pw_mix (.inl rfl) pwR_valid (noTimes (by decide +kernel)) h0 h0
  have hd : decode D = (final pwA pwROps).ring := by rw [h3]; decide +kernel
  refine ⟨ino, D, h1, by decide +kernel, h2, ?_, ?_⟩
  · intro imgs y o h p hp
    have hn : (final pwA pwROps).synced pwRd = false := by decide +kernel
    rw [(Power.step_ok h).2]
    dsimp only
    rw [hn]
    exact List.mem_append_right _ hp
  · rw [hd]; decide +kernel

/-! ## The hypotheses can be met -/

/-- The ring is opened and written to; the write confirms that the message is on the disk, and what a power failure leaves is the ring with this
message.  The two reads after it confirm nothing, but their msync succeeds. -/
example : ∃ ino imgs D, (afterInit pwA {} emptyFS).path = some ino ∧
    (Power.mk (Sys.init pwA) []).run pwROps = .ok (⟨final pwA pwROps, imgs⟩, [.opened true, .opened true, .wrote 3]) ∧
    Torn 4096 ((afterInit pwA {} emptyFS).files ino) imgs D ∧ RingFile D ∧ (decode D).unreadMsgs = [[1, 2, 3]] := by
  have v : Valid pwA pwROps := pwR_valid.left
  have ht : TimesOk pwROps := noTimes (by decide +kernel)
  obtain ⟨imgs1, e1⟩ := Power.runs [opn 0 (SHR_WRONLY ||| SHR_NONBLOCK), opn 1 (SHR_RDONLY ||| SHR_NONBLOCK)] [] (s := Sys.init pwA)
    (Valid.runs (a := pwA) (ops := [opn 0 (SHR_WRONLY ||| SHR_NONBLOCK), opn 1 (SHR_RDONLY ||| SHR_NONBLOCK)]) (valid_of (by decide +kernel)))
  obtain ⟨imgs2, e2⟩ := Power.runs pwROps [] v.runs
  have e3 : outsOf pwA pwROps = [.opened true, .opened true, .wrote 3] := by decide +kernel
  obtain ⟨ino, f, k1, hl, k2, k3, k4⟩ := C19_every_store pwA_ok (pwEnv_wf pwA) emptyFS_wf pwA_init (.inl rfl) pwR_valid
    (noTimes (by decide +kernel)) v.runs
  have hstep : (Power.mk (final pwA [opn 0 (SHR_WRONLY ||| SHR_NONBLOCK), opn 1 (SHR_RDONLY ||| SHR_NONBLOCK)]) imgs1).step (wr 0 [[1, 2, 3]]) =
      .ok (⟨final pwA pwROps, [(final pwA pwROps).ring]⟩, .wrote 3) := by
    have h1 := Valid.steps (a := pwA) (ops := [opn 0 (SHR_WRONLY ||| SHR_NONBLOCK), opn 1 (SHR_RDONLY ||| SHR_NONBLOCK)])
      (op := wr 0 [[1, 2, 3]]) v
    have h2 : (final pwA [opn 0 (SHR_WRONLY ||| SHR_NONBLOCK), opn 1 (SHR_RDONLY ||| SHR_NONBLOCK)]).synced (wr 0 [[1, 2, 3]]) = true := by
      decide +kernel
    have h3 : lastOut pwA pwROps = .wrote 3 := by decide +kernel
    exact Power.step_synced h1 h2 (show final pwA ([opn 0 (SHR_WRONLY ||| SHR_NONBLOCK), opn 1 (SHR_RDONLY ||| SHR_NONBLOCK)] ++ [wr 0 [[1, 2, 3]]]) = _ from congrArg _ pwR_split) ((congrArg _ pwR_split).trans h3)
  have e4 : imgs2 = [(final pwA pwROps).ring] := by
    have h6 := Power.run_snoc e1 hstep (w := ⟨final pwA pwROps, imgs2⟩) (os' := outsOf pwA pwROps) (by rw [pwR_split]; exact e2)
    exact congrArg Power.imgs h6
  have hT : Torn 4096 ((afterInit pwA {} emptyFS).files ino) imgs2 f := by
    refine ⟨(C19_fixed_bytes hl k2).1, fun j => ⟨f, k2, ?_, fun _ _ => rfl⟩⟩
    rw [k3, e4]; simp
  have hC : Confirms (final pwA [opn 0 (SHR_WRONLY ||| SHR_NONBLOCK), opn 1 (SHR_RDONLY ||| SHR_NONBLOCK)]) (wr 0 [[1, 2, 3]]) (.wrote 3) := by
    refine ⟨by decide, fun h hk => ?_⟩
    have : ((match (final pwA [opn 0 (SHR_WRONLY ||| SHR_NONBLOCK), opn 1 (SHR_RDONLY ||| SHR_NONBLOCK)]).hs 0 with
      | .live h => h.flags.has SHR_BUFFERED
      | _ => true)) = false := by decide +kernel
    rw [hk] at this
    exact this
  obtain ⟨q1, q2⟩ := C81_power_failure pwA_ok (pwEnv_wf pwA) emptyFS_wf pwA_init (by decide) (.inl rfl) k1
    (ops := [opn 0 (SHR_WRONLY ||| SHR_NONBLOCK), opn 1 (SHR_RDONLY ||| SHR_NONBLOCK)]) (op := wr 0 [[1, 2, 3]]) (more := [])
    v ht (by decide) e1 hstep hC rfl (fun _ h => by cases h) (B := 4096) ⟨by decide, by decide⟩ (by rw [← e4]; exact hT)
  refine ⟨ino, imgs2, f, k1, by rw [e2, e3], hT, q2, ?_⟩
  rw [q1]; decide +kernel

/-- The counters of a ring without SHR_SYNC are reset: the contents before it and after it are both possible. -/
def pwStat : Op := .stat 0 (some ⟨1, 2⟩) {}
theorem pwStat_valid : Valid demoA (demoOps ++ [pwStat]) := valid_of (by decide +kernel)
theorem Power.steps_unsynced {ops : List Op} {op : Op} (v : Valid a (ops ++ [op])) (hn : a.flags.has SHR_SYNC = false) :
    ∃ y, (Power.mk (final a ops) []).step op = .ok (y, lastOut a (ops ++ [op])) ∧ y.imgs = (final a ops).points op := by
  have e : ∃ y, (Power.mk (final a ops) []).step op = .ok (y, lastOut a (ops ++ [op])) := by
    unfold Power.step
    rw [v.steps]
    exact ⟨_, rfl⟩
  obtain ⟨y, e⟩ := e
  have h := C81_unsynced (x := ⟨final a ops, []⟩) v v.left.runs (.inl hn) e
  rw [List.nil_append] at h
  exact ⟨y, e, h⟩
example : ∃ y, (Power.mk (final demoA demoOps) []).step pwStat = .ok (y, lastOut demoA (demoOps ++ [pwStat])) ∧
    y.imgs = (final demoA demoOps).points pwStat ∧ 2 ≤ y.imgs.length := by
  obtain ⟨y, e, h⟩ := Power.steps_unsynced pwStat_valid (by decide)
  exact ⟨y, e, h, by rw [h]; decide +kernel⟩

end Shr
