import Verif.Proof.WakeKill
/-! # Deaths inside calls that neither write nor take anything -/
namespace Shr

/-- A read of a ring (not a farm) in which nothing is unread stores nothing. -/
theorem readv_empty_stores_nothing {r : Ring} {g : Nat} (hv : CView r g []) (hf : r.gflags.has SHR_FARM = false) (h : Handle)
    (hrd : h.flags.has SHR_RDONLY = true) (hwr : (!h.flags.has SHR_WRONLY) = true) (buf : List Byte) (niov : Nat) (env : Env) :
    Ok (shr_readv h buf buf.length niov env) r (fun p => p = r) (fun _ p => p = r) := by
  unfold shr_readv readvAttempt
  apply Ok.bind
  apply Ok.assert_bind hrd
  by_cases hb0 : buf.length = 0
  · rw [if_pos hb0]; exact Ok.pure (Ok.pure rfl)
  rw [if_neg hb0]
  by_cases hn0 : niov = 0
  · rw [if_pos hn0]; exact Ok.pure (Ok.pure rfl)
  rw [if_neg hn0]
  by_cases hlk : env.lockOk = false
  · rw [if_pos hlk]; exact Ok.pure (Ok.pure rfl)
  rw [if_neg hlk]
  apply Ok.get_bind
  have hr := hv.rview hf h.cur
  obtain ⟨hnil, _⟩ := next_msg_info_spec hr
  refine Ok.lift_bind (hnil rfl) ?_
  dsimp only
  apply Ok.assert_bind hwr
  by_cases hnbk : h.flags.has SHR_NONBLOCK = true
  · simp only [if_pos hnbk]
    exact Ok.pure (Ok.pure rfl)
  · simp only [if_neg hnbk]
    cases env.waitRc with
    | none => exact Ok.pure (Ok.pure rfl)
    | some sc => exact Ok.pure (Ok.pure rfl)

/-- At every moment of a call that does not write, and which (on a ring that is not a farm) finds nothing to read, the ring is as before,
except for the counters and the app data. -/
theorem looker_points {s : Sys} {sp : Spec} (h : Rel s sp) {op : Op} (hwf : op.WF sp.app.length) (hl : op.writes = false)
    (hdry : ∀ k buf niov env, op = .readv k buf niov env → sp.farm = true ∨ sp.unread = []) {p : Ring} (hp : p ∈ s.points op) :
    p = { s.ring with stat := p.stat, app := p.app } := by
  have one : s.points op = [s.ring] → p = { s.ring with stat := p.stat, app := p.app } := fun e => by
    rw [e] at hp; rw [List.mem_singleton.mp hp]
  have hwr := h.noBoth
  cases op with
  | «open» k flags env => exact one rfl
  | readv k buf niov env =>
    cases e : s.hs k with
    | live hd =>
      obtain ⟨sh, e2, hh⟩ := h.live e
      by_cases hf : hd.flags.has SHR_RDONLY = false
      · exact one (by unfold Sys.points; dsimp only; rw [e]; dsimp only; rw [if_pos hf])
      have hpts : s.points (.readv k buf niov env) = (shr_readv hd buf buf.length niov env s.ring).points := by
        unfold Sys.points; dsimp only; rw [e]; dsimp only; rw [if_neg hf]
      rw [hpts] at hp
      cases hfm : sp.farm with
      | true =>
        have e3 := (shr_readv_farm (h.ring.farmR hfm) hfm hh (by rw [← hh.flags]; simpa using hf) buf hwf niov env).points (fun _ _ h => h.1) p hp
        rw [e3]
      | false =>
        have hu : sp.unread = [] := by
          rcases hdry k buf niov env rfl with h | h
          · rw [hfm] at h; cases h
          · exact h
        have hcv := h.ring.cview
        rw [hu] at hcv
        have e3 := (readv_empty_stores_nothing hcv (by rw [h.ring.gf]; exact hfm) hd (by simpa using hf) (hwr k hd e (by simpa using hf)) buf niov env).points
          (fun _ _ h => h) p hp
        rw [e3]
    | _ => exact one (by unfold Sys.points; dsimp only; rw [e])
  | stat k reset env =>
    cases e : s.hs k with
    | live hd =>
      have hpts : s.points (.stat k reset env) = (shr_stat hd reset env s.ring).points := by
        unfold Sys.points; dsimp only; rw [e]
      rw [hpts] at hp
      rcases (shr_stat_crash hd reset env s.ring).points (fun _ _ h => h) p hp with rfl | ⟨t, rfl⟩ <;> rfl
    | _ => exact one (by unfold Sys.points; dsimp only; rw [e])
  | farmStat k reset =>
    cases e : s.hs k with
    | live hd =>
      by_cases hf : hd.flags.has SHR_RDONLY = false
      · exact one (by unfold Sys.points; dsimp only; rw [e]; dsimp only; rw [if_pos hf])
      have hpts : s.points (.farmStat k reset) = (shr_farm_stat hd reset s.ring).points := by
        unfold Sys.points; dsimp only; rw [e]; dsimp only; rw [if_neg hf]
      rw [hpts] at hp
      rw [(shr_farm_stat_ok (by simpa using hf) reset s.ring).points (fun _ _ h => h.1) p hp]
    | _ => exact one (by unfold Sys.points; dsimp only; rw [e])
  | appdata k get set sz env =>
    cases e : s.hs k with
    | live hd =>
      have hpts : s.points (.appdata k get set sz env) = (shr_appdata get set sz env s.ring).points := by
        unfold Sys.points; dsimp only; rw [e]
      rw [hpts] at hp
      rcases (shr_appdata_crash env h.ring.typed.app (by rw [h.ring.app_len]; exact hwf)).points (fun _ _ h => h) p hp with rfl | ⟨b, hb, rfl⟩ <;> rfl
    | _ => exact one (by unfold Sys.points; dsimp only; rw [e])
  | _ => cases hl

/-! ## Block/wake calls other than `bw_wake`, cut short, send nothing to others -/

/-- The states in which a fragment can be found, if it is composed of two. -/
theorem mem_points_seq {σ α β : Type} {x : M σ α} {f : α → M σ β} {r p : σ} (h : p ∈ ((x >>= f) r).points) :
    p ∈ (x r).points ∨ ∃ a s, (x r).res = .ok a s ∧ p ∈ (f a s).points := by
  unfold Run.points at h ⊢
  rw [M.bind_apply] at h
  cases hx : (x r).res with
  | ok a s =>
    rw [hx] at h
    simp only [List.mem_append] at h
    rcases h with (h | h) | h
    · exact .inl (List.mem_append_left _ h)
    · exact .inr ⟨a, s, rfl, List.mem_append_left _ h⟩
    · exact .inr ⟨a, s, rfl, List.mem_append_right _ (by
        generalize f a s = y at h ⊢
        obtain ⟨t, e⟩ := y
        cases e <;> exact h)⟩
  | abort s =>
    rw [hx] at h
    refine .inl ?_
    generalize x r = y at *
    obtain ⟨t, e⟩ := y
    cases hx
    exact h
  | ub =>
    rw [hx] at h
    refine .inl ?_
    generalize x r = y at *
    obtain ⟨t, e⟩ := y
    cases hx
    exact h
  | hang =>
    rw [hx] at h
    refine .inl ?_
    generalize x r = y at *
    obtain ⟨t, e⟩ := y
    cases hx
    exact h

theorem result_mem_points {σ α : Type} {x : M σ α} {r : σ} {a : α} {s : σ} (h : (x r).res = .ok a s) : s ∈ (x r).points := by
  unfold Run.points
  generalize x r = y at *
  obtain ⟨t, e⟩ := y
  cases h
  simp [Run.final]

/-- The fragment does not touch sockets. -/
def NoSock {α : Type} (m : M Shared α) : Prop := ∀ x, ∀ y ∈ (m x).points, y.1 = x.1

namespace NoSock
variable {α β : Type}

theorem bind {m : M Shared α} {f : α → M Shared β} (h : NoSock m) (hf : ∀ a, NoSock (f a)) : NoSock (m >>= f) := by
  intro x y hy
  rcases mem_points_seq hy with h1 | ⟨a, s, h1, h2⟩
  · exact h x y h1
  · exact (hf a s y h2).trans (h x s (result_mem_points h1))
theorem pure (a : α) : NoSock (Pure.pure a : M Shared α) := by
  intro x y hy
  have : y = x := by simpa [Run.points, Run.final] using hy
  rw [this]
theorem get_bind {f : Shared → M Shared β} (h : ∀ x, NoSock (f x)) : NoSock (M.get >>= f) := by
  intro x y hy
  rw [M.get_bind] at hy
  exact h x x y hy
theorem store {g : Shared → Shared} (h : ∀ x, (g x).1 = x.1) : NoSock (M.store g) := by
  intro x y hy
  have : y = x ∨ y = g x := by simpa [M.store, Run.points, Run.final] using hy
  rcases this with rfl | rfl
  · rfl
  · exact h x
theorem ite {c : Prop} [Decidable c] {m m' : M Shared α} (h : NoSock m) (h' : NoSock m') : NoSock (if c then m else m') := by
  split <;> assumption

theorem putPid (n v : Nat) : NoSock (putPid n v) := store fun _ => rfl
theorem putName (n v : Nat) : NoSock (putName n v) := store fun _ => rfl
theorem incSeq : NoSock incSeq := store fun _ => rfl
theorem releaseM (n : Nat) : NoSock (releaseM n) := bind (putPid n 0) fun _ => incSeq
theorem pruneSlotM (os : Os) (n : Nat) : NoSock (pruneSlotM os n) := by
  unfold Shr.pruneSlotM
  exact get_bind fun x => ite (pure _) (ite (releaseM n) (pure _))
theorem pruneLoopM (os : Os) : ∀ ns : List Nat, NoSock (pruneLoopM os ns)
  | [] => pure _
  | n :: ns => bind (pruneSlotM os n) fun _ => pruneLoopM os ns
theorem pruneM (os : Os) : NoSock (pruneM os) := pruneLoopM os _
theorem openSocketM (os : Os) (w : WakeT) (n : Nat) : NoSock (openSocketM os w n) := by
  unfold Shr.openSocketM
  refine get_bind fun x => ite (pure _) ?_
  cases connect x.1 (w.name n) (os.connOk n) with
  | some sid => exact pure _
  | none => exact ite (bind (releaseM n) fun _ => pure _) (pure _)
theorem syncSlotM (os : Os) (w : WakeT) (n : Nat) : NoSock (syncSlotM os w n) := by
  unfold Shr.syncSlotM
  exact get_bind fun x => ite (openSocketM _ _ _) (pure _)
theorem syncLoopM (os : Os) : ∀ (ns : List Nat) (w : WakeT), NoSock (syncLoopM os ns w)
  | [], _ => pure _
  | n :: ns, w => by
    unfold Shr.syncLoopM
    refine bind (syncSlotM os w n) fun r => ?_
    cases r.2 with
    | true => exact syncLoopM os ns _
    | false => exact pure _
theorem syncM (os : Os) (w : WakeT) : NoSock (syncM os w) := by
  unfold Shr.syncM
  refine get_bind fun x => ite (pure _) (bind (syncLoopM os _ w) fun r => ?_)
  cases r.2 with
  | true => exact get_bind fun _ => pure _
  | false => exact pure _
theorem openWakeM (os : Os) : NoSock (openWakeM os) := by
  unfold Shr.openWakeM
  refine ite (pure _) (bind (pruneM os) fun _ => bind (syncM os _) fun r => ?_)
  cases r.2 <;> exact pure _
theorem nameM (n : Nat) : ∀ (gs : List Nat) (v : Nat), NoSock (nameM n gs v)
  | [], v => by unfold Shr.nameM; exact putName n v
  | g :: gs, v => by unfold Shr.nameM; exact bind (putName n g) fun _ => nameM n gs v

end NoSock

/-- The fragment keeps `S`, and returns what `R` says. -/
def SockKeeps {α : Type} (S : Kern → Prop) (m : M Shared α) (R : α → Prop) : Prop :=
  ∀ x, S x.1 → (∀ y ∈ (m x).points, S y.1) ∧ ∀ a z, (m x).res = .ok a z → R a

namespace SockKeeps
variable {α β : Type} {S : Kern → Prop}

theorem bind {m : M Shared α} {f : α → M Shared β} {R : α → Prop} {R' : β → Prop} (h : SockKeeps S m R) (hf : ∀ a, R a → SockKeeps S (f a) R') :
    SockKeeps S (m >>= f) R' := by
  intro x hx
  obtain ⟨h1, h2⟩ := h x hx
  refine ⟨fun y hy => ?_, fun b z e => ?_⟩
  · rcases mem_points_seq hy with g | ⟨a, s, g1, g2⟩
    · exact h1 y g
    · exact (hf a (h2 a s g1) s (h1 s (result_mem_points g1))).1 y g2
  · rw [M.bind_apply] at e
    cases hm : (m x).res with
    | ok a s =>
      rw [hm] at e
      exact (hf a (h2 a s hm) s (h1 s (result_mem_points hm))).2 b z e
    | abort s => rw [hm] at e; cases e
    | ub => rw [hm] at e; cases e
    | hang => rw [hm] at e; cases e
theorem of_noSock {m : M Shared α} (h : NoSock m) : SockKeeps S m (fun _ => True) :=
  fun x hx => ⟨fun y hy => by rw [h x y hy]; exact hx, fun _ _ _ => trivial⟩
theorem pure {a : α} {R : α → Prop} (h : R a) : SockKeeps S (Pure.pure a) R := by
  intro x hx
  refine ⟨(of_noSock (NoSock.pure a) x hx).1, fun b z e => ?_⟩
  have : a = b ∧ x = z := by simpa using e
  rw [← this.1]; exact h
theorem get_bind {f : Shared → M Shared β} {R : β → Prop} (h : ∀ x, S x.1 → ∀ x', S x'.1 → x' = x → (∀ y ∈ (f x x').points, S y.1) ∧ ∀ a z, (f x x').res = .ok a z → R a) :
    SockKeeps S (M.get >>= f) R := by
  intro x hx
  rw [M.get_bind]
  exact h x hx x hx rfl
theorem get {f : Shared → M Shared β} {R : β → Prop} (h : ∀ x, S x.1 → SockKeeps S (f x) R) : SockKeeps S (M.get >>= f) R :=
  get_bind fun x hx x' hx' _ => h x hx x' hx'
theorem ite {c : Prop} [Decidable c] {m m' : M Shared α} {R : α → Prop} (h : SockKeeps S m R) (h' : SockKeeps S m' R) : SockKeeps S (if c then m else m') R := by
  split <;> assumption
theorem sysK {f : Kern → Kern} {R : Unit → Prop} (h : ∀ k, S k → S (f k)) (hr : R ()) : SockKeeps S (sysK f) R := by
  intro x hx
  refine ⟨fun y hy => ?_, fun _ _ _ => hr⟩
  have : y = x ∨ y = (f x.1, x.2) := by simpa [Shr.sysK, M.store, Run.points, Run.final] using hy
  rcases this with rfl | rfl
  · exact hx
  · exact h _ hx

end SockKeeps

/-- The sockets made before `n0` have the datagrams that `v` says. -/
def OldQueues (n0 : Nat) (v : Nat → Nat) (k : Kern) : Prop := n0 ≤ k.next ∧ ∀ t, t < n0 → k.pending t = v t

theorem openWaitM_keeps (n0 : Nat) (v : Nat → Nat) (os : Os) (pid : Nat) (gs : List Nat) : SockKeeps (OldQueues n0 v) (openWaitM os pid gs) (fun _ => True) := by
  have hbind : ∀ (k : Kern) (y : Sock), OldQueues n0 v k → n0 ≤ y.sid → OldQueues n0 v { socks := k.socks ++ [y], next := k.next + 1 } :=
    fun k y hk hy => ⟨Nat.le_succ_of_le hk.1, fun t ht => (pending_register k y _ (by omega)).trans (hk.2 t ht)⟩
  have hclose : ∀ (k : Kern) (sid : Nat), OldQueues n0 v k → n0 ≤ sid → OldQueues n0 v (k.close sid) :=
    fun k sid hk hy => ⟨hk.1, fun t ht => (pending_close k (by omega)).trans (hk.2 t ht)⟩
  have hmake : ∀ n, SockKeeps (OldQueues n0 v) (makeSocketM os pid gs n) (fun r => ∀ sid, r = some sid → n0 ≤ sid) := by
    intro n
    unfold makeSocketM
    refine SockKeeps.get fun x hx => SockKeeps.ite (SockKeeps.pure (by simp)) (SockKeeps.ite (SockKeeps.pure (by simp)) ?_)
    refine SockKeeps.bind (R := fun _ => True) ?_ fun _ _ => SockKeeps.bind (SockKeeps.of_noSock (NoSock.nameM _ _ _)) fun _ _ => SockKeeps.pure ?_
    · exact SockKeeps.sysK (fun k hk => hbind k _ hk hk.1) trivial
    · intro sid e; cases e; exact hx.1
  have hres : SockKeeps (OldQueues n0 v) (reserveM os pid gs) (fun r => ∀ n sid, r = some (n, sid) → n0 ≤ sid) := by
    unfold reserveM
    refine SockKeeps.get fun x hx => ?_
    split
    · exact SockKeeps.pure (by simp)
    · refine SockKeeps.bind (hmake _) fun r hr => ?_
      cases r with
      | none => exact SockKeeps.pure (by simp)
      | some sid =>
        refine SockKeeps.bind (SockKeeps.of_noSock (NoSock.putPid _ _)) fun _ _ => SockKeeps.bind (SockKeeps.of_noSock NoSock.incSeq) fun _ _ => SockKeeps.pure ?_
        intro n sid' e; cases e; exact hr _ rfl
  have hundo : ∀ n sid, n0 ≤ sid → SockKeeps (OldQueues n0 v) (undoM n sid) (fun _ => True) := by
    intro n sid hs
    unfold undoM
    exact SockKeeps.bind (SockKeeps.of_noSock (NoSock.putPid _ _)) fun _ _ =>
      SockKeeps.bind (R := fun _ => True) (SockKeeps.sysK (fun k hk => hclose k sid hk hs) trivial) fun _ _ => SockKeeps.pure trivial
  unfold openWaitM
  refine SockKeeps.ite (SockKeeps.pure trivial) (SockKeeps.bind (SockKeeps.of_noSock (NoSock.pruneM os)) fun _ _ => SockKeeps.bind hres fun r hr => ?_)
  split
  · exact SockKeeps.pure trivial
  · rename_i n sid
    refine SockKeeps.get fun x hx => ?_
    split
    · exact hundo _ _ (hr _ _ rfl)
    · exact SockKeeps.ite (hundo _ _ (hr _ _ rfl)) (SockKeeps.pure trivial)

/-- At every moment of a call other than `bw_wake` the sockets of other processes have the datagrams they had. -/
theorem points_quiet {s : BSys} (hi : BInv s) {op : BOp} (hw : ∀ j os, op ≠ .wake j os) {gs : List Nat} {a p : Nat} {pts : List Shared}
    (e : s.points gs op = some (a, p, pts)) {x : Shared} (hx : x ∈ pts) {i b q : Nat} {w : WaitT} (ew : s.ts i = some (.wait b q w)) (hq : q ≠ p) :
    x.1.pending w.sid = s.kern.pending w.sid := by
  have r := hi.reg i b q w ew
  have hlt := r.sid_lt hi.k
  have hne : ∀ {j c : Nat} {v : WaitT}, s.ts j = some (.wait c p v) → w.sid ≠ v.sid := by
    intro j c v ej h
    have := hi.dist j i c p v b q w ej ew h.symm
    subst this
    rw [ej] at ew; cases ew; exact hq rfl
  have own : ∀ {f : Kern → Kern} {g : Kern → Bool} {y : Shared}, (f s.kern).pending w.sid = s.kern.pending w.sid →
      y ∈ ((do let z ← M.get; sysK f; Pure.pure (g z.1)) (s.kern, s.hd a) : Run Shared Bool).points → y.1.pending w.sid = s.kern.pending w.sid := by
    intro f g y hf hy
    rw [M.get_bind] at hy
    rcases mem_points_seq hy with h | ⟨u, z, h1, h2⟩
    · have : y = (s.kern, s.hd a) ∨ y = (f s.kern, s.hd a) := by simpa [sysK, M.store, Run.points, Run.final] using h
      rcases this with rfl | rfl
      · rfl
      · exact hf
    · have h3 : (f s.kern, s.hd a) = z := by simpa [sysK, M.store] using h1
      have h4 := NoSock.pure _ _ _ h2
      rw [h4, ← h3]; exact hf
  cases op with
  | openWake j c q' os =>
    unfold BSys.points at e
    dsimp only at e
    split at e <;> cases e
    rw [NoSock.openWakeM os _ x hx]
  | openWait j c q' os =>
    unfold BSys.points at e
    dsimp only at e
    split at e <;> cases e
    exact (openWaitM_keeps s.kern.next s.kern.pending os p gs (s.kern, s.hd a) ⟨Nat.le_refl _, fun _ _ => rfl⟩).1 x hx |>.2 _ hlt
  | close j =>
    unfold BSys.points at e
    dsimp only at e
    split at e <;> cases e
    · rw [List.mem_singleton.1 hx]
    · rename_i v ej
      have := (SockKeeps.bind (S := fun k => k.pending w.sid = s.kern.pending w.sid) (R := fun _ => True)
        (SockKeeps.sysK (f := fun k => k.close v.sid) (fun k hk => (pending_close k (hne ej)).trans hk) trivial)
        fun _ _ => SockKeeps.of_noSock (NoSock.bind (NoSock.putPid v.slotno 0) fun _ => NoSock.incSeq)) (s.kern, s.hd a) rfl
      exact this.1 x hx
  | wake j os => exact absurd rfl (hw j os)
  | force j want os =>
    unfold BSys.points at e
    dsimp only at e
    split at e <;> cases e
    rename_i v ej
    have hself := (hi.reg j a p v ej).self
    refine own (f := fun k => (bw_force k os v want).1) (g := fun k => (bw_force k os v want).2) ?_ hx
    unfold bw_force
    repeat' split
    all_goals first | rfl | (dsimp only; rw [pending_onQ, if_neg (by first | exact hne ej | (rw [hself]; exact hne ej))])
  | ready j os =>
    unfold BSys.points at e
    dsimp only at e
    split at e <;> cases e
    rename_i v ej
    refine own (f := fun k => (bw_ready_ul k os v).1) (g := fun k => (bw_ready_ul k os v).2) ?_ hx
    unfold bw_ready_ul
    split
    · rfl
    · dsimp only; rw [pending_onQ, if_neg (hne ej)]
  | exit q' => cases e

/-- A death during calls other than `bw_wake` leaves the waiters of other processes the datagrams they had. -/
theorem BSys.Cut.pending_quiet {p : Nat} {b b' : BSys} {ops : List BOp} (h : BSys.Cut p b ops b') (hi : BInv b) (hc : b.CleanRun ops) {i a q : Nat}
    {w : WaitT} (e : b.ts i = some (.wait a q w)) (hq : q ≠ p) (hav : ∀ op ∈ ops, op.avoids i q) (hn : ∀ op ∈ ops, ∀ j os, op ≠ .wake j os) :
    b'.pending i = b.pending i := by
  induction h with
  | between b ops =>
    exact (runs_pending (ops := [.exit p]) hi ⟨trivial, trivial⟩ e (by
      intro x hx; simp only [List.mem_singleton] at hx; subst hx; exact fun h => hq h.symm)).2.2 (by
      intro x hx; simp only [List.mem_singleton] at hx; subst hx; intro _ _ e; cases e)
  | inside ops h1 hk =>
    rename_i b b' op
    obtain ⟨gs, a', p', pts, x, e1, hx, rfl⟩ := hk
    have hp : p' = p := by rw [← h1]; exact points_caller e1
    subst hp
    have ew' : (BSys.exit ⟨x.1, upd b.hd a' x.2, b.ts⟩ p').ts i = some (.wait a q w) := exit_ts_other (s := ⟨x.1, upd b.hd a' x.2, b.ts⟩) e hq
    rw [pending_wait e, pending_wait ew', ← points_quiet hi (fun j os => hn op (by simp) j os) e1 hx e hq]
    obtain ⟨y, hy, f1, f2, f3⟩ := (hi.reg i a q w e).sock
    have ht := (hi.points hc.1 e1).1 x hx
    obtain ⟨z, hz, g1, g2, g3⟩ := mem_of_ids ht.ids hy (by rw [f3]; exact hq)
    have kx := ht.kinv hi.k
    have hz' : z ∈ (x.1.exit p').socks := List.mem_filter.2 ⟨hz, by rw [g3, f3]; simpa using hq⟩
    show (x.1.exit p').pending w.sid = x.1.pending w.sid
    rw [← f1, ← g1, pending_of_mem kx hz]
    exact pending_of_mem (k := x.1.exit p') (kx.filter _) hz'
  | later _ ih =>
    rename_i b b' op ops _
    have hx := hav op (by simp)
    have e' : (b.step op).1.ts i = some (.wait a q w) := step_waiting e (by rintro rfl; exact hx rfl) (by rintro rfl; exact hx rfl)
    rw [ih (hi.step _ hc.1) hc.2 e' (fun x hx => hav x (by simp [hx])) (fun x hx => hn x (by simp [hx]))]
    exact (step_pending hi hc.1 e hx).2 (hn op (by simp))

end Shr
