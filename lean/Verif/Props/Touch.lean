import Verif.Proof.Touch
import Verif.Props.MapAny
/-!
# C109: every call touches only what it is for

In any state of ring and handles, however damaged; at every moment of the call; also if the caller dies or an assertion fails.
-/
namespace Shr

/-- What a call may leave different in the ring `r` that it finds. -/
def Op.MayLeave (r : Ring) : Op → Ring → Prop
  | .open _ _ _, p => p = r
  | .farmStat _ _, p => p = r
  | .stat _ reset _, p => p = { r with stat := p.stat } ∧ (reset = none → p = r)
  | .appdata _ _ set _ _, p => p = { r with app := p.app } ∧ (set = none → p = r)
  | .readv _ _ _ _, p => p = { r with r := p.r, u := p.u, m := p.m, stat := p.stat } ∧ (r.gflags.has SHR_FARM = true → p = { r with stat := p.stat })
  | .writev _ _ _ _, p => WriteOf r p
  | .flush _ _ _, p => WriteOf r p
  | .close _ _, p => WriteOf r p

theorem shr_appdata_touch' {P : Ring → Prop} (get : GetArg) (set : Option (List Byte)) (sz : Nat) (env : Env) {r : Ring}
    (hw : ∀ (v : List Byte), set = some v → ∀ s d, P s → P { s with app := d }) (h0 : P r) : Touches P (shr_appdata get set sz env) r := by
  unfold shr_appdata
  refine .ite (fun _ => .pure h0) fun _ => .get_bind (.ite (fun _ => .pure h0) fun _ => ?_)
  dsimp only
  have fin : ∀ (got : Option (List Byte)) (sz' : Nat) (s : Ring), P s → Touches P (if r.gflags.has SHR_SYNC ∧ env.syncOk = false then
      Pure.pure ⟨-1, got, sz'⟩ else Pure.pure ⟨0, got, sz'⟩ : M Ring AppOut) s := fun _ _ _ hs => .ite (fun _ => .pure hs) fun _ => .pure hs
  cases get <;> cases set <;> dsimp only
  · exact fin none _ _ h0
  · refine .ite (fun _ => .pure h0) fun _ => ?_
    exact .bind (.lift h0) fun _ s1 k => .bind (.memcpy fun d => hw _ rfl s1 d k) fun _ _ k => fin none _ _ k
  · refine .ite (fun _ => .pure h0) fun _ => ?_
    exact .bind (.lift h0) fun _ _ k => fin (some _) _ _ k
  · exact fin none _ _ h0
  · refine .ite (fun _ => .pure h0) fun _ => ?_
    exact .bind (.lift h0) fun _ _ k => .ite (fun _ => fin (some _) _ _ k) fun _ => .err
  · refine .ite (fun _ => .pure h0) fun _ => ?_
    exact .bind (.lift h0) fun _ _ k => .ite (fun _ => .bind (.lift k) fun _ s1 k1 =>
      .bind (.memcpy fun d => hw _ rfl s1 d k1) fun _ _ k => fin (some _) _ _ k) fun _ => .err

theorem shr_appdata_touch (get : GetArg) (set : Option (List Byte)) (sz : Nat) (env : Env) (r : Ring) :
    Touches (fun p => p = { r with app := p.app } ∧ (set = none → p = r)) (shr_appdata get set sz env) r := by
  refine shr_appdata_touch' get set sz env ?_ ⟨rfl, fun _ => rfl⟩
  intro v hv s d hs
  refine ⟨?_, fun x => by rw [hv] at x; cases x⟩
  rw [hs.1]

theorem shr_stat_touch (h : Handle) (reset : Option Timeval) (env : Env) (r : Ring) :
    Touches (fun p => p = { r with stat := p.stat } ∧ (reset = none → p = r)) (shr_stat h reset env) r := by
  unfold shr_stat
  refine .ite (fun _ => .pure ⟨rfl, fun _ => rfl⟩) fun _ => .get_bind ?_
  cases reset with
  | none => exact .ite (fun _ => .pure ⟨rfl, fun _ => rfl⟩) fun _ => .pure ⟨rfl, fun _ => rfl⟩
  | some v =>
    refine .store_bind ⟨rfl, fun _ => rfl⟩ ⟨rfl, fun x => nomatch x⟩ (.store_bind ⟨rfl, fun x => nomatch x⟩ ⟨rfl, fun x => nomatch x⟩ ?_)
    exact .ite (fun _ => .pure ⟨rfl, fun x => nomatch x⟩) fun _ => .pure ⟨rfl, fun x => nomatch x⟩

theorem shr_farm_stat_touch (h : Handle) (reset : Bool) (r : Ring) : Touches (fun p => p = r) (shr_farm_stat h reset) r := by
  unfold shr_farm_stat
  exact .assert_bind rfl fun _ => .pure rfl

theorem shr_readv_may (h : Handle) (buf : List Byte) (len niov : Nat) (env : Env) (r : Ring) :
    Touches (fun p => p = { r with r := p.r, u := p.u, m := p.m, stat := p.stat } ∧ (r.gflags.has SHR_FARM = true → p = { r with stat := p.stat }))
      (shr_readv h buf len niov env) r := by
  by_cases hf : r.gflags.has SHR_FARM = true
  · refine (shr_readv_touch (P := StatOf r) (fun st mi s k => readOne_statOf hf k) ?_ h buf len niov env (show StatOf r r from rfl)).mono ?_
    · intro s st k; unfold StatOf; rw [k]
    · intro p k; exact ⟨by rw [k], fun _ => k⟩
  · refine (shr_readv_touch (P := ReadOnlyOf r) (fun st mi s k => readOne_touch k) ?_ h buf len niov env (show ReadOnlyOf r r from rfl)).mono ?_
    · intro s st k; unfold ReadOnlyOf; rw [k]
    · intro p k; exact ⟨k, fun x => absurd x hf⟩

/-- **C109.** In every state, at every moment of a call: opening a handle and shr_farm_stat leave the ring as it is, shr_stat changes at most the
statistics and that only to reset them, shr_appdata at most the application data and that only to set them, a read at most the read position, the
counts of unread messages and bytes and the statistics, and on a farm the statistics only; a write, a flush and a close change neither the attributes and
sizes nor the application data, and without DROP neither the read position nor the counts of dropped messages. -/
theorem C109_touches (s : Sys) (op : Op) : ∀ p ∈ s.points op, op.MayLeave s.ring p := by
  have same : op.MayLeave s.ring s.ring := by
    cases op <;> first | exact rfl | exact WriteOf.refl | exact ⟨rfl, fun _ => rfl⟩
  have one : ∀ p ∈ [s.ring], op.MayLeave s.ring p := fun p hp => by rw [List.mem_singleton.mp hp]; exact same
  cases op with
  | «open» k flags env => exact one
  | writev k iov envF env =>
    simp only [Sys.points]
    split
    · split
      · exact one
      · exact (shr_writev_touch _ _ _ _ WriteOf.refl).points
    · exact one
  | readv k buf niov env =>
    simp only [Sys.points]
    split
    · split
      · exact one
      · exact (shr_readv_may _ _ _ _ _ _).points
    · exact one
  | flush k wait env =>
    simp only [Sys.points]
    split
    · split
      · exact one
      · exact (shr_flush_touch _ _ _ WriteOf.refl).points
    · exact one
  | close k env =>
    simp only [Sys.points]
    split
    · exact (shr_close_touch _ _ WriteOf.refl).points
    · exact one
  | stat k reset env =>
    simp only [Sys.points]
    split
    · exact (shr_stat_touch _ _ _ _).points
    · exact one
  | farmStat k reset =>
    simp only [Sys.points]
    split
    · split
      · exact one
      · exact (shr_farm_stat_touch _ _ _).points
    · exact one
  | appdata k get set sz env =>
    simp only [Sys.points]
    split
    · exact (shr_appdata_touch _ _ _ _ _).points
    · exact one

/-- What a call does to the handles of others, and what it leaves when it completes. -/
theorem C109_completed {s s' : Sys} {op : Op} {o : Out} (h : s.step op = .ok (s', o)) :
    op.MayLeave s.ring s'.ring ∧ ∀ j, j ≠ op.handle → s'.hs j = s.hs j := by
  refine ⟨C109_touches s op _ (step_points h), ?_⟩
  have hu : ∀ (k : Nat) (v : Life Handle Unit) (j : Nat), j ≠ k → upd s.hs k v j = s.hs j := fun k v j hj => by unfold upd; rw [if_neg hj]
  intro j hj
  cases op <;> simp only [Sys.step, Op.handle] at h hj <;> repeat' split at h
  all_goals first
    | (cases h; done)
    | (simp only [Except.ok.injEq, Prod.mk.injEq] at h; obtain ⟨h, -⟩ := h; subst h; first | rfl | exact hu _ _ _ hj)

/-- Closing a handle that is not for writing leaves the ring as it is. -/
theorem C109_reader_close (s : Sys) (k : Nat) (env : Env) (hk : ∀ h, s.hs k = .live h → h.flags.has SHR_WRONLY = false) :
    ∀ p ∈ s.points (.close k env), p = s.ring := by
  simp only [Sys.points]
  split
  · rename_i h e
    have hw := hk h e
    refine Touches.points ?_
    unfold shr_close
    refine .ite (fun _ => .bind ?_ fun _ _ k => .pure k) fun _ => .pure rfl
    unfold shr_flush
    exact .assert_bind rfl fun x => by rw [hw] at x; cases x
  · intro p hp; exact List.mem_singleton.mp hp

/-- Whether a call is one that sets the application data. -/
def Op.setsApp : Op → Bool
  | .appdata _ _ set _ _ => set.isSome
  | _ => false

/-- What stays as it was made, whatever a call leaves. -/
structure Ring.Same (r p : Ring) : Prop where
  gflags : p.gflags = r.gflags
  n : p.n = r.n
  mm : p.mm = r.mm
  mv_len : p.mv_len = r.mv_len
  pad_len : p.pad_len = r.pad_len
  app_len : p.app_len = r.app_len

theorem Op.MayLeave.same {op : Op} {r p : Ring} (h : op.MayLeave r p) : r.Same p ∧ (op.setsApp = false → p.app = r.app) := by
  cases op with
  | «open» k flags env => cases h; exact ⟨⟨rfl, rfl, rfl, rfl, rfl, rfl⟩, fun _ => rfl⟩
  | farmStat k b => cases h; exact ⟨⟨rfl, rfl, rfl, rfl, rfl, rfl⟩, fun _ => rfl⟩
  | stat k a b => rw [h.1]; exact ⟨⟨rfl, rfl, rfl, rfl, rfl, rfl⟩, fun _ => rfl⟩
  | readv k a b c => rw [h.1]; exact ⟨⟨rfl, rfl, rfl, rfl, rfl, rfl⟩, fun _ => rfl⟩
  | appdata k a set b c =>
    refine ⟨?_, fun e => ?_⟩
    · rw [h.1]; exact ⟨rfl, rfl, rfl, rfl, rfl, rfl⟩
    · cases set with
      | none => rw [h.2 rfl]
      | some v => cases e
  | writev k a b c => exact ⟨⟨h.1, h.2, h.3, h.4, h.5, h.6⟩, fun _ => h.7⟩
  | flush k a b => exact ⟨⟨h.1, h.2, h.3, h.4, h.5, h.6⟩, fun _ => h.7⟩
  | close k a => exact ⟨⟨h.1, h.2, h.3, h.4, h.5, h.6⟩, fun _ => h.7⟩

/-- **C109, over time.** Whatever calls and deaths happened: the attributes and sizes are those that the ring was made with, and so are the application data
if none of these calls was one to set them. -/
theorem C109_lasts {a : InitArgs} {evs : List Ev} {s : Sys} {outs : List Out} (h : (Sys.init a).live evs = some (s, outs)) :
    s.ring.gflags = a.gflags ∧ s.ring.n = a.dataSz ∧ s.ring.mm = a.max_msgs ∧ s.ring.app_len = a.appsize ∧
      ((∀ e ∈ evs, e.op.setsApp = false) → s.ring.app = if a.flags.has SHR_APPDATA_1 then a.app else []) := by
  have gen : ∀ (evs : List Ev) (t s : Sys) (outs : List Out), t.live evs = some (s, outs) →
      t.ring.Same s.ring ∧ ((∀ e ∈ evs, e.op.setsApp = false) → s.ring.app = t.ring.app) := by
    intro evs
    induction evs with
    | nil =>
      intro t s outs h
      simp only [Sys.live, Option.some.injEq, Prod.mk.injEq] at h
      rw [h.1]; exact ⟨⟨rfl, rfl, rfl, rfl, rfl, rfl⟩, fun _ => rfl⟩
    | cons e evs ih =>
      intro t s outs h
      have step : ∀ (u : Sys) (outs : List Out), e.op.MayLeave t.ring u.ring → u.live evs = some (s, outs) →
          t.ring.Same s.ring ∧ ((∀ x ∈ e :: evs, x.op.setsApp = false) → s.ring.app = t.ring.app) := by
        intro u outs hm hl
        obtain ⟨a1, a2⟩ := hm.same
        obtain ⟨b1, b2⟩ := ih u s outs hl
        refine ⟨⟨b1.1.trans a1.1, b1.2.trans a1.2, b1.3.trans a1.3, b1.4.trans a1.4, b1.5.trans a1.5, b1.6.trans a1.6⟩, fun hx => ?_⟩
        rw [b2 fun x hx' => hx x (List.mem_cons_of_mem _ hx'), a2 (hx e (by simp))]
      cases e with
      | call op =>
        simp only [Sys.live] at h
        split at h
        · rename_i u o e1
          cases e2 : u.live evs with
          | none => rw [e2] at h; cases h
          | some x =>
            rw [e2] at h
            simp only [Option.map_some, Option.some.injEq, Prod.mk.injEq] at h
            exact step u x.2 (C109_completed e1).1 (by rw [e2, ← h.1])
        · cases h
      | death op j =>
        simp only [Sys.live] at h
        split at h
        · rename_i p e1
          exact step (t.killed op p) outs (C109_touches t op p (List.mem_of_getElem? e1)) h
        · cases h
  obtain ⟨h1, h2⟩ := gen evs _ _ _ h
  exact ⟨h1.1, h1.2, h1.3, h1.6, h2⟩

/-! ## The ring on which every writer dies

The theorems say something about that ring: a read changes it, a write changes it, and it was made by such events. -/

example : (match wrA2.step (rd 1 6 3) with
    | .ok (s, _) => decide (s.ring ≠ wrA2.ring ∧ s.ring.d = wrA2.ring.d ∧ s.ring.mv = wrA2.ring.mv ∧ s.ring.i = wrA2.ring.i)
    | .error _ => false) = true := by decide +kernel
example : (wrA1.points wrNext).any (fun p => decide (p ≠ wrA1.ring)) = true := by decide +kernel
example (p : Ring) (hp : p ∈ wrA2.points (rd 1 6 3)) : p.d = wrA2.ring.d ∧ p.mv = wrA2.ring.mv := by
  have h := (C109_touches wrA2 (rd 1 6 3) p hp).1
  rw [h]; exact ⟨rfl, rfl⟩
example : ((Sys.init wrA).live maEvs).isSome = true ∧ ∀ e ∈ maEvs, e.op.setsApp = false := by
  refine ⟨by decide +kernel, ?_⟩
  intro e he
  simp only [maEvs, crOps, List.map_cons, List.map_nil, List.cons_append, List.nil_append, List.mem_cons, List.not_mem_nil, or_false] at he
  rcases he with rfl | rfl | rfl | rfl | rfl | rfl <;> rfl

end Shr
