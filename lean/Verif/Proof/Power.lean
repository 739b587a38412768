import Verif.Model.Power
import Verif.Spec.Power
import Verif.Props.OpenAny
import Verif.Proof.Settled
/-! # Proofs about power failures -/
namespace Shr
open M

/-- The ring in a torn file. -/
structure Mixed (imgs : List Ring) (x : Ring) : Prop where
  head : ∃ p ∈ imgs, x = { p with d := x.d, mv := x.mv, app := x.app }
  dat : ∀ k : Nat, ∃ p ∈ imgs, x.d[k]? = p.d[k]?
  pos : ∀ j : Nat, ∃ p ∈ imgs, x.mv[j]?.map Slot.pos = p.mv[j]?.map Slot.pos
  len : ∀ j : Nat, ∃ p ∈ imgs, x.mv[j]?.map Slot.len = p.mv[j]?.map Slot.len
  app : ∀ k : Nat, ∃ p ∈ imgs, x.app[k]? = p.app[k]?

theorem decode_d_get (f : List Byte) (k : Nat) : (decode f).d[k]? = if k < ld64 f OFF_N then f[SIZEOF_CTRL + k]? else none :=
  ld_getElem? _ _ _ _

theorem decode_app_get (f : List Byte) (k : Nat) : (decode f).app[k]? = if k < ld64 f OFF_APP_LEN then f[appOff f + k]? else none :=
  ld_getElem? _ _ _ _

theorem decode_mv_get (f : List Byte) (j : Nat) : (decode f).mv[j]? =
    if j < ld64 f OFF_MV_LEN / SIZEOF_MSG then some ⟨ld64 f (mvOff f + SIZEOF_MSG * j), ld64 f (mvOff f + SIZEOF_MSG * j + 8)⟩ else none := by
  show (List.map _ (List.range _))[j]? = _
  rw [List.getElem?_map]
  split
  · rename_i h; rw [List.getElem?_range h]; rfl
  · rename_i h; rw [List.getElem?_eq_none (by simpa using h)]; rfl

theorem Torn.mixed {B : Nat} {f0 : List Byte} {imgs : List Ring} {D : List Byte} (h : Torn B f0 imgs D) (hB : BlockSize B)
    (hl : LayoutOk f0) (ha : mvOff f0 % 8 = 0) :
    Mixed imgs (decode D) ∧ LayoutOk D ∧ sizesOf D = sizesOf f0 ∧ ∀ k, Fixed f0 k → D[k]? = f0[k]? := by
  obtain ⟨hB1, hB2⟩ := hB
  have hB0 : 0 < B := by omega
  obtain ⟨g0, s0, m0, e0⟩ := h.block 0
  have hd0 : ∀ k, k < SIZEOF_CTRL → D[k]? = g0[k]? := fun k hk => e0 k (Nat.div_eq_of_lt (by unfold SIZEOF_CTRL at hk; omega))
  have hld : ∀ o n, o + n ≤ SIZEOF_CTRL → ld D o n = ld g0 o n := fun o n hn => ld_congr fun k _ h2 => hd0 k (by omega)
  have h64 : ∀ o, o + 8 ≤ SIZEOF_CTRL → ld64 D o = ld64 g0 o := fun o ho => by unfold ld64; rw [hld o 8 ho]
  have h32 : ∀ o, o + 4 ≤ SIZEOF_CTRL → ld32 D o = ld32 g0 o := fun o ho => by unfold ld32; rw [hld o 4 ho]
  obtain ⟨l0, lay0, sz0, fix0⟩ := C19_fixed_bytes hl s0
  have hszD : sizesOf D = sizesOf f0 := by
    rw [← sz0]
    unfold sizesOf
    rw [h64 OFF_N (by decide), h64 OFF_PAD_LEN (by decide), h64 OFF_MV_LEN (by decide), h64 OFF_APP_LEN (by decide)]
  have offs : ∀ {g : List Byte}, sizesOf g = sizesOf f0 → ld64 g OFF_N = ld64 f0 OFF_N ∧ ld64 g OFF_MV_LEN = ld64 f0 OFF_MV_LEN ∧
      ld64 g OFF_APP_LEN = ld64 f0 OFF_APP_LEN ∧ mvOff g = mvOff f0 ∧ appOff g = appOff f0 := by
    intro g hg
    unfold sizesOf at hg
    simp only [Prod.mk.injEq] at hg
    obtain ⟨e1, e2, e3, e4⟩ := hg
    unfold appOff mvOff
    rw [e1, e2, e3, e4]
    exact ⟨rfl, rfl, rfl, rfl, rfl⟩
  obtain ⟨D1, D2, D3, D4, D5⟩ := offs hszD
  have word : ∀ o, o % 8 = 0 → ∃ g, FSteps f0 g ∧ decode g ∈ imgs ∧ ld64 D o = ld64 g o := by
    intro o ho
    obtain ⟨g, s, m, e⟩ := h.block (o / B)
    refine ⟨g, s, m, ?_⟩
    unfold ld64
    rw [ld_congr (f := D) (g := g)]
    intro k h1 h2
    refine e k ?_
    obtain ⟨c, rfl⟩ : ∃ c, B = 8 * c := ⟨B / 8, by omega⟩
    rw [← Nat.div_div_eq_div_mul, ← Nat.div_div_eq_div_mul]
    congr 1
    omega
  have hpos : ∀ j, mvOff f0 + SIZEOF_MSG * j = mvOff f0 + 16 * j := fun _ => rfl
  refine ⟨⟨⟨_, m0, ?_⟩, ?_, ?_, ?_, ?_⟩, ?_, hszD, ?_⟩
  · have hst : decodeStat D = decodeStat g0 := by
      unfold decodeStat
      rw [h64 _ (by decide), h64 _ (by decide), h64 _ (by decide), h64 _ (by decide), h64 _ (by decide), h64 _ (by decide), h64 _ (by decide),
        h64 _ (by decide), h64 _ (by decide), h64 _ (by decide), h64 _ (by decide), h64 _ (by decide), h64 _ (by decide), h64 _ (by decide),
        h64 _ (by decide), h32 _ (by decide)]
    simp only [decode, Ring.mk.injEq]
    refine ⟨?_, ?_, ?_, ?_, ?_, ?_, ?_, ?_, ?_, hst, ?_, ?_, ?_, ?_, trivial, trivial, trivial⟩
    · rw [h32 _ (by decide)]
    all_goals exact h64 _ (by decide)
  · intro k
    obtain ⟨g, s, m, e⟩ := h.block ((SIZEOF_CTRL + k) / B)
    refine ⟨_, m, ?_⟩
    obtain ⟨_, _, sz, _⟩ := C19_fixed_bytes hl s
    rw [decode_d_get, decode_d_get, D1, (offs sz).1, e _ rfl]
  · intro j
    obtain ⟨g, s, m, e⟩ := word (mvOff f0 + SIZEOF_MSG * j) (by rw [hpos]; omega)
    refine ⟨_, m, ?_⟩
    obtain ⟨_, _, sz, _⟩ := C19_fixed_bytes hl s
    obtain ⟨_, g2, _, g4, _⟩ := offs sz
    rw [decode_mv_get, decode_mv_get, D2, D4, g2, g4]
    split
    · simp only [Option.map_some, e]
    · rfl
  · intro j
    obtain ⟨g, s, m, e⟩ := word (mvOff f0 + SIZEOF_MSG * j + 8) (by rw [hpos]; omega)
    refine ⟨_, m, ?_⟩
    obtain ⟨_, _, sz, _⟩ := C19_fixed_bytes hl s
    obtain ⟨_, g2, _, g4, _⟩ := offs sz
    rw [decode_mv_get, decode_mv_get, D2, D4, g2, g4]
    split
    · simp only [Option.map_some, e]
    · rfl
  · intro k
    obtain ⟨g, s, m, e⟩ := h.block ((appOff f0 + k) / B)
    refine ⟨_, m, ?_⟩
    obtain ⟨_, _, sz, _⟩ := C19_fixed_bytes hl s
    obtain ⟨_, _, g3, _, g5⟩ := offs sz
    rw [decode_app_get, decode_app_get, D3, D5, g3, g5, e _ rfl]
  · unfold LayoutOk at *
    rw [D5, D3, h.len]; exact hl
  · intro k hk
    obtain ⟨g, s, m, e⟩ := h.block (k / B)
    obtain ⟨_, _, _, fx⟩ := C19_fixed_bytes hl s
    rw [e k rfl, fx k hk]

/-- If all contents since the last `msync` are the same, nothing is torn. -/
theorem Mixed.const {imgs : List Ring} {x r : Ring} (h : Mixed imgs x) (hi : ∀ p ∈ imgs, p = r) : x = r := by
  obtain ⟨p, hp, e⟩ := h.head
  cases hi p hp
  have e1 : x.d = r.d := List.ext_getElem? fun k => by
    obtain ⟨q, hq, e⟩ := h.dat k
    cases hi q hq; exact e
  have e2 : x.app = r.app := List.ext_getElem? fun k => by
    obtain ⟨q, hq, e⟩ := h.app k
    cases hi q hq; exact e
  have e3 : x.mv = r.mv := List.ext_getElem? fun k => by
    obtain ⟨q, hq, e⟩ := h.pos k
    cases hi q hq
    obtain ⟨q', hq', e'⟩ := h.len k
    cases hi q' hq'
    cases h1 : x.mv[k]? <;> cases h2 : r.mv[k]? <;> rw [h1, h2] at e e'
    · cases e
    · cases e
    · rename_i s t
      obtain ⟨a, b⟩ := s; obtain ⟨c, d⟩ := t
      simp at e e'
      rw [e, e']
  rw [e, e1, e2, e3]

/-! ## Which calls reach msync -/

/-- The fragment changes nothing. -/
def NoStore {α : Type} (x : M Ring α) (r : Ring) : Prop := ∀ p ∈ (x r).points, p = r

theorem NoStore.pure {α : Type} (a : α) (r : Ring) : NoStore (Pure.pure a : M Ring α) r := by
  intro p hp; simpa [Run.points, Run.final] using hp

theorem NoStore.lift {α : Type} (x : Except Fault α) (r : Ring) : NoStore (M.lift x : M Ring α) r := by
  intro p hp
  cases x with
  | ok a => simpa [M.lift, Run.points, Run.final] using hp
  | error e => cases e <;> simp [M.lift, Run.points, Run.final] at hp <;> exact hp

theorem NoStore.assert (b : Bool) (r : Ring) : NoStore (M.assert b : M Ring Unit) r := by
  intro p hp
  cases b <;> simpa [M.assert, Run.points, Run.final] using hp

theorem mem_points_bind {α β : Type} {x : M Ring α} {f : α → M Ring β} {r p : Ring} (h : p ∈ ((x >>= f) r).points) :
    p ∈ (x r).points ∨ ∃ a s, (x r).res = .ok a s ∧ p ∈ (f a s).points := by
  unfold Run.points at h ⊢
  rw [M.bind_apply] at h
  cases hx : (x r).res with
  | ok a s =>
    rw [hx] at h
    simp only [List.mem_append] at h
    rcases h with (h | h) | h
    · exact .inl (List.mem_append_left _ h)
    · exact .inr ⟨a, s, rfl, List.mem_append_left _ h⟩
    · exact .inr ⟨a, s, rfl, List.mem_append_right _ (by
        generalize f a s = y at h ⊢
        obtain ⟨t, e⟩ := y
        cases e <;> exact h)⟩
  | abort s =>
    rw [hx] at h
    refine .inl ?_
    generalize x r = y at *
    obtain ⟨t, e⟩ := y
    cases hx
    exact h
  | ub =>
    rw [hx] at h
    refine .inl ?_
    generalize x r = y at *
    obtain ⟨t, e⟩ := y
    cases hx
    exact h
  | hang =>
    rw [hx] at h
    refine .inl ?_
    generalize x r = y at *
    obtain ⟨t, e⟩ := y
    cases hx
    exact h

theorem res_mem_points {α : Type} {x : M Ring α} {r : Ring} {a : α} {s : Ring} (h : (x r).res = .ok a s) : s ∈ (x r).points := by
  unfold Run.points
  generalize x r = y at *
  obtain ⟨t, e⟩ := y
  cases h
  simp [Run.final]

theorem NoStore.bind {α β : Type} {x : M Ring α} {f : α → M Ring β} {r : Ring} (h : NoStore x r) (hf : ∀ a, (x r).res = .ok a r → NoStore (f a) r) :
    NoStore (x >>= f) r := by
  intro p hp
  rcases mem_points_bind hp with h1 | ⟨a, s, h1, h2⟩
  · exact h p h1
  · cases h s (res_mem_points h1)
    exact hf a h1 p h2

theorem NoStore.get_bind {β : Type} {f : Ring → M Ring β} {r : Ring} (h : NoStore (f r) r) : NoStore (M.get >>= f) r := by
  unfold NoStore; rw [M.get_bind]; exact h

theorem attempt_sync {r : Ring} (hs : r.gflags.has SHR_SYNC = true) {env : Env} (he : env.good) (flags : Flags) (smm : Nat) (iov : List Msg)
    (len : Nat) (c : Bool) : attemptSync r len iov.length env c = true ∨
      (attemptSync r len iov.length env c = c ∧ NoStore (writevAttempt flags smm iov len env) r) := by
  unfold attemptSync writevAttempt
  by_cases h1 : env.lockOk = false
  · rw [if_pos h1, if_pos h1]; exact .inr ⟨rfl, NoStore.pure _ _⟩
  rw [if_neg h1, if_neg h1]
  by_cases h2 : (wsub r.n r.u ≥ len ∧ wsub r.mm r.m ≥ iov.length) ∨ r.gflags.has SHR_DROP = true
  · rw [if_pos h2, hs, he.1, he.2]; exact .inl rfl
  · rw [if_neg h2]
    refine .inr ⟨rfl, NoStore.get_bind ?_⟩
    rw [if_neg (fun h => h2 (.inl h)), if_neg (fun h => h2 (.inr h))]
    split
    · exact NoStore.pure _ _
    · split <;> exact NoStore.pure _ _

theorem direct_sync {r : Ring} (hs : r.gflags.has SHR_SYNC = true) {env : Env} (he : env.good) (flags : Flags) (sn smm : Nat) (iov : List Msg)
    (c : Bool) : directSync sn smm iov env r c = true ∨ (directSync sn smm iov env r c = c ∧ NoStore (writevDirect flags sn smm iov env) r) := by
  unfold directSync writevDirect
  cases h : lenCheck sn smm (iov.map List.length) with
  | none => exact .inr ⟨rfl, NoStore.bind (NoStore.assert _ _) fun _ _ => NoStore.pure _ _⟩
  | some len =>
    dsimp only
    rcases attempt_sync hs he flags smm iov len c with h | ⟨h1, h2⟩
    · exact .inl h
    · exact .inr ⟨h1, NoStore.bind (NoStore.assert _ _) fun _ _ => h2⟩

theorem flushCache_sync {r : Ring} (hs : r.gflags.has SHR_SYNC = true) {env : Env} (he : env.good) (h : Handle) (c : Bool) :
    flushCacheSync h env r c = true ∨ (flushCacheSync h env r c = c ∧ NoStore (flushCache h env) r) := by
  unfold flushCacheSync flushCache
  cases hm : cacheRead h.c.buf (h.c.iov.take h.c.vm) with
  | error e => exact .inr ⟨rfl, NoStore.bind (NoStore.lift _ _) fun a ha => by cases e <;> simp [M.lift] at ha⟩
  | ok msgs =>
    dsimp only
    rcases direct_sync hs he (h.flags.clear SHR_BUFFERED) h.n h.mm msgs c with h1 | ⟨h1, h2⟩
    · exact .inl h1
    · refine .inr ⟨h1, NoStore.bind (NoStore.lift _ _) fun a ha => ?_⟩
      simp [M.lift] at ha
      rw [← ha]; exact h2

theorem exec_ok {α : Type} {x : M Ring α} {r s : Ring} {a : α} : exec x r = .ok (a, s) ↔ (x r).res = .ok a s := by
  unfold exec
  cases (x r).res with
  | ok a' s' =>
    constructor
    · intro h; cases h; rfl
    · intro h; cases h; rfl
  | _ => constructor <;> intro h <;> cases h

theorem flushCache_gflags {h : Handle} (hc : h.c.buf.length < W) {env : Env} {r r' : Ring} (t : Typed r) {o : WrOut}
    (h1 : exec (flushCache h env) r = .ok (o, r')) : r'.gflags = r.gflags :=
  ((flushCache_bs hc env t).steps r' (exec_points h1)).params.1

theorem cacheLoop_empty_sync {iov : List Msg} {len : Nat} {envF : Env} : ∀ (fuel : Nat) (h : Handle) (r : Ring) (c : Bool), h.c.n = 0 →
    (cacheLoopSync iov len envF fuel h r c).1 = c ∧ NoStore (cacheLoop iov len envF fuel h) r ∧
      ∀ r', (cacheLoopSync iov len envF fuel h r c).2 = some r' → r' = r := by
  intro fuel
  cases fuel with
  | zero => intro h r c _; exact ⟨rfl, NoStore.lift _ _, fun _ h => by cases h⟩
  | succ fuel =>
    intro h r c h0
    unfold cacheLoopSync cacheLoop
    rw [if_pos h0]
    split
    · exact ⟨rfl, NoStore.pure _ _, fun _ h => by cases h; rfl⟩
    split
    · exact ⟨rfl, NoStore.bind (NoStore.lift _ _) fun _ _ => NoStore.pure _ _, fun _ h => by cases h⟩
    exact ⟨rfl, NoStore.pure _ _, fun _ h => by cases h; rfl⟩

theorem cacheLoop_sync {iov : List Msg} {len : Nat} {envF : Env} (he : envF.good) (fuel : Nat) (h : Handle) (r : Ring) (c : Bool)
    (hs : r.gflags.has SHR_SYNC = true) (hc : h.c.buf.length < W) (t : Typed r) :
    ((cacheLoopSync iov len envF fuel h r c).1 = true ∧
      ∀ r', (cacheLoopSync iov len envF fuel h r c).2 = some r' → r'.gflags.has SHR_SYNC = true) ∨
    ((cacheLoopSync iov len envF fuel h r c).1 = c ∧ NoStore (cacheLoop iov len envF fuel h) r ∧
      ∀ r', (cacheLoopSync iov len envF fuel h r c).2 = some r' → r' = r) := by
  cases fuel with
  | zero => exact .inr ⟨rfl, NoStore.lift _ _, fun _ h => by cases h⟩
  | succ fuel =>
    unfold cacheLoopSync cacheLoop
    split
    · exact .inr ⟨rfl, NoStore.pure _ _, fun _ h => by cases h; rfl⟩
    split
    · exact .inr ⟨rfl, NoStore.bind (NoStore.lift _ _) fun _ _ => NoStore.pure _ _, fun _ h => by cases h⟩
    split
    · exact .inr ⟨rfl, NoStore.pure _ _, fun _ h => by cases h; rfl⟩
    rcases flushCache_sync hs he h c with h1 | ⟨h1, h2⟩
    · refine .inl ?_
      rw [h1]
      split
      · rename_i rc w r' e
        split
        · exact ⟨rfl, fun _ h => by cases h⟩
        · obtain ⟨g1, _, g3⟩ := cacheLoop_empty_sync (iov := iov) (len := len) (envF := envF) fuel
            { h with c := { h.c with n := 0, vm := 0 } } r' true rfl
          refine ⟨g1, fun q hq => ?_⟩
          rw [g3 q hq, flushCache_gflags hc t e]; exact hs
      · exact ⟨rfl, fun _ h => by cases h⟩
    · refine .inr ?_
      rw [h1]
      have key : ∀ o r', exec (flushCache h envF) r = .ok (o, r') → r' = r := fun o r' e => h2 _ (exec_points e)
      have quiet : NoStore (flushCache h envF >>= fun out =>
          match out with
          | .wait => pure (h, some .wait)
          | .ret rc wake =>
            if rc ≤ 0 then pure (h, some (.ret rc wake))
            else cacheLoop iov len envF fuel { h with c := { h.c with n := 0, vm := 0 } }) r := by
        refine NoStore.bind h2 fun o ho => ?_
        cases o with
        | wait => exact NoStore.pure _ _
        | ret rc w =>
          dsimp only
          split
          · exact NoStore.pure _ _
          · exact (cacheLoop_empty_sync fuel { h with c := { h.c with n := 0, vm := 0 } } r c rfl).2.1
      split
      · rename_i rc w r' e
        have := key _ _ e
        subst this
        split
        · exact ⟨rfl, quiet, fun _ h => by cases h⟩
        · obtain ⟨g1, _, g3⟩ := cacheLoop_empty_sync (iov := iov) (len := len) (envF := envF) fuel
            { h with c := { h.c with n := 0, vm := 0 } } r' c rfl
          exact ⟨g1, quiet, g3⟩
      · exact ⟨rfl, quiet, fun _ h => by cases h⟩

theorem res_bind_ok {α β : Type} {x : M Ring α} {f : α → M Ring β} {r s : Ring} {b : β} (h : ((x >>= f) r).res = .ok b s) :
    ∃ a t, (x r).res = .ok a t ∧ (f a t).res = .ok b s := by
  rw [M.bind_apply] at h
  cases hx : (x r).res with
  | ok a t => rw [hx] at h; exact ⟨a, t, rfl, h⟩
  | _ => rw [hx] at h; cases h

/-- The loop is left for an unbuffered write on the ring that `cacheLoopSync` says. -/
theorem cacheLoop_left {iov : List Msg} {len : Nat} {envF : Env} : ∀ (fuel : Nat) (h : Handle) (r : Ring) (c : Bool) (x : Handle × Option WrOut) (s : Ring),
    (cacheLoop iov len envF fuel h r).res = .ok x s → x.2 = none → (cacheLoopSync iov len envF fuel h r c).2 = some s := by
  intro fuel
  induction fuel with
  | zero => intro h r c x s hr; cases hr
  | succ fuel ih =>
    intro h r c x s hr hx
    unfold cacheLoop at hr
    unfold cacheLoopSync
    by_cases h1 : h.flags.has SHR_BUFFERED = false
    · rw [if_pos h1] at hr ⊢; cases hr; rfl
    rw [if_neg h1] at hr ⊢
    by_cases h2 : len ≤ wsub h.c.sz h.c.n ∧ iov.length ≤ wsub h.c.vt h.c.vm
    · rw [if_pos h2] at hr
      obtain ⟨a, t, e1, e2⟩ := res_bind_ok hr
      cases e2; cases hx
    rw [if_neg h2] at hr ⊢
    by_cases h3 : h.c.n = 0
    · rw [if_pos h3] at hr ⊢; cases hr; rfl
    rw [if_neg h3] at hr ⊢
    obtain ⟨a, t, e1, e2⟩ := res_bind_ok hr
    rw [exec_ok.mpr e1]
    cases a with
    | wait => cases e2; cases hx
    | ret rc w =>
      dsimp only at e2 ⊢
      by_cases h4 : rc ≤ 0
      · rw [if_pos h4] at e2; cases e2; cases hx
      rw [if_neg h4] at e2 ⊢
      exact ih _ _ _ _ _ e2 hx

theorem writev_sync {h : Handle} {iov : List Msg} {envF env : Env} (h1 : envF.good) (h2 : env.good) {r : Ring}
    (hs : r.gflags.has SHR_SYNC = true) (hc : h.c.buf.length < W) (t : Typed r) (c : Bool) :
    writevSync h iov envF env r c = true ∨ (writevSync h iov envF env r c = c ∧ NoStore (shr_writev h iov envF env) r) := by
  unfold writevSync shr_writev
  cases hl : lenCheck h.n h.mm (iov.map List.length) with
  | none => exact .inr ⟨rfl, NoStore.bind (NoStore.assert _ _) fun _ _ => NoStore.pure _ _⟩
  | some len =>
    dsimp only
    have := cacheLoop_sync (iov := iov) (len := len) h1 2 h r c hs hc t
    have left := cacheLoop_left (iov := iov) (len := len) (envF := envF) 2 h r c
    cases e : cacheLoopSync iov len envF 2 h r c with
    | mk c' o =>
      rw [e] at this left
      cases o with
      | none =>
        dsimp only at this left ⊢
        rcases this with h | ⟨e1, e2, e3⟩
        · exact .inl h.1
        · refine .inr ⟨e1, NoStore.bind (NoStore.assert _ _) fun _ _ => NoStore.bind e2 fun x hx => ?_⟩
          cases h3 : x.2 with
          | some out => exact NoStore.pure _ _
          | none => cases left x r hx h3
      | some r' =>
        dsimp only at this left ⊢
        rcases this with ⟨e1, e2⟩ | ⟨e1, e2, e3⟩
        · refine .inl ?_
          subst e1
          rcases attempt_sync (e2 r' rfl) h2 h.flags h.mm iov len true with h | h
          · exact h
          · exact h.1
        · have := e3 r' rfl
          subst this; subst e1
          by_cases hb : attemptSync r' len iov.length env c' = true
          · exact .inl hb
          refine .inr ⟨?_, NoStore.bind (NoStore.assert _ _) fun _ _ => NoStore.bind e2 fun x hx => ?_⟩
          · rcases attempt_sync hs h2 h.flags h.mm iov len c' with h | h
            · exact absurd h hb
            · exact h.1
          · cases h3 : x.2 with
            | some out => exact NoStore.pure _ _
            | none =>
              rcases attempt_sync hs h2 x.1.flags x.1.mm iov len c' with h | h
              · exact absurd h hb
              · exact NoStore.bind h.2 fun _ _ => NoStore.pure _ _

theorem readv_sync {h : Handle} {buf : List Byte} {niov : Nat} {env : Env} (he : env.good) {r : Ring}
    (hs : r.gflags.has SHR_SYNC = true) (c : Bool) :
    readvSync h buf.length niov env r c = true ∨
      (readvSync h buf.length niov env r c = c ∧ NoStore (shr_readv h buf buf.length niov env) r) := by
  unfold readvSync shr_readv
  by_cases h1 : buf.length = 0 ∨ niov = 0 ∨ env.lockOk = false
  · rw [if_pos h1]
    refine .inr ⟨rfl, NoStore.bind ?_ fun _ _ => NoStore.pure _ _⟩
    unfold readvAttempt
    refine NoStore.bind (NoStore.assert _ _) fun _ _ => ?_
    by_cases g1 : buf.length = 0
    · rw [if_pos g1]; exact NoStore.pure _ _
    by_cases g2 : niov = 0
    · rw [if_neg g1, if_pos g2]; exact NoStore.pure _ _
    have g3 : env.lockOk = false := by rcases h1 with h | h | h <;> first | exact absurd h ‹_› | exact h
    rw [if_neg g1, if_neg g2]
    simp only [g3, if_true]
    exact NoStore.pure _ _
  rw [if_neg h1]
  cases hm : next_msg_info r h.cur with
  | error e =>
    refine .inr ⟨rfl, NoStore.bind ?_ fun _ _ => NoStore.pure _ _⟩
    unfold readvAttempt
    refine NoStore.bind (NoStore.assert _ _) fun _ _ => ?_
    split
    · exact NoStore.pure _ _
    split
    · exact NoStore.pure _ _
    dsimp only
    split
    · exact NoStore.pure _ _
    refine NoStore.get_bind ?_
    rw [hm]
    refine NoStore.bind (NoStore.lift _ _) fun a ha => ?_
    cases e <;> simp [M.lift] at ha
  | ok x =>
    obtain ⟨cur, o⟩ := x
    cases o with
    | some mi =>
      refine .inl ?_
      dsimp only
      rw [hs, he.2]; rfl
    | none =>
      refine .inr ⟨rfl, NoStore.bind ?_ fun _ _ => NoStore.pure _ _⟩
      unfold readvAttempt
      refine NoStore.bind (NoStore.assert _ _) fun _ _ => ?_
      split
      · exact NoStore.pure _ _
      split
      · exact NoStore.pure _ _
      dsimp only
      split
      · exact NoStore.pure _ _
      refine NoStore.get_bind ?_
      rw [hm]
      refine NoStore.bind (NoStore.lift _ _) fun a ha => ?_
      simp [M.lift] at ha
      subst ha
      refine NoStore.bind (NoStore.assert _ _) fun _ _ => ?_
      split
      · exact NoStore.pure _ _
      · split <;> exact NoStore.pure _ _

theorem flush_sync {h : Handle} {wait : Bool} {env : Env} (he : env.good) {r : Ring} (hs : r.gflags.has SHR_SYNC = true) (c : Bool) :
    flushSync h wait env r c = true ∨ (flushSync h wait env r c = c ∧ NoStore (shr_flush h wait env) r) := by
  unfold flushSync shr_flush
  by_cases h0 : h.c.n = 0
  · rw [if_pos h0]
    refine .inr ⟨rfl, NoStore.bind (NoStore.assert _ _) fun _ _ => ?_⟩
    rw [if_pos h0]; exact NoStore.pure _ _
  rw [if_neg h0]
  simp only [h0, if_false]
  cases ht : (h.flags.has SHR_NONBLOCK && wait) with
  | false =>
    simp only [Bool.false_eq_true, false_and, if_false]
    rcases flushCache_sync hs he h c with h1 | ⟨h1, h2⟩
    · exact .inl h1
    · exact .inr ⟨h1, NoStore.bind (NoStore.assert _ _) fun _ _ => NoStore.bind h2 fun _ _ => NoStore.pure _ _⟩
  | true =>
    simp only [true_and, if_true]
    by_cases h3 : h.hasR2w = false ∧ (env.lockOk = false ∨ env.bwOpenOk = false)
    · rw [if_pos h3]
      refine .inr ⟨rfl, NoStore.bind (NoStore.assert _ _) fun _ _ => ?_⟩
      rw [if_pos h3]; exact NoStore.pure _ _
    · rw [if_neg h3]
      rcases flushCache_sync hs he { h with flags := h.flags.clear SHR_NONBLOCK, hasR2w := true } c with h1 | ⟨h1, h2⟩
      · exact .inl h1
      · refine .inr ⟨h1, NoStore.bind (NoStore.assert _ _) fun _ _ => ?_⟩
        rw [if_neg h3]
        exact NoStore.bind h2 fun _ _ => NoStore.pure _ _

theorem close_sync {h : Handle} {env : Env} (he : env.good) {r : Ring} (hs : r.gflags.has SHR_SYNC = true) (c : Bool) :
    closeSync h env r c = true ∨ (closeSync h env r c = c ∧ NoStore (shr_close h env) r) := by
  unfold closeSync shr_close
  split
  · rcases flush_sync (h := h) (wait := false) he hs c with h1 | ⟨h1, h2⟩
    · exact .inl h1
    · exact .inr ⟨h1, NoStore.bind h2 fun _ _ => NoStore.pure _ _⟩
  · exact .inr ⟨rfl, NoStore.pure _ _⟩

theorem stat_sync {h : Handle} {reset : Option Timeval} {env : Env} (he : env.good) {r : Ring} (hs : r.gflags.has SHR_SYNC = true) (c : Bool) :
    statSync reset env r c = true ∨ (statSync reset env r c = c ∧ NoStore (shr_stat h reset env) r) := by
  unfold statSync shr_stat
  split
  · exact .inr ⟨rfl, NoStore.pure _ _⟩
  · rw [hs, he.2]; exact .inl rfl

theorem appdata_sync {get : GetArg} {set : Option (List Byte)} {sz : Nat} {env : Env} (he : env.good) {r : Ring}
    (hs : r.gflags.has SHR_SYNC = true) (c : Bool) :
    appdataSync get set sz env r c = true ∨ (appdataSync get set sz env r c = c ∧ NoStore (shr_appdata get set sz env) r) := by
  unfold appdataSync shr_appdata
  split
  · exact .inr ⟨rfl, NoStore.pure _ _⟩
  by_cases h1 : r.app_len = 0
  · rw [if_pos h1]
    refine .inr ⟨rfl, NoStore.get_bind ?_⟩
    rw [if_pos h1]; exact NoStore.pure _ _
  rw [if_neg h1]
  simp only [hs, he.2, Bool.and_self, if_true]
  cases get <;> cases set <;> dsimp only
  case null.none => exact .inl rfl
  case alloc.some => exact .inl rfl
  case alloc.none =>
    split
    · rename_i h2
      refine .inr ⟨rfl, NoStore.get_bind ?_⟩
      rw [if_neg h1]; exact NoStore.pure _ _
    · exact .inl rfl
  case into.none =>
    split
    · rename_i h2
      refine .inr ⟨rfl, NoStore.get_bind ?_⟩
      rw [if_neg h1, if_pos h2]; exact NoStore.pure _ _
    · exact .inl rfl
  all_goals
    split
    · rename_i h2
      refine .inr ⟨rfl, NoStore.get_bind ?_⟩
      rw [if_neg h1, if_pos h2]; exact NoStore.pure _ _
    · exact .inl rfl

/-- A call in which msync and the wake-ups succeed on a SHR_SYNC ring either ends with everything on the disk or changes nothing. -/
theorem synced_or_quiet {s : Sys} {op : Op} (hg : op.good) (hs : s.ring.gflags.has SHR_SYNC = true) (t : Typed s.ring)
    (hc : ∀ h, s.hs op.handle = .live h → h.c.buf.length < W) :
    s.synced op = true ∨ ∀ p ∈ s.points op, p = s.ring := by
  have base : ∀ p ∈ [s.ring], p = s.ring := fun p hp => List.mem_singleton.mp hp
  unfold Sys.synced
  cases op with
  | «open» k flags env => exact .inr base
  | writev k iov e1 e2 =>
    simp only [Sys.syncAfter, Sys.points]
    cases hk : s.hs k with
    | live h =>
      dsimp only
      split
      · exact .inr base
      · rcases writev_sync hg.1 hg.2 hs (hc h hk) t false (iov := iov) with h1 | h1
        · exact .inl h1
        · exact .inr h1.2
    | _ => exact .inr base
  | readv k buf niov env =>
    simp only [Sys.syncAfter, Sys.points]
    cases hk : s.hs k with
    | live h =>
      dsimp only
      split
      · exact .inr base
      · rcases readv_sync hg hs false (h := h) (buf := buf) (niov := niov) with h1 | h1
        · exact .inl h1
        · exact .inr h1.2
    | _ => exact .inr base
  | flush k wait env =>
    simp only [Sys.syncAfter, Sys.points]
    cases hk : s.hs k with
    | live h =>
      dsimp only
      split
      · exact .inr base
      · rcases flush_sync hg hs false (h := h) (wait := wait) with h1 | h1
        · exact .inl h1
        · exact .inr h1.2
    | _ => exact .inr base
  | close k env =>
    simp only [Sys.syncAfter, Sys.points]
    cases hk : s.hs k with
    | live h =>
      dsimp only
      rcases close_sync hg hs false (h := h) with h1 | h1
      · exact .inl h1
      · exact .inr h1.2
    | _ => exact .inr base
  | stat k reset env =>
    simp only [Sys.syncAfter, Sys.points]
    cases hk : s.hs k with
    | live h =>
      dsimp only
      rcases stat_sync hg hs false (h := h) (reset := reset) with h1 | h1
      · exact .inl h1
      · exact .inr h1.2
    | _ => exact .inr base
  | farmStat k reset =>
    simp only [Sys.points]
    cases hk : s.hs k with
    | live h =>
      dsimp only
      split
      · exact .inr base
      · exact .inr (NoStore.bind (NoStore.assert _ _) fun _ _ => NoStore.pure _ _)
    | _ => exact .inr base
  | appdata k get set sz env =>
    simp only [Sys.syncAfter, Sys.points]
    cases hk : s.hs k with
    | live h =>
      dsimp only
      rcases appdata_sync hg hs false (get := get) (set := set) (sz := sz) with h1 | h1
      · exact .inl h1
      · exact .inr h1.2
    | _ => exact .inr base

/-! ## Calls that report success -/

theorem WaitErr.rc_neg (w : WaitErr) : w.rc < 0 := by cases w <;> decide

theorem finish_ok {len niov : Nat} {env : Env} {r s : Ring} {rc : Int} {w : Bool}
    (h : (writevFinish len niov env r).res = .ok (.ret rc w) s) (hrc : 0 < rc) :
    env.wakeOk = true ∧ s.gflags = r.gflags ∧ (s.gflags.has SHR_SYNC = true → env.syncOk = true) := by
  unfold writevFinish at h
  by_cases h1 : env.wakeOk = false
  · rw [if_pos h1] at h; cases h; omega
  rw [if_neg h1] at h
  obtain ⟨_, t1, e1, h⟩ := res_bind_ok h
  obtain ⟨_, t2, e2, h⟩ := res_bind_ok h
  cases e1; cases e2
  rw [M.get_bind] at h
  refine ⟨by simpa using h1, ?_⟩
  by_cases h2 : r.gflags.has SHR_SYNC = true ∧ env.syncOk = false
  · rw [if_pos h2] at h; cases h; omega
  · rw [if_neg h2] at h
    cases h
    exact ⟨rfl, fun hs => by
      cases hy : env.syncOk with
      | true => rfl
      | false => exact absurd ⟨hs, hy⟩ h2⟩

theorem attempt_ok {r s : Ring} (hs : r.gflags.has SHR_SYNC = true) (t : Typed r) {flags : Flags} {smm : Nat} {iov : List Msg} {len : Nat} {env : Env} {rc : Int}
    {w : Bool} (hb : ∀ b ∈ iov, b.length < W) (h : (writevAttempt flags smm iov len env r).res = .ok (.ret rc w) s) (hrc : 0 < rc) (c : Bool) :
    attemptSync r len iov.length env c = true := by
  have hgf : s.gflags = r.gflags := ((writevAttempt_bs _ _ _ _ t hb).steps s (exec_points (exec_ok.mpr h))).params.1
  unfold writevAttempt at h
  unfold attemptSync
  by_cases h1 : env.lockOk = false
  · rw [if_pos h1] at h; cases h; omega
  rw [if_neg h1] at h ⊢
  rw [M.get_bind] at h
  have fin : ∀ r', (writevFinish len iov.length env r').res = .ok (.ret rc w) s →
      (env.wakeOk && (r.gflags.has SHR_SYNC && env.syncOk)) = true := by
    intro r' h'
    obtain ⟨f1, _, f3⟩ := finish_ok h' hrc
    rw [f1, hs, f3 (by rw [hgf]; exact hs)]; rfl
  by_cases h2 : wsub r.n r.u ≥ len ∧ wsub r.mm r.m ≥ iov.length
  · rw [if_pos h2] at h
    rw [if_pos (.inl h2)]
    obtain ⟨_, t1, _, h⟩ := res_bind_ok h
    exact fin t1 h
  rw [if_neg h2] at h
  by_cases h3 : r.gflags.has SHR_DROP = true
  · rw [if_pos h3] at h
    rw [if_pos (.inr h3)]
    obtain ⟨_, t1, _, h⟩ := res_bind_ok h
    obtain ⟨_, t2, _, h⟩ := res_bind_ok h
    exact fin t2 h
  rw [if_neg h3] at h
  exfalso
  by_cases h4 : flags.has SHR_NONBLOCK = true
  · rw [if_pos h4] at h; cases h; omega
  rw [if_neg h4] at h
  cases hw : env.waitRc with
  | some sc =>
    rw [hw] at h
    have := sc.rc_neg
    cases h
    omega
  | none => rw [hw] at h; cases h

theorem direct_ok {r s : Ring} (hs : r.gflags.has SHR_SYNC = true) (t : Typed r) {flags : Flags} {sn smm : Nat} {iov : List Msg} {env : Env} {rc : Int}
    {w : Bool} (hb : ∀ b ∈ iov, b.length < W) (h : (writevDirect flags sn smm iov env r).res = .ok (.ret rc w) s) (hrc : 0 < rc) (c : Bool) :
    directSync sn smm iov env r c = true := by
  unfold writevDirect at h
  unfold directSync
  obtain ⟨_, t1, e1, h'⟩ := res_bind_ok h
  have : t1 = r := NoStore.assert _ r t1 (res_mem_points e1)
  subst this
  cases hl : lenCheck sn smm (iov.map List.length) with
  | none => rw [hl] at h'; cases h'; omega
  | some len => rw [hl] at h'; exact attempt_ok hs t hb h' hrc c

theorem flushCache_ok {r s : Ring} (hs : r.gflags.has SHR_SYNC = true) (t : Typed r) {h : Handle} (hc : h.c.buf.length < W) {env : Env} {rc : Int}
    {w : Bool} (hr : (flushCache h env r).res = .ok (.ret rc w) s) (hrc : 0 < rc) (c : Bool) : flushCacheSync h env r c = true := by
  unfold flushCache at hr
  unfold flushCacheSync
  obtain ⟨ms, t1, e1, hr⟩ := res_bind_ok hr
  have : t1 = r := NoStore.lift _ r t1 (res_mem_points e1)
  subst this
  cases hm : cacheRead h.c.buf (h.c.iov.take h.c.vm) with
  | error e => rw [hm] at e1; cases e <;> simp [M.lift] at e1
  | ok msgs =>
    rw [hm] at e1
    simp [M.lift] at e1
    subst e1
    exact direct_ok hs t (cacheRead_len hc _ _ hm) hr hrc c

/-- A call that reports success on a SHR_SYNC ring ends with everything on the disk. -/
theorem confirms_synced {s s' : Sys} {op : Op} {o : Out} (hstep : s.step op = .ok (s', o)) (hcf : Confirms s op o) (hop : op.Small)
    (hs : s.ring.gflags.has SHR_SYNC = true) (t : Typed s.ring) (hc : ∀ h, s.hs op.handle = .live h → h.c.buf.length < W) (c : Bool) :
    s.syncAfter c op = true := by
  cases op with
  | «open» k flags env =>
    unfold Sys.step at hstep
    unfold Sys.syncAfter
    dsimp only at hstep ⊢
    cases hk : s.hs k with
    | never =>
      rw [hk] at hstep
      dsimp only at hstep ⊢
      split at hstep
      · cases hstep; exact absurd hcf (by simp [Confirms])
      rename_i hv
      rw [if_neg hv]
      unfold openSync
      split at hstep
      · cases hstep; exact absurd hcf (by simp [Confirms])
      · rename_i h' e'; rw [e']; simp [hs]
    | _ => rw [hk] at hstep; cases hstep; exact absurd hcf (by simp [Confirms])
  | writev k iov e1 e2 =>
    unfold Sys.step at hstep
    unfold Sys.syncAfter
    dsimp only at hstep ⊢
    cases hk : s.hs k with
    | live h =>
      rw [hk] at hstep
      dsimp only at hstep ⊢
      split at hstep
      · cases hstep; exact absurd hcf (by simp [Confirms])
      rename_i hw
      rw [if_neg hw]
      split at hstep
      · cases hstep
      rename_i h' o' r' e
      cases hstep
      cases o' with
      | wait => exact absurd hcf (by simp [Confirms, WrOut.out])
      | ret rc w =>
        obtain ⟨hrc, hb⟩ : 0 < rc ∧ _ := hcf
        have hb := hb h hk
        have e := exec_ok.mp e
        unfold shr_writev at e
        unfold writevSync
        obtain ⟨_, t1, e3, e⟩ := res_bind_ok e
        have : t1 = s.ring := NoStore.assert _ _ t1 (res_mem_points e3)
        subst this
        cases hl : lenCheck h.n h.mm (iov.map List.length) with
        | none => rw [hl] at e; cases e; omega
        | some len =>
          rw [hl] at e
          dsimp only at e ⊢
          have hcl : cacheLoop iov len e1 2 h = Pure.pure (h, none) := by
            unfold cacheLoop; rw [if_pos hb]
          have hcs : cacheLoopSync iov len e1 2 h s.ring c = (c, some s.ring) := by
            unfold cacheLoopSync; rw [if_pos hb]
          rw [hcs]
          rw [hcl] at e
          obtain ⟨x, t2, e4, e⟩ := res_bind_ok e
          cases e4
          dsimp only at e
          obtain ⟨o2, t3, e5, e⟩ := res_bind_ok e
          cases e
          exact attempt_ok hs t hop e5 hrc c
    | _ => rw [hk] at hstep; cases hstep; exact absurd hcf (by simp [Confirms])
  | readv k buf niov env => exact absurd hcf (by simp [Confirms])
  | flush k wait env =>
    unfold Sys.step at hstep
    unfold Sys.syncAfter
    dsimp only at hstep ⊢
    cases hk : s.hs k with
    | live h =>
      rw [hk] at hstep
      dsimp only at hstep ⊢
      split at hstep
      · cases hstep; exact absurd hcf (by simp [Confirms])
      rename_i hw
      rw [if_neg hw]
      split at hstep
      · cases hstep
      rename_i h' o' r' e
      cases hstep
      cases o' with
      | wait => exact absurd hcf (by simp [Confirms, WrOut.out])
      | ret rc w =>
        have hrc : 0 < rc := hcf
        have e := exec_ok.mp e
        unfold shr_flush at e
        unfold flushSync
        obtain ⟨_, t1, e3, e⟩ := res_bind_ok e
        have : t1 = s.ring := NoStore.assert _ _ t1 (res_mem_points e3)
        subst this
        have hcb := hc h hk
        by_cases h0 : h.c.n = 0
        · rw [if_pos h0] at e; cases e; omega
        rw [if_neg h0] at e ⊢
        cases ht : (h.flags.has SHR_NONBLOCK && wait) with
        | false =>
          simp only [ht, Bool.false_eq_true, false_and, if_false] at e ⊢
          obtain ⟨o2, t2, e4, e⟩ := res_bind_ok e
          cases e
          exact flushCache_ok hs t hcb e4 hrc c
        | true =>
          simp only [ht, true_and, if_true] at e ⊢
          by_cases h3 : h.hasR2w = false ∧ (env.lockOk = false ∨ env.bwOpenOk = false)
          · rw [if_pos h3] at e; cases e; omega
          · rw [if_neg h3] at e ⊢
            obtain ⟨o2, t2, e4, e⟩ := res_bind_ok e
            cases e
            exact flushCache_ok (h := { h with flags := h.flags.clear SHR_NONBLOCK, hasR2w := true }) hs t hcb e4 hrc c
    | _ => rw [hk] at hstep; cases hstep; exact absurd hcf (by simp [Confirms])
  | close k env => exact absurd hcf (by simp [Confirms])
  | stat k reset env =>
    unfold Sys.step at hstep
    unfold Sys.syncAfter
    dsimp only at hstep ⊢
    cases hk : s.hs k with
    | live h =>
      rw [hk] at hstep
      dsimp only at hstep ⊢
      split at hstep
      · cases hstep
      rename_i rc st' r' e
      cases hstep
      have hrc : rc = 0 := hcf
      have e := exec_ok.mp e
      unfold shr_stat at e
      unfold statSync
      by_cases h1 : env.lockOk = false
      · rw [if_pos h1] at e; cases e; cases hrc
      rw [if_neg h1] at e ⊢
      rw [M.get_bind] at e
      cases hy : env.syncOk with
      | true => simp [hs]
      | false =>
        exfalso
        simp only [hs, hy, and_self, if_true] at e
        cases reset with
        | none => cases e; cases hrc
        | some tv =>
          obtain ⟨_, t1, e3, e⟩ := res_bind_ok e
          obtain ⟨_, t2, e4, e⟩ := res_bind_ok e
          cases e; cases hrc
    | _ => rw [hk] at hstep; cases hstep; exact absurd hcf (by simp [Confirms])
  | farmStat k reset => exact absurd hcf (by simp [Confirms])
  | appdata k get set sz env =>
    unfold Sys.step at hstep
    unfold Sys.syncAfter
    dsimp only at hstep ⊢
    cases hk : s.hs k with
    | live h =>
      rw [hk] at hstep
      dsimp only at hstep ⊢
      split at hstep
      · cases hstep
      rename_i ao r' e
      cases hstep
      have hrc : ao.rc = 0 := hcf
      have e := exec_ok.mp e
      unfold shr_appdata at e
      unfold appdataSync
      by_cases h1 : env.lockOk = false
      · rw [if_pos h1] at e; cases e; cases hrc
      rw [if_neg h1] at e ⊢
      rw [M.get_bind] at e
      by_cases h2 : s.ring.app_len = 0
      · rw [if_pos h2] at e; cases e; cases hrc
      rw [if_neg h2] at e ⊢
      cases hy : env.syncOk with
      | true =>
        simp only [hs, Bool.and_self, if_true]
        cases get <;> cases set <;> dsimp only at e ⊢
        case alloc.none =>
          split
          · rename_i h3; rw [if_pos h3] at e; cases e; cases hrc
          · rfl
        case into.none =>
          split
          · rename_i h3; rw [if_pos h3] at e; cases e; cases hrc
          · rfl
        case null.some =>
          split
          · rename_i h3; rw [if_pos h3] at e; cases e; cases hrc
          · rfl
        case into.some =>
          split
          · rename_i h3; rw [if_pos h3] at e; cases e; cases hrc
          · rfl
      | false =>
        exfalso
        simp only [hs, hy, and_self, if_true] at e
        cases get <;> cases set <;> dsimp only at e
        case null.none => cases e; cases hrc
        case alloc.some => cases e; cases hrc
        all_goals
          split at e
          · cases e; cases hrc
          · obtain ⟨_, t1, e3, e⟩ := res_bind_ok e
            first
              | (cases e; cases hrc; done)
              | (obtain ⟨_, t2, e4, e⟩ := res_bind_ok e
                 cases e; cases hrc; done)
              | (split at e
                 · first
                   | (cases e; cases hrc; done)
                   | (obtain ⟨_, t2, e4, e⟩ := res_bind_ok e
                      obtain ⟨_, t3, e5, e⟩ := res_bind_ok e
                      cases e; cases hrc; done)
                 · obtain ⟨_, t2, e4, e⟩ := res_bind_ok e
                   cases e4)
    | _ => rw [hk] at hstep; cases hstep; exact absurd hcf (by simp [Confirms])

/-! ## Calls in progress -/

theorem Core.mod {r : Ring} {g g' p0 : Nat} {P : List Msg} (h : Core r g p0 P) (e : g % r.mm = g' % r.mm) : Core r g' p0 P := by
  obtain ⟨a1, a2, a3, a4, a5, a6, a7, a8, a9, a10, a11, a12⟩ := h
  refine ⟨a1, a2, a3, a4, a5, a6, a7, a8, a9, a10, fun j b hj => ?_, a12⟩
  rw [Nat.add_mod, ← e, ← Nat.add_mod]
  exact a11 j b hj

theorem length_of_get {α : Type} {l : List α} {n : Nat} (h1 : l[n]? = none) (h2 : ∀ k, k < n → l[k]? ≠ none) : l.length = n := by
  have := List.getElem?_eq_none_iff.mp h1
  rcases Nat.lt_or_ge l.length n with h | h
  · exact absurd (List.getElem?_eq_none (Nat.le_refl _)) (h2 _ h)
  · omega

/-- What all contents of the file agree on is still there. -/
theorem Mixed.core {imgs : List Ring} {x : Ring} {g p0 n mm : Nat} {U : List Msg} (h : Mixed imgs x)
    (hc : ∀ p ∈ imgs, Core p g p0 U ∧ p.n = n ∧ p.mm = mm) : Core x g p0 U := by
  obtain ⟨p, hp, e⟩ := h.head
  obtain ⟨c, hn, hm⟩ := hc p hp
  have xn : x.n = n := by rw [e]; exact hn
  have xm : x.mm = mm := by rw [e]; exact hm
  have mvl : x.mv.length = mm := by
    refine length_of_get ?_ fun k hk => ?_
    · obtain ⟨q, hq, e⟩ := h.pos mm
      obtain ⟨c, hn, hm⟩ := hc q hq
      rw [List.getElem?_eq_none (l := q.mv) (by rw [c.mvlen]; omega)] at e
      simpa using e
    · obtain ⟨q, hq, e⟩ := h.pos k
      obtain ⟨c, hn, hm⟩ := hc q hq
      intro h0
      rw [h0, List.getElem?_eq_getElem (l := q.mv) (by rw [c.mvlen]; omega)] at e
      simp at e
  have dl : x.d.length = n := by
    refine length_of_get ?_ fun k hk => ?_
    · obtain ⟨q, hq, e⟩ := h.dat n
      obtain ⟨c, hn, hm⟩ := hc q hq
      rw [e, List.getElem?_eq_none (by rw [c.dlen]; omega)]
    · obtain ⟨q, hq, e⟩ := h.dat k
      obtain ⟨c, hn, hm⟩ := hc q hq
      rw [e, List.getElem?_eq_getElem (by rw [c.dlen]; omega)]
      simp
  subst hn; subst hm
  refine ⟨by rw [xn]; exact c.npos, by rw [xn]; exact c.nbd, by rw [xm]; exact c.mmpos, by rw [xm]; exact c.mmbd, by rw [xn]; exact dl,
    by rw [xm]; exact mvl, c.ne, by rw [xn]; exact c.tot, by rw [xm]; exact c.cnt, by rw [xn]; exact c.p0lt, fun j b hj => ?_, fun t y ht => ?_⟩
  · rw [xn, xm]
    obtain ⟨q1, hq1, e1⟩ := h.pos ((g + j) % p.mm)
    obtain ⟨q2, hq2, e2⟩ := h.len ((g + j) % p.mm)
    obtain ⟨c1, n1, m1⟩ := hc q1 hq1
    obtain ⟨c2, n2, m2⟩ := hc q2 hq2
    have s1 := c1.slots j b hj
    have s2 := c2.slots j b hj
    rw [m1, n1] at s1
    rw [m2, n2] at s2
    rw [s1] at e1
    rw [s2] at e2
    cases hx : x.mv[(g + j) % p.mm]? with
    | none => rw [hx] at e1; cases e1
    | some sl =>
      rw [hx] at e1 e2
      obtain ⟨sp, sn⟩ := sl
      simp at e1 e2
      rw [e1, e2]
  · rw [xn]
    obtain ⟨q, hq, e⟩ := h.dat ((p0 + t) % p.n)
    obtain ⟨c, hn, hm⟩ := hc q hq
    have := c.data t y ht
    rw [hn] at this
    rw [e]; exact this

theorem msgsFrom_add (r : Ring) (i a b : Nat) : r.msgsFrom i (a + b) = r.msgsFrom i a ++ r.msgsFrom (i + a) b := by
  unfold Ring.msgsFrom
  rw [List.range_add, List.map_append, List.map_map]
  congr 1
  refine List.map_congr_left fun j _ => ?_
  simp [Nat.add_assoc]

/-- Only the app data is changed, to bytes of `s`. -/
def AppR (s : List Byte) (r p : Ring) : Prop := p = { r with app := p.app } ∧ ∀ k : Nat, p.app[k]? = r.app[k]? ∨ p.app[k]? = s[k]?

instance (s : List Byte) : Preo (AppR s) := ⟨fun _ => ⟨rfl, fun _ => .inl rfl⟩, fun h1 h2 => ⟨by rw [h2.1, h1.1], fun k => by
  rcases h2.2 k with h | h
  · rw [h]; exact h1.2 k
  · exact .inr h⟩⟩

theorem Walk.lift_bind {α β : Type} {R : Ring → Ring → Prop} [Preo R] {x : Except Fault α} {f : α → M Ring β} (h : ∀ a, x = .ok a → Walk R (f a)) :
    Walk R (M.lift x >>= f) := by
  cases x with
  | ok a =>
    intro r
    have := h a rfl r
    simpa [M.lift, M.bind_apply] using this
  | error e => cases e <;> intro r <;> simp [M.lift, M.bind_apply, Preo.refl]

theorem put_mix {d s : List Byte} {k : Nat} (h : k ≤ s.length) (hd : s.length ≤ d.length) (j : Nat) :
    (put d 0 (s.take k))[j]? = d[j]? ∨ (put d 0 (s.take k))[j]? = s[j]? := by
  rcases Nat.lt_or_ge j k with hj | hj
  · refine .inr ?_
    have := put_getElem?_in (d := d) (off := 0) (src := s.take k) (k := j) (by simp; omega) (by simp; omega)
    rw [Nat.zero_add] at this
    rw [this, List.getElem?_take, if_pos hj]
  · exact .inl (put_getElem?_out (by simp; omega) (.inr (by simp; omega)))

theorem memcpyApp_walk {s b : List Byte} {sz : Nat} (hb : b = s.take sz) :
    Walk (AppR s) (memcpyShared Ring.app (fun a r => { r with app := a }) 0 b) := by
  intro r
  unfold memcpyShared
  have key : b.length ≤ r.app.length → ∀ k, k ≤ b.length → AppR s r { r with app := put r.app 0 (b.take k) } := by
    intro hl k hk
    refine ⟨rfl, fun j => ?_⟩
    rcases put_mix hk hl j with h | h
    · exact .inl h
    · rcases Nat.lt_or_ge j b.length with hj | hj
      · refine .inr (h.trans ?_)
        rw [hb] at hj ⊢
        simp only [List.length_take] at hj
        rw [List.getElem?_take, if_pos (by omega)]
      · exact .inl (put_getElem?_out (by simp; omega) (.inr (by simp; omega)))
  split
  · rename_i hl
    rw [Nat.zero_add] at hl
    refine ⟨fun p hp => ?_, fun a t h => ?_, fun t h => (by cases h)⟩
    · obtain ⟨k, hk, rfl⟩ := List.mem_map.mp hp
      exact key hl k (by have := List.mem_range.mp hk; omega)
    · cases h
      have := key hl b.length (Nat.le_refl _)
      rw [List.take_length] at this
      exact this
  · exact ⟨fun p hp => (by cases hp), fun a t h => (by cases h), fun t h => (by cases h)⟩

theorem appdata_walk (get : GetArg) (set : List Byte) (sz : Nat) (env : Env) : Walk (AppR set) (shr_appdata get (some set) sz env) := by
  have rd : ∀ {b}, memRead set 0 sz = .ok b → b = set.take sz := by
    intro b h
    unfold memRead at h
    split at h
    · cases h; rfl
    · cases h
  unfold shr_appdata
  refine .ite .pure (.bind .get fun r => .ite .pure ?_)
  dsimp only
  cases get with
  | alloc => exact .ite .pure .pure
  | null =>
    refine .ite .pure (.lift_bind fun b hb => ?_)
    exact .bind (memcpyApp_walk (rd hb)) fun _ => .ite .pure .pure
  | into cap =>
    refine .ite .pure (.lift_bind fun o _ => ?_)
    have rest : Walk (AppR set) (do
        let b ← M.lift (memRead set 0 sz)
        memcpyShared Ring.app (fun a r => { r with app := a }) 0 b
        if r.gflags.has SHR_SYNC = true ∧ env.syncOk = false then pure (⟨-1, some o, sz⟩ : AppOut) else pure ⟨0, some o, sz⟩) :=
      .lift_bind fun b hb => .bind (memcpyApp_walk (rd hb)) fun _ => .ite .pure .pure
    exact .ite rest (.bind .lift fun _ => rest)

/-- What `shr_stat` may change. -/
def StatR (r p : Ring) : Prop := p = { r with stat := p.stat }

instance : Preo StatR := ⟨fun _ => rfl, fun h1 h2 => by unfold StatR at *; rw [h2, h1]⟩

theorem stat_walk (h : Handle) (reset : Option Timeval) (env : Env) : Walk StatR (shr_stat h reset env) := by
  unfold shr_stat
  refine .ite .pure (.bind .get fun r => ?_)
  cases reset with
  | none => exact .ite .pure .pure
  | some t => exact .bind (.store fun _ => rfl) fun _ => .bind (.store fun _ => rfl) fun _ => .ite .pure .pure

theorem mv_ext {l l' : List Slot} (h : ∀ j : Nat, l[j]?.map Slot.pos = l'[j]?.map Slot.pos ∧ l[j]?.map Slot.len = l'[j]?.map Slot.len) : l = l' :=
  List.ext_getElem? fun j => by
    obtain ⟨e, e'⟩ := h j
    cases h1 : l[j]? <;> cases h2 : l'[j]? <;> rw [h1, h2] at e e'
    · cases e
    · cases e
    · rename_i s t
      obtain ⟨a, b⟩ := s; obtain ⟨c, d⟩ := t
      simp at e e'
      rw [e, e']

/-- If only the control block changes, nothing is torn. -/
theorem Mixed.same_body {imgs : List Ring} {x r : Ring} (h : Mixed imgs x) (hi : ∀ p ∈ imgs, p.d = r.d ∧ p.mv = r.mv ∧ p.app = r.app) :
    x ∈ imgs := by
  obtain ⟨q, hq, e1⟩ := h.head
  have b1 : x.d = r.d := List.ext_getElem? fun j => by
    obtain ⟨q, hq, e⟩ := h.dat j
    rw [e, (hi q hq).1]
  have b2 : x.mv = r.mv := mv_ext fun j => by
    obtain ⟨q, hq, e⟩ := h.pos j
    obtain ⟨q', hq', e'⟩ := h.len j
    rw [(hi q hq).2.1] at e
    rw [(hi q' hq').2.1] at e'
    exact ⟨e, e'⟩
  have b3 : x.app = r.app := List.ext_getElem? fun j => by
    obtain ⟨q, hq, e⟩ := h.app j
    rw [e, (hi q hq).2.2]
  obtain ⟨c1, c2, c3⟩ := hi q hq
  have : x = q := by
    rw [e1, b1, b2, b3, ← c1, ← c2, ← c3]
  rw [this]; exact hq

end Shr
