import Verif.Model.Crash
/-! # What a run may change

Rules for: if `P` holds of the ring and every store of `x` keeps it, then `P` holds at every moment of the run of `x`. -/
namespace Shr
open M
variable {α β : Type} {P : Ring → Prop}

/-- `P` holds in every state before a store, at a failed assertion and at the end. -/
structure Touches (P : Ring → Prop) (x : M Ring α) (s : Ring) : Prop where
  tr : ∀ t ∈ (x s).trace, P t
  ok : ∀ a s', (x s).res = .ok a s' → P s'
  ab : ∀ s', (x s).res = .abort s' → P s'

namespace Touches
variable {s : Ring}

theorem points {x : M Ring α} (h : Touches P x s) : ∀ p ∈ (x s).points, P p := by
  intro p hp
  unfold Run.points at hp
  rcases List.mem_append.mp hp with hp | hp
  · exact h.tr p hp
  · unfold Run.final at hp
    split at hp
    · rename_i t a s' e; simp at hp; subst hp; exact h.ok a _ (by rw [e])
    · rename_i t s' e; simp at hp; subst hp; exact h.ab _ (by rw [e])
    · simp at hp

theorem bind {x : M Ring α} {k : α → M Ring β} (h : Touches P x s) (hk : ∀ a s', P s' → Touches P (k a) s') : Touches P (x >>= k) s := by
  obtain ⟨h1, h2, h3⟩ := h
  cases e : (x s).res with
  | ok a s' =>
    have g := hk a s' (h2 a s' e)
    refine ⟨?_, ?_, ?_⟩ <;> rw [M.bind_apply, e] <;> dsimp only
    · intro t ht
      rcases List.mem_append.mp ht with ht | ht
      · exact h1 t ht
      · exact g.tr t ht
    · exact g.ok
    · exact g.ab
  | abort s' =>
    refine ⟨?_, ?_, ?_⟩ <;> rw [M.bind_apply, e] <;> dsimp only
    · exact h1
    · exact fun _ _ x => nomatch x
    · intro t ht; cases ht; exact h3 _ e
  | ub =>
    refine ⟨?_, ?_, ?_⟩ <;> rw [M.bind_apply, e] <;> dsimp only
    · exact h1
    · exact fun _ _ x => nomatch x
    · exact fun _ x => nomatch x
  | hang =>
    refine ⟨?_, ?_, ?_⟩ <;> rw [M.bind_apply, e] <;> dsimp only
    · exact h1
    · exact fun _ _ x => nomatch x
    · exact fun _ x => nomatch x

theorem pure {a : α} (hs : P s) : Touches P (Pure.pure a : M Ring α) s :=
  ⟨fun _ h => (nomatch h), fun _ _ h => by cases h; exact hs, fun _ h => (nomatch h)⟩
theorem get (hs : P s) : Touches P (M.get : M Ring Ring) s :=
  ⟨fun _ h => (nomatch h), fun _ _ h => by cases h; exact hs, fun _ h => (nomatch h)⟩
theorem get_bind {k : Ring → M Ring β} (h : Touches P (k s) s) : Touches P (M.get >>= k) s := by
  obtain ⟨h1, h2, h3⟩ := h
  exact ⟨by rw [M.get_bind]; exact h1, by rw [M.get_bind]; exact h2, by rw [M.get_bind]; exact h3⟩
theorem store {g : Ring → Ring} (hs : P s) (hg : P (g s)) : Touches P (M.store g) s :=
  ⟨fun _ h => by rw [M.store_apply] at h; rw [List.mem_singleton.mp h]; exact hs,
   fun _ _ h => by rw [M.store_apply] at h; cases h; exact hg, fun _ h => by rw [M.store_apply] at h; cases h⟩
theorem store_bind {g : Ring → Ring} {k : Unit → M Ring β} (hs : P s) (hg : P (g s)) (hk : Touches P (k ()) (g s)) : Touches P (M.store g >>= k) s := by
  obtain ⟨h1, h2, h3⟩ := hk
  refine ⟨?_, ?_, ?_⟩ <;> rw [M.store_bind]
  · intro t ht
    rcases List.mem_cons.mp ht with rfl | ht
    · exact hs
    · exact h1 t ht
  · exact h2
  · exact h3
theorem assert {b : Bool} (hs : P s) : Touches P (M.assert b) s := by
  cases b
  · exact ⟨fun _ h => (nomatch h), fun _ _ h => (nomatch h), fun _ h => by cases h; exact hs⟩
  · exact pure hs
theorem lift {x : Except Fault α} (hs : P s) : Touches P (M.lift x) s := by
  cases x with
  | ok a => exact pure hs
  | error f =>
    cases f
    · exact ⟨fun _ h => (nomatch h), fun _ _ h => (nomatch h), fun _ h => by cases h; exact hs⟩
    · exact ⟨fun _ h => (nomatch h), fun _ _ h => (nomatch h), fun _ h => nomatch h⟩
    · exact ⟨fun _ h => (nomatch h), fun _ _ h => (nomatch h), fun _ h => nomatch h⟩
theorem err {k : Unit → M Ring β} : Touches P ((M.lift (.error .ub) : M Ring Unit) >>= k) s :=
  ⟨fun _ h => (nomatch h), fun _ _ h => (nomatch h), fun _ h => (nomatch h)⟩
theorem assert_bind {b : Bool} {k : Unit → M Ring β} (hs : P s) (h : b = true → Touches P (k ()) s) : Touches P (M.assert b >>= k) s := by
  cases b with
  | true =>
    obtain ⟨h1, h2, h3⟩ := h rfl
    exact ⟨by rw [M.assert_true_bind]; exact h1, by rw [M.assert_true_bind]; exact h2, by rw [M.assert_true_bind]; exact h3⟩
  | false => exact ⟨fun _ h => (nomatch h), fun _ _ h => (nomatch h), fun _ h => by cases h; exact hs⟩
theorem ite {c : Prop} [Decidable c] {x y : M Ring α} (h1 : c → Touches P x s) (h2 : ¬c → Touches P y s) : Touches P (if c then x else y) s := by
  by_cases hc : c
  · rw [if_pos hc]; exact h1 hc
  · rw [if_neg hc]; exact h2 hc
theorem mono {Q : Ring → Prop} {x : M Ring α} (h : Touches P x s) (hq : ∀ r, P r → Q r) : Touches Q x s :=
  ⟨fun t ht => hq t (h.tr t ht), fun a s' e => hq s' (h.ok a s' e), fun s' e => hq s' (h.ab s' e)⟩

theorem memcpy {rd : Ring → List Byte} {wr : List Byte → Ring → Ring} {off : Nat} {src : List Byte} (hw : ∀ d, P (wr d s)) :
    Touches P (memcpyShared rd wr off src) s := by
  have e : memcpyShared rd wr off src s = if off + src.length ≤ (rd s).length then
      ⟨(List.range src.length).map (fun k => wr (put (rd s) off (src.take k)) s), .ok () (wr (put (rd s) off src) s)⟩ else ⟨[], .ub⟩ := rfl
  by_cases hc : off + src.length ≤ (rd s).length
  · rw [if_pos hc] at e
    refine ⟨?_, ?_, ?_⟩ <;> rw [e]
    · intro t ht
      obtain ⟨j, _, rfl⟩ := List.mem_map.mp ht
      exact hw _
    · intro _ _ h; cases h; exact hw _
    · exact fun _ h => (nomatch h)
  · rw [if_neg hc] at e
    refine ⟨?_, ?_, ?_⟩ <;> rw [e]
    · exact fun _ h => (nomatch h)
    · exact fun _ _ h => (nomatch h)
    · exact fun _ h => (nomatch h)
end Touches

/-! ## Readers -/

/-- Of the ring `r0` at most the read position, the unread counts and the statistics are different. -/
def ReadOnlyOf (r0 p : Ring) : Prop := p = { r0 with r := p.r, u := p.u, m := p.m, stat := p.stat }
/-- Of the ring `r0` at most the statistics are different. -/
def StatOf (r0 p : Ring) : Prop := p = { r0 with stat := p.stat }

variable {r0 : Ring}

theorem readOne_statOf {st : RdSt} {mi : MsgInfo} {s : Ring} (hf : r0.gflags.has SHR_FARM = true) (h : StatOf r0 s) : Touches (StatOf r0) (readOne st mi) s := by
  unfold readOne
  refine .get_bind (.bind (.lift h) fun b1 s1 h1 => .bind (.lift h1) fun b2 s2 h2 => ?_)
  have e : s.gflags.has SHR_FARM = true := by rw [h]; exact hf
  dsimp only
  simp only [if_pos e]
  exact .ite (fun _ => .bind (.lift h2) fun _ s3 h3 => .bind (.lift h3) fun _ s4 h4 => .pure h4) fun _ => .bind (.pure h2) fun _ s4 h4 => .pure h4

theorem readOne_touch {st : RdSt} {mi : MsgInfo} {s : Ring} (h : ReadOnlyOf r0 s) : Touches (ReadOnlyOf r0) (readOne st mi) s := by
  unfold readOne
  refine .get_bind (.bind (.lift h) fun b1 s1 h1 => .bind (.lift h1) fun b2 s2 h2 => ?_)
  dsimp only
  refine .ite (fun _ => .bind (.lift h2) fun _ s5 h5 => .bind (.lift h5) fun _ s3 h3 => ?_) fun _ => .bind (.pure h2) fun _ s3 h3 => ?_
  all_goals
  refine .ite (fun _ => .pure h3) fun _ => .ite (fun _ => .lift h3) fun _ => ?_
  have k1 : ReadOnlyOf r0 { s3 with r := wadd s3.r 1 % s3.mm } := by unfold ReadOnlyOf; rw [h3]
  refine .store_bind h3 k1 (.store_bind k1 ?_ (.store_bind ?_ ?_ (.pure ?_)))
  all_goals (unfold ReadOnlyOf; rw [h3])

theorem readLoop_touch {P : Ring → Prop} (h1 : ∀ st mi s, P s → Touches P (readOne st mi) s) : ∀ (niov : Nat) (st : RdSt) (mi : MsgInfo) {s : Ring}, P s →
    Touches P (readLoop niov st mi) s
  | 0, _, _, _, h => .pure h
  | niov + 1, st, mi, s, h => by
    unfold readLoop
    refine .ite (fun _ => .pure h) fun _ => .bind (h1 _ _ _ h) fun st' s1 k1 => .get_bind (.bind (.lift k1) fun x s2 k2 => ?_)
    obtain ⟨c, o⟩ := x
    cases o with
    | none => exact .pure k2
    | some mi' => exact readLoop_touch h1 niov _ _ k2

theorem shr_readv_touch {P : Ring → Prop} (h1 : ∀ st mi s, P s → Touches P (readOne st mi) s) (hst : ∀ s st, P s → P { s with stat := st })
    (h : Handle) (buf : List Byte) (len niov : Nat) (env : Env) {s : Ring} (hs : P s) : Touches P (shr_readv h buf len niov env) s := by
  unfold shr_readv
  refine .bind ?_ fun _ _ k => .pure k
  unfold readvAttempt
  refine .assert_bind hs fun _ => .ite (fun _ => .pure hs) fun _ => .ite (fun _ => .pure hs) fun _ => .ite (fun _ => .pure hs) fun _ => ?_
  refine .get_bind (.bind (.lift hs) fun x s1 k1 => ?_)
  obtain ⟨c, o⟩ := x
  cases o with
  | none =>
    refine .assert_bind k1 fun _ => .ite (fun _ => .pure k1) fun _ => ?_
    cases env.waitRc <;> exact .pure k1
  | some mi =>
    show Touches P (readvBody _ _ _ _ _ _) s1
    unfold readvBody
    refine .bind (readLoop_touch h1 _ _ _ k1) fun x s2 k2 => .store_bind k2 (hst _ _ k2) (.store_bind (hst _ _ k2) (hst _ _ (hst _ _ k2)) ?_)
    exact .assert_bind (hst _ _ (hst _ _ k2)) fun _ => .pure (hst _ _ (hst _ _ k2))

/-! ## Writers -/

/-- Of the ring `r0` neither the attributes, sizes and paddings nor the application data are different, and without SHR_DROP the read position is not either. -/
structure WriteOf (r0 p : Ring) : Prop where
  gflags : p.gflags = r0.gflags
  n : p.n = r0.n
  mm : p.mm = r0.mm
  mv_len : p.mv_len = r0.mv_len
  pad_len : p.pad_len = r0.pad_len
  app_len : p.app_len = r0.app_len
  app : p.app = r0.app
  r : r0.gflags.has SHR_DROP = false → p.r = r0.r ∧ p.stat.bd = r0.stat.bd ∧ p.stat.md = r0.stat.md

theorem WriteOf.refl : WriteOf r0 r0 := ⟨rfl, rfl, rfl, rfl, rfl, rfl, rfl, fun _ => ⟨rfl, rfl, rfl⟩⟩

theorem WriteOf.upd {s s' : Ring} (h : WriteOf r0 s)
    (e : (s'.gflags, s'.n, s'.mm, s'.mv_len, s'.pad_len, s'.app_len, s'.app, s'.r, s'.stat.bd, s'.stat.md) =
      (s.gflags, s.n, s.mm, s.mv_len, s.pad_len, s.app_len, s.app, s.r, s.stat.bd, s.stat.md)) : WriteOf r0 s' := by
  simp only [Prod.mk.injEq] at e
  obtain ⟨a1, a2, a3, a4, a5, a6, a7, a8, a9, a10⟩ := e
  exact ⟨a1.trans h.1, a2.trans h.2, a3.trans h.3, a4.trans h.4, a5.trans h.5, a6.trans h.6, a7.trans h.7, fun x => by rw [a8, a9, a10]; exact h.8 x⟩

/-- In DROP mode nothing is said about the read position. -/
theorem WriteOf.drop {s s' : Ring} (h : WriteOf r0 s) (hd : s.gflags.has SHR_DROP = true)
    (e : (s'.gflags, s'.n, s'.mm, s'.mv_len, s'.pad_len, s'.app_len, s'.app) =
      (s.gflags, s.n, s.mm, s.mv_len, s.pad_len, s.app_len, s.app)) : WriteOf r0 s' := by
  simp only [Prod.mk.injEq] at e
  obtain ⟨a1, a2, a3, a4, a5, a6, a7⟩ := e
  refine ⟨a1.trans h.1, a2.trans h.2, a3.trans h.3, a4.trans h.4, a5.trans h.5, a6.trans h.6, a7.trans h.7, fun x => ?_⟩
  rw [h.1, x] at hd; cases hd

theorem copyOne_touch (b : Msg) (p : Nat) {s : Ring} (h : WriteOf r0 s) : Touches (WriteOf r0) (copyOne b p) s := by
  unfold copyOne
  refine .assert_bind h fun _ => .get_bind ?_
  dsimp only
  refine .ite (fun _ => ?_) fun _ => .err
  have h1 : WriteOf r0 { s with mv := s.mv.modify p fun m => { m with pos := s.i } } := h.upd rfl
  refine .store_bind h h1 (.store_bind h1 (h1.upd rfl) (.get_bind ?_))
  have h2 := h1.upd (s' := { s with mv := (s.mv.modify p fun m => { m with pos := s.i }).modify p fun m => { m with len := b.length } }) rfl
  dsimp only
  refine .ite (fun _ => ?_) fun _ => .err
  refine .bind (.memcpy fun d => h2.upd rfl) fun _ s3 h3 => ?_
  refine .ite (fun _ => .bind (.memcpy fun d => h3.upd rfl) fun _ s4 h4 => ?_) fun _ => ?_
  · exact .ite (fun _ => .err) fun _ => .store_bind h4 (h4.upd rfl) (.get_bind (.pure (h4.upd rfl)))
  · exact .ite (fun _ => .err) fun _ => .store_bind h3 (h3.upd rfl) (.get_bind (.pure (h3.upd rfl)))

theorem copyLoop_touch : ∀ (iov : List Msg) (p : Nat) {s : Ring}, WriteOf r0 s → Touches (WriteOf r0) (copyLoop iov p) s
  | [], _, _, h => .pure h
  | b :: bs, p, s, h => by
    unfold copyLoop
    exact .bind (copyOne_touch b p h) fun p' _ k => copyLoop_touch bs p' k

theorem drop_unread_touch (smm need niov : Nat) {s : Ring} (h : WriteOf r0 s) : Touches (WriteOf r0) (drop_unread smm need niov) s := by
  unfold drop_unread
  refine .get_bind (.assert_bind h fun hd => ?_)
  let P' : Ring → Prop := fun t => WriteOf r0 t ∧ t.gflags.has SHR_DROP = true
  have up : ∀ {t t' : Ring}, P' t → (t'.gflags, t'.n, t'.mm, t'.mv_len, t'.pad_len, t'.app_len, t'.app) =
      (t.gflags, t.n, t.mm, t.mv_len, t.pad_len, t.app_len, t.app) → P' t' := fun {t t'} k e =>
    ⟨k.1.drop k.2 e, by rw [show t'.gflags = t.gflags from congrArg (·.1) e]; exact k.2⟩
  have h : P' s := ⟨h, hd⟩
  refine Touches.mono (P := P') ?_ fun _ k => k.1
  refine .assert_bind h fun _ => .assert_bind h fun _ => .assert_bind h fun _ => .assert_bind h fun _ => ?_
  refine .bind (.lift h) fun x s1 h1 => ?_
  refine .store_bind h1 (up h1 rfl) (.store_bind (up h1 rfl) (up h1 rfl) (.store_bind (up h1 rfl) (up h1 rfl) ?_))
  refine .store_bind (up h1 rfl) (up h1 rfl) (.store_bind (up h1 rfl) (up h1 rfl) (.get_bind ?_))
  exact .assert_bind (up h1 rfl) fun _ => .assert (up h1 rfl)

theorem writevCommit_touch (smm : Nat) (iov : List Msg) (len : Nat) {s : Ring} (h : WriteOf r0 s) : Touches (WriteOf r0) (writevCommit smm iov len) s := by
  unfold writevCommit
  refine .get_bind (.assert_bind h fun _ => .assert_bind h fun _ => .assert_bind h fun _ => .bind (.lift h) fun x s1 h1 => ?_)
  refine .store_bind h1 (h1.upd rfl) (.store_bind (h1.upd rfl) (h1.upd rfl) (.store_bind (h1.upd rfl) (h1.upd rfl) (.get_bind ?_)))
  refine .ite (fun _ => .err) fun _ => .bind (copyLoop_touch _ _ (h1.upd rfl)) fun _ s2 h2 => ?_
  exact .store_bind h2 (h2.upd rfl) (.store_bind (h2.upd rfl) (h2.upd rfl) (.store (h2.upd rfl) (h2.upd rfl)))

theorem writevFinish_touch (len niov : Nat) (env : Env) {s : Ring} (h : WriteOf r0 s) : Touches (WriteOf r0) (writevFinish len niov env) s := by
  unfold writevFinish
  refine .ite (fun _ => .pure h) fun _ => .store_bind h (h.upd rfl) (.store_bind (h.upd rfl) (h.upd rfl) (.get_bind ?_))
  exact .ite (fun _ => .pure (h.upd rfl)) fun _ => .pure (h.upd rfl)

theorem writevAttempt_touch (flags : Flags) (smm : Nat) (iov : List Msg) (len : Nat) (env : Env) {s : Ring} (h : WriteOf r0 s) :
    Touches (WriteOf r0) (writevAttempt flags smm iov len env) s := by
  unfold writevAttempt
  refine .ite (fun _ => .pure h) fun _ => .get_bind (.ite (fun _ => ?_) fun _ => .ite (fun _ => ?_) fun _ => .ite (fun _ => .pure h) fun _ => ?_)
  · exact .bind (writevCommit_touch _ _ _ h) fun _ _ k => writevFinish_touch _ _ _ k
  · exact .bind (drop_unread_touch _ _ _ h) fun _ _ k => .bind (writevCommit_touch _ _ _ k) fun _ _ k => writevFinish_touch _ _ _ k
  · cases env.waitRc <;> exact .pure h

theorem writevDirect_touch (flags : Flags) (sn smm : Nat) (iov : List Msg) (env : Env) {s : Ring} (h : WriteOf r0 s) :
    Touches (WriteOf r0) (writevDirect flags sn smm iov env) s := by
  unfold writevDirect
  refine .assert_bind h fun _ => ?_
  cases lenCheck sn smm (iov.map List.length) with
  | none => exact .pure h
  | some len => exact writevAttempt_touch _ _ _ _ _ h

theorem flushCache_touch (hd : Handle) (env : Env) {s : Ring} (h : WriteOf r0 s) : Touches (WriteOf r0) (flushCache hd env) s := by
  unfold flushCache
  exact .bind (.lift h) fun _ _ k => writevDirect_touch _ _ _ _ _ k

theorem cacheLoop_touch (iov : List Msg) (len : Nat) (envF : Env) : ∀ (fuel : Nat) (hd : Handle) {s : Ring}, WriteOf r0 s →
    Touches (WriteOf r0) (cacheLoop iov len envF fuel hd) s
  | 0, _, _, h => .lift h
  | fuel + 1, hd, s, h => by
    unfold cacheLoop
    refine .ite (fun _ => .pure h) fun _ => .ite (fun _ => .bind (.lift h) fun _ _ k => .pure k) fun _ => .ite (fun _ => .pure h) fun _ => ?_
    refine .bind (flushCache_touch _ _ h) fun o s1 k => ?_
    cases o with
    | wait => exact .pure k
    | ret rc wake => exact .ite (fun _ => .pure k) fun _ => cacheLoop_touch iov len envF fuel _ k

theorem shr_writev_touch (hd : Handle) (iov : List Msg) (envF env : Env) {s : Ring} (h : WriteOf r0 s) :
    Touches (WriteOf r0) (shr_writev hd iov envF env) s := by
  unfold shr_writev
  refine .assert_bind h fun _ => ?_
  cases lenCheck hd.n hd.mm (iov.map List.length) with
  | none => exact .pure h
  | some len =>
    refine .bind (cacheLoop_touch _ _ _ _ _ h) fun x s1 k => ?_
    obtain ⟨h', o⟩ := x
    cases o with
    | some o => exact .pure k
    | none => exact .bind (writevAttempt_touch _ _ _ _ _ k) fun _ _ k => .pure k

theorem shr_flush_touch (hd : Handle) (wait : Bool) (env : Env) {s : Ring} (h : WriteOf r0 s) : Touches (WriteOf r0) (shr_flush hd wait env) s := by
  unfold shr_flush
  refine .assert_bind h fun _ => .ite (fun _ => .pure h) fun _ => .ite (fun _ => .pure h) fun _ => .bind (flushCache_touch _ _ h) fun _ _ k => .pure k

theorem shr_close_touch (hd : Handle) (env : Env) {s : Ring} (h : WriteOf r0 s) : Touches (WriteOf r0) (shr_close hd env) s := by
  unfold shr_close
  exact .ite (fun _ => .bind (shr_flush_touch _ _ _ h) fun _ _ k => .pure k) fun _ => .pure h

end Shr
