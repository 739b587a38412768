import Verif.Model.Crash
import Verif.Props.Algebra
/-! # Replacing the bytes: every run of the model commutes with it

For an arbitrary function on bytes: the run from the ring with the replaced bytes makes the same stores with replaced bytes, in any state whatsoever. -/
namespace Shr
open M
variable {α β γ δ : Type} (f : Byte → Byte)

def Ring.mapB (r : Ring) : Ring := { r with d := r.d.map f, app := r.app.map f }
def Cache.mapB (c : Cache) : Cache := { c with buf := c.buf.map f }
def Handle.mapB (h : Handle) : Handle := { h with c := h.c.mapB f }

def Res.mapB (g : α → β) : Res Ring α → Res Ring β
  | .ok a s => .ok (g a) (s.mapB f)
  | .abort s => .abort (s.mapB f)
  | .ub => .ub
  | .hang => .hang

/-- `y` from the replaced ring does what `x` does from `r`, with replaced bytes. -/
def Comm (x : M Ring α) (y : M Ring β) (g : α → β) (r : Ring) : Prop :=
  y (r.mapB f) = ⟨(x r).trace.map (Ring.mapB f), (x r).res.mapB f g⟩

namespace Comm
variable {f} {r : Ring} {g : α → β} {h : γ → δ}

theorem bind {x : M Ring α} {y : M Ring β} {k : α → M Ring γ} {k' : β → M Ring δ} (hx : Comm f x y g r)
    (hk : ∀ a s, Comm f (k a) (k' (g a)) h s) : Comm f (x >>= k) (y >>= k') h r := by
  unfold Comm at *
  rw [M.bind_apply, M.bind_apply, hx]
  dsimp only
  cases e : (x r).res with
  | ok a s => simp only [Res.mapB, hk a s, List.map_append]
  | abort s => rfl
  | ub => rfl
  | hang => rfl

theorem pure {a : α} {b : β} (e : b = g a) : Comm f (Pure.pure a : M Ring α) (Pure.pure b : M Ring β) g r := by
  subst e; rfl

theorem get_bind {k : Ring → M Ring γ} {k' : Ring → M Ring δ} (hk : Comm f (k r) (k' (r.mapB f)) h r) :
    Comm f (M.get >>= k) (M.get >>= k') h r := by
  unfold Comm at *
  rw [M.get_bind, M.get_bind]; exact hk

theorem pure_bind {a : α} {b : β} {k : α → M Ring γ} {k' : β → M Ring δ} (hk : Comm f (k a) (k' b) h r) :
    Comm f ((Pure.pure a : M Ring α) >>= k) ((Pure.pure b : M Ring β) >>= k') h r := by
  unfold Comm at *
  rw [M.pure_bind, M.pure_bind]; exact hk

theorem assert {b : Bool} : Comm f (M.assert b : M Ring Unit) (M.assert b : M Ring Unit) id r := by
  cases b <;> rfl

theorem assert_bind {b b' : Bool} {k : Unit → M Ring γ} {k' : Unit → M Ring δ} (e : b' = b) (hk : Comm f (k ()) (k' ()) h r) :
    Comm f (M.assert b >>= k) (M.assert b' >>= k') h r := by
  subst e
  unfold Comm at *
  cases b' with
  | true => rw [M.assert_true_bind, M.assert_true_bind]; exact hk
  | false => rfl

theorem store {p q : Ring → Ring} (e : q (r.mapB f) = (p r).mapB f) : Comm f (M.store p) (M.store q) id r := by
  unfold Comm
  simp only [M.store_apply, e, Res.mapB, List.map_cons, List.map_nil, id]

theorem store_bind {p q : Ring → Ring} {k : Unit → M Ring γ} {k' : Unit → M Ring δ} (e : q (r.mapB f) = (p r).mapB f)
    (hk : Comm f (k ()) (k' ()) h (p r)) : Comm f (M.store p >>= k) (M.store q >>= k') h r := by
  unfold Comm at *
  rw [M.store_bind, M.store_bind, e, hk]; rfl

theorem lift {e : Except Fault α} {e' : Except Fault β} (he : e' = e.map g) : Comm f (M.lift e) (M.lift e') g r := by
  subst he
  cases e with
  | ok a => rfl
  | error x => cases x <;> rfl

theorem lift_bind {e : Except Fault α} {e' : Except Fault β} {k : α → M Ring γ} {k' : β → M Ring δ} (he : e' = e.map g)
    (hk : ∀ a, Comm f (k a) (k' (g a)) h r) : Comm f (M.lift e >>= k) (M.lift e' >>= k') h r := by
  subst he
  cases e with
  | ok a => exact hk a
  | error x => cases x <;> rfl

theorem err {x : Fault} {k : Unit → M Ring γ} {k' : Unit → M Ring δ} :
    Comm f ((M.lift (.error x) : M Ring Unit) >>= k) ((M.lift (.error x) : M Ring Unit) >>= k') h r := by
  cases x <;> rfl

theorem ite {c : Prop} [Decidable c] {x y : M Ring α} {x' y' : M Ring β} (h1 : c → Comm f x x' g r) (h2 : ¬c → Comm f y y' g r) :
    Comm f (if c then x else y) (if c then x' else y') g r := by
  by_cases hc : c
  · rw [if_pos hc, if_pos hc]; exact h1 hc
  · rw [if_neg hc, if_neg hc]; exact h2 hc

end Comm

theorem put_mapB' (d src : List Byte) (off : Nat) : put (d.map f) off (src.map f) = (put d off src).map f := put_mapB f d src off

theorem memRead_mapB (d : List Byte) (o l : Nat) : memRead (d.map f) o l = (memRead d o l).map (List.map f) := by
  unfold memRead
  rw [List.length_map]
  split
  · simp only [Except.map, List.map_take, List.map_drop]
  · rfl

theorem memWrite_mapB (d src : List Byte) (o : Nat) : memWrite (d.map f) o (src.map f) = (memWrite d o src).map (List.map f) := by
  unfold memWrite
  rw [List.length_map, List.length_map]
  split
  · simp only [Except.map, put_mapB']
  · rfl

theorem Comm.memcpyD {off : Nat} {src src' : List Byte} (e : src' = src.map f) {r : Ring} :
    Comm f (memcpyShared Ring.d (fun d r => { r with d := d }) off src) (memcpyShared Ring.d (fun d r => { r with d := d }) off src') id r := by
  subst e
  unfold Comm memcpyShared
  have hd : (r.mapB f).d = r.d.map f := rfl
  rw [hd, List.length_map, List.length_map]
  split
  · simp only [Res.mapB, List.map_map, id, ← List.map_take, put_mapB']
    rfl
  · rfl

theorem Comm.memcpyA {off : Nat} {src src' : List Byte} (e : src' = src.map f) {r : Ring} :
    Comm f (memcpyShared Ring.app (fun d r => { r with app := d }) off src) (memcpyShared Ring.app (fun d r => { r with app := d }) off src') id r := by
  subst e
  unfold Comm memcpyShared
  have hd : (r.mapB f).app = r.app.map f := rfl
  rw [hd, List.length_map, List.length_map]
  split
  · simp only [Res.mapB, List.map_map, id, ← List.map_take, put_mapB']
    rfl
  · rfl

theorem Except.map_id' {ε α : Type} (e : Except ε α) : e = e.map id := by cases e <;> rfl

theorem drop_unread_comm (smm need niov : Nat) (r : Ring) : Comm f (drop_unread smm need niov) (drop_unread smm need niov) id r := by
  unfold drop_unread
  refine .get_bind ?_
  dsimp only
  refine .assert_bind rfl (.assert_bind rfl (.assert_bind rfl (.assert_bind rfl (.assert_bind rfl (.lift_bind (Except.map_id' _) fun x => ?_)))))
  refine .store_bind rfl (.store_bind rfl (.store_bind rfl (.store_bind rfl (.store_bind rfl ?_))))
  exact .get_bind (.assert_bind rfl .assert)

theorem copyOne_comm (b : Msg) (p : Nat) (r : Ring) : Comm f (copyOne b p) (copyOne (b.map f) p) id r := by
  unfold copyOne
  simp only [List.length_map, ← List.map_take, ← List.map_drop]
  refine .assert_bind rfl (.get_bind ?_)
  refine .ite (fun hp => ?_) fun _ => .err
  refine .store_bind rfl (.store_bind rfl (.get_bind ?_))
  refine .ite (fun _ => ?_) fun _ => .err
  refine .bind (.memcpyD f rfl) fun _ s => ?_
  refine .ite (fun _ => ?_) fun _ => ?_
  · refine .bind (.memcpyD f rfl) fun _ s => ?_
    refine .ite (fun _ => .err) fun _ => ?_
    exact .store_bind rfl (.get_bind (.pure rfl))
  · refine .ite (fun _ => .err) fun _ => ?_
    exact .store_bind rfl (.get_bind (.pure rfl))

theorem copyLoop_comm : ∀ (iov : List Msg) (p : Nat) (r : Ring), Comm f (copyLoop iov p) (copyLoop (iov.map (List.map f)) p) id r
  | [], _, _ => .pure rfl
  | b :: bs, p, r => by
    simp only [List.map_cons]
    unfold copyLoop
    exact .bind (copyOne_comm f b p r) fun p' s => copyLoop_comm bs p' s

theorem writevCommit_comm (smm : Nat) (iov : List Msg) (len : Nat) (r : Ring) :
    Comm f (writevCommit smm iov len) (writevCommit smm (iov.map (List.map f)) len) id r := by
  unfold writevCommit
  simp only [List.length_map]
  refine .get_bind ?_
  refine .assert_bind rfl (.assert_bind rfl (.assert_bind rfl (.lift_bind (Except.map_id' _) fun x => ?_)))
  refine .store_bind rfl (.store_bind rfl (.store_bind rfl (.get_bind ?_)))
  refine .ite (fun _ => .err) fun _ => ?_
  refine .bind (copyLoop_comm f _ _ _) fun _ s => ?_
  exact .store_bind rfl (.store_bind rfl (.store rfl))

theorem writevFinish_comm (len niov : Nat) (env : Env) (r : Ring) : Comm f (writevFinish len niov env) (writevFinish len niov env) id r := by
  unfold writevFinish
  refine .ite (fun _ => .pure rfl) fun _ => ?_
  refine .store_bind rfl (.store_bind rfl (.get_bind ?_))
  exact .ite (fun _ => .pure rfl) fun _ => .pure rfl

theorem writevAttempt_comm (flags : Flags) (smm : Nat) (iov : List Msg) (len : Nat) (env : Env) (r : Ring) :
    Comm f (writevAttempt flags smm iov len env) (writevAttempt flags smm (iov.map (List.map f)) len env) id r := by
  unfold writevAttempt
  simp only [List.length_map]
  refine .ite (fun _ => .pure rfl) fun _ => .get_bind ?_
  refine .ite (fun _ => .bind (writevCommit_comm f _ _ _ _) fun _ s => writevFinish_comm f _ _ _ _) fun _ => ?_
  refine .ite (fun _ => .bind (drop_unread_comm f _ _ _ _) fun _ s => .bind (writevCommit_comm f _ _ _ _) fun _ s => writevFinish_comm f _ _ _ _) fun _ => ?_
  refine .ite (fun _ => .pure rfl) fun _ => ?_
  cases env.waitRc <;> exact .pure rfl

theorem writevDirect_comm (flags : Flags) (sn smm : Nat) (iov : List Msg) (env : Env) (r : Ring) :
    Comm f (writevDirect flags sn smm iov env) (writevDirect flags sn smm (iov.map (List.map f)) env) id r := by
  unfold writevDirect
  have e : (iov.map (List.map f)).map List.length = iov.map List.length := by simp [Function.comp_def]
  rw [e]
  refine .assert_bind rfl ?_
  cases lenCheck sn smm (iov.map List.length) with
  | none => exact .pure rfl
  | some len => exact writevAttempt_comm f _ _ _ _ _ _

theorem cacheRead_mapB (buf : List Byte) : ∀ (l : List (Nat × Nat)), cacheRead (buf.map f) l = (cacheRead buf l).map (List.map (List.map f))
  | [] => rfl
  | (o, n) :: t => by
    unfold cacheRead
    rw [memRead_mapB, cacheRead_mapB buf t]
    cases memRead buf o n with
    | error x => rfl
    | ok b => cases cacheRead buf t <;> rfl

theorem flushCache_comm (h : Handle) (env : Env) (r : Ring) : Comm f (flushCache h env) (flushCache (h.mapB f) env) id r := by
  unfold flushCache
  exact .lift_bind (g := List.map (List.map f)) (cacheRead_mapB f _ _) fun ms => writevDirect_comm f _ _ _ _ _ _

theorem cacheOne_mapB (c : Cache) (b : Msg) : cacheOne (c.mapB f) (b.map f) = (cacheOne c b).map (Cache.mapB f) := by
  unfold cacheOne
  show (memWrite (c.buf.map f) c.n (b.map f) >>= _) = _
  rw [memWrite_mapB]
  cases memWrite c.buf c.n b with
  | error x => rfl
  | ok buf =>
    show (if c.vm < c.iov.length then _ else _) = Except.map _ (if c.vm < c.iov.length then _ else _)
    split
    · simp only [Except.map, List.length_map]; rfl
    · rfl

theorem cacheAll_mapB : ∀ (iov : List Msg) (c : Cache), cacheAll (c.mapB f) (iov.map (List.map f)) = (cacheAll c iov).map (Cache.mapB f)
  | [], c => rfl
  | b :: bs, c => by
    simp only [List.map_cons]
    unfold cacheAll
    rw [cacheOne_mapB]
    cases cacheOne c b with
    | error x => rfl
    | ok c' => exact cacheAll_mapB bs c'

theorem cacheLoop_comm (iov : List Msg) (len : Nat) (envF : Env) : ∀ (fuel : Nat) (h : Handle) (r : Ring),
    Comm f (cacheLoop iov len envF fuel h) (cacheLoop (iov.map (List.map f)) len envF fuel (h.mapB f)) (fun x => (x.1.mapB f, x.2)) r
  | 0, _, _ => .lift rfl
  | fuel + 1, h, r => by
    unfold cacheLoop
    simp only [List.length_map]
    refine .ite (fun _ => .pure rfl) fun _ => ?_
    refine .ite (fun _ => .lift_bind (g := Cache.mapB f) (cacheAll_mapB f iov h.c) fun c => .pure rfl) fun _ => ?_
    refine .ite (fun _ => .pure rfl) fun _ => ?_
    refine .bind (flushCache_comm f h envF r) fun out s => ?_
    cases out with
    | wait => exact .pure rfl
    | ret rc wake =>
      dsimp only [id]
      refine .ite (fun _ => .pure rfl) fun _ => ?_
      exact cacheLoop_comm iov len envF fuel { h with c := { h.c with n := 0, vm := 0 } } s

theorem shr_writev_comm (h : Handle) (iov : List Msg) (envF env : Env) (r : Ring) :
    Comm f (shr_writev h iov envF env) (shr_writev (h.mapB f) (iov.map (List.map f)) envF env) (fun x => (x.1.mapB f, x.2)) r := by
  unfold shr_writev
  have e : (iov.map (List.map f)).map List.length = iov.map List.length := by simp [Function.comp_def]
  rw [e]
  refine .assert_bind rfl ?_
  show Comm f (match lenCheck h.n h.mm (iov.map List.length) with
    | none => _
    | some len => _) (match lenCheck h.n h.mm (iov.map List.length) with
    | none => _
    | some len => _) _ r
  cases lenCheck h.n h.mm (iov.map List.length) with
  | none => exact .pure rfl
  | some len =>
    refine .bind (cacheLoop_comm f iov len envF 2 h r) fun x s => ?_
    obtain ⟨h', o⟩ := x
    cases o with
    | some out => exact .pure rfl
    | none => exact .bind (writevAttempt_comm f _ _ _ _ _ _) fun out s => .pure rfl

theorem shr_flush_comm (h : Handle) (wait : Bool) (env : Env) (r : Ring) :
    Comm f (shr_flush h wait env) (shr_flush (h.mapB f) wait env) (fun x => (x.1.mapB f, x.2)) r := by
  unfold shr_flush
  refine .assert_bind rfl ?_
  refine .ite (fun _ => .pure rfl) fun _ => ?_
  have ef : (h.mapB f).flags = h.flags := rfl
  dsimp only
  rw [ef]
  cases h.flags.has SHR_NONBLOCK && wait with
  | false =>
    simp only [Bool.false_eq_true, false_and, if_false]
    refine .bind (flushCache_comm f _ _ _) fun out s => .pure ?_
    cases out with
    | wait => rfl
    | ret rc w => dsimp only [id]; split <;> rfl
  | true =>
    simp only [true_and, if_true]
    refine .ite (fun _ => .pure rfl) fun _ => ?_
    refine .bind (flushCache_comm f { h with flags := h.flags.clear SHR_NONBLOCK, hasR2w := true } _ _) fun out s => .pure ?_
    cases out with
    | wait => rfl
    | ret rc w => dsimp only [id]; split <;> rfl

theorem shr_close_comm (h : Handle) (env : Env) (r : Ring) : Comm f (shr_close h env) (shr_close (h.mapB f) env) id r := by
  unfold shr_close
  exact .ite (fun _ => .bind (shr_flush_comm f h false env r) fun _ s => .pure rfl) fun _ => .pure rfl

def RdSt.mapB (st : RdSt) : RdSt := { st with buf := st.buf.map f }
def RdOut.mapB : RdOut → RdOut
  | .ret rc iov buf fo w => .ret rc iov (buf.map f) fo w
  | .wait => .wait

theorem readOne_comm (st : RdSt) (mi : MsgInfo) (r : Ring) : Comm f (readOne st mi) (readOne (st.mapB f) mi) (RdSt.mapB f) r := by
  unfold readOne
  refine .get_bind (.lift_bind (g := List.map f) (memRead_mapB f _ _ _) fun b1 => .lift_bind (g := List.map f) (memWrite_mapB f _ _ _) fun b2 => ?_)
  refine .ite (fun _ => .lift_bind (g := List.map f) (memRead_mapB f _ _ _) fun b3 => .lift_bind (g := List.map f) (memWrite_mapB f _ _ _) fun b4 => ?_)
    fun _ => .pure_bind ?_ <;>
  · refine .ite (fun _ => .pure rfl) fun _ => .ite (fun _ => .lift rfl) fun _ => ?_
    exact .store_bind rfl (.store_bind rfl (.store_bind rfl (.pure rfl)))

theorem readLoop_comm : ∀ (niov : Nat) (st : RdSt) (mi : MsgInfo) (r : Ring),
    Comm f (readLoop niov st mi) (readLoop niov (st.mapB f) mi) (fun x => (x.1.mapB f, x.2)) r
  | 0, _, _, _ => .pure rfl
  | niov + 1, st, mi, r => by
    unfold readLoop
    refine .ite (fun _ => .pure rfl) fun _ => ?_
    refine .bind (readOne_comm f st mi r) fun st' s => .get_bind (.lift_bind (g := id) (Except.map_id' _) fun x => ?_)
    obtain ⟨c, o⟩ := x
    cases o with
    | none => exact .pure rfl
    | some mi' => exact readLoop_comm niov { st' with cur := c } mi' s

theorem shr_readv_comm (h : Handle) (buf : List Byte) (len niov : Nat) (env : Env) (r : Ring) :
    Comm f (shr_readv h buf len niov env) (shr_readv (h.mapB f) (buf.map f) len niov env) (fun x => (x.1.mapB f, x.2.mapB f)) r := by
  unfold shr_readv
  refine .bind (g := fun x => (x.1, x.2.mapB f)) ?_ fun _ _ => .pure rfl
  unfold readvAttempt
  refine .assert_bind rfl ?_
  refine .ite (fun _ => .pure rfl) fun _ => .ite (fun _ => .pure rfl) fun _ => .ite (fun _ => .pure rfl) fun _ => ?_
  refine .get_bind (.lift_bind (g := id) (Except.map_id' _) fun x => ?_)
  obtain ⟨c, o⟩ := x
  cases o with
  | some mi =>
    dsimp only [id]
    unfold readvBody
    refine .bind (readLoop_comm f _ ⟨c, buf, 0, _, 0, []⟩ _ _) fun x s => ?_
    exact .store_bind rfl (.store_bind rfl (.assert_bind rfl (.pure rfl)))
  | none =>
    dsimp only [id]
    refine .assert_bind rfl (.ite (fun _ => .pure rfl) fun _ => ?_)
    cases env.waitRc <;> exact .pure rfl

theorem shr_stat_comm (h : Handle) (reset : Option Timeval) (env : Env) (r : Ring) :
    Comm f (shr_stat h reset env) (shr_stat (h.mapB f) reset env) id r := by
  unfold shr_stat
  refine .ite (fun _ => .pure rfl) fun _ => .get_bind ?_
  cases reset with
  | none => exact .ite (fun _ => .pure rfl) fun _ => .pure rfl
  | some v => exact .store_bind rfl (.store_bind rfl (.ite (fun _ => .pure rfl) fun _ => .pure rfl))

theorem shr_farm_stat_comm (h : Handle) (reset : Bool) (r : Ring) :
    Comm f (shr_farm_stat h reset) (shr_farm_stat (h.mapB f) reset) (fun x => (x.1.mapB f, x.2)) r := by
  unfold shr_farm_stat
  refine .assert_bind rfl (.pure ?_)
  cases reset <;> rfl

def AppOut.mapB (o : AppOut) : AppOut := { o with got := o.got.map (List.map f) }

theorem shr_appdata_comm (get : GetArg) (set : Option (List Byte)) (sz : Nat) (env : Env) (r : Ring) :
    Comm f (shr_appdata get set sz env) (shr_appdata get (set.map (List.map f)) sz env) (AppOut.mapB f) r := by
  unfold shr_appdata
  refine .ite (fun _ => .pure rfl) fun _ => .get_bind (.ite (fun _ => .pure rfl) fun _ => ?_)
  dsimp only
  have fin : ∀ (got : Option (List Byte)) (sz' : Nat) (r' : Ring), Comm f (if r.gflags.has SHR_SYNC ∧ env.syncOk = false then
      Pure.pure ⟨-1, got, sz'⟩ else Pure.pure ⟨0, got, sz'⟩ : M Ring AppOut)
      (if r.gflags.has SHR_SYNC ∧ env.syncOk = false then
      Pure.pure ⟨-1, got.map (List.map f), sz'⟩ else Pure.pure ⟨0, got.map (List.map f), sz'⟩ : M Ring AppOut) (AppOut.mapB f) r' :=
    fun got sz' r' => .ite (fun _ => .pure rfl) fun _ => .pure rfl
  cases get <;> cases set <;> dsimp only [Option.map]
  · exact fin none _ _
  · refine .ite (fun _ => .pure rfl) fun _ => ?_
    exact .lift_bind (g := List.map f) (memRead_mapB f _ _ _) fun _ => .bind (.memcpyA f rfl) fun _ _ => fin none _ _
  · refine .ite (fun _ => .pure rfl) fun _ => ?_
    exact .lift_bind (g := List.map f) (memRead_mapB f _ _ _) fun _ => fin (some _) _ _
  · exact fin none _ _
  · refine .ite (fun _ => .pure rfl) fun _ => ?_
    exact .lift_bind (g := List.map f) (memRead_mapB f _ _ _) fun _ => .ite (fun _ => fin (some _) _ _) fun _ => .err
  · refine .ite (fun _ => .pure rfl) fun _ => ?_
    exact .lift_bind (g := List.map f) (memRead_mapB f _ _ _) fun _ => .ite (fun _ => .lift_bind (g := List.map f) (memRead_mapB f _ _ _) fun _ =>
      .bind (.memcpyA f rfl) fun _ _ => fin (some _) _ _) fun _ => .err

end Shr
