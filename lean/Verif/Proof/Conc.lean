import Verif.Model.Conc
import Verif.Proof.At
/-! # Concurrency: programs, and the invariant of the lock -/
namespace Shr
open M

namespace Prog
variable {σ α β : Type}

def bind : Prog σ α → (α → Prog σ β) → Prog σ β
  | ret a, f => f a
  | load k, f => load fun s => (k s).bind f
  | store g k, f => store g (k.bind f)
  | abort, _ => abort
  | fail x, _ => fail x

theorem denote_bind (x : Prog σ α) (f : α → Prog σ β) : (x.bind f).denote = x.denote >>= fun a => (f a).denote := by
  induction x with
  | ret a => rfl
  | load k ih => funext s; simp only [bind, denote]; rw [ih s]; rfl
  | store g k ih =>
    funext s
    show (⟨s :: ((k.bind f).denote (g s)).trace, ((k.bind f).denote (g s)).res⟩ : Run σ β) = _
    rw [ih, M.bind_apply, M.bind_apply]
    show _ = (match (k.denote (g s)).res with
      | .ok a s' => (⟨(s :: (k.denote (g s)).trace) ++ ((f a).denote s').trace, ((f a).denote s').res⟩ : Run σ β)
      | .abort s' => ⟨s :: (k.denote (g s)).trace, .abort s'⟩
      | .ub => ⟨s :: (k.denote (g s)).trace, .ub⟩
      | .hang => ⟨s :: (k.denote (g s)).trace, .hang⟩)
    cases (k.denote (g s)).res <;> rfl
  | abort => rfl
  | fail x => cases x <;> rfl

end Prog

/-- `x` is a program of loads and stores. -/
def IsProg {σ α : Type} (x : M σ α) : Prop := ∃ P : Prog σ α, P.denote = x

namespace IsProg
variable {σ α β : Type}

theorem pure {a : α} : IsProg (Pure.pure a : M σ α) := ⟨.ret a, rfl⟩
theorem bind {x : M σ α} {f : α → M σ β} (hx : IsProg x) (hf : ∀ a, IsProg (f a)) : IsProg (x >>= f) := by
  obtain ⟨P, rfl⟩ := hx
  exact ⟨P.bind fun a => (hf a).choose, by
    rw [Prog.denote_bind]
    congr 1
    funext a
    exact (hf a).choose_spec⟩
theorem get : IsProg (M.get : M σ σ) := ⟨.load .ret, rfl⟩
theorem store {f : σ → σ} : IsProg (M.store f) := ⟨.store f (.ret ()), rfl⟩
theorem assert {b : Bool} : IsProg (M.assert b : M σ Unit) := by
  cases b
  · exact ⟨.abort, rfl⟩
  · exact ⟨.ret (), rfl⟩
theorem lift {x : Except Fault α} : IsProg (M.lift x : M σ α) := by
  cases x with
  | ok a => exact ⟨.ret a, rfl⟩
  | error f => exact ⟨.fail f, by cases f <;> rfl⟩
theorem ite {c : Prop} [Decidable c] {x y : M σ α} (hx : IsProg x) (hy : IsProg y) : IsProg (if c then x else y) := by
  split
  · exact hx
  · exact hy

/-- Byte-wise copy as a program. -/
def copyBytes (rd : σ → List Byte) (wr : List Byte → σ → σ) : Nat → List Byte → Prog σ Unit
  | _, [] => .ret ()
  | off, b :: bs => .store (fun s => wr (put (rd s) off [b]) s) (copyBytes rd wr (off + 1) bs)

theorem copyBytes_eq {rd : σ → List Byte} {wr : List Byte → σ → σ} (h1 : ∀ d s, rd (wr d s) = d)
    (h2 : ∀ d d' s, wr d (wr d' s) = wr d s) (h3 : ∀ s, wr (rd s) s = s) :
    ∀ (src : List Byte) (off : Nat) (s : σ), off + src.length ≤ (rd s).length →
      (copyBytes rd wr off src).denote s = memcpyShared rd wr off src s := by
  intro src
  induction src with
  | nil =>
    intro off s h
    unfold memcpyShared
    rw [if_pos h]
    simp [copyBytes, Prog.denote, put_nil, h3]
  | cons b bs ih =>
    intro off s h
    have hl : (put (rd s) off [b]).length = (rd s).length := put_length (by simp at h ⊢; omega)
    have := ih (off + 1) (wr (put (rd s) off [b]) s) (by rw [h1, hl]; simp at h ⊢; omega)
    simp only [copyBytes, Prog.denote, this]
    unfold memcpyShared
    rw [if_pos h, if_pos (by rw [h1, hl]; simp at h ⊢; omega)]
    dsimp only
    have key : ∀ l : List Byte, off + 1 + l.length ≤ (rd s).length →
        wr (put (rd (wr (put (rd s) off [b]) s)) (off + 1) l) (wr (put (rd s) off [b]) s) = wr (put (rd s) off (b :: l)) s := by
      intro l hl'
      rw [h1, h2]
      have : off + 1 = off + [b].length := rfl
      rw [this, put_put (by simp; omega)]
      rfl
    congr 1
    · rw [List.length_cons, List.range_succ_eq_map, List.map_cons, List.map_map]
      congr 1
      · rw [List.take_zero, put_nil, h3]
      · apply List.map_congr_left
        intro k hk
        dsimp only [Function.comp]
        rw [key _ (by simp at h ⊢; omega), List.take_succ_cons]
    · rw [key _ (by simp at h; omega)]

theorem memcpyShared {rd : σ → List Byte} {wr : List Byte → σ → σ} (h1 : ∀ d s, rd (wr d s) = d)
    (h2 : ∀ d d' s, wr d (wr d' s) = wr d s) (h3 : ∀ s, wr (rd s) s = s) (off : Nat) (src : List Byte) :
    IsProg (memcpyShared rd wr off src) := by
  refine ⟨.load fun s => if off + src.length ≤ (rd s).length then copyBytes rd wr off src else .fail .ub, ?_⟩
  funext s
  simp only [Prog.denote]
  split
  · rename_i h; exact copyBytes_eq h1 h2 h3 src off s h
  · rename_i h; unfold Shr.memcpyShared; rw [if_neg h]; rfl

theorem data (off : Nat) (src : List Byte) : IsProg (Shr.memcpyShared Ring.d (fun d r => { r with d := d }) off src) :=
  memcpyShared (rd := Ring.d) (wr := fun d r => { r with d := d }) (fun _ _ => rfl) (fun _ _ _ => rfl) (fun _ => rfl) off src
theorem app (off : Nat) (src : List Byte) : IsProg (Shr.memcpyShared Ring.app (fun d r => { r with app := d }) off src) :=
  memcpyShared (rd := Ring.app) (wr := fun d r => { r with app := d }) (fun _ _ => rfl) (fun _ _ _ => rfl) (fun _ => rfl) off src

end IsProg

section
open IsProg

/-- Decompose a model function into its combinators. -/
macro "prog" : tactic => `(tactic| repeat' (first
  | exact IsProg.pure | exact IsProg.get | exact IsProg.store | exact IsProg.assert | exact IsProg.lift
  | exact IsProg.data _ _ | exact IsProg.app _ _ | assumption
  | (apply IsProg.ite) | (refine IsProg.bind ?_ fun _ => ?_) | split | intro _))

theorem drop_unread_prog (a b c : Nat) : IsProg (drop_unread a b c) := by
  unfold drop_unread; prog

theorem copyOne_prog (b : Msg) (p : Nat) : IsProg (copyOne b p) := by
  unfold copyOne; dsimp only; prog

theorem copyLoop_prog : ∀ (iov : List Msg) (p : Nat), IsProg (copyLoop iov p)
  | [], _ => by unfold copyLoop; prog
  | b :: bs, p => by unfold copyLoop; exact (copyOne_prog b p).bind fun _ => copyLoop_prog bs _

theorem writevCommit_prog (a : Nat) (iov : List Msg) (l : Nat) : IsProg (writevCommit a iov l) := by
  have h := copyLoop_prog iov
  unfold writevCommit; dsimp only
  prog
  all_goals first | exact h _ | skip

theorem writevFinish_prog (a b : Nat) (env : Env) : IsProg (writevFinish a b env) := by
  unfold writevFinish; prog

theorem writevAttempt_prog (flags : Flags) (smm : Nat) (iov : List Msg) (len : Nat) (env : Env) :
    IsProg (writevAttempt flags smm iov len env) := by
  have h1 := writevCommit_prog smm iov len
  have h2 := writevFinish_prog len iov.length env
  have h3 := drop_unread_prog smm len iov.length
  unfold writevAttempt; prog

theorem flushCache_prog (h : Handle) (env : Env) : IsProg (flushCache h env) := by
  unfold flushCache writevDirect
  refine IsProg.lift.bind fun m => ?_
  refine IsProg.assert.bind fun _ => ?_
  split
  · prog
  · exact writevAttempt_prog _ _ _ _ _

theorem cacheLoop_prog (iov : List Msg) (len : Nat) (envF : Env) : ∀ (n : Nat) (h : Handle), IsProg (cacheLoop iov len envF n h)
  | 0, h => by unfold cacheLoop; prog
  | n + 1, h => by
    unfold cacheLoop
    refine IsProg.ite IsProg.pure (IsProg.ite (IsProg.lift.bind fun _ => IsProg.pure) (IsProg.ite IsProg.pure ?_))
    refine (flushCache_prog h envF).bind fun o => ?_
    cases o with
    | wait => exact IsProg.pure
    | ret rc w => exact IsProg.ite IsProg.pure (cacheLoop_prog iov len envF n _)

theorem shr_writev_prog (h : Handle) (iov : List Msg) (envF env : Env) : IsProg (shr_writev h iov envF env) := by
  unfold shr_writev
  refine IsProg.assert.bind fun _ => ?_
  split
  · prog
  · refine (cacheLoop_prog _ _ _ _ _).bind fun x => ?_
    split
    · prog
    · exact (writevAttempt_prog _ _ _ _ _).bind fun _ => IsProg.pure

theorem readOne_prog (st : RdSt) (mi : MsgInfo) : IsProg (readOne st mi) := by
  unfold readOne; dsimp only; prog

theorem readLoop_prog : ∀ (n : Nat) (st : RdSt) (mi : MsgInfo), IsProg (readLoop n st mi)
  | 0, st, mi => by unfold readLoop; prog
  | n + 1, st, mi => by
    unfold readLoop
    refine IsProg.ite IsProg.pure ?_
    refine (readOne_prog st mi).bind fun st' => ?_
    refine IsProg.get.bind fun r => IsProg.lift.bind fun x => ?_
    split
    · prog
    · exact readLoop_prog n _ _

theorem shr_readv_prog (h : Handle) (buf : List Byte) (len niov : Nat) (env : Env) : IsProg (shr_readv h buf len niov env) := by
  unfold shr_readv readvAttempt readvBody
  refine IsProg.bind ?_ fun _ => IsProg.pure
  refine IsProg.assert.bind fun _ => IsProg.ite IsProg.pure (IsProg.ite IsProg.pure ?_)
  refine IsProg.ite IsProg.pure ?_
  refine IsProg.get.bind fun r => IsProg.lift.bind fun x => ?_
  split
  · exact (readLoop_prog _ _ _).bind fun _ => IsProg.store.bind fun _ => IsProg.store.bind fun _ =>
      IsProg.assert.bind fun _ => IsProg.pure
  · refine IsProg.assert.bind fun _ => ?_
    prog

theorem shr_flush_prog (h : Handle) (wait : Bool) (env : Env) : IsProg (shr_flush h wait env) := by
  unfold shr_flush
  refine IsProg.assert.bind fun _ => IsProg.ite IsProg.pure ?_
  dsimp only
  refine IsProg.ite IsProg.pure ?_
  exact (flushCache_prog _ _).bind fun _ => IsProg.pure

theorem shr_close_prog (h : Handle) (env : Env) : IsProg (shr_close h env) := by
  unfold shr_close
  exact IsProg.ite ((shr_flush_prog _ _ _).bind fun _ => IsProg.pure) IsProg.pure

theorem shr_stat_prog (h : Handle) (reset : Option Timeval) (env : Env) : IsProg (shr_stat h reset env) := by
  unfold shr_stat; dsimp only; prog

theorem shr_appdata_prog (get : GetArg) (set : Option (List Byte)) (sz : Nat) (env : Env) : IsProg (shr_appdata get set sz env) := by
  unfold shr_appdata; dsimp only; prog

/-- Every call is a program of single loads and stores. -/
theorem opSec_prog (l : Life Handle Unit) (op : Op) : IsProg (opSec l op) := by
  cases op <;> cases l <;> unfold opSec <;> dsimp only
  case writev.live h => exact IsProg.ite IsProg.pure ((shr_writev_prog _ _ _ _).bind fun _ => IsProg.pure)
  case readv.live h => exact IsProg.ite IsProg.pure ((shr_readv_prog _ _ _ _ _).bind fun _ => IsProg.pure)
  case flush.live h => exact IsProg.ite IsProg.pure ((shr_flush_prog _ _ _).bind fun _ => IsProg.pure)
  case close.live h => refine (shr_close_prog _ _).bind fun x => ?_; split <;> exact IsProg.pure
  case stat.live h => exact (shr_stat_prog _ _ _).bind fun _ => IsProg.pure
  case appdata.live h => exact (shr_appdata_prog _ _ _ _).bind fun _ => IsProg.pure
  case farmStat.live h => unfold shr_farm_stat; prog
  all_goals prog

end

theorem upd_self {α : Type} (f : Nat → α) (k : Nat) : upd f k (f k) = f := by
  funext j; unfold upd; split
  · rename_i h; rw [h]
  · rfl

/-- `opSec` is `Sys.step`. -/
theorem opSec_step (s : Sys) (op : Op) : s.step op =
    match exec (opSec (s.hs op.handle) op) s.ring with
    | .error f => .error f
    | .ok ((l, o), r) => .ok (⟨r, upd s.hs op.handle l⟩, o) := by
  have hself : ∀ k l, s.hs k = l → (⟨s.ring, upd s.hs k l⟩ : Sys) = s := by rintro k l rfl; rw [upd_self]
  cases op <;> unfold Sys.step opSec <;> dsimp only [Op.handle]
  case «open» k flags env =>
    cases e : s.hs k with
    | never =>
      dsimp only
      by_cases h1 : validate_flags flags = false
      · rw [if_pos h1, if_pos h1]; simp [exec, hself k _ e]
      rw [if_neg h1, if_neg h1]
      by_cases h2 : env.lockOk = false
      · rw [if_pos h2]
        have : openLocked s.ring flags env = none := by unfold openLocked; rw [if_pos h2]
        rw [this]; simp [exec, hself k _ e]
      · rw [if_neg h2]
        unfold exec
        rw [M.get_bind]
        cases openLocked s.ring flags env with
        | none => simp [hself k _ e]
        | some h => simp
    | live h => simp [exec, hself k _ e]
    | gone b => simp [exec, hself k _ e]
  case writev k iov envF env =>
    cases e : s.hs k with
    | live h =>
      dsimp only
      by_cases h1 : h.flags.has SHR_WRONLY = false
      · rw [if_pos h1, if_pos h1]; simp [exec, hself k _ e]
      · rw [if_neg h1, if_neg h1]
        unfold exec
        rw [M.bind_apply]
        cases (shr_writev h iov envF env s.ring).res <;> simp
    | never => simp [exec, hself k _ e]
    | gone b => simp [exec, hself k _ e]
  case readv k buf niov env =>
    cases e : s.hs k with
    | live h =>
      dsimp only
      by_cases h1 : h.flags.has SHR_RDONLY = false
      · rw [if_pos h1, if_pos h1]; simp [exec, hself k _ e]
      · rw [if_neg h1, if_neg h1]
        unfold exec
        rw [M.bind_apply]
        cases (shr_readv h buf buf.length niov env s.ring).res <;> simp
    | never => simp [exec, hself k _ e]
    | gone b => simp [exec, hself k _ e]
  case flush k wait env =>
    cases e : s.hs k with
    | live h =>
      dsimp only
      by_cases h1 : h.flags.has SHR_WRONLY = false
      · rw [if_pos h1, if_pos h1]; simp [exec, hself k _ e]
      · rw [if_neg h1, if_neg h1]
        unfold exec
        rw [M.bind_apply]
        cases (shr_flush h wait env s.ring).res <;> simp
    | never => simp [exec, hself k _ e]
    | gone b => simp [exec, hself k _ e]
  case close k env =>
    cases e : s.hs k with
    | live h =>
      dsimp only
      unfold exec
      rw [M.bind_apply]
      cases (shr_close h env s.ring).res with
      | ok x r =>
        cases x with
        | wait =>
          have : upd s.hs k (.live h) = s.hs := by rw [← e, upd_self]
          simp [this]
        | ret rc w => simp
      | abort r => simp
      | ub => simp
      | hang => simp
    | never => simp [exec, hself k _ e]
    | gone b => simp [exec, hself k _ e]
  case stat k reset env =>
    cases e : s.hs k with
    | live h =>
      dsimp only
      have : upd s.hs k (.live h) = s.hs := by rw [← e, upd_self]
      unfold exec
      rw [M.bind_apply]
      cases (shr_stat h reset env s.ring).res <;> simp [this]
    | never => simp [exec, hself k _ e]
    | gone b => simp [exec, hself k _ e]
  case farmStat k reset =>
    cases e : s.hs k with
    | live h =>
      dsimp only
      by_cases h1 : h.flags.has SHR_RDONLY = false
      · rw [if_pos h1, if_pos h1]; simp [exec, hself k _ e]
      · rw [if_neg h1, if_neg h1]
        unfold exec
        rw [M.bind_apply]
        cases (shr_farm_stat h reset s.ring).res <;> simp
    | never => simp [exec, hself k _ e]
    | gone b => simp [exec, hself k _ e]
  case appdata k get set sz env =>
    cases e : s.hs k with
    | live h =>
      dsimp only
      have : upd s.hs k (.live h) = s.hs := by rw [← e, upd_self]
      unfold exec
      rw [M.bind_apply]
      cases (shr_appdata get set sz env s.ring).res <;> simp [this]
    | never => simp [exec, hself k _ e]
    | gone b => simp [exec, hself k _ e]

end Shr
