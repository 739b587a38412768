import Verif.Proof.Stores
import Verif.Props.Handle
import Verif.Props.Crash
/-!
# C103: how much a call stores into the ring

The lock is meant to be held only briefly (src/shr.c:86-90).  A call is killed at one of its crash points, of which there
is one before each store and one at the end; so their number tells how much a call does to the ring.
-/
namespace Shr
open M
variable {α β : Type}

/-- If the run completes with `b`, then `n` and the number of its stores together are at most `B b`. -/
def Costs (n : Nat) (x : M Ring α) (B : α → Nat) : Prop :=
  ∀ r b s, (x r).res = .ok b s → n + (x r).trace.length ≤ B b

namespace Costs
variable {n : Nat} {B : α → Nat}

theorem mono {B' : α → Nat} {x : M Ring α} (h : Costs n x B) (hB : ∀ b, B b ≤ B' b) : Costs n x B' :=
  fun r b s e => Nat.le_trans (h r b s e) (hB b)

theorem pure {a : α} (h : n ≤ B a) : Costs n (Pure.pure a : M Ring α) B := by
  intro r b s e
  cases e
  exact h

theorem bind {x : M Ring β} {f : β → M Ring α} {A : β → Nat} (hx : Costs n x A) (hf : ∀ a, Costs (A a) (f a) B) :
    Costs n (x >>= f) B := by
  intro r b s e
  rw [M.bind_apply] at e ⊢
  cases e1 : (x r).res with
  | ok a s1 =>
    rw [e1] at e
    dsimp only at e ⊢
    have h1 := hx r a s1 e1
    have h2 := hf a s1 b s e
    rw [List.length_append]
    omega
  | _ => rw [e1] at e; cases e

theorem get_bind {f : Ring → M Ring α} (h : ∀ r, Costs n (f r) B) : Costs n (M.get >>= f) B := by
  intro r b s e
  rw [M.get_bind] at e ⊢
  exact h r r b s e

theorem pure_bind {a : β} {f : β → M Ring α} (h : Costs n (f a) B) : Costs n ((Pure.pure a : M Ring β) >>= f) B := by
  intro r b s e
  rw [M.pure_bind] at e ⊢
  exact h r b s e

theorem store {g : Ring → Ring} {B : Unit → Nat} (h : n + 1 ≤ B ()) : Costs n (M.store g) B := by
  intro r b s e
  cases e
  exact h

theorem store_bind {g : Ring → Ring} {f : Unit → M Ring α} (h : Costs (n + 1) (f ()) B) : Costs n (M.store g >>= f) B :=
  bind (store (Nat.le_refl _)) fun _ => h

theorem assert {b : Bool} {B : Unit → Nat} (h : n ≤ B ()) : Costs n (M.assert b) B := by
  intro r a s _
  exact h

theorem assert_bind {b : Bool} {f : Unit → M Ring α} (h : Costs n (f ()) B) : Costs n (M.assert b >>= f) B :=
  bind (A := fun _ => n) (assert (Nat.le_refl _)) fun _ => h

theorem lift {x : Except Fault α} (h : ∀ a, x = .ok a → n ≤ B a) : Costs n (M.lift x) B := by
  intro r b s e
  unfold M.lift at e ⊢
  dsimp only at e ⊢
  split at e <;> cases e
  exact h _ rfl

theorem lift_bind {x : Except Fault β} {f : β → M Ring α} (h : ∀ a, x = .ok a → Costs n (f a) B) : Costs n (M.lift x >>= f) B := by
  intro r b s e
  rw [M.bind_apply] at e ⊢
  cases x with
  | ok a =>
    dsimp only [M.lift_ok] at e ⊢
    exact h a rfl r b s e
  | error f => cases f <;> cases e

theorem memcpy {rd : Ring → List Byte} {wr : List Byte → Ring → Ring} {off : Nat} {src : List Byte} {B : Unit → Nat}
    (h : n + src.length ≤ B ()) : Costs n (memcpyShared rd wr off src) B := by
  intro r b s e
  unfold memcpyShared at e ⊢
  split at e
  · rw [if_pos (by assumption)]
    dsimp only
    rw [List.length_map, List.length_range]
    exact h
  · cases e

theorem memcpy_bind {rd : Ring → List Byte} {wr : List Byte → Ring → Ring} {off : Nat} {src : List Byte} {f : Unit → M Ring α}
    (h : Costs (n + src.length) (f ()) B) : Costs n (memcpyShared rd wr off src >>= f) B :=
  bind (A := fun _ => n + src.length) (memcpy (Nat.le_refl _)) fun _ => h

theorem ite {c : Prop} [Decidable c] {x y : M Ring α} (h1 : c → Costs n x B) (h2 : ¬ c → Costs n y B) :
    Costs n (if c then x else y) B := by
  split
  · exact h1 (by assumption)
  · exact h2 (by assumption)

end Costs

/-- Rules for the shapes of a program, tried one after the other. -/
local macro "cost_step" : tactic => `(tactic| first
  | with_reducible refine Costs.get_bind fun _ => ?_
  | with_reducible refine Costs.lift_bind fun _ _ => ?_
  | with_reducible refine Costs.pure_bind ?_
  | with_reducible refine Costs.store_bind ?_
  | with_reducible refine Costs.assert_bind ?_
  | with_reducible refine Costs.memcpy_bind ?_
  | with_reducible refine Costs.pure ?_
  | with_reducible exact Costs.lift fun _ e => nomatch e
  | with_reducible refine Costs.store ?_
  | with_reducible refine Costs.assert ?_
  | split)

/-! ## Reading -/

theorem readOne_costs (st : RdSt) (mi : MsgInfo) :
    Costs (3 * st.iov.length) (readOne st mi) (fun x => 3 * x.iov.length) := by
  unfold readOne
  dsimp only
  repeat' cost_step
  all_goals
    simp only [List.length_append, List.length_singleton]
    omega

theorem readLoop_costs : ∀ (k : Nat) (st : RdSt) (mi : MsgInfo),
    Costs (3 * st.iov.length) (readLoop k st mi) (fun x => 3 * x.1.iov.length)
  | 0, st, mi => .pure (Nat.le_refl _)
  | k + 1, st, mi => by
    unfold readLoop
    refine .ite (fun _ => .pure (Nat.le_refl _)) fun _ => .bind (readOne_costs st mi) fun st' => .get_bind fun r => .lift_bind fun x _ => ?_
    split
    · exact .pure (Nat.le_refl _)
    · exact readLoop_costs k { st' with cur := x.1 } _

/-- The most a read may store: the position, the bytes and the messages unread for each message, and two counters. -/
def readWork : RdOut → Nat
  | .ret _ iov _ _ _ => 3 * iov.length + 2
  | .wait => 0

theorem shr_readv_costs (h : Handle) (buf : List Byte) (len niov : Nat) (env : Env) :
    Costs 0 (shr_readv h buf len niov env) (fun x => readWork x.2) := by
  unfold shr_readv
  refine .bind (A := fun x => readWork x.2) ?_ fun x => .pure (Nat.le_refl _)
  unfold readvAttempt
  refine .assert_bind (.ite (fun _ => .pure (Nat.zero_le _)) fun _ => .ite (fun _ => .pure (Nat.zero_le _)) fun _ => ?_)
  dsimp only
  refine .ite (fun _ => .pure (Nat.zero_le _)) fun _ => .get_bind fun r => .lift_bind fun x _ => ?_
  split
  · unfold readvBody
    refine .bind (readLoop_costs niov _ _) fun y => .store_bind (.store_bind (.assert_bind (.pure ?_)))
    exact Nat.le_refl _
  · refine .assert_bind (.ite (fun _ => .pure (Nat.zero_le _)) fun _ => ?_)
    split
    · exact .pure (Nat.zero_le _)
    · exact .pure (Nat.zero_le _)

/-! ## Writing -/

/-- The most that putting `iov` into the ring may store: every byte, two words of the message vector and the write position
for each message, five words to drop what is in the way, three to forget it, three to commit, and two counters. -/
def putWork (iov : List Msg) : Nat := bytesOf iov + 3 * iov.length + 13

theorem copyOne_costs (n : Nat) (b : Msg) (p : Nat) : Costs n (copyOne b p) (fun _ => n + b.length + 3) := by
  unfold copyOne
  dsimp only
  repeat' cost_step
  all_goals (try simp only [List.length_take, List.length_drop])
  all_goals omega

theorem copyLoop_costs : ∀ (bs : List Msg) (n p : Nat), Costs n (copyLoop bs p) (fun _ => n + bytesOf bs + 3 * bs.length)
  | [], n, p => .pure (by unfold bytesOf; simp)
  | b :: bs, n, p => by
    unfold copyLoop
    refine .bind (copyOne_costs n b p) fun p' => (copyLoop_costs bs (n + b.length + 3) p').mono fun _ => ?_
    have : bytesOf (b :: bs) = b.length + bytesOf bs := by unfold bytesOf; simp
    rw [this, List.length_cons]
    omega

theorem writevCommit_costs (n smm : Nat) (iov : List Msg) (len : Nat) :
    Costs n (writevCommit smm iov len) (fun _ => n + (bytesOf iov + 3 * iov.length) + 6) := by
  have hc : ∀ k p, k = n + 3 → Costs k (do
      copyLoop iov p
      M.store fun r => { r with u := wadd r.u len }
      M.store fun r => { r with mp := wadd r.mp iov.length }
      M.store fun r => { r with m := wadd r.m iov.length }) (fun _ => n + (bytesOf iov + 3 * iov.length) + 6) := by
    intro k p hk
    refine .bind (copyLoop_costs iov _ _) fun _ => .store_bind (.store_bind (.store ?_))
    omega
  unfold writevCommit
  dsimp only
  repeat' (first | exact hc _ _ rfl | cost_step)

theorem writevFinish_costs (n len niov : Nat) (env : Env) : Costs n (writevFinish len niov env) (fun _ => n + 2) := by
  unfold writevFinish
  repeat' cost_step
  all_goals omega

theorem drop_unread_costs (n smm need niov : Nat) : Costs n (drop_unread smm need niov) (fun _ => n + 5) := by
  unfold drop_unread
  dsimp only
  repeat' cost_step
  all_goals omega

theorem writevAttempt_costs (n : Nat) (flags : Flags) (smm : Nat) (iov : List Msg) (len : Nat) (env : Env) :
    Costs n (writevAttempt flags smm iov len env) (fun _ => n + putWork iov) := by
  unfold writevAttempt putWork
  refine .ite (fun _ => .pure (by omega)) fun _ => .get_bind fun r => .ite (fun _ => ?_) fun _ => .ite (fun _ => ?_) fun _ =>
    .ite (fun _ => .pure (by omega)) fun _ => ?_
  · exact .bind (writevCommit_costs n smm iov len) fun _ => (writevFinish_costs _ _ _ _).mono fun _ => by omega
  · exact .bind (drop_unread_costs n smm len iov.length) fun _ => .bind (writevCommit_costs _ smm iov len) fun _ =>
      (writevFinish_costs _ _ _ _).mono fun _ => by omega
  · split
    · exact .pure (by omega)
    · exact .pure (by omega)

theorem flushCache_costs (n : Nat) (h : Handle) (env : Env) :
    Costs n (flushCache h env) (fun _ => n + putWork h.c.msgs) := by
  unfold flushCache
  refine .lift_bind fun msgs e => ?_
  have hm : h.c.msgs = msgs := cacheRead_eq _ _ _ e
  rw [hm]
  unfold writevDirect
  refine .assert_bind ?_
  split
  · exact .pure (by omega)
  · exact writevAttempt_costs n _ _ _ _ _

theorem cacheLoop_costs0 (iov : List Msg) (len : Nat) (envF : Env) (n : Nat) : ∀ (fuel : Nat) (h : Handle), h.c.n = 0 →
    Costs n (cacheLoop iov len envF fuel h) (fun _ => n)
  | 0, h, _ => .lift fun _ e => nomatch e
  | fuel + 1, h, h0 => by
    unfold cacheLoop
    exact .ite (fun _ => .pure (Nat.le_refl _)) fun _ => .ite (fun _ => .lift_bind fun c _ => .pure (Nat.le_refl _)) fun _ =>
      .ite (fun _ => .pure (Nat.le_refl _)) fun hn => absurd h0 hn

theorem cacheLoop_costs (iov : List Msg) (len : Nat) (envF : Env) (n : Nat) : ∀ (fuel : Nat) (h : Handle),
    Costs n (cacheLoop iov len envF fuel h) (fun _ => n + putWork h.c.msgs)
  | 0, h => .lift fun _ e => nomatch e
  | fuel + 1, h => by
    unfold cacheLoop
    refine .ite (fun _ => .pure (Nat.le_add_right _ _)) fun _ => .ite (fun _ => .lift_bind fun c _ => .pure (Nat.le_add_right _ _)) fun _ =>
      .ite (fun _ => .pure (Nat.le_add_right _ _)) fun hn => .bind (flushCache_costs n h envF) fun out => ?_
    split
    · exact .pure (Nat.le_refl _)
    · exact .ite (fun _ => .pure (Nat.le_refl _)) fun _ => cacheLoop_costs0 iov len envF _ fuel _ rfl

/-- What was cached is put into the ring only if the handle caches. -/
theorem cacheLoop_plain (iov : List Msg) (len : Nat) (envF : Env) (n fuel : Nat) (h : Handle) (hb : h.flags.has SHR_BUFFERED = false) :
    Costs n (cacheLoop iov len envF fuel h) (fun _ => n) := by
  cases fuel with
  | zero => exact .lift fun _ e => nomatch e
  | succ fuel =>
    unfold cacheLoop
    rw [if_pos hb]
    exact .pure (Nat.le_refl _)

theorem shr_writev_costs (h : Handle) (iov : List Msg) (envF env : Env) :
    Costs 0 (shr_writev h iov envF env)
      (fun _ => (if h.flags.has SHR_BUFFERED then putWork h.c.msgs else 0) + putWork iov) := by
  unfold shr_writev
  refine .assert_bind ?_
  split
  · exact .pure (Nat.zero_le _)
  · refine .bind (A := fun _ => if h.flags.has SHR_BUFFERED then putWork h.c.msgs else 0) ?_ fun x => ?_
    · by_cases hb : h.flags.has SHR_BUFFERED = true
      · rw [if_pos hb]
        exact (cacheLoop_costs iov _ envF 0 2 h).mono fun _ => by omega
      · rw [if_neg hb]
        exact cacheLoop_plain iov _ envF 0 2 h (by simpa using hb)
    · obtain ⟨h', o⟩ := x
      cases o with
      | some out => exact .pure (Nat.le_add_right _ _)
      | none => exact .bind (B := fun _ => _) (writevAttempt_costs _ _ _ _ _ _) fun _ => .pure (Nat.le_refl _)

theorem shr_flush_costs (h : Handle) (wait : Bool) (env : Env) :
    Costs 0 (shr_flush h wait env) (fun _ => if h.c.n = 0 then 0 else putWork h.c.msgs) := by
  unfold shr_flush
  refine .assert_bind (.ite (fun h0 => .pure (by rw [if_pos h0]; exact Nat.le_refl _)) fun h0 => ?_)
  simp only [if_neg h0]
  refine .ite (fun _ => .pure (Nat.zero_le _)) fun _ => ?_
  refine .bind (flushCache_costs 0 _ env) fun out => .pure ?_
  rw [Nat.zero_add]
  have : ∀ h2 : Handle, h2.c = h.c → putWork h2.c.msgs ≤ putWork h.c.msgs := fun h2 e => by rw [e]; exact Nat.le_refl _
  apply this
  cases out <;> (try dsimp only) <;> repeat' split
  all_goals rfl

/-- A write whose arguments are refused stores nothing. -/
theorem shr_writev_refused_costs {h : Handle} {iov : List Msg} (hl : lenCheck h.n h.mm (iov.map List.length) = none) (envF env : Env) :
    Costs 0 (shr_writev h iov envF env) (fun _ => 0) := by
  unfold shr_writev
  rw [hl]
  exact .assert_bind (.pure (Nat.le_refl _))

theorem shr_close_costs (h : Handle) (env : Env) :
    Costs 0 (shr_close h env) (fun _ => if h.c.n = 0 then 0 else putWork h.c.msgs) := by
  unfold shr_close
  refine .ite (fun _ => .bind (shr_flush_costs h false env) fun x => .pure (Nat.le_refl _)) fun _ => .pure (Nat.zero_le _)

/-! ## The other calls -/

theorem shr_stat_costs (h : Handle) (reset : Option Timeval) (env : Env) : Costs 0 (shr_stat h reset env) (fun _ => 2) := by
  unfold shr_stat
  repeat' cost_step
  all_goals omega

theorem shr_farm_stat_costs (h : Handle) (reset : Bool) : Costs 0 (shr_farm_stat h reset) (fun _ => 0) := by
  unfold shr_farm_stat
  repeat' cost_step
  all_goals omega

theorem memRead_le {d b : List Byte} {off len : Nat} (h : memRead d off len = .ok b) : b.length ≤ len := by
  unfold memRead at h
  split at h
  · cases h
    rw [List.length_take]
    omega
  · cases h

theorem shr_appdata_costs (get : GetArg) (set : Option (List Byte)) (sz : Nat) (env : Env) :
    Costs 0 (shr_appdata get set sz env) (fun _ => if set.isSome then sz else 0) := by
  unfold shr_appdata
  dsimp only
  cases set with
  | none =>
    refine .ite (fun _ => .pure (Nat.zero_le _)) fun _ => .get_bind fun r => .ite (fun _ => .pure (Nat.zero_le _)) fun _ => ?_
    cases get <;> dsimp only <;> repeat' cost_step
    all_goals exact Nat.zero_le _
  | some s =>
    refine .ite (fun _ => .pure (Nat.zero_le _)) fun _ => .get_bind fun r => .ite (fun _ => .pure (Nat.zero_le _)) fun _ => ?_
    have fin : ∀ (b : List Byte) (x y : AppOut), memRead s 0 sz = .ok b → Costs 0 (do
        memcpyShared Ring.app (fun a r => { r with app := a }) 0 b
        if r.gflags.has SHR_SYNC ∧ env.syncOk = false then Pure.pure x else Pure.pure y) (fun _ => if (some s).isSome then sz else 0) := by
      intro b x y hb
      have := memRead_le hb
      refine .memcpy_bind (.ite (fun _ => .pure ?_) fun _ => .pure ?_) <;> (show 0 + b.length ≤ sz; omega)
    cases get <;> dsimp only
    · exact .ite (fun _ => .pure (Nat.zero_le _)) fun _ => .lift_bind fun b hb => fin b _ _ hb
    · exact .ite (fun _ => .pure (Nat.zero_le _)) fun _ => .pure (Nat.zero_le _)
    · refine .ite (fun _ => .pure (Nat.zero_le _)) fun _ => .lift_bind fun old _ => .ite (fun _ => .lift_bind fun b hb => fin b _ _ hb) fun _ =>
        .lift_bind fun _ e => nomatch e

/-- If the size given is not that of the app data, nothing is stored. -/
theorem shr_appdata_sized {get : GetArg} {set : Option (List Byte)} {sz : Nat} {env : Env} {r r' : Ring} {o : AppOut}
    (h : (shr_appdata get set sz env r).res = .ok o r') : (shr_appdata get set sz env r).trace.length ≤ r.app_len := by
  have h1 := shr_appdata_costs get set sz env r o r' h
  rw [Nat.zero_add] at h1
  cases set with
  | none => exact Nat.le_trans h1 (Nat.zero_le _)
  | some b =>
    by_cases hs : sz = r.app_len
    · rw [← hs]; exact h1
    · have h2 : (shr_appdata get (some b) sz env r).trace = [] := by
        unfold shr_appdata
        split
        · rfl
        · rw [M.get_bind]
          dsimp only
          split
          · rfl
          · cases get <;> dsimp only
            · rfl
            · split <;> rfl
            · rfl
      rw [h2]
      exact Nat.zero_le _

theorem exec_points_le {x : M Ring α} {r r' : Ring} {a : α} (h : exec x r = .ok (a, r')) :
    (x r).res = .ok a r' ∧ (x r).points.length = (x r).trace.length + 1 := by
  unfold exec at h
  unfold Run.points Run.final
  cases e : (x r).res with
  | ok b s =>
    rw [e] at h
    cases h
    refine ⟨rfl, ?_⟩
    have : x r = ⟨(x r).trace, .ok a r'⟩ := by rw [← e]
    rw [this]
    simp
  | _ => rw [e] at h; cases h

theorem Costs.points {x : M Ring α} {B : α → Nat} (hc : Costs 0 x B) {r r' : Ring} {a : α} (h : exec x r = .ok (a, r')) :
    (x r).points.length ≤ B a + 1 := by
  obtain ⟨h1, h2⟩ := exec_points_le h
  have := hc r a r' h1
  omega

/-! ## C103 -/

/-- The most stores a call that returns `o` may make; `cached` are the messages its handle holds back. -/
def workOf (cached : List Msg) (o : Out) : Op → Nat
  | .writev _ iov _ _ => putWork cached + putWork iov
  | .readv _ _ _ _ => match o with
    | .read _ iov _ => 3 * iov.length + 2
    | _ => 0
  | .flush _ _ _ | .close _ _ => putWork cached
  | .stat _ _ _ => 2
  | .appdata _ _ set sz _ => if set.isSome then sz else 0
  | .open _ _ _ | .farmStat _ _ => 0

theorem work_live {s s' : Sys} {op : Op} {o : Out} {h : Handle} (hk : s.hs op.handle = .live h) (hstep : s.step op = .ok (s', o)) :
    (s.points op).length ≤ workOf (s.cached op.handle) o op + 1 := by
  have hca : s.cached op.handle = h.c.msgs := by unfold Sys.cached; rw [hk]
  rw [hca]
  cases op <;> unfold Sys.step at hstep <;> unfold Sys.points <;> dsimp only at hstep ⊢
  case «open» k flags env => exact Nat.le_add_left _ _
  all_goals dsimp only [Op.handle] at hk; rw [hk] at hstep ⊢; dsimp only at hstep ⊢
  case writev k iov e1 e2 =>
    split at hstep
    · rename_i hw; rw [if_pos hw]; exact Nat.le_add_left _ _
    · rename_i hw
      rw [if_neg hw]
      split at hstep
      · cases hstep
      · rename_i e
        refine Nat.le_trans ((shr_writev_costs h iov e1 e2).points e) ?_
        unfold workOf
        dsimp only
        split <;> omega
  case readv k buf niov env =>
    split at hstep
    · rename_i hw; rw [if_pos hw]; exact Nat.le_add_left _ _
    · rename_i hw
      rw [if_neg hw]
      split at hstep
      · cases hstep
      · rename_i h' ro r' e
        have := (shr_readv_costs h buf buf.length niov env).points e
        obtain ⟨rfl, rfl⟩ := Prod.mk.inj (Except.ok.inj hstep)
        cases ro <;> exact this
  case flush k wait env =>
    split at hstep
    · rename_i hw; rw [if_pos hw]; exact Nat.le_add_left _ _
    · rename_i hw
      rw [if_neg hw]
      split at hstep
      · cases hstep
      · rename_i e
        refine Nat.le_trans ((shr_flush_costs h wait env).points e) ?_
        unfold workOf
        dsimp only
        split <;> omega
  case close k env =>
    split at hstep
    · cases hstep
    all_goals
      rename_i e
      refine Nat.le_trans ((shr_close_costs h env).points e) ?_
      unfold workOf
      dsimp only
      split <;> omega
  case stat k reset env =>
    split at hstep
    · cases hstep
    · rename_i e
      exact (shr_stat_costs h reset env).points e
  case farmStat k reset =>
    split at hstep
    · rename_i hw; rw [if_pos hw]; exact Nat.le_add_left _ _
    · rename_i hw
      rw [if_neg hw]
      split at hstep
      · cases hstep
      · rename_i e
        exact (shr_farm_stat_costs h reset).points e
  case appdata k get set sz env =>
    split at hstep
    · cases hstep
    · rename_i e
      exact (shr_appdata_costs get set sz env).points e

theorem points_not_live {s : Sys} {op : Op} (h : ∀ hd, s.hs op.handle ≠ .live hd) : s.points op = [s.ring] := by
  cases op <;> unfold Sys.points <;> dsimp only
  all_goals
    split
    · rename_i e; exact absurd e (h _)
    · rfl

/-- **C103.** What a call does while it holds the lock is bounded by what it is asked to do: reading makes at most three
stores for each message delivered and two more; a write, flush or close stores each byte of the messages once and makes at
most three more stores for each message and thirteen more, for the messages held back and for those of the call; `shr_stat` makes
two stores, setting the app data one for each byte; opening and `shr_farm_stat` none.  (Any state of the ring, whether or not a
correct library leaves it so.) -/
theorem C103_stores {s s' : Sys} {op : Op} {o : Out} (hstep : s.step op = .ok (s', o)) :
    (s.points op).length ≤ workOf (s.cached op.handle) o op + 1 := by
  cases hk : s.hs op.handle with
  | live h => exact work_live hk hstep
  | never =>
    rw [points_not_live (by intro hd e; rw [hk] at e; cases e)]
    exact Nat.le_add_left _ _
  | gone b =>
    rw [points_not_live (by intro hd e; rw [hk] at e; cases e)]
    exact Nat.le_add_left _ _

/-! ## In a history -/

theorem RingRel.retained_count {r : Ring} {sp : Spec} (h : RingRel r sp) : sp.retained.length ≤ sp.maxm := by
  obtain ⟨p0, hg⟩ := h.rep.geo
  have := hg.cnt
  rw [← h.mm]
  exact this

theorem RingRel.readable_count {r : Ring} {sp : Spec} (hr : RingRel r sp) (h : SHandle) :
    (sp.readable h).length ≤ sp.maxm := by
  unfold Spec.readable
  split
  · have := hr.retained_count
    unfold Spec.retained at this
    rw [List.length_drop] at this ⊢
    omega
  · exact hr.unread_bounds.2

theorem spec_app_length : ∀ (ops : List Op) {sp : Spec}, (∀ op ∈ ops, op.WF sp.app.length) →
    (sp.run ops).1.app.length = sp.app.length
  | [], _, _ => rfl
  | op :: ops, sp, h => by
    have h1 := step_app_length (sp := sp) op (h op (by simp))
    have := spec_app_length ops (sp := (sp.step op).1) (by rw [h1]; exact fun o ho => h o (by simp [ho]))
    exact this.trans h1

theorem Valid.app_len {a : InitArgs} {ops : List Op} (v : Valid a ops) :
    ((Spec.init a).run ops).1.app.length = a.appsize := by
  have h0 : (Spec.init a).app.length = a.appsize := by
    simp only [Spec.init, InitArgs.appsize]; split <;> rfl
  rw [spec_app_length ops (by rw [h0]; exact v.wf), h0]

/-- A read delivers no more messages than the ring has places for. -/
theorem read_count {s : Sys} {sp : Spec} (hr : RingRel s.ring sp) (h : SHandle) (buf : List Byte) (niov : Nat) (env : Env)
    {rc : Int} {iov : List (Nat × Nat)} {b : List Byte} (e : (sp.readv h buf niov env).2.2 = .read rc iov b) :
    iov.length ≤ sp.maxm := by
  have h0 := hr.readable_count h
  unfold Spec.readv at e
  split at e
  · cases e; exact Nat.zero_le _
  · dsimp only at e
    split at e
    · split at e
      · cases e; exact Nat.zero_le _
      · split at e <;> cases e
        exact Nat.zero_le _
    · cases e
      rw [layout_length, List.length_take]
      omega

/-- **C103.** In a correct history every call makes a bounded number of stores, whatever it is asked to do and however many
calls came before: the bound is given by the size of the ring, the most messages it holds and the size of its app data. -/
theorem C103_bounded {a : InitArgs} {ops : List Op} {op : Op} {s s' : Sys} {outs : List Out} {o : Out}
    (v : Valid a (ops ++ [op])) (hrun : (Sys.init a).run ops = .ok (s, outs)) (hstep : s.step op = .ok (s', o)) :
    (s.points op).length ≤ 2 * (a.dataSz + 3 * a.max_msgs + 13) + a.appsize + 1 := by
  have hc := C27_cache_bounds v.left hrun op.handle
  have hcached : putWork (s.cached op.handle) ≤ a.dataSz + 3 * a.max_msgs + 13 := by unfold putWork; omega
  obtain ⟨sp, hrel, -, ho, hwf, hsp⟩ := v.last hrun hstep
  obtain ⟨_, x, hsp', -⟩ := v.left.state hrun
  rw [← hsp] at hsp'
  rw [hsp'] at x
  have hal := v.left.app_len
  rw [← hsp] at hal
  have h0 := C103_stores hstep
  cases hk : s.hs op.handle with
  | never => rw [points_not_live (by intro hd e; rw [hk] at e; cases e)]; exact Nat.le_add_left _ _
  | gone b => rw [points_not_live (by intro hd e; rw [hk] at e; cases e)]; exact Nat.le_add_left _ _
  | live h =>
  obtain ⟨sh, hks, hh⟩ := hrel.live hk
  cases op with
  | «open» k flags env => exact Nat.le_trans h0 (by unfold workOf; dsimp only; omega)
  | farmStat k reset => exact Nat.le_trans h0 (by unfold workOf; dsimp only; omega)
  | stat k reset env => exact Nat.le_trans h0 (by unfold workOf; dsimp only; omega)
  | flush k wait env =>
    refine Nat.le_trans h0 ?_
    unfold workOf
    dsimp only
    omega
  | close k env =>
    refine Nat.le_trans h0 ?_
    unfold workOf
    dsimp only
    omega
  | writev k iov envF env =>
    dsimp only [Op.handle] at hk hks hcached
    have hlc := lenCheck_wf (maxm := sp.maxm) hrel.ring.cap_le hwf
    by_cases hl : Legal sp.cap sp.maxm iov
    · have := hl.2.2.1
      have := hl.2.2.2
      have := x.cap
      have := x.maxm
      refine Nat.le_trans h0 ?_
      unfold workOf
      dsimp only [Op.handle]
      unfold putWork at hcached ⊢
      omega
    · rw [if_neg hl, ← hh.n, ← hh.mm] at hlc
      unfold Sys.step at hstep
      dsimp only at hstep
      unfold Sys.points
      dsimp only
      rw [hk] at hstep ⊢
      dsimp only at hstep ⊢
      split at hstep
      · rename_i hw; rw [if_pos hw]; exact Nat.le_add_left _ _
      · rename_i hw
        rw [if_neg hw]
        split at hstep
        · cases hstep
        · rename_i e
          exact Nat.le_trans ((shr_writev_refused_costs hlc envF env).points e) (by omega)
  | readv k buf niov env =>
    refine Nat.le_trans h0 ?_
    dsimp only [Op.handle] at hk hks
    have hn : ∀ rc iov b, o = .read rc iov b → iov.length ≤ a.max_msgs := by
      intro rc iov b e
      rw [e] at ho
      unfold Spec.step at ho
      dsimp only at ho
      rw [hks] at ho
      dsimp only at ho
      split at ho
      · cases ho
      · rw [← x.maxm]
        exact read_count hrel.ring sh buf niov env ho.symm
    unfold workOf
    dsimp only
    split
    · have := hn _ _ _ rfl
      omega
    · omega
  | appdata k get set sz env =>
    have h1 : (s.points (.appdata k get set sz env)).length ≤ s.ring.app_len + 1 := by
      unfold Sys.step at hstep
      dsimp only at hstep
      unfold Sys.points
      dsimp only
      dsimp only [Op.handle] at hk
      rw [hk] at hstep ⊢
      dsimp only at hstep ⊢
      split at hstep
      · cases hstep
      · rename_i e
        obtain ⟨h1, h2⟩ := exec_points_le e
        have := shr_appdata_sized h1
        omega
    have := hrel.ring.app_len
    omega

/-- A write of five bytes in two messages makes 19 stores, where `workOf` allows 37; reading two messages makes exactly the
eight allowed; both histories are correct. -/
example : Valid crA (crOps ++ [crOp]) ∧ Valid demoA (demoOps ++ [rd 1 9 5]) ∧
    ((final crA crOps).points crOp).length = 20 ∧ workOf ((final crA crOps).cached 0) (.wrote 5) crOp = 37 ∧
    ((final demoA demoOps).points (rd 1 9 5)).length = 9 ∧
    workOf ((final demoA demoOps).cached 1) (lastOut demoA (demoOps ++ [rd 1 9 5])) (rd 1 9 5) = 8 :=
  ⟨cr_valid, valid_of (by decide +kernel), by decide +kernel⟩

end Shr
