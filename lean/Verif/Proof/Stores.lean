import Verif.Proof.File
import Verif.Model.Crash
import Verif.Proof.At
/-! # Every store of an API call is a store into one region of the file -/
namespace Shr
open M
variable {α β : Type}

/-- What holds of every ring read from a file. -/
structure Typed (x : Ring) : Prop where
  i : x.i < W
  r : x.r < W
  e : x.e < W
  mp : x.mp < W
  d : x.d.length = x.n
  app : x.app.length = x.app_len

def IsStore (r r' : Ring) : Prop := ∃ s : Store, s.inBounds r ∧ r' = s.onRing r

/-- A sequence of states, each obtained from the one before by one store. -/
inductive Path : Ring → List Ring → Ring → Prop where
  | nil (r : Ring) : Path r [] r
  | cons {r r' s : Ring} {l : List Ring} : IsStore r r' → Path r' l s → Path r (r :: l) s

theorem Path.append {r s t : Ring} {l m : List Ring} (h : Path r l s) (h' : Path s m t) : Path r (l ++ m) t := by
  induction h with
  | nil => exact h'
  | cons a _ ih => exact .cons a (ih h')

theorem IsStore.typed {r r' : Ring} (t : Typed r) (h : IsStore r r') : Typed r' := by
  obtain ⟨s, hb, rfl⟩ := h
  obtain ⟨h1, h2, h3, h6, h4, h5⟩ := t
  cases s <;> simp only [Store.inBounds] at hb <;> constructor <;> try assumption
  · simp only [Store.onRing]; rw [put_length (by omega)]; exact h4
  · simp only [Store.onRing]; rw [put_length (by omega)]; exact h5

theorem Path.typed {r s : Ring} {l : List Ring} (t : Typed r) (h : Path r l s) : Typed s := by
  induction h with
  | nil => exact t
  | cons a _ ih => exact ih (a.typed t)

/-- The run of `x` from `r` is a sequence of stores. -/
def BS (x : M Ring α) (r : Ring) : Prop :=
  ∃ r', Path r (x r).trace r' ∧ (∀ a s, (x r).res = .ok a s → s = r') ∧ (∀ s, (x r).res = .abort s → s = r')

namespace BS

theorem pure {a : α} {r : Ring} : BS (Pure.pure a : M Ring α) r :=
  ⟨r, .nil r, (fun _ _ h => by cases h; rfl), (fun _ h => nomatch h)⟩

theorem assert {b : Bool} {r : Ring} : BS (M.assert b) r := by
  refine ⟨r, ?_, ?_, ?_⟩
  · exact .nil r
  · intro a s h; unfold M.assert at h; dsimp only at h; split at h <;> cases h; rfl
  · intro s h; unfold M.assert at h; dsimp only at h; split at h <;> cases h; rfl

theorem lift {x : Except Fault α} {r : Ring} : BS (M.lift x) r := by
  refine ⟨r, .nil r, ?_, ?_⟩
  · intro a s h; unfold M.lift at h; dsimp only at h; split at h <;> cases h; rfl
  · intro s h; unfold M.lift at h; dsimp only at h; split at h <;> cases h; rfl

theorem store {g : Ring → Ring} {r : Ring} (h : IsStore r (g r)) : BS (M.store g) r :=
  ⟨g r, .cons h (.nil _), (fun _ _ h => by cases h; rfl), (fun _ h => nomatch h)⟩

theorem bind {x : M Ring α} {f : α → M Ring β} {r : Ring} (t : Typed r) (h : BS x r)
    (hf : ∀ a s, (x r).res = .ok a s → Typed s → BS (f a) s) : BS (x >>= f) r := by
  obtain ⟨r', p, h1, h2⟩ := h
  unfold BS
  rw [M.bind_apply]
  cases e : (x r).res with
  | ok a s =>
    have := h1 a s e
    subst this
    obtain ⟨r2, p2, g1, g2⟩ := hf a s e (p.typed t)
    exact ⟨r2, p.append p2, g1, g2⟩
  | abort s => exact ⟨r', p, (fun _ _ h => nomatch h), (fun s' h => by cases h; exact h2 _ e)⟩
  | ub => exact ⟨r', p, (fun _ _ h => nomatch h), (fun _ h => nomatch h)⟩
  | hang => exact ⟨r', p, (fun _ _ h => nomatch h), (fun _ h => nomatch h)⟩

theorem get_bind {f : Ring → M Ring β} {r : Ring} (h : BS (f r) r) : BS (M.get >>= f) r := by
  unfold BS at h ⊢; rw [M.get_bind]; exact h

theorem pure_bind {a : α} {f : α → M Ring β} {r : Ring} (h : BS (f a) r) : BS ((Pure.pure a : M Ring α) >>= f) r := by
  unfold BS at h ⊢; rw [M.pure_bind]; exact h

theorem assert_bind {b : Bool} {f : Unit → M Ring β} {r : Ring} (t : Typed r) (h : b = true → BS (f ()) r) :
    BS (M.assert b >>= f) r := by
  refine bind t assert ?_
  intro a s e _
  unfold M.assert at e
  dsimp only at e
  cases b with
  | true => cases e; exact h rfl
  | false => cases e

theorem lift_bind {x : Except Fault α} {f : α → M Ring β} {r : Ring} (t : Typed r) (h : ∀ a, x = .ok a → BS (f a) r) :
    BS (M.lift x >>= f) r := by
  refine bind t lift ?_
  intro a s e _
  unfold M.lift at e
  dsimp only at e
  split at e <;> cases e
  exact h _ rfl

theorem store_bind {g : Ring → Ring} {f : Unit → M Ring β} {r : Ring} (t : Typed r) (s : Store) (hb : s.inBounds r)
    (hg : g r = s.onRing r) (h : Typed (g r) → BS (f ()) (g r)) : BS (M.store g >>= f) r := by
  have hs : IsStore r (g r) := ⟨s, hb, hg⟩
  refine bind t (store hs) ?_
  intro a s' e ht
  cases e
  exact h ht

end BS

/-- Copying byte by byte is a sequence of one-byte stores. -/
theorem bytes_path {rd : Ring → List Byte} {wr : List Byte → Ring → Ring} (mk : Nat → List Byte → Store)
    (off : Nat) (r : Ring)
    (hmk : ∀ d o b, (o + b.length ≤ (rd r).length → d.length = (rd r).length → (mk o b).inBounds (wr d r)) ∧
      (mk o b).onRing (wr d r) = wr (put d o b) r)
    (src : List Byte) (hsrc : off + src.length ≤ (rd r).length) :
    ∀ (n : Nat), n ≤ src.length →
      Path (wr (put (rd r) off (src.take n)) r) ((List.range' n (src.length - n)).map fun k => wr (put (rd r) off (src.take k)) r)
        (wr (put (rd r) off src) r) := by
  intro n hn
  induction hk : src.length - n generalizing n with
  | zero =>
    have : n = src.length := by omega
    subst this
    simp only [List.range'_zero, List.map_nil, List.take_length]
    exact .nil _
  | succ k ih =>
    rw [List.range'_succ, List.map_cons]
    refine .cons (r' := wr (put (rd r) off (src.take (n + 1))) r) ?_ (ih (n + 1) (by omega) (by omega))
    have hb := hmk (put (rd r) off (src.take n)) (off + (src.take n).length) [src[n]]
    refine ⟨mk (off + (src.take n).length) [src[n]], hb.1 ?_ ?_, ?_⟩
    · simp; omega
    · rw [put_length]; simp; omega
    · rw [hb.2, put_put (by simp; omega), List.take_append_getElem (by omega)]

theorem BS.memcpyShared {rd : Ring → List Byte} {wr : List Byte → Ring → Ring} (mk : Nat → List Byte → Store)
    {off : Nat} {src : List Byte} {r : Ring} (hid : wr (rd r) r = r)
    (hmk : ∀ d o b, (o + b.length ≤ (rd r).length → d.length = (rd r).length → (mk o b).inBounds (wr d r)) ∧
      (mk o b).onRing (wr d r) = wr (put d o b) r) : BS (Shr.memcpyShared rd wr off src) r := by
  unfold BS Shr.memcpyShared
  by_cases h : off + src.length ≤ (rd r).length
  · rw [if_pos h]
    refine ⟨wr (put (rd r) off src) r, ?_, (fun _ _ h => by cases h; rfl), (fun _ h => nomatch h)⟩
    have := bytes_path mk off r hmk src h 0 (by omega)
    simp only [List.take_zero, put_nil, hid, Nat.sub_zero] at this
    rw [List.range_eq_range']
    exact this
  · rw [if_neg h]
    exact ⟨r, .nil r, (fun _ _ h => nomatch h), (fun _ h => nomatch h)⟩

theorem BS.memcpyData {off : Nat} {src : List Byte} {r : Ring} (t : Typed r) :
    BS (Shr.memcpyShared Ring.d (fun d r => { r with d := d }) off src) r :=
  BS.memcpyShared (fun o b => .data o b) rfl fun d o b => ⟨fun h _ => by
    unfold Store.inBounds; have := t.d; dsimp only; omega, rfl⟩

theorem BS.memcpyApp {off : Nat} {src : List Byte} {r : Ring} (t : Typed r) :
    BS (Shr.memcpyShared Ring.app (fun d r => { r with app := d }) off src) r :=
  BS.memcpyShared (fun o b => .app o b) rfl fun d o b => ⟨fun h _ => by
    unfold Store.inBounds; have := t.app; dsimp only; omega, rfl⟩

theorem wsub_lt (a b : Nat) : wsub a b < W := Nat.mod_lt _ (by decide)

theorem dropLoop_lt {mv : List Slot} {smm am ab niov need : Nat} : ∀ (fuel i z p : Nat) (x : Nat × Nat × Nat), p < W →
    dropLoop mv smm am ab niov need fuel i z p = .ok x → x.2.2 < W := by
  intro fuel
  induction fuel with
  | zero => intro i z p x _ h; cases h
  | succ n ih =>
    intro i z p x hp h
    unfold dropLoop at h
    split at h
    · split at h
      · cases h
      · refine ih _ _ _ _ ?_ h
        split
        · decide
        · exact wadd_lt _ _
    · cases h; exact hp

theorem eldestLoop_lt {mv : List Slot} {n i smm len niov : Nat} : ∀ (mp e a : Nat) (x : Nat × Nat × Nat), e < W → mp < W →
    eldestLoop mv n i smm len niov mp e a = .ok x → x.1 < W ∧ x.2.2 < W := by
  intro mp
  induction mp with
  | zero => intro e a x he hm h; cases h; exact ⟨he, Nat.two_pow_pos 64⟩
  | succ k ih =>
    intro e a x he hm h
    unfold eldestLoop at h
    cases hs : mv[e]? with
    | none => rw [hs] at h; cases h
    | some s =>
      rw [hs] at h
      dsimp only at h
      generalize (if i > s.pos then wadd (wsub n i) s.pos else wsub s.pos i) = l at h
      by_cases hc : len ≤ l ∧ wsub smm (k + 1) ≥ niov
      · rw [if_pos hc] at h; cases h; exact ⟨he, hm⟩
      · rw [if_neg hc] at h
        refine ih _ _ _ ?_ (by omega) h
        split
        · exact Nat.two_pow_pos 64
        · exact wadd_lt _ _

theorem drop_unread_bs (smm need niov : Nat) {r : Ring} (t : Typed r) : BS (drop_unread smm need niov) r := by
  unfold drop_unread
  refine .get_bind ?_
  dsimp only
  refine .assert_bind t fun _ => .assert_bind t fun _ => .assert_bind t fun _ => .assert_bind t fun _ => .assert_bind t fun _ =>
    .lift_bind t fun x hx => ?_
  have hp := dropLoop_lt _ _ _ _ _ t.r hx
  refine .store_bind t (.r x.2.2) hp rfl fun t => ?_
  refine .store_bind t (.u _) (wsub_lt _ _) rfl fun t => ?_
  refine .store_bind t (.m _) (wsub_lt _ _) rfl fun t => ?_
  refine .store_bind t (.bd _) (wadd_lt _ _) rfl fun t => ?_
  refine .store_bind t (.md _) (wadd_lt _ _) rfl fun t => ?_
  exact .get_bind (.assert_bind t fun _ => .assert)

theorem BS.err {f : Fault} {g : Unit → M Ring β} {r : Ring} (t : Typed r) : BS ((M.lift (.error f) : M Ring Unit) >>= g) r :=
  .bind t .lift fun a s h _ => by cases f <;> cases h

theorem mod_lt_W {a b : Nat} (h : a < W) : a % b < W := Nat.lt_of_le_of_lt (Nat.mod_le a b) h

theorem BS.ite {c : Prop} [Decidable c] {x y : M Ring α} {r : Ring} (h1 : c → BS x r) (h2 : ¬c → BS y r) :
    BS (if c then x else y) r := by
  by_cases hc : c
  · rw [if_pos hc]; exact h1 hc
  · rw [if_neg hc]; exact h2 hc

theorem copyOne_bs {b : Msg} (p : Nat) {r : Ring} (t : Typed r) (hb : b.length < W) : BS (copyOne b p) r := by
  unfold copyOne
  refine .assert_bind t fun _ => .get_bind ?_
  dsimp only
  refine .ite (fun hp => ?_) fun _ => .err t
  refine .store_bind t (.pos p r.i) ⟨hp, t.i⟩ rfl fun t => ?_
  refine .store_bind t (.len p b.length) ⟨by simpa using hp, hb⟩ rfl fun t => ?_
  refine .get_bind ?_
  refine .ite (fun _ => ?_) fun _ => .err t
  refine .bind t (.memcpyData t) fun _ s _ t => ?_
  have tail : ∀ {s : Ring}, Typed s → BS (if r.n = 0 then do
      let _ ← M.lift (α := Unit) (.error .ub)
      store fun r => { r with i := wadd r.i b.length % r.n }
      let r ← M.get
      Pure.pure (if wadd p 1 = r.mm then 0 else wadd p 1)
    else do
      store fun r => { r with i := wadd r.i b.length % r.n }
      let r ← M.get
      Pure.pure (if wadd p 1 = r.mm then 0 else wadd p 1)) s := fun {s} t => by
    refine .ite (fun _ => .err t) fun _ => ?_
    refine .store_bind t (.i _) (mod_lt_W (wadd_lt _ _)) rfl fun t => ?_
    exact .get_bind .pure
  refine .ite (fun _ => ?_) fun _ => tail t
  exact .bind t (.memcpyData t) fun _ s _ t => tail t

theorem copyLoop_bs : ∀ (iov : List Msg) (p : Nat) {r : Ring}, Typed r → (∀ b ∈ iov, b.length < W) → BS (copyLoop iov p) r
  | [], _, _, _, _ => .pure
  | b :: bs, p, r, t, hb => by
    unfold copyLoop
    exact .bind t (copyOne_bs p t (hb b (by simp))) fun p' s _ t => copyLoop_bs bs p' t fun x hx => hb x (by simp [hx])

theorem writevCommit_bs (smm : Nat) {iov : List Msg} (len : Nat) {r : Ring} (t : Typed r) (hb : ∀ b ∈ iov, b.length < W) :
    BS (writevCommit smm iov len) r := by
  unfold writevCommit
  refine .get_bind ?_
  refine .assert_bind t fun _ => .assert_bind t fun _ => .assert_bind t fun _ => .lift_bind t fun x hx => ?_
  have hl := eldestLoop_lt _ _ _ _ t.e t.mp hx
  refine .store_bind t (.e x.1) hl.1 rfl fun t => ?_
  refine .store_bind t (.q _) (wadd_lt _ _) rfl fun t => ?_
  refine .store_bind t (.mp _) hl.2 rfl fun t => ?_
  refine .get_bind ?_
  by_cases hn : r.mm = 0
  · rw [if_pos hn]; exact .err t
  rw [if_neg hn]
  refine .pure_bind ?_
  refine .bind t (copyLoop_bs _ _ t hb) fun _ s _ t => ?_
  refine .store_bind t (.u _) (wadd_lt _ _) rfl fun t => ?_
  refine .store_bind t (.mp _) (wadd_lt _ _) rfl fun t => ?_
  exact .store ⟨.m _, wadd_lt _ _, rfl⟩

theorem writevFinish_bs (len niov : Nat) (env : Env) {r : Ring} (t : Typed r) : BS (writevFinish len niov env) r := by
  unfold writevFinish
  split
  · exact .pure
  refine .store_bind t (.bw _) (wadd_lt _ _) rfl fun t => ?_
  refine .store_bind t (.mw _) (wadd_lt _ _) rfl fun t => ?_
  refine .get_bind ?_
  split <;> exact .pure

theorem writevAttempt_bs (flags : Flags) (smm : Nat) {iov : List Msg} (len : Nat) (env : Env) {r : Ring} (t : Typed r)
    (hb : ∀ b ∈ iov, b.length < W) : BS (writevAttempt flags smm iov len env) r := by
  unfold writevAttempt
  split
  · exact .pure
  refine .get_bind ?_
  split
  · exact .bind t (writevCommit_bs _ _ t hb) fun _ s _ t => writevFinish_bs _ _ _ t
  split
  · exact .bind t (drop_unread_bs _ _ _ t) fun _ s _ t =>
      .bind t (writevCommit_bs _ _ t hb) fun _ s _ t => writevFinish_bs _ _ _ t
  split
  · exact .pure
  split <;> exact .pure

theorem writevDirect_bs (flags : Flags) (sn smm : Nat) {iov : List Msg} (env : Env) {r : Ring} (t : Typed r)
    (hb : ∀ b ∈ iov, b.length < W) : BS (writevDirect flags sn smm iov env) r := by
  unfold writevDirect
  refine .assert_bind t fun _ => ?_
  split
  · exact .pure
  · exact writevAttempt_bs _ _ _ _ t hb

theorem cacheRead_len {buf : List Byte} (h : buf.length < W) : ∀ (l : List (Nat × Nat)) (ms : List Msg),
    cacheRead buf l = .ok ms → ∀ b ∈ ms, b.length < W
  | [], ms, e => by cases e; simp
  | (o, n) :: t, ms, e => by
    unfold cacheRead memRead at e
    dsimp only [bind, Except.bind] at e
    by_cases hc : o + n ≤ buf.length
    · rw [if_pos hc] at e
      dsimp only at e
      cases ht : cacheRead buf t with
      | error f => rw [ht] at e; cases e
      | ok bs =>
        rw [ht] at e
        cases e
        intro b hb
        rcases List.mem_cons.mp hb with rfl | hb
        · simp; omega
        · exact cacheRead_len h t bs ht b hb
    · rw [if_neg hc] at e; cases e

theorem flushCache_bs {h : Handle} (hc : h.c.buf.length < W) (env : Env) {r : Ring} (t : Typed r) : BS (flushCache h env) r := by
  unfold flushCache
  exact .lift_bind t fun ms e => writevDirect_bs _ _ _ _ t (cacheRead_len hc _ _ e)

theorem cacheLoop_bs {iov : List Msg} (len : Nat) (envF : Env) : ∀ (fuel : Nat) {h : Handle} {r : Ring}, h.c.buf.length < W → Typed r →
    BS (cacheLoop iov len envF fuel h) r
  | 0, _, _, _, _ => .lift
  | fuel + 1, h, r, hc, t => by
    unfold cacheLoop
    split
    · exact .pure
    split
    · exact .lift_bind t fun _ _ => .pure
    split
    · exact .pure
    refine .bind t (flushCache_bs hc _ t) fun out s _ t => ?_
    cases out with
    | wait => exact .pure
    | ret rc wake =>
      dsimp only
      split
      · exact .pure
      · exact cacheLoop_bs len envF fuel hc t

theorem shr_writev_bs {h : Handle} (hc : h.c.buf.length < W) {iov : List Msg} (hb : ∀ b ∈ iov, b.length < W) (envF env : Env)
    {r : Ring} (t : Typed r) : BS (shr_writev h iov envF env) r := by
  unfold shr_writev
  refine .assert_bind t fun _ => ?_
  split
  · exact .pure
  refine .bind t (cacheLoop_bs _ _ _ hc t) fun x s _ t => ?_
  split
  · exact .pure
  · exact .bind t (writevAttempt_bs _ _ _ _ t hb) fun _ _ _ _ => .pure

theorem shr_flush_bs {h : Handle} (hc : h.c.buf.length < W) (wait : Bool) (env : Env) {r : Ring} (t : Typed r) :
    BS (shr_flush h wait env) r := by
  unfold shr_flush
  refine .assert_bind t fun _ => ?_
  split
  · exact .pure
  dsimp only
  cases h.flags.has SHR_NONBLOCK && wait with
  | false =>
    simp only [Bool.false_eq_true, false_and, if_false]
    exact .bind t (flushCache_bs hc _ t) fun _ _ _ _ => .pure
  | true =>
    simp only [true_and, if_true]
    split
    · exact .pure
    exact .bind t (flushCache_bs (h := { h with flags := h.flags.clear SHR_NONBLOCK, hasR2w := true }) hc _ t) fun _ _ _ _ => .pure

theorem shr_close_bs {h : Handle} (hc : h.c.buf.length < W) (env : Env) {r : Ring} (t : Typed r) : BS (shr_close h env) r := by
  unfold shr_close
  split
  · exact .bind t (shr_flush_bs hc _ _ t) fun _ _ _ _ => .pure
  · exact .pure

theorem readOne_bs (st : RdSt) (mi : MsgInfo) {r : Ring} (t : Typed r) : BS (readOne st mi) r := by
  unfold readOne
  refine .get_bind (.lift_bind t fun b1 _ => .lift_bind t fun b2 _ => ?_)
  dsimp only
  refine .ite (fun _ => .lift_bind t fun _ _ => .lift_bind t fun _ _ => ?_) fun _ => .pure_bind ?_ <;>
  · refine .ite (fun _ => .pure) fun _ => .ite (fun _ => .lift) fun _ => ?_
    refine .store_bind t (.r _) (mod_lt_W (wadd_lt _ _)) rfl fun t => ?_
    refine .store_bind t (.u _) (wsub_lt _ _) rfl fun t => ?_
    refine .store_bind t (.m _) (wsub_lt _ _) rfl fun t => ?_
    exact .pure

theorem readLoop_bs : ∀ (niov : Nat) (st : RdSt) (mi : MsgInfo) {r : Ring}, Typed r → BS (readLoop niov st mi) r
  | 0, _, _, _, _ => .pure
  | niov + 1, st, mi, r, t => by
    unfold readLoop
    split
    · exact .pure
    refine .bind t (readOne_bs _ _ t) fun st' s _ t => .get_bind (.lift_bind t fun x _ => ?_)
    split
    · exact .pure
    · exact readLoop_bs niov _ _ t

theorem shr_readv_bs (h : Handle) (buf : List Byte) (len niov : Nat) (env : Env) {r : Ring} (t : Typed r) :
    BS (shr_readv h buf len niov env) r := by
  unfold shr_readv
  refine .bind t ?_ fun _ _ _ _ => .pure
  unfold readvAttempt
  refine .assert_bind t fun _ => ?_
  by_cases h1 : len = 0
  · rw [if_pos h1]; exact .pure
  rw [if_neg h1]
  by_cases h2 : niov = 0
  · rw [if_pos h2]; exact .pure
  rw [if_neg h2]
  by_cases h3 : env.lockOk = false
  · rw [if_pos h3]; exact .pure
  rw [if_neg h3]
  refine .get_bind (.lift_bind t fun x _ => ?_)
  cases x.2 with
  | some mi =>
    dsimp only
    unfold readvBody
    refine .bind t (readLoop_bs _ _ _ t) fun x s _ t => ?_
    refine .store_bind t (.br _) (wadd_lt _ _) rfl fun t => ?_
    refine .store_bind t (.mr _) (wadd_lt _ _) rfl fun t => ?_
    exact .assert_bind t fun _ => .pure
  | none =>
    dsimp only
    refine .assert_bind t fun _ => ?_
    by_cases h4 : h.flags.has SHR_NONBLOCK = true
    · rw [if_pos h4]; exact .pure
    rw [if_neg h4]
    cases env.waitRc <;> exact .pure

theorem shr_stat_bs (h : Handle) (reset : Option Timeval) (hr : ∀ t ∈ reset, t.1 < W ∧ t.2 < W) (env : Env) {r : Ring} (t : Typed r) :
    BS (shr_stat h reset env) r := by
  unfold shr_stat
  split
  · exact .pure
  refine .get_bind ?_
  dsimp only
  cases reset with
  | none => dsimp only; split <;> exact .pure
  | some v =>
    dsimp only
    refine .store_bind t .statZero trivial rfl fun t => ?_
    refine .store_bind t (.start v) (hr v rfl) rfl fun t => ?_
    split <;> exact .pure

theorem shr_farm_stat_bs (h : Handle) (reset : Bool) {r : Ring} (t : Typed r) : BS (shr_farm_stat h reset) r := by
  unfold shr_farm_stat
  exact .assert_bind t fun _ => .pure

theorem shr_appdata_bs (get : GetArg) (set : Option (List Byte)) (sz : Nat) (env : Env) {r : Ring} (t : Typed r) :
    BS (shr_appdata get set sz env) r := by
  unfold shr_appdata
  split
  · exact .pure
  refine .get_bind ?_
  split
  · exact .pure
  dsimp only
  have fin : ∀ (got : Option (List Byte)) (sz' : Nat) (r' : Ring), BS (if r.gflags.has SHR_SYNC ∧ env.syncOk = false then
      Pure.pure ⟨-1, got, sz'⟩ else Pure.pure ⟨0, got, sz'⟩ : M Ring AppOut) r' := fun got sz' r' => by split <;> exact .pure
  cases get <;> cases set <;> dsimp only
  · exact fin _ _ _
  · split
    · exact .pure
    exact .lift_bind t fun _ _ => .bind t (.memcpyApp t) fun _ _ _ _ => fin _ _ _
  · split
    · exact .pure
    exact .lift_bind t fun _ _ => fin _ _ _
  · exact fin _ _ _
  · split
    · exact .pure
    exact .lift_bind t fun _ _ => .ite (fun _ => fin _ _ _) fun _ => .err t
  · split
    · exact .pure
    exact .lift_bind t fun _ _ => .ite (fun _ => .lift_bind t fun _ _ => .bind t (.memcpyApp t) fun _ _ _ _ => fin _ _ _) fun _ => .err t

/-! ## From typed states to files -/

/-- `g` is reached from `f` by single stores of the library, each inside its region. -/
inductive FSteps : List Byte → List Byte → Prop where
  | refl (f : List Byte) : FSteps f f
  | step {f g : List Byte} (s : Store) : s.inBounds (decode f) → FSteps (s.onFile f) g → FSteps f g

theorem FSteps.trans {f g h : List Byte} (a : FSteps f g) (b : FSteps g h) : FSteps f h := by
  induction a with
  | refl => exact b
  | step s hb _ ih => exact .step s hb (ih b)

theorem onFile_layout {f : List Byte} (hl : LayoutOk f) (s : Store) (hb : s.inBounds (decode f)) :
    (s.onFile f).length = f.length ∧ LayoutOk (s.onFile f) := by
  have hdec := decode_store hl s hb
  have hlen : (s.onFile f).length = f.length := by
    unfold Store.onFile
    apply put_length
    unfold LayoutOk appOff mvOff at hl
    cases s with
    | data o b =>
      have hb' : o + b.length ≤ ld64 f OFF_N := hb
      simp only [Store.inFile]; omega
    | pos p v =>
      have hp := hb.1
      rw [decode_mv_length] at hp
      simp only [Store.inFile, le_length, mvOff, SIZEOF_MSG] at *; omega
    | len p v =>
      have hp := hb.1
      rw [decode_mv_length] at hp
      simp only [Store.inFile, le_length, mvOff, SIZEOF_MSG] at *; omega
    | app o b =>
      have hb' : o + b.length ≤ ld64 f OFF_APP_LEN := hb
      simp only [Store.inFile, appOff, mvOff]; omega
    | statZero => simp only [Store.inFile, List.length_replicate, OFF_STAT, SIZEOF_CTRL] at *; omega
    | start t => simp only [Store.inFile, List.length_append, le_length, OFF_STAT, SIZEOF_CTRL] at *; omega
    | _ => simp only [Store.inFile, le_length, OFF_I, OFF_U, OFF_M, OFF_MP, OFF_R, OFF_E, OFF_Q, OFF_STAT, SIZEOF_CTRL] at *; omega
  refine ⟨hlen, ?_⟩
  have e : (decode (s.onFile f)).n = (decode f).n ∧ (decode (s.onFile f)).pad_len = (decode f).pad_len ∧
      (decode (s.onFile f)).mv_len = (decode f).mv_len ∧ (decode (s.onFile f)).app_len = (decode f).app_len := by
    rw [hdec]; cases s <;> exact ⟨rfl, rfl, rfl, rfl⟩
  obtain ⟨e1, e2, e3, e4⟩ := e
  have e1' : ld64 (s.onFile f) OFF_N = ld64 f OFF_N := e1
  have e2' : ld64 (s.onFile f) OFF_PAD_LEN = ld64 f OFF_PAD_LEN := e2
  have e3' : ld64 (s.onFile f) OFF_MV_LEN = ld64 f OFF_MV_LEN := e3
  have e4' : ld64 (s.onFile f) OFF_APP_LEN = ld64 f OFF_APP_LEN := e4
  unfold LayoutOk appOff mvOff at hl ⊢
  rw [hlen, e1', e2', e3', e4']; exact hl

theorem FSteps.layout {f g : List Byte} (h : FSteps f g) (hl : LayoutOk f) : g.length = f.length ∧ LayoutOk g := by
  induction h with
  | refl => exact ⟨rfl, hl⟩
  | step s hb _ ih =>
    obtain ⟨h1, h2⟩ := onFile_layout hl s hb
    obtain ⟨h3, h4⟩ := ih h2
    exact ⟨h3.trans h1, h4⟩

theorem Path.files {r r' : Ring} {l : List Ring} (h : Path r l r') {f : List Byte} (hl : LayoutOk f) (hd : decode f = r) :
    (∀ p ∈ l, ∃ g, FSteps f g ∧ decode g = p) ∧ ∃ g, FSteps f g ∧ decode g = r' := by
  induction h generalizing f with
  | nil => exact ⟨by simp, f, .refl f, hd⟩
  | cons hs _ ih =>
    obtain ⟨s, hb, rfl⟩ := hs
    rw [← hd] at hb
    obtain ⟨h1, h2⟩ := onFile_layout hl s hb
    obtain ⟨i1, g, i2, i3⟩ := ih h2 (by rw [decode_store hl s hb, hd])
    refine ⟨?_, g, .step s hb i2, i3⟩
    intro p hp
    rcases List.mem_cons.mp hp with rfl | hp
    · exact ⟨f, .refl f, hd⟩
    · obtain ⟨g', j1, j2⟩ := i1 p hp
      exact ⟨g', .step s hb j1, j2⟩

theorem BS.files {x : M Ring α} {r : Ring} (h : BS x r) {f : List Byte} (hl : LayoutOk f) (hd : decode f = r) :
    ∀ p ∈ (x r).points, ∃ g, FSteps f g ∧ decode g = p := by
  obtain ⟨r', p, h1, h2⟩ := h
  obtain ⟨i1, i2⟩ := p.files hl hd
  intro q hq
  unfold Run.points at hq
  rcases List.mem_append.mp hq with hq | hq
  · exact i1 q hq
  · unfold Run.final at hq
    split at hq
    · rename_i a s e; simp at hq; subst hq; rw [e] at h1; rw [h1 _ _ rfl]; exact i2
    · rename_i s e; simp at hq; subst hq; rw [e] at h2; rw [h2 _ rfl]; exact i2
    · simp at hq

theorem exec_points {x : M Ring α} {r r' : Ring} {a : α} (h : exec x r = .ok (a, r')) : r' ∈ (x r).points := by
  unfold exec at h
  unfold Run.points Run.final
  cases e : (x r).res with
  | ok b s =>
    rw [e] at h; cases h
    apply List.mem_append.mpr; right
    have : x r = ⟨(x r).trace, .ok a r'⟩ := by rw [← e]
    rw [this]; simp
  | _ => rw [e] at h; cases h

/-- The state after a call is one of its points. -/
theorem step_points {s s' : Sys} {op : Op} {o : Out} (h : s.step op = .ok (s', o)) : s'.ring ∈ s.points op := by
  cases op <;> unfold Sys.step at h <;> unfold Sys.points <;> dsimp only at h ⊢
  case «open» k flags env =>
    split at h
    · split at h
      · cases h; simp
      · split at h <;> cases h <;> simp
    · cases h; simp
  case writev k iov e1 e2 =>
    cases e : s.hs k with
    | live hd =>
      rw [e] at h
      dsimp only at h ⊢
      split at h
      · rename_i e'; rw [if_pos e']; cases h; simp
      rename_i e'; rw [if_neg e']
      split at h
      · cases h
      · rename_i e''; cases h; exact exec_points e''
    | _ => rw [e] at h; cases h; simp
  case readv k buf niov env =>
    cases e : s.hs k with
    | live hd =>
      rw [e] at h
      dsimp only at h ⊢
      split at h
      · rename_i e'; rw [if_pos e']; cases h; simp
      rename_i e'; rw [if_neg e']
      split at h
      · cases h
      · rename_i e''; cases h; exact exec_points e''
    | _ => rw [e] at h; cases h; simp
  case flush k wait env =>
    cases e : s.hs k with
    | live hd =>
      rw [e] at h
      dsimp only at h ⊢
      split at h
      · rename_i e'; rw [if_pos e']; cases h; simp
      rename_i e'; rw [if_neg e']
      split at h
      · cases h
      · rename_i e''; cases h; exact exec_points e''
    | _ => rw [e] at h; cases h; simp
  case close k env =>
    cases e : s.hs k with
    | live hd =>
      rw [e] at h
      dsimp only at h ⊢
      split at h
      · cases h
      · rename_i e''; cases h; exact exec_points e''
      · rename_i e''; cases h; exact exec_points e''
    | _ => rw [e] at h; cases h; simp
  case stat k reset env =>
    cases e : s.hs k with
    | live hd =>
      rw [e] at h
      dsimp only at h ⊢
      split at h
      · cases h
      · rename_i e''; cases h; exact exec_points e''
    | _ => rw [e] at h; cases h; simp
  case farmStat k reset =>
    cases e : s.hs k with
    | live hd =>
      rw [e] at h
      dsimp only at h ⊢
      split at h
      · rename_i e'; rw [if_pos e']; cases h; simp
      rename_i e'; rw [if_neg e']
      split at h
      · cases h
      · rename_i e''; cases h; exact exec_points e''
    | _ => rw [e] at h; cases h; simp
  case appdata k get set sz env =>
    cases e : s.hs k with
    | live hd =>
      rw [e] at h
      dsimp only at h ⊢
      split at h
      · cases h
      · rename_i e''; cases h; exact exec_points e''
    | _ => rw [e] at h; cases h; simp

theorem LayoutOk.typed {f : List Byte} (hl : LayoutOk f) : Typed (decode f) := by
  refine ⟨ld64_lt _ _, ld64_lt _ _, ld64_lt _ _, ld64_lt _ _, ?_, ?_⟩
  · simp only [decode, ld, List.length_take, List.length_drop]
    unfold LayoutOk appOff mvOff at hl
    omega
  · simp only [decode, ld, List.length_take, List.length_drop]
    unfold LayoutOk at hl
    omega

/-- What a call may be given: buffers and times that a C program can have. -/
def Op.Small : Op → Prop
  | .writev _ iov _ _ => ∀ b ∈ iov, b.length < W
  | .stat _ (some t) _ => t.1 < W ∧ t.2 < W
  | _ => True

/-- Reached by single stores. -/
inductive RSteps : Ring → Ring → Prop where
  | refl (r : Ring) : RSteps r r
  | step {r s t : Ring} : IsStore r s → RSteps s t → RSteps r t

theorem Path.steps {r r' : Ring} {l : List Ring} (h : Path r l r') : (∀ p ∈ l, RSteps r p) ∧ RSteps r r' := by
  induction h with
  | nil => exact ⟨by simp, .refl _⟩
  | cons hs _ ih =>
    refine ⟨?_, .step hs ih.2⟩
    intro p hp
    rcases List.mem_cons.mp hp with rfl | hp
    · exact .refl _
    · exact .step hs (ih.1 p hp)

theorem BS.steps {x : M Ring α} {r : Ring} (h : BS x r) : ∀ p ∈ (x r).points, RSteps r p := by
  obtain ⟨r', p, h1, h2⟩ := h
  obtain ⟨i1, i2⟩ := p.steps
  intro q hq
  unfold Run.points at hq
  rcases List.mem_append.mp hq with hq | hq
  · exact i1 q hq
  · unfold Run.final at hq
    split at hq
    · rename_i a s e; simp at hq; subst hq; rw [e] at h1; rw [h1 _ _ rfl]; exact i2
    · rename_i s e; simp at hq; subst hq; rw [e] at h2; rw [h2 _ rfl]; exact i2
    · simp at hq

/-- Every point of a call is reached by single stores. -/
theorem points_steps {s : Sys} {op : Op} (hop : op.Small) (hc : ∀ h, s.hs op.handle = .live h → h.c.buf.length < W)
    (t : Typed s.ring) : ∀ p ∈ s.points op, RSteps s.ring p := by
  have base : ∀ p ∈ [s.ring], RSteps s.ring p := fun p hp => by
    rw [List.mem_singleton.mp hp]; exact .refl _
  cases op with
  | «open» k flags env => exact base
  | writev k iov e1 e2 =>
    unfold Sys.points; dsimp only
    cases e : s.hs k with
    | live h =>
      dsimp only
      split
      · exact base
      · exact (shr_writev_bs (hc h e) hop e1 e2 t).steps
    | _ => exact base
  | readv k buf niov env =>
    unfold Sys.points; dsimp only
    cases e : s.hs k with
    | live h =>
      dsimp only
      split
      · exact base
      · exact (shr_readv_bs h buf _ niov env t).steps
    | _ => exact base
  | flush k wait env =>
    unfold Sys.points; dsimp only
    cases e : s.hs k with
    | live h =>
      dsimp only
      split
      · exact base
      · exact (shr_flush_bs (hc h e) wait env t).steps
    | _ => exact base
  | close k env =>
    unfold Sys.points; dsimp only
    cases e : s.hs k with
    | live h => exact (shr_close_bs (hc h e) env t).steps
    | _ => exact base
  | stat k reset env =>
    unfold Sys.points; dsimp only
    cases e : s.hs k with
    | live h =>
      refine (shr_stat_bs h reset ?_ env t).steps
      cases reset with
      | none => intro v hv; cases hv
      | some v => intro v' hv; cases hv; exact hop
    | _ => exact base
  | farmStat k reset =>
    unfold Sys.points; dsimp only
    cases e : s.hs k with
    | live h =>
      dsimp only
      split
      · exact base
      · exact (shr_farm_stat_bs h reset t).steps
    | _ => exact base
  | appdata k get set sz env =>
    unfold Sys.points; dsimp only
    cases e : s.hs k with
    | live h => exact (shr_appdata_bs get set sz env t).steps
    | _ => exact base

/-- Every point of a call is reached from the file by single stores. -/
theorem points_files {s : Sys} {op : Op} (hop : op.Small) (hc : ∀ h, s.hs op.handle = .live h → h.c.buf.length < W)
    {f : List Byte} (hl : LayoutOk f) (hd : decode f = s.ring) : ∀ p ∈ s.points op, ∃ g, FSteps f g ∧ decode g = p := by
  intro p hp
  have h := points_steps hop hc (hd ▸ hl.typed) p hp
  clear hp hc hop
  revert hd
  generalize s.ring = r at h
  intro he
  induction h generalizing f with
  | refl r => exact ⟨f, .refl f, he⟩
  | step hs _ ih =>
    obtain ⟨st, hb, rfl⟩ := hs
    rw [← he] at hb
    obtain ⟨h1, h2⟩ := onFile_layout hl st hb
    obtain ⟨g, i1, i2⟩ := ih h2 (by rw [decode_store hl st hb, he])
    exact ⟨g, .step st hb i1, i2⟩

/-- No store changes the parameters of the ring. -/
theorem RSteps.params {r p : Ring} (h : RSteps r p) : p.gflags = r.gflags ∧ p.n = r.n ∧ p.mm = r.mm ∧ p.app_len = r.app_len ∧
    p.mv_len = r.mv_len ∧ p.pad_len = r.pad_len := by
  induction h with
  | refl => exact ⟨rfl, rfl, rfl, rfl, rfl, rfl⟩
  | step hs _ ih =>
    obtain ⟨st, hb, rfl⟩ := hs
    cases st <;> exact ih

theorem RingRel.typed {r : Ring} {sp : Spec} (h : RingRel r sp) : Typed r := by
  obtain ⟨p0, hg⟩ := h.rep.geo
  have := hg.nbd; have := hg.mmbd; have hn := hg.npos; have hm := hg.mmpos
  rw [SSIZE_MAX_val] at *
  have h1 := Nat.mod_lt (p0 + bytesOf sp.retained) hn
  have h2 := Nat.mod_lt sp.base hm
  have h3 := Nat.mod_lt (sp.base + (sp.first - sp.base)) hm
  have hW := W_val
  exact ⟨by rw [hg.ieq]; omega, by rw [h.rep.r]; omega, by rw [h.rep.e]; omega, by rw [h.rep.mp]; have := hg.cnt; omega, hg.dlen,
    by rw [h.app, h.app_len]⟩

end Shr
