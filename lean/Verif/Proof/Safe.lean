import Verif.Proof.Stores
import Verif.Proof.FarmKill
import Verif.Props.Poison
/-! # Memory safety from ranges alone

Whatever the counters of the control block say: as long as the positions and the slots are in range, no call accesses memory outside
the regions of the file, the cache and the caller's buffers, and every state in which it may leave the ring has its positions and
slots in range again. -/
namespace Shr
open M
variable {α β : Type} {G : Flags} {n mm al : Nat}

/-- The regions have the sizes given at the creation, positions and slots are in range, and if there are unread bytes then some message was written once.
Nothing else is said about `u`, nothing about `m`, `mp`, `q`, about how slots lie to each other, or about the statistics. -/
structure Sane (G : Flags) (N K A : Nat) (x : Ring) : Prop where
  n : x.n = N
  mm : x.mm = K
  al : x.app_len = A
  d : x.d.length = N
  mv : x.mv.length = K
  app : x.app.length = A
  i : x.i < N
  r : x.r < K
  e : x.e < K
  slots : ∀ s ∈ x.mv, s.pos < N ∧ s.len ≤ N
  gf : x.gflags = G
  lens : x.u = 0 ∨ ∃ s ∈ x.mv, 0 < s.len

/-- The rings on which the loop of `drop_unread` always ends: those not in DROP mode, which never run it, and those small enough for its counters. -/
def Ends (G : Flags) (n mm : Nat) : Prop := G.has SHR_DROP = false ∨ (n + 4) * mm < W

/-- The run of `x` from `s` does not access memory out of bounds, every state before a store, at a failed assertion or at the end is in range, and if the run
completes, then with `Q`; on most rings it does not run forever. -/
structure Safe (G : Flags) (n mm al : Nat) (x : M Ring α) (s : Ring) (Q : α → Ring → Prop) : Prop where
  tr : ∀ t ∈ (x s).trace, Sane G n mm al t
  noub : (x s).res ≠ .ub
  nohang : Ends G n mm → (x s).res ≠ .hang
  ok : ∀ a s', (x s).res = .ok a s' → Sane G n mm al s' ∧ Q a s'
  ab : ∀ s', (x s).res = .abort s' → Sane G n mm al s'

namespace Safe
variable {s : Ring} {Q : α → Ring → Prop} {R : β → Ring → Prop}

theorem points {x : M Ring α} (h : Safe G n mm al x s Q) : ∀ p ∈ (x s).points, Sane G n mm al p := by
  intro p hp
  unfold Run.points at hp
  rcases List.mem_append.mp hp with hp | hp
  · exact h.tr p hp
  · unfold Run.final at hp
    split at hp
    · rename_i t a s' e; simp at hp; subst hp; exact (h.ok a _ (by rw [e])).1
    · rename_i t s' e; simp at hp; subst hp; exact h.ab _ (by rw [e])
    · simp at hp

theorem bind {x : M Ring α} {f : α → M Ring β} (h : Safe G n mm al x s Q)
    (hf : ∀ a s', Sane G n mm al s' → Q a s' → Safe G n mm al (f a) s' R) : Safe G n mm al (x >>= f) s R := by
  obtain ⟨h1, h2, hh, h3, h4⟩ := h
  cases e : (x s).res with
  | ok a s' =>
    have g := hf a s' (h3 a s' e).1 (h3 a s' e).2
    refine ⟨?_, ?_, ?_, ?_, ?_⟩ <;> rw [M.bind_apply, e]
    · intro t ht
      rcases List.mem_append.mp ht with ht | ht
      · exact h1 t ht
      · exact g.tr t ht
    · exact g.noub
    · exact g.nohang
    · exact g.ok
    · exact g.ab
  | abort s' =>
    refine ⟨?_, ?_, ?_, ?_, ?_⟩ <;> rw [M.bind_apply, e]
    · exact h1
    · exact fun x => nomatch x
    · exact fun _ x => nomatch x
    · exact fun _ _ x => nomatch x
    · intro s'' x; cases x; exact h4 _ e
  | ub => exact absurd e h2
  | hang =>
    refine ⟨?_, ?_, ?_, ?_, ?_⟩ <;> rw [M.bind_apply, e]
    · exact h1
    · exact fun x => nomatch x
    · exact fun hs => absurd e (hh hs)
    · exact fun _ _ x => nomatch x
    · exact fun _ x => nomatch x

theorem pure {a : α} (hs : Sane G n mm al s) (h : Q a s) : Safe G n mm al (Pure.pure a : M Ring α) s Q :=
  ⟨by simp, (fun x => nomatch x), (fun _ x => nomatch x), (fun _ _ x => by cases x; exact ⟨hs, h⟩), (fun _ x => nomatch x)⟩

theorem get_bind {f : Ring → M Ring β} (h : Safe G n mm al (f s) s R) : Safe G n mm al (M.get >>= f) s R := by
  refine ⟨?_, ?_, ?_, ?_, ?_⟩ <;> rw [M.get_bind]
  · exact h.tr
  · exact h.noub
  · exact h.nohang
  · exact h.ok
  · exact h.ab

theorem pure_bind {a : α} {f : α → M Ring β} (h : Safe G n mm al (f a) s R) : Safe G n mm al ((Pure.pure a : M Ring α) >>= f) s R := by
  refine ⟨?_, ?_, ?_, ?_, ?_⟩ <;> rw [M.pure_bind]
  · exact h.tr
  · exact h.noub
  · exact h.nohang
  · exact h.ok
  · exact h.ab

theorem store {g : Ring → Ring} {Q : Unit → Ring → Prop} (hs : Sane G n mm al s) (hg : Sane G n mm al (g s)) (h : Q () (g s)) :
    Safe G n mm al (M.store g) s Q :=
  ⟨by simpa using hs, (fun x => nomatch x), (fun _ x => nomatch x), (fun _ _ x => by cases x; exact ⟨hg, h⟩), (fun _ x => nomatch x)⟩

theorem store_bind {g : Ring → Ring} {f : Unit → M Ring β} (hs : Sane G n mm al s) (hg : Sane G n mm al (g s))
    (h : Safe G n mm al (f ()) (g s) R) : Safe G n mm al (M.store g >>= f) s R :=
  bind (Q := fun _ s' => s' = g s) (store hs hg rfl) fun a s' _ e => by cases a; subst e; exact h

theorem assert {b : Bool} {Q : Unit → Ring → Prop} (hs : Sane G n mm al s) (h : b = true → Q () s) : Safe G n mm al (M.assert b) s Q := by
  cases b with
  | true => exact ⟨by simp, (fun x => nomatch x), (fun _ x => nomatch x), (fun _ _ x => by cases x; exact ⟨hs, h rfl⟩), (fun _ x => nomatch x)⟩
  | false => exact ⟨by simp, (fun x => nomatch x), (fun _ x => nomatch x), (fun _ _ x => nomatch x), (fun _ x => by cases x; exact hs)⟩

theorem assert_bind {b : Bool} {f : Unit → M Ring β} (hs : Sane G n mm al s) (h : b = true → Safe G n mm al (f ()) s R) :
    Safe G n mm al (M.assert b >>= f) s R :=
  bind (Q := fun _ s' => b = true ∧ s' = s)
    (by
      cases b with
      | true => exact assert hs fun e => ⟨e, rfl⟩
      | false => exact assert hs fun e => nomatch e)
    fun a s' _ e => by cases a; obtain ⟨e1, e2⟩ := e; subst e2; exact h e1

theorem lift {x : Except Fault α} (hs : Sane G n mm al s) (hx : x ≠ .error .ub) (hx' : Ends G n mm → x ≠ .error .hang) (h : ∀ a, x = .ok a → Q a s) :
    Safe G n mm al (M.lift x) s Q := by
  cases x with
  | ok a => exact ⟨by simp, (fun x => nomatch x), (fun _ x => nomatch x), (fun _ _ x => by cases x; exact ⟨hs, h _ rfl⟩), (fun _ x => nomatch x)⟩
  | error f =>
    cases f with
    | ub => exact absurd rfl hx
    | abort => exact ⟨by simp [M.lift], (fun x => nomatch x), (fun _ x => nomatch x), (fun _ _ x => nomatch x), (fun _ x => by cases x; exact hs)⟩
    | hang => exact ⟨by simp [M.lift], (fun x => nomatch x), (fun he => absurd rfl (hx' he)), (fun _ _ x => nomatch x), (fun _ x => nomatch x)⟩

theorem lift_bind {x : Except Fault α} {f : α → M Ring β} (hs : Sane G n mm al s) (hx : x ≠ .error .ub) (hx' : Ends G n mm → x ≠ .error .hang)
    (h : ∀ a, x = .ok a → Safe G n mm al (f a) s R) : Safe G n mm al (M.lift x >>= f) s R :=
  bind (Q := fun a s' => x = .ok a ∧ s' = s) (lift hs hx hx' fun _ e => ⟨e, rfl⟩)
    fun a s' _ e => by obtain ⟨e1, e2⟩ := e; subst e2; exact h a e1

theorem ite {c : Prop} [Decidable c] {x y : M Ring α} (h1 : c → Safe G n mm al x s Q) (h2 : ¬c → Safe G n mm al y s Q) :
    Safe G n mm al (if c then x else y) s Q := by
  by_cases hc : c
  · rw [if_pos hc]; exact h1 hc
  · rw [if_neg hc]; exact h2 hc

theorem mono {x : M Ring α} {Q' : α → Ring → Prop} (h : Safe G n mm al x s Q) (hq : ∀ a s', Q a s' → Q' a s') : Safe G n mm al x s Q' :=
  ⟨h.tr, h.noub, h.nohang, fun a s' e => ⟨(h.ok a s' e).1, hq a s' (h.ok a s' e).2⟩, h.ab⟩

end Safe

theorem Sane.data {r : Ring} (h : Sane G n mm al r) {d : List Byte} (hd : d.length = n) : Sane G n mm al { r with d := d } :=
  ⟨h.n, h.mm, h.al, hd, h.mv, h.app, h.i, h.r, h.e, h.slots, h.gf, h.lens⟩

theorem Sane.appd {r : Ring} (h : Sane G n mm al r) {d : List Byte} (hd : d.length = al) : Sane G n mm al { r with app := d } :=
  ⟨h.n, h.mm, h.al, h.d, h.mv, hd, h.i, h.r, h.e, h.slots, h.gf, h.lens⟩

theorem Safe.memcpyData {off : Nat} {src : List Byte} {r : Ring} (h : Sane G n mm al r) (hb : off + src.length ≤ n) :
    Safe G n mm al (memcpyShared Ring.d (fun d r => { r with d := d }) off src) r (fun _ s => ∃ d, s = { r with d := d }) := by
  unfold memcpyShared
  have hd := h.d
  have hl : ∀ l : List Byte, l.length ≤ src.length → (put r.d off l).length = n := fun l hl => by rw [put_length (by omega), hd]
  constructor
  · intro t ht
    rw [if_pos (by omega)] at ht
    simp only [List.mem_map] at ht
    obtain ⟨k, _, rfl⟩ := ht
    exact h.data (hl _ (by simp; omega))
  · rw [if_pos (by omega)]; exact fun x => nomatch x
  · rw [if_pos (by omega)]; exact fun _ x => nomatch x
  · intro a s' e
    rw [if_pos (by omega)] at e
    cases e
    exact ⟨h.data (hl _ (Nat.le_refl _)), _, rfl⟩
  · intro s' e
    rw [if_pos (by omega)] at e
    cases e

theorem Safe.memcpyApp {off : Nat} {src : List Byte} {r : Ring} (h : Sane G n mm al r) (hb : off + src.length ≤ al) :
    Safe G n mm al (memcpyShared Ring.app (fun d r => { r with app := d }) off src) r (fun _ s => ∃ d, s = { r with app := d }) := by
  unfold memcpyShared
  have hd := h.app
  have hl : ∀ l : List Byte, l.length ≤ src.length → (put r.app off l).length = al := fun l hl => by rw [put_length (by omega), hd]
  constructor
  · intro t ht
    rw [if_pos (by omega)] at ht
    simp only [List.mem_map] at ht
    obtain ⟨k, _, rfl⟩ := ht
    exact h.appd (hl _ (by simp; omega))
  · rw [if_pos (by omega)]; exact fun x => nomatch x
  · rw [if_pos (by omega)]; exact fun _ x => nomatch x
  · intro a s' e
    rw [if_pos (by omega)] at e
    cases e
    exact ⟨h.appd (hl _ (Nat.le_refl _)), _, rfl⟩
  · intro s' e
    rw [if_pos (by omega)] at e
    cases e

/-- The sizes with which a ring can be created. -/
structure Sizes (n mm : Nat) : Prop where
  n0 : 0 < n
  nb : n ≤ SSIZE_MAX
  m0 : 0 < mm
  mb : mm < W

theorem dropLoop_zero {mv : List Slot} {smm am ab niov need : Nat} (h0 : ∀ s ∈ mv, s.len = 0) : ∀ (fuel i z p : Nat) (x : Nat × Nat × Nat), z < W →
    dropLoop mv smm am ab niov need fuel i z p = .ok x → x.2.1 = z := by
  intro fuel
  induction fuel with
  | zero => intro i z p x _ e; cases e
  | succ fuel ih =>
    intro i z p x hz e
    unfold dropLoop at e
    split at e
    · cases hs : mv[p]? with
      | none => rw [hs] at e; cases e
      | some s =>
        rw [hs] at e
        dsimp only at e
        have hl := h0 s (List.mem_iff_getElem?.mpr ⟨p, hs⟩)
        rw [hl, wadd_eq (a := z) (b := 0) (by omega), Nat.add_zero] at e
        exact ih _ _ _ _ hz e
    · cases e; rfl

/-- How many steps from slot `p` on the loop takes to come to slot `j`. -/
def slotDist (K p j : Nat) : Nat := if p ≤ j then j - p else j + K - p

/-- Once enough messages are dropped, the loop ends when enough bytes are. -/
theorem dropLoop_bytes {mv : List Slot} {K am ab niov need N j : Nat} (hK : K < W) (hl : mv.length = K) (hj : j < K) (hjl : ∃ s, mv[j]? = some s ∧ 0 < s.len)
    (hs : ∀ s ∈ mv, s.len ≤ N) (hN : N ≤ SSIZE_MAX) (hneed : need ≤ N) : ∀ (k fuel i z p : Nat), p < K → niov ≤ am + i → am + i + k < W → k ≤ fuel →
      (need - wadd ab z) * K + slotDist K p j < k → dropLoop mv K am ab niov need fuel i z p ≠ .error .hang := by
  rw [SSIZE_MAX_val] at hN
  have hW := W_val
  intro k
  induction k with
  | zero => intro fuel i z p _ _ _ _ h; omega
  | succ k ih =>
    intro fuel i z p hp hc hb hf hm
    obtain ⟨fuel, rfl⟩ : ∃ f, fuel = f + 1 := ⟨fuel - 1, by omega⟩
    unfold dropLoop
    rw [wadd_eq (a := am) (by omega), wadd_eq (a := i) (by omega), wadd_eq (a := p) (by omega)]
    by_cases hcond : niov > am + i ∨ need > wadd ab z
    · rw [if_pos hcond]
      have hlt : wadd ab z < need := by omega
      obtain ⟨s, hsp⟩ : ∃ s, mv[p]? = some s := ⟨_, List.getElem?_eq_getElem (by omega)⟩
      rw [hsp]
      dsimp only
      have hsl := hs s (List.mem_iff_getElem?.mpr ⟨p, hsp⟩)
      have hv : wadd ab (wadd z s.len) = wadd ab z + s.len := by
        unfold wadd
        unfold wadd at hlt
        rw [Nat.add_mod_mod, ← Nat.add_assoc, ← Nat.mod_add_mod]
        exact Nat.mod_eq_of_lt (by omega)
      refine ih fuel (i + 1) _ _ (by split <;> omega) (by omega) (by omega) (by omega) ?_
      rw [hv]
      by_cases hz : s.len = 0
      · have hpj : p ≠ j := by
          intro e
          subst e
          obtain ⟨t, h1, h2⟩ := hjl
          rw [hsp] at h1
          cases h1
          omega
        rw [hz, Nat.add_zero]
        have hd : slotDist K (if p + 1 = K then 0 else p + 1) j + 1 = slotDist K p j := by
          unfold slotDist
          split <;> split <;> split <;> omega
        omega
      · have h1 : (need - (wadd ab z + s.len) + 1) * K ≤ (need - wadd ab z) * K := Nat.mul_le_mul_right K (by omega)
        rw [Nat.add_mul, Nat.one_mul] at h1
        have hd : slotDist K (if p + 1 = K then 0 else p + 1) j < K := by
          unfold slotDist
          split <;> split <;> omega
        omega
    · rw [if_neg hcond]; exact fun x => nomatch x

theorem dropLoop_ends {mv : List Slot} {K am ab niov need N : Nat} (z : Sizes N K) (hl : mv.length = K) (hs : ∀ s ∈ mv, s.len ≤ N) (hneed : need ≤ N)
    (hniov : niov ≤ K) (ham : am ≤ K) (hab : ab < W) (hpos : need ≤ ab ∨ ∃ s ∈ mv, 0 < s.len) (hsm : (N + 4) * K < W) (fuel : Nat) (hfuel : W ≤ fuel) :
    ∀ (p : Nat), p < K → dropLoop mv K am ab niov need fuel 0 0 p ≠ .error .hang := by
  have hW := W_val
  have hK := z.mb
  have h4 : N * K + 4 * K < W := by rw [← Nat.add_mul]; exact hsm
  have hn0 : N * K ≥ 1 * K := Nat.mul_le_mul_right K z.n0
  -- the messages first
  suffices h : ∀ (k i w p fuel : Nat), niov - (am + i) = k → p < K → i ≤ K → (N * K + 2 * K) + k ≤ fuel → (need ≤ wadd ab w ∨ ∃ s ∈ mv, 0 < s.len) →
      dropLoop mv K am ab niov need fuel i w p ≠ .error .hang from
    fun p hp => h _ 0 0 p fuel rfl hp (Nat.zero_le _) (by omega) (by rw [wadd_eq (by omega)]; exact hpos)
  intro k
  induction k with
  | zero =>
    intro i w p fuel hk hp hi hf hp'
    by_cases hex : ∃ s ∈ mv, 0 < s.len
    · obtain ⟨s, hsm', hsl⟩ := hex
      obtain ⟨j, hj⟩ := List.mem_iff_getElem?.mp hsm'
      have hjl : j < K := by rw [← hl]; exact (List.getElem?_eq_some_iff.mp hj).1
      have hd : slotDist K p j < K := by unfold slotDist; split <;> omega
      have hm : (need - wadd ab w) * K ≤ N * K := Nat.mul_le_mul_right K (by omega)
      exact dropLoop_bytes hK hl hjl ⟨s, hj, hsl⟩ hs z.nb hneed (N * K + K) fuel i w p hp (by omega) (by omega) (by omega) (by omega)
    · have hge : need ≤ wadd ab w := hp'.resolve_right hex
      obtain ⟨fuel, rfl⟩ : ∃ f, fuel = f + 1 := ⟨fuel - 1, by omega⟩
      unfold dropLoop
      rw [wadd_eq (a := am) (by omega), if_neg (by omega)]
      exact fun x => nomatch x
  | succ k ih =>
    intro i w p fuel hk hp hi hf hp'
    have hlt : niov > am + i := by omega
    have hk1 : niov - (am + (i + 1)) = k := by clear hp' hpos; omega
    have hi1 : i + 1 ≤ K := by clear hp' hpos; omega
    have hf1 : N * K + 2 * K + k + 1 ≤ fuel := by clear hp' hpos; omega
    have hp1 : (if p + 1 = K then 0 else p + 1) < K := by clear hp' hpos; split <;> omega
    obtain ⟨fuel, rfl⟩ : ∃ f, fuel = f + 1 := ⟨fuel - 1, by omega⟩
    unfold dropLoop
    rw [wadd_eq (a := am) (by omega), wadd_eq (a := i) (by omega), wadd_eq (a := p) (by omega), if_pos (Or.inl hlt)]
    obtain ⟨s, hsp⟩ : ∃ s, mv[p]? = some s := ⟨_, List.getElem?_eq_getElem (by omega)⟩
    rw [hsp]
    dsimp only
    refine ih (i + 1) (wadd w s.len) (if p + 1 = K then 0 else p + 1) fuel hk1 hp1 hi1 (Nat.le_of_succ_le_succ hf1) ?_
    · by_cases hex : ∃ s ∈ mv, 0 < s.len
      · exact .inr hex
      · left
        have hz : s.len = 0 := by
          have hm := List.mem_iff_getElem?.mpr ⟨p, hsp⟩
          rcases Nat.eq_zero_or_pos s.len with h | h
          · exact h
          · exact absurd ⟨s, hm, h⟩ hex
        have hge : need ≤ wadd ab w := hp'.resolve_right hex
        have e : wadd ab (wadd w s.len) = wadd ab w := by rw [hz]; unfold wadd; rw [Nat.add_mod_mod, Nat.add_zero]
        rw [e]; exact hge

section
variable (z : Sizes n mm)
include z

theorem eldestLoop_safe {mv : List Slot} {n' i len niov : Nat} (hl : mv.length = mm) : ∀ (mp e a : Nat), e < mm →
    eldestLoop mv n' i mm len niov mp e a ≠ .error .ub ∧ eldestLoop mv n' i mm len niov mp e a ≠ .error .hang ∧ ∀ x, eldestLoop mv n' i mm len niov mp e a = .ok x → x.1 < mm := by
  intro mp
  induction mp with
  | zero => intro e a he; exact ⟨(fun x => nomatch x), (fun x => nomatch x), (fun x h => by cases h; exact he)⟩
  | succ k ih =>
    intro e a he
    unfold eldestLoop
    obtain ⟨s, hs⟩ : ∃ s, mv[e]? = some s := ⟨_, List.getElem?_eq_getElem (by omega)⟩
    rw [hs]
    dsimp only
    generalize (if i > s.pos then wadd (wsub n' i) s.pos else wsub s.pos i) = l
    by_cases hc : len ≤ l ∧ wsub mm (k + 1) ≥ niov
    · rw [if_pos hc]; exact ⟨(fun x => nomatch x), (fun x => nomatch x), (fun x h => by cases h; exact he)⟩
    · rw [if_neg hc]
      refine ih _ _ ?_
      have := z.mb
      rw [wadd_eq (by omega)]
      split <;> omega

theorem drop_unread_safe {need niov : Nat} (hneed : need ≤ n) {r : Ring} (h : Sane G n mm al r) :
    Safe G n mm al (drop_unread mm need niov) r (fun _ _ => True) := by
  have hW := W_val
  have hmb := z.mb
  have hnb := z.nb
  rw [SSIZE_MAX_val] at hnb
  unfold drop_unread
  refine .get_bind (.assert_bind h fun hdrop => .assert_bind h fun hniov => .assert_bind h fun _ => .assert_bind h fun hm => .assert_bind h fun _ => ?_)
  have hd := dropLoop_pc (am := wsub r.mm r.m) (ab := wsub r.n r.u) (niov := niov) (need := need) h.mv z.mb (W * W * (r.mm + 1)) 0 0 r.r h.r
  have hm := of_decide_eq_true hm
  have hniov := of_decide_eq_true hniov
  rw [h.mm] at hm hniov
  refine .lift_bind h hd.1 (fun he => ?_) fun x hx => ?_
  · refine dropLoop_ends z h.mv (fun s hs => (h.slots s hs).2) hneed hniov ?_ (wsub_lt _ _) ?_ (he.resolve_left ?_) _ ?_ _ h.r
    · rw [h.mm, wsub_eq hm (by omega)]; omega
    · rcases h.lens with hu | hx
      · left; rw [hu, h.n, wsub_eq (by omega) (by omega)]; omega
      · exact .inr hx
    · rw [← h.gf, hdrop]; exact fun x => nomatch x
    · have h1 : W * 1 ≤ W * W := Nat.mul_le_mul_left W (by omega)
      have h2 : W * W * 1 ≤ W * W * (r.mm + 1) := Nat.mul_le_mul_left _ (by omega)
      omega
  have hlens : wsub r.u x.2.1 = 0 ∨ ∃ s ∈ r.mv, 0 < s.len := by
    by_cases hex : ∃ s ∈ r.mv, 0 < s.len
    · exact .inr hex
    · left
      have hu := h.lens.resolve_right hex
      have hz := dropLoop_zero (fun s hs => by
        rcases Nat.eq_zero_or_pos s.len with h | h
        · exact h
        · exact absurd ⟨s, hs, h⟩ hex) _ _ _ _ _ (Nat.two_pow_pos 64) hx
      rw [hu, hz]
      rfl
  have h : Sane G n mm al { r with r := x.2.2 } := ⟨h.n, h.mm, h.al, h.d, h.mv, h.app, h.i, hd.2 x hx, h.e, h.slots, h.gf, h.lens⟩
  refine .store_bind ‹_› h ?_
  have h2 : Sane G n mm al { r with r := x.2.2, u := wsub r.u x.2.1 } := ⟨h.n, h.mm, h.al, h.d, h.mv, h.app, h.i, h.r, h.e, h.slots, h.gf, hlens⟩
  refine .store_bind h h2 ?_
  refine .store_bind h2 ⟨h2.n, h2.mm, h2.al, h2.d, h2.mv, h2.app, h2.i, h2.r, h2.e, h2.slots, h2.gf, h2.lens⟩ ?_
  refine .store_bind ⟨h2.n, h2.mm, h2.al, h2.d, h2.mv, h2.app, h2.i, h2.r, h2.e, h2.slots, h2.gf, h2.lens⟩ ⟨h2.n, h2.mm, h2.al, h2.d, h2.mv, h2.app, h2.i, h2.r, h2.e, h2.slots, h2.gf, h2.lens⟩ ?_
  refine .store_bind ⟨h2.n, h2.mm, h2.al, h2.d, h2.mv, h2.app, h2.i, h2.r, h2.e, h2.slots, h2.gf, h2.lens⟩ ⟨h2.n, h2.mm, h2.al, h2.d, h2.mv, h2.app, h2.i, h2.r, h2.e, h2.slots, h2.gf, h2.lens⟩ ?_
  refine .get_bind (.assert_bind ⟨h2.n, h2.mm, h2.al, h2.d, h2.mv, h2.app, h2.i, h2.r, h2.e, h2.slots, h2.gf, h2.lens⟩ fun _ =>
    .assert ⟨h2.n, h2.mm, h2.al, h2.d, h2.mv, h2.app, h2.i, h2.r, h2.e, h2.slots, h2.gf, h2.lens⟩ fun _ => trivial)

omit z in
theorem modify_some {l : List Slot} {p : Nat} {f : Slot → Slot} {P : Slot → Prop} (h : ∃ s ∈ l, P s) (hf : ∀ s, P s → P (f s)) :
    ∃ s ∈ l.modify p f, P s := by
  obtain ⟨s, hs, h⟩ := h
  obtain ⟨j, hj⟩ := List.mem_iff_getElem?.mp hs
  have e : (l.modify p f)[j]? = some (if p = j then f s else s) := by
    rw [List.getElem?_modify, hj]; simp only [Option.map_eq_map, Option.map_some]
  refine ⟨_, List.mem_iff_getElem?.mpr ⟨j, e⟩, ?_⟩
  split
  · exact hf s h
  · exact h

omit z in
theorem Sane.modify {r : Ring} (h : Sane G n mm al r) (p : Nat) (f : Slot → Slot) (hf : ∀ s : Slot, s.pos < n ∧ s.len ≤ n → (f s).pos < n ∧ (f s).len ≤ n)
    (hp : ∀ s : Slot, 0 < s.len → 0 < (f s).len) : Sane G n mm al { r with mv := r.mv.modify p f } := by
  refine ⟨h.n, h.mm, h.al, h.d, by simpa using h.mv, h.app, h.i, h.r, h.e, ?_, h.gf, h.lens.imp id fun hx => modify_some hx hp⟩
  intro s hs
  obtain ⟨j, hj⟩ := List.mem_iff_getElem?.mp hs
  dsimp only at hj
  rw [List.getElem?_modify] at hj
  cases e : r.mv[j]? with
  | none => rw [e] at hj; cases hj
  | some t =>
    rw [e] at hj
    have ht := h.slots t (List.mem_iff_getElem?.mpr ⟨j, e⟩)
    simp only [Option.map_eq_map, Option.map_some, Option.some.injEq] at hj
    subst hj
    split
    · exact hf t ht
    · exact ht

theorem copyOne_safe {b : Msg} (hb : b.length ≤ n) (p : Nat) (hp : p < mm) {r : Ring} (h : Sane G n mm al r) :
    Safe G n mm al (copyOne b p) r (fun p' s => p' < mm ∧ ∃ m ∈ s.mv, 0 < m.len) := by
  have hrn := h.n
  have hrm := h.mm
  subst hrn hrm
  have nb := z.nb
  rw [SSIZE_MAX_val] at nb
  have hW := W_val
  have hmb := z.mb
  unfold copyOne
  refine .assert_bind h fun hb0 => .get_bind ?_
  have hb0 := of_decide_eq_true hb0
  dsimp only
  refine .ite (fun _ => ?_) fun hn => absurd (h.mv.symm ▸ hp) hn
  have h1 := h.modify p (fun s => { s with pos := r.i }) (fun s hs => ⟨h.i, hs.2⟩) fun s hs => hs
  refine .store_bind h h1 ?_
  have h2 := h1.modify p (fun s => { s with len := b.length }) (fun s hs => ⟨hs.1, hb⟩) fun s _ => hb0
  refine .store_bind h1 h2 ?_
  have hpos : ∃ m ∈ (r.mv.modify p fun s => { s with pos := r.i }).modify p fun s => { s with len := b.length }, 0 < m.len := by
    refine ⟨⟨r.i, b.length⟩, List.mem_iff_getElem?.mpr ⟨p, ?_⟩, hb0⟩
    have hlt : p < r.mv.length := by rw [h.mv]; exact hp
    rw [List.getElem?_modify, List.getElem?_modify, List.getElem?_eq_getElem hlt]
    simp
  refine .get_bind ?_
  have hi : r.i < r.n := h.i
  dsimp only
  have ew : wadd r.i b.length = r.i + b.length := wadd_eq (by omega)
  have es : wsub r.n r.i = r.n - r.i := wsub_eq (by omega) (by omega)
  simp only [ew, es]
  generalize hl1 : (if r.i + b.length > r.n then r.n - r.i else b.length) = l1
  have hl : l1 ≤ b.length ∧ r.i + l1 ≤ r.n ∧ (r.i + b.length > r.n → l1 = r.n - r.i) := by
    subst hl1; split
    · exact ⟨by omega, by omega, fun _ => rfl⟩
    · exact ⟨Nat.le_refl _, by omega, fun x => absurd x ‹_›⟩
  have tail : ∀ {s : Ring}, Sane G r.n r.mm al s → (∃ m ∈ s.mv, 0 < m.len) → Safe G r.n r.mm al (if r.n = 0 then do
      let _ ← M.lift (α := Unit) (.error .ub)
      M.store fun r => { r with i := wadd r.i b.length % r.n }
      let r ← M.get
      Pure.pure (if wadd p 1 = r.mm then 0 else wadd p 1)
    else do
      M.store fun r => { r with i := wadd r.i b.length % r.n }
      let r ← M.get
      Pure.pure (if wadd p 1 = r.mm then 0 else wadd p 1)) s (fun p' s => p' < r.mm ∧ ∃ m ∈ s.mv, 0 < m.len) := fun {s} hs hm => by
    refine .ite (fun e => absurd e (Nat.ne_of_gt z.n0)) fun _ => ?_
    have h' : Sane G r.n r.mm al { s with i := wadd s.i b.length % s.n } :=
      ⟨hs.n, hs.mm, hs.al, hs.d, hs.mv, hs.app, by dsimp only; rw [hs.n]; exact Nat.mod_lt _ z.n0, hs.r, hs.e, hs.slots, hs.gf, hs.lens⟩
    refine .store_bind hs h' ?_
    refine .get_bind (.pure h' ⟨?_, hm⟩)
    dsimp only
    rw [hs.mm, wadd_eq (by omega)]
    split <;> omega
  refine .ite (fun _ => ?_) fun hn => absurd hl.1 hn
  refine .bind (.memcpyData h2 ?_) fun _ s hs hd => ?_
  · show r.i + (b.take l1).length ≤ r.n
    rw [List.length_take]; omega
  have el2 : wsub b.length l1 = b.length - l1 := wsub_eq hl.1 (by omega)
  simp only [el2]
  obtain ⟨d1, rfl⟩ := hd
  refine .ite (fun _ => ?_) fun _ => tail hs hpos
  refine .bind (.memcpyData hs ?_) fun _ s hs hd => ?_
  rotate_left
  · obtain ⟨d2, rfl⟩ := hd
    exact tail hs hpos
  rw [List.length_take, List.length_drop]; split <;> omega

theorem copyLoop_safe : ∀ (iov : List Msg) (p : Nat) {r : Ring}, Sane G n mm al r → p < mm → (∀ b ∈ iov, b.length ≤ n) →
    (iov ≠ [] ∨ ∃ m ∈ r.mv, 0 < m.len) → Safe G n mm al (copyLoop iov p) r (fun _ s => ∃ m ∈ s.mv, 0 < m.len)
  | [], _, _, h, _, _, hm => .pure h (hm.resolve_left (fun x => x rfl))
  | b :: bs, p, r, h, hp, hb, _ => by
    unfold copyLoop
    exact .bind (copyOne_safe z (hb b (by simp)) p hp h) fun p' s hs hp' => copyLoop_safe bs p' hs hp'.1 (fun x hx => hb x (by simp [hx])) (.inr hp'.2)

theorem writevCommit_safe {iov : List Msg} (hne : iov ≠ []) (len : Nat) {r : Ring} (h : Sane G n mm al r) (hb : ∀ b ∈ iov, b.length ≤ n) :
    Safe G n mm al (writevCommit mm iov len) r (fun _ _ => True) := by
  unfold writevCommit
  refine .get_bind ?_
  have he := eldestLoop_safe z (n' := r.n) (i := r.i) (len := len) (niov := iov.length) h.mv r.mp r.e 0 h.e
  refine .assert_bind h fun _ => .assert_bind h fun _ => .assert_bind h fun _ => .lift_bind h he.1 (fun _ => he.2.1) fun x hx => ?_
  have h1 : Sane G n mm al { r with e := x.1 } := ⟨h.n, h.mm, h.al, h.d, h.mv, h.app, h.i, h.r, he.2.2 x hx, h.slots, h.gf, h.lens⟩
  refine .store_bind h h1 ?_
  refine .store_bind h1 ⟨h1.n, h1.mm, h1.al, h1.d, h1.mv, h1.app, h1.i, h1.r, h1.e, h1.slots, h1.gf, h1.lens⟩ ?_
  refine .store_bind ⟨h1.n, h1.mm, h1.al, h1.d, h1.mv, h1.app, h1.i, h1.r, h1.e, h1.slots, h1.gf, h1.lens⟩ ⟨h1.n, h1.mm, h1.al, h1.d, h1.mv, h1.app, h1.i, h1.r, h1.e, h1.slots, h1.gf, h1.lens⟩ ?_
  refine .get_bind ?_
  dsimp only
  rw [if_neg (by rw [h.mm]; exact Nat.ne_of_gt z.m0)]
  refine .bind (copyLoop_safe z iov _ ⟨h1.n, h1.mm, h1.al, h1.d, h1.mv, h1.app, h1.i, h1.r, h1.e, h1.slots, h1.gf, h1.lens⟩ (by rw [h.mm]; exact Nat.mod_lt _ z.m0) hb (.inl hne)) fun _ s h hm => ?_
  have h2 : Sane G n mm al { s with u := wadd s.u len } := ⟨h.n, h.mm, h.al, h.d, h.mv, h.app, h.i, h.r, h.e, h.slots, h.gf, .inr hm⟩
  refine .store_bind h h2 ?_
  refine .store_bind h2 ⟨h2.n, h2.mm, h2.al, h2.d, h2.mv, h2.app, h2.i, h2.r, h2.e, h2.slots, h2.gf, h2.lens⟩ ?_
  exact .store ⟨h2.n, h2.mm, h2.al, h2.d, h2.mv, h2.app, h2.i, h2.r, h2.e, h2.slots, h2.gf, h2.lens⟩ ⟨h2.n, h2.mm, h2.al, h2.d, h2.mv, h2.app, h2.i, h2.r, h2.e, h2.slots, h2.gf, h2.lens⟩ trivial

omit z in
theorem writevFinish_safe (len niov : Nat) (env : Env) {r : Ring} (h : Sane G n mm al r) :
    Safe G n mm al (writevFinish len niov env) r (fun _ _ => True) := by
  unfold writevFinish
  refine .ite (fun _ => .pure h trivial) fun _ => ?_
  refine .store_bind h ⟨h.n, h.mm, h.al, h.d, h.mv, h.app, h.i, h.r, h.e, h.slots, h.gf, h.lens⟩ ?_
  have h' : ∀ st : Stat, Sane G n mm al { r with stat := st } := fun st => ⟨h.n, h.mm, h.al, h.d, h.mv, h.app, h.i, h.r, h.e, h.slots, h.gf, h.lens⟩
  refine .store_bind (h' _) (h' _) ?_
  exact .get_bind (.ite (fun _ => .pure (h' _) trivial) fun _ => .pure (h' _) trivial)

theorem writevAttempt_safe (flags : Flags) {iov : List Msg} (len : Nat) (env : Env) {r : Ring} (h : Sane G n mm al r)
    (hb : ∀ b ∈ iov, b.length ≤ n) (hne : iov ≠ []) (hlen : len ≤ n) : Safe G n mm al (writevAttempt flags mm iov len env) r (fun _ _ => True) := by
  unfold writevAttempt
  refine .ite (fun _ => .pure h trivial) fun _ => .get_bind ?_
  refine .ite (fun _ => .bind (writevCommit_safe z hne _ h hb) fun _ s h _ => writevFinish_safe _ _ _ h) fun _ => ?_
  refine .ite (fun _ => .bind (drop_unread_safe z hlen h) fun _ s h _ => .bind (writevCommit_safe z hne _ h hb) fun _ s h _ => writevFinish_safe _ _ _ h) fun _ => ?_
  refine .ite (fun _ => .pure h trivial) fun _ => ?_
  cases env.waitRc <;> exact .pure h trivial

theorem lenCheck_each {iov : List Msg} (hw : ∀ b ∈ iov, b.length ≤ SSIZE_MAX) {len : Nat}
    (h : lenCheck n mm (iov.map List.length) = some len) : len = bytesOf iov ∧ iov ≠ [] ∧ len ≤ n ∧ ∀ b ∈ iov, b.length ≤ n := by
  rw [lenCheck_checked z.nb hw] at h
  split at h
  · rename_i hc
    cases h
    refine ⟨rfl, hc.1, hc.2.2.1, ?_⟩
    intro b hb
    have h1 := hc.2.2.1
    have := mem_le_bytesOf hb
    omega
  · cases h

theorem writevDirect_safe (flags : Flags) {iov : List Msg} (env : Env) {r : Ring} (h : Sane G n mm al r)
    (hw : ∀ b ∈ iov, b.length ≤ SSIZE_MAX) : Safe G n mm al (writevDirect flags n mm iov env) r (fun _ _ => True) := by
  unfold writevDirect
  refine .assert_bind h fun _ => ?_
  cases e : lenCheck n mm (iov.map List.length) with
  | none => exact .pure h trivial
  | some len =>
    obtain ⟨_, h1, h2, h3⟩ := lenCheck_each z hw e
    exact writevAttempt_safe z _ _ _ h h3 h1 h2


/-! ## Reading -/

/-- A message as `next_msg_info` describes it lies in the data region. -/
def MsgInfo.Within (n : Nat) (mi : MsgInfo) : Prop := mi.m1 + mi.l1 ≤ n ∧ mi.l1 + mi.l2 ≤ n

theorem next_msg_info_safe {r : Ring} (h : Sane G n mm al r) (c : RCur) :
    next_msg_info r c ≠ .error .ub ∧ next_msg_info r c ≠ .error .hang ∧ ∀ x mi, next_msg_info r c = .ok x → x.2 = some mi →
      mi.Within n ∧ (0 < mi.l1 + mi.l2 → ∃ m ∈ r.mv, 0 < m.len) := by
  have nb := z.nb
  rw [SSIZE_MAX_val] at nb
  have hW := W_val
  unfold next_msg_info
  dsimp only
  by_cases h1 : msgReady r (farmCatchUp r c) = false
  · rw [if_pos h1]; exact ⟨(fun x => nomatch x), (fun x => nomatch x), (fun x mi e e' => by cases e; cases e')⟩
  rw [if_neg h1, if_neg (fun x => absurd (h.mm ▸ x.2) (Nat.ne_of_gt z.m0))]
  generalize hq : (if r.gflags.has SHR_FARM = true then (farmCatchUp r c).q % r.mm else r.r) = slot
  have hs : slot < r.mv.length := by
    rw [h.mv]; subst hq
    split
    · rw [h.mm]; exact Nat.mod_lt _ z.m0
    · exact h.r
  rw [List.getElem?_eq_getElem hs]
  dsimp only
  refine ⟨(fun x => nomatch x), (fun x => nomatch x), ?_⟩
  intro x mi e e'
  cases e
  cases e'
  have hmem := List.getElem_mem hs
  have hsl := h.slots _ hmem
  generalize r.mv[slot] = sl at hsl hmem
  have hn := h.n
  rw [hn, wadd_eq (by omega), wsub_eq (a := n) (by omega) (by omega)]
  unfold MsgInfo.Within
  dsimp only
  refine ⟨?_, fun hl => ⟨sl, hmem, ?_⟩⟩
  · split
    · rw [wsub_eq (by omega) (by omega)]; omega
    · omega
  · revert hl
    split
    · rw [wsub_eq (by omega) (by omega)]; omega
    · omega

/-- The reader's progress: what was copied and what is left lies in the caller's buffer of `B` bytes. -/
structure RdSt.Within (B : Nat) (st : RdSt) : Prop where
  buf : st.buf.length = B
  off : st.off + st.len ≤ B
  nr : st.nr = st.off
  iov : ∀ e ∈ st.iov, e.1 + e.2 ≤ B

theorem readOne_safe {B : Nat} (hB : B < W) {st : RdSt} {mi : MsgInfo} (hst : st.Within B) (hmi : mi.Within n) (hfit : wadd mi.l1 mi.l2 ≤ st.len)
    {r : Ring} (h : Sane G n mm al r) (hml : 0 < mi.l1 + mi.l2 → ∃ m ∈ r.mv, 0 < m.len) :
    Safe G n mm al (readOne st mi) r (fun st' _ => st'.Within B ∧ st'.iov.length = st.iov.length + 1) := by
  have nb := z.nb
  rw [SSIZE_MAX_val] at nb
  have hW := W_val
  obtain ⟨b1, b2, b3, b4⟩ := hst
  unfold MsgInfo.Within at hmi
  have eL : wadd mi.l1 mi.l2 = mi.l1 + mi.l2 := wadd_eq (by omega)
  rw [eL] at hfit
  unfold readOne
  refine .get_bind ?_
  have e1 : memRead r.d mi.m1 mi.l1 = .ok ((r.d.drop mi.m1).take mi.l1) := by unfold memRead; rw [if_pos (by rw [h.d]; omega)]
  rw [e1]
  refine .lift_bind h (fun x => nomatch x) (fun _ x => nomatch x) fun x hx => ?_
  cases hx
  have len1 : ((r.d.drop mi.m1).take mi.l1).length = mi.l1 := by rw [List.length_take, List.length_drop, h.d]; omega
  generalize (r.d.drop mi.m1).take mi.l1 = c1 at len1
  have e2 : memWrite st.buf st.off c1 = .ok (put st.buf st.off c1) := by unfold memWrite; rw [if_pos (by omega)]
  rw [e2]
  refine .lift_bind h (fun x => nomatch x) (fun _ x => nomatch x) fun x hx => ?_
  cases hx
  have len2 : (put st.buf st.off c1).length = B := by rw [put_length (by omega), b1]
  generalize put st.buf st.off c1 = buf1 at len2
  have fin : ∀ buf2 : List Byte, buf2.length = B → ∀ c : RCur, (RdSt.mk c buf2 (wadd st.off (wadd mi.l1 mi.l2)) (wsub st.len (wadd mi.l1 mi.l2))
      (wadd st.nr (wadd mi.l1 mi.l2)) (st.iov ++ [(st.off, wadd mi.l1 mi.l2)])).Within B ∧
      (st.iov ++ [(st.off, wadd mi.l1 mi.l2)]).length = st.iov.length + 1 := by
    intro buf2 hb c
    rw [eL, wadd_eq (by omega), wadd_eq (by omega), wsub_eq (by omega) (by omega)]
    refine ⟨⟨hb, by dsimp only; omega, by dsimp only; omega, ?_⟩, by simp⟩
    intro e he
    rcases List.mem_append.mp he with he | he
    · exact b4 e he
    · rw [List.mem_singleton.mp he]; dsimp only; omega
  have tail : ∀ buf2 : List Byte, buf2.length = B → Safe G n mm al (if r.gflags.has SHR_FARM = true then
      Pure.pure (RdSt.mk { q := wadd st.cur.q 1, md := st.cur.md } buf2 (wadd st.off (wadd mi.l1 mi.l2)) (wsub st.len (wadd mi.l1 mi.l2))
        (wadd st.nr (wadd mi.l1 mi.l2)) (st.iov ++ [(st.off, wadd mi.l1 mi.l2)]))
    else if r.mm = 0 then M.lift (.error .ub)
    else do
      M.store fun r => { r with r := wadd r.r 1 % r.mm }
      M.store fun r => { r with u := wsub r.u (wadd mi.l1 mi.l2) }
      M.store fun r => { r with m := wsub r.m 1 }
      Pure.pure (RdSt.mk st.cur buf2 (wadd st.off (wadd mi.l1 mi.l2)) (wsub st.len (wadd mi.l1 mi.l2))
        (wadd st.nr (wadd mi.l1 mi.l2)) (st.iov ++ [(st.off, wadd mi.l1 mi.l2)]))) r
      (fun st' _ => st'.Within B ∧ st'.iov.length = st.iov.length + 1) := by
    intro buf2 hb
    refine .ite (fun _ => .pure h (fin buf2 hb _)) fun _ => .ite (fun e => absurd (h.mm ▸ e) (Nat.ne_of_gt z.m0)) fun _ => ?_
    have h' : Sane G n mm al { r with r := wadd r.r 1 % r.mm } :=
      ⟨h.n, h.mm, h.al, h.d, h.mv, h.app, h.i, by dsimp only; rw [h.mm]; exact Nat.mod_lt _ z.m0, h.e, h.slots, h.gf, h.lens⟩
    refine .store_bind h h' ?_
    have h2 : Sane G n mm al { r with r := wadd r.r 1 % r.mm, u := wsub r.u (wadd mi.l1 mi.l2) } := ⟨h'.n, h'.mm, h'.al, h'.d, h'.mv, h'.app, h'.i, h'.r, h'.e, h'.slots, h'.gf, by
      rcases Nat.eq_zero_or_pos (mi.l1 + mi.l2) with h0 | h0
      · rcases h.lens with hu | hx
        · left; dsimp only; rw [hu, eL, h0]; rfl
        · exact .inr hx
      · exact .inr (hml h0)⟩
    refine .store_bind h' h2 ?_
    refine .store_bind h2 ⟨h2.n, h2.mm, h2.al, h2.d, h2.mv, h2.app, h2.i, h2.r, h2.e, h2.slots, h2.gf, h2.lens⟩ ?_
    exact .pure ⟨h2.n, h2.mm, h2.al, h2.d, h2.mv, h2.app, h2.i, h2.r, h2.e, h2.slots, h2.gf, h2.lens⟩ (fin buf2 hb _)
  dsimp only
  refine .ite (fun _ => ?_) fun _ => ?_
  · have e3 : memRead r.d 0 mi.l2 = .ok ((r.d.drop 0).take mi.l2) := by unfold memRead; rw [if_pos (by rw [h.d]; omega)]
    rw [e3]
    refine .lift_bind h (fun x => nomatch x) (fun _ x => nomatch x) fun x hx => ?_
    cases hx
    have len3 : ((r.d.drop 0).take mi.l2).length = mi.l2 := by rw [List.length_take, List.length_drop, h.d]; omega
    generalize (r.d.drop 0).take mi.l2 = c2 at len3
    have e4 : memWrite buf1 (wadd st.off mi.l1) c2 = .ok (put buf1 (wadd st.off mi.l1) c2) := by
      unfold memWrite; rw [wadd_eq (by omega), if_pos (by omega)]
    rw [e4]
    refine .lift_bind h (fun x => nomatch x) (fun _ x => nomatch x) fun x hx => ?_
    cases hx
    exact tail _ (by rw [wadd_eq (by omega), put_length (by omega), len2])
  · exact .pure_bind (tail _ len2)

theorem readLoop_safe {B : Nat} (hB : B < W) : ∀ (niov : Nat) (st : RdSt) (mi : MsgInfo) {r : Ring}, Sane G n mm al r → st.Within B →
    mi.Within n ∧ (0 < mi.l1 + mi.l2 → ∃ m ∈ r.mv, 0 < m.len) → Safe G n mm al (readLoop niov st mi) r (fun x _ => x.1.Within B ∧ x.1.iov.length ≤ st.iov.length + niov)
  | 0, _, _, _, h, hst, _ => .pure h ⟨hst, Nat.le_refl _⟩
  | niov + 1, st, mi, r, h, hst, hmi => by
    unfold readLoop
    refine .ite (fun _ => .pure h ⟨hst, by dsimp only; omega⟩) fun hf => ?_
    refine .bind (readOne_safe z hB hst hmi.1 (by omega) h hmi.2) fun st' s hs hst' => .get_bind ?_
    obtain ⟨g1, g3, g2⟩ := next_msg_info_safe z hs st'.cur
    refine .lift_bind hs g1 (fun _ => g3) fun x hx => ?_
    have hw : ∀ c, (RdSt.mk c st'.buf st'.off st'.len st'.nr st'.iov).Within B := fun c => ⟨hst'.1.buf, hst'.1.off, hst'.1.nr, hst'.1.iov⟩
    cases e : x.2 with
    | none => exact .pure hs ⟨hw _, by have := hst'.2; dsimp only; omega⟩
    | some mi' =>
      refine .mono (readLoop_safe hB niov _ _ hs (hw _) (g2 x mi' hx e)) fun y _ hy => ⟨hy.1, ?_⟩
      have h1 := hy.2
      have h2 := hst'.2
      dsimp only at h1
      omega

omit z in
/-- What a read reports lies in the caller's buffer of `B` bytes and in its vector of `K` entries. -/
def RdOut.Within (B K : Nat) : RdOut → Prop
  | .ret rc iov buf _ _ => buf.length = B ∧ iov.length ≤ K ∧ (∀ e ∈ iov, e.1 + e.2 ≤ B) ∧ rc ≤ B
  | .wait => True

theorem shr_readv_safe (hd : Handle) {buf : List Byte} (hB : buf.length < W) (niov : Nat) (env : Env) {r : Ring} (h : Sane G n mm al r) :
    Safe G n mm al (shr_readv hd buf buf.length niov env) r
      (fun x _ => x.1 = { hd with cur := x.1.cur } ∧ x.2.Within buf.length niov) := by
  unfold shr_readv
  suffices hh : Safe G n mm al (readvAttempt hd.flags hd.cur buf buf.length niov env) r (fun x _ => x.2.Within buf.length niov) from
    .bind hh fun x s hs hq => .pure hs ⟨rfl, hq⟩
  have no : ∀ (rc : Int) (f : Option Bool), rc ≤ 0 → RdOut.Within buf.length niov (.ret rc [] buf f false) := fun rc f hrc =>
    ⟨rfl, by simp, (fun e he => nomatch he), by omega⟩
  unfold readvAttempt
  refine .assert_bind h fun _ => ?_
  refine .ite (fun _ => .pure h (no _ _ (by omega))) fun h1 => ?_
  refine .ite (fun _ => .pure h (no _ _ (by omega))) fun h2 => ?_
  dsimp only
  refine .ite (fun _ => .pure h (no _ _ (by omega))) fun h3 => ?_
  refine .get_bind ?_
  obtain ⟨g1, g3, g2⟩ := next_msg_info_safe z h hd.cur
  refine .lift_bind h g1 (fun _ => g3) fun x hx => ?_
  cases e : x.2 with
  | some mi =>
    dsimp only
    unfold readvBody
    have hst : (RdSt.mk x.1 buf 0 (if buf.length > SSIZE_MAX then SSIZE_MAX else buf.length) 0 []).Within buf.length :=
      ⟨rfl, by dsimp only; split <;> omega, rfl, (fun e he => nomatch he)⟩
    refine .bind (readLoop_safe z hB _ _ _ h hst (g2 x mi hx e)) fun y s h hy => ?_
    refine .store_bind h ⟨h.n, h.mm, h.al, h.d, h.mv, h.app, h.i, h.r, h.e, h.slots, h.gf, h.lens⟩ ?_
    refine .store_bind ⟨h.n, h.mm, h.al, h.d, h.mv, h.app, h.i, h.r, h.e, h.slots, h.gf, h.lens⟩ ⟨h.n, h.mm, h.al, h.d, h.mv, h.app, h.i, h.r, h.e, h.slots, h.gf, h.lens⟩ ?_
    refine .assert_bind ⟨h.n, h.mm, h.al, h.d, h.mv, h.app, h.i, h.r, h.e, h.slots, h.gf, h.lens⟩ fun _ => .pure ⟨h.n, h.mm, h.al, h.d, h.mv, h.app, h.i, h.r, h.e, h.slots, h.gf, h.lens⟩ ?_
    obtain ⟨⟨q1, q2, q3, q4⟩, q5⟩ := hy
    refine ⟨q1, by simpa using q5, q4, ?_⟩
    split <;> omega
  | none =>
    dsimp only
    refine .assert_bind h fun _ => ?_
    refine .ite (fun _ => .pure h (no _ _ (by omega))) fun _ => ?_
    cases env.waitRc with
    | none => exact .pure h trivial
    | some sc => exact .pure h (no _ _ (by cases sc <;> decide))

/-! ## The cache of a buffered writer -/

omit z in
/-- The cache's numbers are in range. -/
structure CSafe (c : Cache) : Prop where
  sz : c.sz = c.buf.length
  vt : c.vt = c.iov.length
  n : c.n ≤ c.sz
  vm : c.vm ≤ c.vt
  szb : c.sz ≤ SSIZE_MAX
  vtb : c.vt < W
  ents : ∀ e ∈ c.iov.take c.vm, e.1 + e.2 ≤ c.buf.length

omit z in
theorem cacheAll_safe : ∀ {iov : List Msg} {c : Cache}, CSafe c → c.n + bytesOf iov ≤ c.sz → c.vm + iov.length ≤ c.vt →
    ∃ c', cacheAll c iov = .ok c' ∧ CSafe c'
  | [], c, h, _, _ => ⟨c, rfl, h⟩
  | b :: bs, c, h, h1, h2 => by
    obtain ⟨k1, k2, k3, k4, k5, k6, k7⟩ := h
    rw [SSIZE_MAX_val] at k5
    have hW := W_val
    have hb : bytesOf (b :: bs) = b.length + bytesOf bs := by simp [bytesOf]
    rw [List.length_cons] at h2
    unfold cacheAll cacheOne memWrite
    rw [if_pos (by omega)]
    simp only [bind, Except.bind]
    rw [if_pos (by omega)]
    dsimp only
    refine cacheAll_safe ⟨?_, ?_, ?_, ?_, ?_, k6, ?_⟩ ?_ ?_
    · dsimp only; rw [put_length (by omega), k1]
    · dsimp only; rw [List.length_set, k2]
    · dsimp only; rw [wadd_eq (by omega)]; omega
    · dsimp only; rw [wadd_eq (by omega)]; omega
    · dsimp only; rw [SSIZE_MAX_val]; omega
    · intro e he
      dsimp only at he ⊢
      rw [put_length (by omega)]
      rw [wadd_eq (by omega)] at he
      obtain ⟨j, hj⟩ := List.mem_iff_getElem?.mp he
      rw [List.getElem?_take] at hj
      split at hj
      · by_cases hjv : c.vm = j
        · subst hjv
          rw [List.getElem?_set_self (by omega)] at hj
          cases hj
          dsimp only
          omega
        · rw [List.getElem?_set_ne hjv] at hj
          refine k7 e (List.mem_iff_getElem?.mpr ⟨j, ?_⟩)
          rw [List.getElem?_take, if_pos (by omega), hj]
      · cases hj
    · dsimp only; rw [wadd_eq (by omega)]; omega
    · dsimp only; rw [wadd_eq (by omega)]; omega

omit z in
theorem cacheRead_safe {buf : List Byte} : ∀ (l : List (Nat × Nat)), (∀ e ∈ l, e.1 + e.2 ≤ buf.length) →
    ∃ ms, cacheRead buf l = .ok ms ∧ ∀ b ∈ ms, b.length ≤ buf.length
  | [], _ => ⟨[], rfl, (fun b hb => nomatch hb)⟩
  | (o, k) :: t, h => by
    obtain ⟨ms, e, hm⟩ := cacheRead_safe t fun x hx => h x (by simp [hx])
    have h0 := h (o, k) (by simp)
    dsimp only at h0
    refine ⟨(buf.drop o).take k :: ms, ?_, ?_⟩
    · unfold cacheRead memRead
      rw [if_pos h0]
      simp only [bind, Except.bind]
      rw [e]
    · intro b hb
      rcases List.mem_cons.mp hb with rfl | hb
      · rw [List.length_take, List.length_drop]; omega
      · exact hm b hb

omit z in
/-- A handle's numbers are in range. -/
structure HSafe (n mm : Nat) (h : Handle) : Prop where
  n : h.n = n
  mm : h.mm = mm
  c : CSafe h.c

theorem flushCache_safe {hd : Handle} (hh : HSafe n mm hd) (env : Env) {r : Ring} (h : Sane G n mm al r) :
    Safe G n mm al (flushCache hd env) r (fun _ _ => True) := by
  unfold flushCache
  obtain ⟨ms, e, hm⟩ := cacheRead_safe _ hh.c.ents
  rw [e]
  refine .lift_bind h (fun x => nomatch x) (fun _ x => nomatch x) fun x hx => ?_
  cases hx
  rw [hh.n, hh.mm]
  have h1 := hh.c.sz
  have h2 := hh.c.szb
  exact writevDirect_safe z _ _ h fun b hb => by have := hm b hb; omega

omit z in
theorem CSafe.empty {c : Cache} (h : CSafe c) : CSafe { c with n := 0, vm := 0 } :=
  ⟨h.sz, h.vt, Nat.zero_le _, Nat.zero_le _, h.szb, h.vtb, by simp⟩

/-- The loop is left in its first or its second round. -/
theorem cacheLoop_safe {iov : List Msg} {len : Nat} (hlen : len = bytesOf iov) (envF : Env) : ∀ (fuel : Nat) {hd : Handle} {r : Ring}, HSafe n mm hd →
    Sane G n mm al r → (2 ≤ fuel ∨ 1 ≤ fuel ∧ hd.c.n = 0) → Safe G n mm al (cacheLoop iov len envF fuel hd) r (fun x _ => HSafe n mm x.1)
  | 0, _, _, _, h, hf => by omega
  | fuel + 1, hd, r, hh, h, hf => by
    unfold cacheLoop
    refine .ite (fun _ => .pure h hh) fun _ => ?_
    refine .ite (fun hc => ?_) fun _ => ?_
    · have k := hh.c
      have hW := W_val
      have k5 := k.szb
      rw [SSIZE_MAX_val] at k5
      rw [wsub_eq k.n (by omega), wsub_eq k.vm k.vtb] at hc
      have k3 := k.n
      have k4 := k.vm
      obtain ⟨c', e, hc'⟩ := cacheAll_safe (iov := iov) k (by omega) (by omega)
      rw [e]
      refine .lift_bind h (fun x => nomatch x) (fun _ x => nomatch x) fun x hx => ?_
      cases hx
      exact .pure h ⟨hh.n, hh.mm, hc'⟩
    refine .ite (fun _ => .pure h hh) fun hn => ?_
    refine .bind (flushCache_safe z hh envF h) fun out s h _ => ?_
    cases out with
    | wait => exact .pure h hh
    | ret rc wake =>
      refine .ite (fun _ => .pure h hh) fun _ => ?_
      exact cacheLoop_safe hlen envF fuel (hd := { hd with c := { hd.c with n := 0, vm := 0 } }) ⟨hh.n, hh.mm, hh.c.empty⟩ h (.inr ⟨by omega, rfl⟩)

theorem shr_writev_safe {hd : Handle} (hh : HSafe n mm hd) {iov : List Msg} (hw : ∀ b ∈ iov, b.length ≤ SSIZE_MAX) (envF env : Env) {r : Ring}
    (h : Sane G n mm al r) : Safe G n mm al (shr_writev hd iov envF env) r (fun x _ => HSafe n mm x.1) := by
  unfold shr_writev
  refine .assert_bind h fun _ => ?_
  rw [hh.n, hh.mm]
  cases e : lenCheck n mm (iov.map List.length) with
  | none => exact .pure h hh
  | some len =>
    obtain ⟨hlen, k1, k2, k3⟩ := lenCheck_each z hw e
    dsimp only
    refine .bind (cacheLoop_safe z hlen envF 2 hh h (.inl (Nat.le_refl _))) fun x s h hx => ?_
    cases x.2 with
    | some out => exact .pure h hx
    | none =>
      dsimp only
      rw [hx.mm]
      exact .bind (writevAttempt_safe z _ _ _ h k3 k1 k2) fun _ s h _ => .pure h hx

theorem shr_flush_safe {hd : Handle} (hh : HSafe n mm hd) (wait : Bool) (env : Env) {r : Ring} (h : Sane G n mm al r) :
    Safe G n mm al (shr_flush hd wait env) r (fun x _ => HSafe n mm x.1) := by
  unfold shr_flush
  refine .assert_bind h fun _ => ?_
  refine .ite (fun _ => .pure h hh) fun _ => ?_
  dsimp only
  cases hd.flags.has SHR_NONBLOCK && wait with
  | false =>
    simp only [Bool.false_eq_true, false_and, if_false]
    refine .bind (flushCache_safe z hh env h) fun out s h _ => .pure h ?_
    cases out with
    | wait => exact ⟨hh.n, hh.mm, hh.c⟩
    | ret rc w =>
      dsimp only
      split
      · exact ⟨hh.n, hh.mm, hh.c.empty⟩
      · exact ⟨hh.n, hh.mm, hh.c⟩
  | true =>
    simp only [true_and, if_true]
    refine .ite (fun _ => .pure h ⟨hh.n, hh.mm, hh.c⟩) fun _ => ?_
    refine .bind (flushCache_safe z (hd := { hd with flags := hd.flags.clear SHR_NONBLOCK, hasR2w := true }) ⟨hh.n, hh.mm, hh.c⟩ env h) fun out s h _ => .pure h ?_
    cases out with
    | wait => exact ⟨hh.n, hh.mm, hh.c⟩
    | ret rc w =>
      dsimp only
      split
      · exact ⟨hh.n, hh.mm, hh.c.empty⟩
      · exact ⟨hh.n, hh.mm, hh.c⟩

theorem shr_close_safe {hd : Handle} (hh : HSafe n mm hd) (env : Env) {r : Ring} (h : Sane G n mm al r) :
    Safe G n mm al (shr_close hd env) r (fun _ _ => True) := by
  unfold shr_close
  refine .ite (fun _ => .bind (shr_flush_safe z hh false env h) fun _ s h _ => .pure h trivial) fun _ => .pure h trivial

omit z in
theorem shr_stat_safe (hd : Handle) (reset : Option Timeval) (env : Env) {r : Ring} (h : Sane G n mm al r) :
    Safe G n mm al (shr_stat hd reset env) r (fun _ _ => True) := by
  have h' : ∀ st : Stat, Sane G n mm al { r with stat := st } := fun st => ⟨h.n, h.mm, h.al, h.d, h.mv, h.app, h.i, h.r, h.e, h.slots, h.gf, h.lens⟩
  unfold shr_stat
  refine .ite (fun _ => .pure h trivial) fun _ => .get_bind ?_
  dsimp only
  cases reset with
  | none => exact .ite (fun _ => .pure h trivial) fun _ => .pure h trivial
  | some t =>
    refine .store_bind h (h' _) (.store_bind (h' _) (h' _) ?_)
    exact .ite (fun _ => .pure (h' _) trivial) fun _ => .pure (h' _) trivial

omit z in
theorem shr_farm_stat_safe (hd : Handle) (reset : Bool) {r : Ring} (h : Sane G n mm al r) :
    Safe G n mm al (shr_farm_stat hd reset) r (fun x _ => x.1.n = hd.n ∧ x.1.mm = hd.mm ∧ x.1.c = hd.c) := by
  unfold shr_farm_stat
  refine .assert_bind h fun _ => .pure h ?_
  cases reset <;> exact ⟨rfl, rfl, rfl⟩

omit z in
theorem shr_appdata_safe {get : GetArg} {set : Option (List Byte)} {sz : Nat} (hw : AppWF al get set sz) (env : Env) {r : Ring} (h : Sane G n mm al r) :
    Safe G n mm al (shr_appdata get set sz env) r (fun _ _ => True) := by
  obtain ⟨w1, w2, w3⟩ := hw
  have ha := h.al
  have hl := h.app
  unfold shr_appdata
  refine .ite (fun _ => .pure h trivial) fun _ => .get_bind ?_
  refine .ite (fun _ => .pure h trivial) fun _ => ?_
  dsimp only
  have fin : ∀ (got : Option (List Byte)) (sz' : Nat) {s : Ring}, Sane G n mm al s → Safe G n mm al (if r.gflags.has SHR_SYNC ∧ env.syncOk = false then
      Pure.pure ⟨-1, got, sz'⟩ else Pure.pure ⟨0, got, sz'⟩ : M Ring AppOut) s (fun _ _ => True) := fun got sz' s h =>
    .ite (fun _ => .pure h trivial) fun _ => .pure h trivial
  have rd : ∀ k, k ≤ al → appRead r k = .ok (r.app.take k) := fun k hk => by
    unfold appRead memRead; rw [if_pos (by omega)]; simp
  cases get with
  | null =>
    cases set with
    | none => exact fin _ _ h
    | some b =>
      refine .ite (fun _ => .pure h trivial) fun hs => ?_
      have hb := w1 b rfl
      have e : memRead b 0 sz = .ok (b.take sz) := by unfold memRead; rw [if_pos (by omega)]; simp
      rw [e]
      refine .lift_bind h (fun x => nomatch x) (fun _ x => nomatch x) fun x hx => ?_
      cases hx
      exact .bind (.memcpyApp h (by rw [List.length_take]; omega)) fun _ s h _ => fin _ _ h
  | alloc =>
    cases set with
    | none =>
      refine .ite (fun _ => .pure h trivial) fun hs => ?_
      rw [rd _ (by omega)]
      exact .lift_bind h (fun x => nomatch x) (fun _ x => nomatch x) fun x hx => fin _ _ h
    | some b => exact fin _ _ h
  | into cap =>
    have hcap := w2 cap rfl
    cases set with
    | none =>
      have hal := w3 cap rfl rfl
      refine .ite (fun _ => .pure h trivial) fun hs => ?_
      rw [rd _ hal]
      refine .lift_bind h (fun x => nomatch x) (fun _ x => nomatch x) fun x hx => ?_
      exact .ite (fun _ => fin _ _ h) fun hn => absurd hcap hn
    | some b =>
      refine .ite (fun _ => .pure h trivial) fun hs => ?_
      have hb := w1 b rfl
      rw [rd _ (by omega)]
      refine .lift_bind h (fun x => nomatch x) (fun _ x => nomatch x) fun x hx => ?_
      refine .ite (fun _ => ?_) fun hn => absurd hcap hn
      have e : memRead b 0 sz = .ok (b.take sz) := by unfold memRead; rw [if_pos (by omega)]; simp
      rw [e]
      refine .lift_bind h (fun x => nomatch x) (fun _ x => nomatch x) fun x hx => ?_
      cases hx
      exact .bind (.memcpyApp h (by rw [List.length_take]; omega)) fun _ s h _ => fin _ _ h

theorem openLocked_safe {r : Ring} (h : Sane G n mm al r) {flags : Flags} {env : Env} {hd : Handle} (e : openLocked r flags env = some hd) : HSafe n mm hd := by
  have hn := h.n
  have hm := h.mm
  have hnb := z.nb
  have hmb := z.mb
  have hcs : cacheSize n ≤ n := by unfold cacheSize; dsimp only; split <;> split <;> omega
  have hc : ∀ c, init_cache r flags env = some c → CSafe c := by
    intro c ec
    have emp : CSafe {} := ⟨rfl, rfl, Nat.le_refl _, Nat.le_refl _, Nat.zero_le _, by decide, by simp⟩
    unfold init_cache at ec
    split at ec
    · cases ec; exact emp
    split at ec
    · cases ec; exact emp
    split at ec
    · cases ec
    cases ec
    refine ⟨by simp, by simp, Nat.zero_le _, Nat.zero_le _, by dsimp only; rw [hn]; omega, ?_, by simp⟩
    dsimp only; rw [hm]; omega
  unfold openLocked at e
  split at e
  · cases e
  split at e
  · cases e
  split at e
  · cases e
  cases ei : init_cache r flags env with
  | none => rw [ei] at e; cases e
  | some c =>
    rw [ei] at e
    dsimp only at e
    split at e
    · cases e
    · cases e
      exact ⟨hn, hm, hc c ei⟩

end
end Shr
