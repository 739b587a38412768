import Verif.Proof.Usable
/-! # At which points inside a call the ring is consistent -/
namespace Shr
open M

theorem Ring.Consistent.congr {s p : Ring} (h : s.Consistent) (e1 : p.e = s.e) (e2 : p.mm = s.mm) (e3 : p.i = s.i) (e4 : p.n = s.n)
    (e5 : p.mp = s.mp) (e6 : p.m = s.m) (e7 : p.mv = s.mv) (e8 : p.r = s.r) (e9 : p.u = s.u) : p.Consistent := by
  have hs : p.slotAt = s.slotAt := by funext j; unfold Ring.slotAt; rw [e1, e2, e7]
  have hl : p.lensTo = s.lensTo := by funext j; unfold Ring.lensTo; rw [hs]
  obtain ⟨a1, a2, a3, a4, a5, a6, a7, a8, a9⟩ := h
  constructor <;> simp only [e1, e2, e3, e4, e5, e6, e8, e9, hs, hl] <;> assumption

/-- In a consistent ring the unread messages are the last of those present. -/
theorem Ring.Consistent.unread_present {s : Ring} (h : s.Consistent) : s.unreadMsgs = s.presentMsgs.drop (s.mp - s.m) := by
  have hm := h.m
  unfold Ring.unreadMsgs Ring.presentMsgs Ring.msgsFrom
  apply List.ext_getElem?
  intro j
  rw [List.getElem?_drop, List.getElem?_map, List.getElem?_map]
  by_cases hj : j < s.m
  · rw [List.getElem?_range hj, List.getElem?_range (by omega), h.r]
    simp only [Option.map_some]
    rw [mod_add_mod_left, Nat.add_assoc]
  · rw [List.getElem?_eq_none (by simp; omega), List.getElem?_eq_none (by simp; omega)]
    rfl

/-- A reader, or a writer that is dropping, changes only these fields. -/
theorem Ring.Consistent.moved {s p : Ring} (h : s.Consistent) (hst : s.Settled p) (e1 : p.e = s.e) (e2 : p.mm = s.mm) (e4 : p.n = s.n)
    (e5 : p.mp = s.mp) (e7 : p.mv = s.mv) : p.Consistent := by
  have hs : p.slotAt = s.slotAt := by funext j; unfold Ring.slotAt; rw [e1, e2, e7]
  have hl : p.lensTo = s.lensTo := by funext j; unfold Ring.lensTo; rw [hs]
  have hm := h.m; have hm' := hst.m
  have hu := hst.u
  have hb : bytesOf (s.unreadMsgs.take (s.m - p.m)) = s.lensTo (s.mp - p.m) - s.lensTo (s.mp - s.m) := by
    rw [h.unread_present]
    have h1 := s.present_bytes (j := s.mp - p.m) (by omega)
    have h2 := s.present_bytes (j := s.mp - s.m) (by omega)
    have h3 := bytesOf_take_add_drop (s.presentMsgs.take (s.mp - p.m)) (s.mp - s.m)
    rw [List.take_take, Nat.min_eq_left (by omega), List.drop_take] at h3
    have e : s.mp - p.m - (s.mp - s.m) = s.m - p.m := by omega
    rw [e] at h3
    omega
  rw [hb, h.u] at hu
  have h1 := s.lensTo_mono (i := s.mp - s.m) (j := s.mp - p.m) (by omega)
  have h2 := s.lensTo_mono (i := s.mp - p.m) (j := s.mp) (by omega)
  obtain ⟨a1, a2, a3, a4, a5, a6, a7, a8, a9⟩ := h
  constructor
  case m => omega
  case r =>
    rw [hst.r, a8, e1, e2, e5, mod_add_mod_left]
    congr 1; omega
  case u => rw [hl, e5]; omega
  all_goals simp only [e1, e2, hst.i, e4, e5, hs, hl]
  all_goals assumption

/-- What is found at the crash points of a commit that starts from `r`. -/
inductive CommitPt (r : Ring) (gq nread : Nat) (P new : List Msg) (p : Ring) : Prop where
  /-- the eldest position is being advanced -/
  | eldest (e q : Nat) : p = { r with e := e, q := q } → CommitPt r gq nread P new p
  /-- messages are being copied -/
  | copying : p.m = r.m → p.u = r.u → p.r = r.r → (p.i = r.i → p.Consistent) → CommitPt r gq nread P new p
  /-- the counts are being updated -/
  | counting : p.u = r.u + bytesOf new → p.m = r.m → p.r = r.r → CommitPt r gq nread P new p

theorem writevCommit_points {r : Ring} {gq nread : Nat} {P new : List Msg} (h : Rep r gq nread P)
    (hl : Legal r.n r.mm new) (hf : Fits r.n r.mm (P.drop nread) new) :
    Ok (writevCommit r.mm new (bytesOf new)) r (CommitPt r gq nread P new) (fun _ r' => r'.Consistent) := by
  obtain ⟨p0, hg⟩ := h.geo
  have hC := hg.toCore
  have nbd := hC.nbd; have mmbd := hC.mmbd; have tot := hC.tot; have cnt := hC.cnt
  have mmpos := hC.mmpos
  rw [SSIZE_MAX_val] at nbd mmbd
  have hu := h.u; have hm := h.m; have hmp := h.mp; have hnr := h.nr
  have hpost := writevCommit_spec h hl hf
  obtain ⟨hnn, hne, hnb, hnm⟩ := hl
  have hdle := bytesOf_drop_le P nread
  obtain ⟨hf1, hf2⟩ := hf
  simp at hf2
  refine ((?_ : Ok (writevCommit r.mm new (bytesOf new)) r (CommitPt r gq nread P new) (fun _ _ => True)).and hpost).mono
    (fun _ h => h.1) (fun _ _ h => h.2.2.2.consistent)
  have hel := eldestLoop_spec (new := new) P gq p0 0 hg (by rw [W_val]; omega)
  have hkn : evictCount r.n r.mm new P ≤ nread := evictCount_le_of_fits ⟨hf1, by simpa using hf2⟩
  have hfit : Fits r.n r.mm (P.drop (evictCount r.n r.mm new P)) new := evictCount_fits hnb hnm P
  clear hpost
  generalize evictCount r.n r.mm new P = k at *
  have hfb := hfit.1; have hfm := hfit.2
  simp at hfm
  unfold writevCommit
  apply Ok.get_bind
  rw [wsub_eq (by omega) (by rw [W_val]; omega), wadd_eq (by rw [W_val]; omega)]
  apply Ok.assert_bind (decide_eq_true (by omega))
  apply Ok.assert_bind (decide_eq_true (by omega))
  apply Ok.assert_bind (decide_eq_true (by omega))
  rw [hmp, h.e]
  refine Ok.lift_bind hel ?_
  refine Ok.store_bind (.eldest _ _ rfl) ?_
  refine Ok.store_bind (.eldest _ _ rfl) ?_
  refine Ok.store_bind (.eldest _ _ rfl) ?_
  apply Ok.get_bind
  dsimp only
  rw [if_neg (by omega)]
  have hgl := Nat.mod_lt (gq + k) mmpos
  rw [wadd_eq (a := (gq + k) % r.mm) (by rw [W_val]; omega), mod_add_mod_left]
  apply Ok.bind
  have hgd : GeoAt { r with e := (gq + k) % r.mm, q := wadd r.q (0 + k), mp := P.length - k }
      (gq + k) _ (P.drop k) := (hg.drop k).congr rfl rfl rfl rfl rfl
  have hcl := copyLoop_spec (iov := new) hgd hne hfb (by simpa using hfm)
  have hpl : (gq + k + (P.length - k)) = gq + k + (P.drop k).length := by simp
  rw [hpl]
  have hcopy : ∀ p, Frame { r with e := (gq + k) % r.mm, q := wadd r.q (0 + k), mp := P.length - k } p →
      Core p (gq + k) ((p0 + bytesOf (P.take k)) % r.n) (P.drop k) → CommitPt r gq nread P new p := by
    intro p hfr hcp
    have pn : p.n = r.n := hfr.n
    have pm : p.m = r.m := by rw [hfr]
    refine .copying pm (by rw [hfr]) (by rw [hfr]) ?_
    intro hi
    have hgp : GeoAt p (gq + k) ((p0 + bytesOf (P.take k)) % r.n) (P.drop k) :=
      ⟨hcp, by rw [hi, pn]; exact hgd.ieq⟩
    have hdd : (P.drop k).drop (nread - k) = P.drop nread := by rw [List.drop_drop]; congr 1; omega
    have pmm : p.mm = r.mm := by rw [hfr]
    refine Rep.consistent (gq := gq + k) (nread := nread - k) (P := P.drop k) ⟨⟨_, hgp⟩, by simp; omega, ?_, ?_, ?_, ?_, ?_, ?_⟩
    · have : p.mp = P.length - k := by rw [hfr]
      rw [this]; simp
    · rw [pm, hm]; simp; omega
    · have : p.u = r.u := by rw [hfr]
      rw [this, hdd, hu]
    · have : p.e = (gq + k) % r.mm := by rw [hfr]
      rw [this, pmm]
    · intro hfm
      have e1 : p.gflags = r.gflags := by rw [hfr]
      have e2 : p.q = wadd r.q (0 + k) := by rw [hfr]
      rw [e2, h.q (by rw [← e1]; exact hfm), wadd_mod, Nat.zero_add]
    · have : p.r = r.r := by rw [hfr]
      rw [this, h.r, pmm]; congr 1; omega
  refine hcl.mono (fun p hp => hcopy p hp.1 hp.2) ?_
  rintro _ p ⟨hgs, hfr⟩
  have pu : p.u = r.u := by rw [hfr]
  have pm : p.m = r.m := by rw [hfr]
  have pr : p.r = r.r := by rw [hfr]
  have hwu : wadd p.u (bytesOf new) = r.u + bytesOf new := by rw [pu, wadd_eq (by rw [W_val]; omega)]
  refine Ok.store_bind (hcopy p hfr hgs.toCore.left) ?_
  refine Ok.store_bind (.counting hwu pm pr) ?_
  exact Ok.store (.counting hwu pm pr) trivial

/-- The condition at the crash points of a call: if the numbers fit to each other, or the messages have
been counted, the ring is consistent. -/
def PointOk (r : Ring) (nodrop : Prop) (p : Ring) : Prop :=
  (r.Settled p → p.Consistent) ∧ (nodrop → p.m ≠ r.m → p.Consistent)

theorem Ring.Consistent.pointOk {r p : Ring} {c : Prop} (h : p.Consistent) : PointOk r c p := ⟨fun _ => h, fun _ _ => h⟩

theorem Ring.Consistent.stat {p : Ring} (h : p.Consistent) (st : Stat) : ({ p with stat := st } : Ring).Consistent :=
  h.congr rfl rfl rfl rfl rfl rfl rfl rfl rfl

theorem writevFinish_points {r r1 : Ring} {c : Prop} (h : r1.Consistent) (len niov : Nat) (env : Env) :
    Ok (writevFinish len niov env) r1 (PointOk r c) (fun _ p => PointOk r c p) := by
  unfold writevFinish
  split
  · exact Ok.pure h.pointOk
  refine Ok.store_bind h.pointOk ?_
  refine Ok.store_bind (h.stat _).pointOk ?_
  apply Ok.get_bind
  have h2 := ((h.stat { r1.stat with bw := wadd r1.stat.bw len }).stat
    { ({ r1.stat with bw := wadd r1.stat.bw len } : Stat) with mw := wadd r1.stat.mw niov }).pointOk (r := r) (c := c)
  split
  · exact Ok.pure h2
  · exact Ok.pure h2

/-- Crash points of one attempt to write. -/
theorem attempt_points {r : Ring} {sp : Spec} (h : RingRel r sp) {new : List Msg} (hl : Legal sp.cap sp.maxm new) (flags : Flags) (env : Env) :
    Ok (writevAttempt flags sp.maxm new (bytesOf new) env) r
      (PointOk r (Fits sp.cap sp.maxm sp.unread new ∨ sp.drop = false))
      (fun _ p => PointOk r (Fits sp.cap sp.maxm sp.unread new ∨ sp.drop = false) p) := by
  obtain ⟨hnn, hne, hnb, hnm⟩ := hl
  have hl' : Legal sp.cap sp.maxm new := ⟨hnn, hne, hnb, hnm⟩
  have hpos := bytesOf_pos hne hnn
  obtain ⟨p0, hg⟩ := h.rep.geo
  have hC := hg.toCore
  have nbd := hC.nbd; have mmbd := hC.mmbd; have tot := hC.tot; have cnt := hC.cnt
  rw [SSIZE_MAX_val] at nbd mmbd
  have hu := h.rep.u; have hm := h.rep.m
  rw [h.unread_eq] at hu
  have hm' : r.m = sp.unread.length := by rw [hm, ← h.unread_eq]; simp
  have hule : bytesOf sp.unread ≤ r.n := by
    rw [← h.unread_eq]; have := bytesOf_drop_le sp.retained (sp.first - sp.base); omega
  have hmle : r.m ≤ r.mm := by omega
  have hn := h.n; have hmm := h.mm
  have hcons := h.consistent
  have h0 : ∀ c, PointOk r c r := fun c => hcons.pointOk
  unfold writevAttempt
  cases hlk : env.lockOk
  · simp only [if_true]; exact Ok.pure (h0 _)
  simp only [Bool.true_eq_false, if_false]
  apply Ok.get_bind
  rw [wsub_eq (a := r.n) (by omega) (by rw [W_val]; omega),
    wsub_eq (a := r.mm) (by omega) (by rw [W_val]; omega)]
  have hiff : (r.n - r.u ≥ bytesOf new ∧ r.mm - r.m ≥ new.length) ↔
      Fits sp.cap sp.maxm sp.unread new := by
    unfold Fits; omega
  by_cases hfit : Fits sp.cap sp.maxm sp.unread new
  · rw [if_pos (hiff.mpr hfit)]
    have hfit' : Fits r.n r.mm (sp.retained.drop (sp.first - sp.base)) new := by
      rw [h.unread_eq, hn, hmm]; exact hfit
    have hcs := writevCommit_points h.rep (by rw [hn, hmm]; exact hl') hfit'
    rw [← hmm]
    apply Ok.bind
    refine hcs.mono ?_ (fun _ _ hc => writevFinish_points hc _ _ _)
    intro p hp
    cases hp with
    | eldest e q hpe =>
      subst hpe
      refine ⟨fun hs => ?_, fun _ hx => absurd rfl hx⟩
      have he := hs.e
      simp only [Nat.sub_self, Nat.add_zero] at he
      rw [Nat.mod_eq_of_lt hcons.e] at he
      exact hcons.congr he rfl rfl rfl rfl rfl rfl rfl rfl
    | copying h1 _ _ h2 => exact ⟨fun hs => h2 hs.i, fun _ hx => absurd h1 hx⟩
    | counting h1 h2 h3 =>
      refine ⟨fun hs => ?_, fun _ hx => absurd h2 hx⟩
      have := hs.u
      rw [h2] at this
      simp only [Nat.sub_self, List.take_zero, bytesOf_nil] at this
      omega
  · rw [if_neg (fun x => hfit (hiff.mp x))]
    by_cases hdr : sp.drop = true
    · have hdr' : r.gflags.has SHR_DROP = true := by rw [h.gf]; exact hdr
      have hno' : ¬ (Fits sp.cap sp.maxm sp.unread new ∨ sp.drop = false) := by
        rintro (x | x)
        · exact hfit x
        · rw [hdr] at x; cases x
      rw [if_pos hdr']
      have hno : ¬ Fits r.n r.mm (sp.retained.drop (sp.first - sp.base)) new := by
        rw [h.unread_eq, hn, hmm]; exact hfit
      have hds := drop_unread_spec h.rep hdr' (by rw [hn]; exact hnb) (by rw [hmm]; exact hnm) hno
        (PointOk r (Fits sp.cap sp.maxm sp.unread new ∨ sp.drop = false)) (fun p hp _ _ => ⟨fun hs => hcons.moved hs
          (by rw [hp]) (by rw [hp]) (by rw [hp]) (by rw [hp]) (by rw [hp]), fun hx => absurd hx hno'⟩)
      rw [h.unread_eq, hn] at hds
      rw [hmm] at hds
      apply Ok.bind
      refine hds.mono (fun _ h => h) ?_
      rintro _ rd rfl
      generalize hk : evictCount sp.cap sp.maxm new sp.unread = k
      generalize hz : bytesOf (sp.unread.take k) = z
      have hkle : k ≤ sp.unread.length := by rw [← hk]; exact evictCount_le_length _ _ _ _
      have hzle : z ≤ bytesOf sp.unread := by
        have := bytesOf_take_add_drop sp.unread k; omega
      have hrepd : Rep (dropped r k z sp.base (sp.first - sp.base)) sp.base (sp.first - sp.base + k)
          sp.retained := by
        refine h.rep.dropped ?_ ?_
        · have : sp.unread.length = sp.retained.length - (sp.first - sp.base) := by
            rw [← h.unread_eq]; simp
          omega
        · rw [h.unread_eq]; exact hz.symm
      have hfitd : Fits sp.cap sp.maxm (sp.retained.drop (sp.first - sp.base + k)) new := by
        rw [← List.drop_drop, h.unread_eq, ← hk]
        exact evictCount_fits hnb hnm _
      have hcs := writevCommit_points hrepd (new := new) (by show Legal r.n r.mm new; rw [hn, hmm]; exact hl')
        (by show Fits r.n r.mm _ _; rw [hn, hmm]; exact hfitd)
      have ednm : (dropped r k z sp.base (sp.first - sp.base)).mm = sp.maxm := hmm
      rw [ednm] at hcs
      apply Ok.bind
      refine hcs.mono ?_ (fun _ _ hc => writevFinish_points hc _ _ _)
      intro p hp
      refine ⟨fun hs => ?_, fun hx => absurd hx hno'⟩
      cases hp with
      | eldest e q hpe =>
        have emp : p.mp = r.mp := by rw [hpe]; rfl
        have he := hs.e
        rw [emp] at he
        simp only [Nat.sub_self, Nat.add_zero] at he
        rw [Nat.mod_eq_of_lt hcons.e] at he
        exact hcons.moved hs he (by rw [hpe]; rfl) (by rw [hpe]; rfl) emp (by rw [hpe]; rfl)
      | copying h1 _ _ h2 => exact h2 (by rw [hs.i]; rfl)
      | counting h1 h2 h3 =>
        exfalso
        have hsu := hs.u
        have e1 : p.m = r.m - k := h2
        have e2 : p.u = r.u - z + bytesOf new := h1
        have e3 : r.m - p.m = k := by omega
        rw [e3, h.unreadMsgs, hz, e2] at hsu
        omega
    · have hdr' : ¬ r.gflags.has SHR_DROP = true := by rw [h.gf]; exact hdr
      rw [if_neg hdr']
      split
      · exact Ok.pure (h0 _)
      · split
        · exact Ok.pure (h0 _)
        · exact Ok.pure (h0 _)

/-! ## Readers -/

/-- A reader changes only the read position, the counts of unread messages and the statistics. -/
def MovedR (r p : Ring) : Prop := p = { r with r := p.r, u := p.u, m := p.m, stat := p.stat }

theorem MovedR.refl (r : Ring) : MovedR r r := rfl
theorem MovedR.trans {a b c : Ring} (h1 : MovedR a b) (h2 : MovedR b c) : MovedR a c := by
  unfold MovedR at *; rw [h2, h1]

/-- A reflexive and transitive relation. -/
class Preo (R : Ring → Ring → Prop) : Prop where
  refl : ∀ r, R r r
  trans : ∀ {a b c}, R a b → R b c → R a c

instance : Preo MovedR := ⟨MovedR.refl, MovedR.trans⟩

/-- The app data stays as it is. -/
def SameApp (r p : Ring) : Prop := p.app = r.app

instance : Preo SameApp := ⟨fun _ => rfl, fun h1 h2 => Eq.trans h2 h1⟩

/-- The write position stays in range. -/
def IKeep (r p : Ring) : Prop := p.n = r.n ∧ (r.i < r.n → p.i < p.n)

instance : Preo IKeep := ⟨fun _ => ⟨rfl, id⟩, fun h1 h2 => ⟨h2.1.trans h1.1, fun h => h2.2 (h1.2 h)⟩⟩

/-- Relations that hold after each of the stores made by writers. -/
class WR (R : Ring → Ring → Prop) : Prop where
  keep : ∀ {r p : Ring}, p.i = r.i → p.n = r.n → p.app = r.app → R r p
  adv : ∀ {r : Ring} {b : Nat}, R r { r with i := wadd r.i b % r.n }

instance : WR SameApp := ⟨fun _ _ h => h, rfl⟩
instance : WR IKeep := ⟨fun h1 h2 _ => ⟨h2, fun h => by rw [h1, h2]; exact h⟩, rfl, fun h => Nat.mod_lt _ (by omega)⟩

/-- All states of the run of `x` are related to the first. -/
def Walk {α : Type} (R : Ring → Ring → Prop) (x : M Ring α) : Prop := ∀ r, (∀ p ∈ (x r).trace, R r p) ∧
  (∀ a s, (x r).res = .ok a s → R r s) ∧ (∀ s, (x r).res = .abort s → R r s)

namespace Walk
variable {α β : Type} {R : Ring → Ring → Prop} [Preo R]

theorem pure {a : α} : Walk R (Pure.pure a : M Ring α) := fun r =>
  ⟨(fun _ h => nomatch h), (fun _ _ h => by cases h; exact Preo.refl _), (fun _ h => nomatch h)⟩

theorem bind {x : M Ring α} {f : α → M Ring β} (h : Walk R x) (hf : ∀ a, Walk R (f a)) : Walk R (x >>= f) := by
  intro r
  obtain ⟨h1, h2, h3⟩ := h r
  rw [M.bind_apply]
  cases e : (x r).res with
  | ok a s =>
    have hs := h2 a s e
    obtain ⟨g1, g2, g3⟩ := hf a s
    refine ⟨?_, fun b t ht => Preo.trans hs (g2 b t ht), fun t ht => Preo.trans hs (g3 t ht)⟩
    intro p hp
    rcases List.mem_append.mp hp with hp | hp
    · exact h1 p hp
    · exact Preo.trans hs (g1 p hp)
  | abort s => exact ⟨h1, (fun _ _ h => nomatch h), (fun t ht => by cases ht; exact h3 _ e)⟩
  | ub => exact ⟨h1, (fun _ _ h => nomatch h), (fun _ h => nomatch h)⟩
  | hang => exact ⟨h1, (fun _ _ h => nomatch h), (fun _ h => nomatch h)⟩

theorem get : Walk R (M.get : M Ring Ring) := fun r =>
  ⟨(fun _ h => nomatch h), (fun _ _ h => by cases h; exact Preo.refl _), (fun _ h => nomatch h)⟩

theorem lift {x : Except Fault α} : Walk R (M.lift x : M Ring α) := by
  intro r
  refine ⟨(fun _ h => nomatch h), ?_, ?_⟩
  · intro a s h; unfold M.lift at h; dsimp only at h; split at h <;> cases h; exact Preo.refl _
  · intro s h; unfold M.lift at h; dsimp only at h; split at h <;> cases h; exact Preo.refl _

theorem assert {b : Bool} : Walk R (M.assert b : M Ring Unit) := by
  intro r
  refine ⟨(fun _ h => nomatch h), ?_, ?_⟩
  · intro a s h; unfold M.assert at h; dsimp only at h; split at h <;> cases h; exact Preo.refl _
  · intro s h; unfold M.assert at h; dsimp only at h; split at h <;> cases h; exact Preo.refl _

theorem store {g : Ring → Ring} (h : ∀ r, R r (g r)) : Walk R (M.store g) := by
  intro r
  refine ⟨?_, (fun _ _ e => by cases e; exact h r), (fun _ h => nomatch h)⟩
  intro p hp
  unfold M.store at hp
  dsimp only at hp
  rw [List.mem_singleton.mp hp]; exact Preo.refl _

theorem ite {c : Prop} [Decidable c] {x y : M Ring α} (h1 : Walk R x) (h2 : Walk R y) : Walk R (if c then x else y) := by
  split
  · exact h1
  · exact h2

theorem memcpyD [WR R] {o : Nat} {b : List Byte} : Walk R (memcpyShared Ring.d (fun d r => { r with d := d }) o b) := by
  intro r
  unfold memcpyShared
  split
  · refine ⟨?_, (fun _ _ e => by cases e; exact WR.keep rfl rfl rfl), (fun _ h => nomatch h)⟩
    intro p hp
    dsimp only at hp
    obtain ⟨j, hj, rfl⟩ := List.mem_map.mp hp
    exact WR.keep rfl rfl rfl
  · exact ⟨(fun _ h => nomatch h), (fun _ _ h => nomatch h), (fun _ h => nomatch h)⟩
end Walk

/-! ### No call but `shr_appdata` changes the app data, and the write position stays in range -/

section
variable {R : Ring → Ring → Prop} [Preo R] [WR R]

theorem copyOne_app (b : Msg) (p : Nat) : Walk R (copyOne b p) := by
  unfold copyOne
  refine .bind .assert fun _ => .bind .get fun r => ?_
  dsimp only
  have tail : ∀ r : Ring, Walk R (if r.n = 0 then do
      let _ ← M.lift (α := Unit) (.error .ub)
      store fun r => { r with i := wadd r.i b.length % r.n }
      let r ← M.get
      Pure.pure (if wadd p 1 = r.mm then 0 else wadd p 1)
    else do
      store fun r => { r with i := wadd r.i b.length % r.n }
      let r ← M.get
      Pure.pure (if wadd p 1 = r.mm then 0 else wadd p 1)) := fun r =>
    .ite (.bind .lift fun _ => .bind (.store fun _ => WR.adv) fun _ => .bind .get fun _ => .pure)
      (.bind (.store fun _ => WR.adv) fun _ => .bind .get fun _ => .pure)
  refine .ite ?_ (.bind .lift fun _ => ?_) <;>
  · refine .bind (.store fun _ => WR.keep rfl rfl rfl) fun _ => .bind (.store fun _ => WR.keep rfl rfl rfl) fun _ => .bind .get fun r => ?_
    refine .ite ?_ (.bind .lift fun _ => ?_) <;>
    exact .bind .memcpyD fun _ => .ite (.bind .memcpyD fun _ => tail r) (tail r)

theorem copyLoop_app : ∀ (bs : List Msg) (p : Nat), Walk R (copyLoop bs p)
  | [], _ => .pure
  | b :: bs, p => .bind (copyOne_app b p) fun p' => copyLoop_app bs p'

theorem writevCommit_app (smm : Nat) (iov : List Msg) (len : Nat) : Walk R (writevCommit smm iov len) := by
  unfold writevCommit
  refine .bind .get fun r => .bind .assert fun _ => .bind .assert fun _ => .bind .assert fun _ => .bind .lift fun x => ?_
  refine .bind (.store fun _ => WR.keep rfl rfl rfl) fun _ => .bind (.store fun _ => WR.keep rfl rfl rfl) fun _ => .bind (.store fun _ => WR.keep rfl rfl rfl) fun _ => .bind .get fun r => ?_
  have tail : Walk R (do
      copyLoop iov (wadd r.e r.mp % r.mm)
      store fun r => { r with u := wadd r.u len }
      store fun r => { r with mp := wadd r.mp iov.length }
      store fun r => { r with m := wadd r.m iov.length }) :=
    .bind (copyLoop_app _ _) fun _ => .bind (.store fun _ => WR.keep rfl rfl rfl) fun _ => .bind (.store fun _ => WR.keep rfl rfl rfl) fun _ => .store fun _ => WR.keep rfl rfl rfl
  exact .ite (.bind .lift fun _ => tail) tail

theorem drop_unread_app (smm need niov : Nat) : Walk R (drop_unread smm need niov) := by
  unfold drop_unread
  refine .bind .get fun r => .bind .assert fun _ => .bind .assert fun _ => .bind .assert fun _ => .bind .assert fun _ =>
    .bind .assert fun _ => .bind .lift fun x => ?_
  refine .bind (.store fun _ => WR.keep rfl rfl rfl) fun _ => .bind (.store fun _ => WR.keep rfl rfl rfl) fun _ => .bind (.store fun _ => WR.keep rfl rfl rfl) fun _ =>
    .bind (.store fun _ => WR.keep rfl rfl rfl) fun _ => .bind (.store fun _ => WR.keep rfl rfl rfl) fun _ => .bind .get fun r => .bind .assert fun _ => .assert

theorem writevAttempt_app (flags : Flags) (smm : Nat) (iov : List Msg) (len : Nat) (env : Env) :
    Walk R (writevAttempt flags smm iov len env) := by
  have fin : Walk R (writevFinish len iov.length env) := by
    unfold writevFinish
    exact .ite .pure (.bind (.store fun _ => WR.keep rfl rfl rfl) fun _ => .bind (.store fun _ => WR.keep rfl rfl rfl) fun _ => .bind .get fun _ => .ite .pure .pure)
  unfold writevAttempt
  refine .ite .pure (.bind .get fun r => .ite (.bind (writevCommit_app _ _ _) fun _ => fin)
    (.ite (.bind (drop_unread_app _ _ _) fun _ => .bind (writevCommit_app _ _ _) fun _ => fin) (.ite .pure ?_)))
  split
  · exact .pure
  · exact .pure

theorem flushCache_app (h : Handle) (env : Env) : Walk R (flushCache h env) := by
  unfold flushCache writevDirect
  refine .bind .lift fun msgs => .bind .assert fun _ => ?_
  split
  · exact .pure
  · exact writevAttempt_app _ _ _ _ _

theorem cacheLoop_app (iov : List Msg) (len : Nat) (envF : Env) : ∀ (fuel : Nat) (h : Handle), Walk R (cacheLoop iov len envF fuel h) := by
  intro fuel
  induction fuel with
  | zero => intro h; exact .lift
  | succ n ih =>
    intro h
    unfold cacheLoop
    refine .ite .pure (.ite (.bind .lift fun _ => .pure) (.ite .pure (.bind (flushCache_app _ _) fun out => ?_)))
    split
    · exact .pure
    · exact .ite .pure (ih _)

theorem shr_writev_app (h : Handle) (iov : List Msg) (envF env : Env) : Walk R (shr_writev h iov envF env) := by
  unfold shr_writev
  refine .bind .assert fun _ => ?_
  split
  · exact .pure
  · refine .bind (cacheLoop_app _ _ _ _ _) fun x => ?_
    split
    · exact .pure
    · exact .bind (writevAttempt_app _ _ _ _ _) fun _ => .pure

theorem shr_flush_app (h : Handle) (wait : Bool) (env : Env) : Walk R (shr_flush h wait env) := by
  unfold shr_flush
  refine .bind .assert fun _ => .ite .pure ?_
  dsimp only
  refine .ite .pure (.bind (flushCache_app _ _) fun _ => .pure)

theorem shr_close_app (h : Handle) (env : Env) : Walk R (shr_close h env) := by
  unfold shr_close
  exact .ite (.bind (shr_flush_app _ _ _) fun _ => .pure) .pure

end

theorem readOne_mv (st : RdSt) (mi : MsgInfo) : Walk MovedR (readOne st mi) := by
  unfold readOne
  refine .bind .get fun r => .bind .lift fun b1 => .bind .lift fun buf1 => ?_
  dsimp only
  split
  · refine .bind .lift fun b2 => .bind .lift fun buf2 => ?_
    refine .ite .pure (.ite .lift ?_)
    exact .bind (.store fun _ => rfl) fun _ => .bind (.store fun _ => rfl) fun _ => .bind (.store fun _ => rfl) fun _ => .pure
  · refine .bind .pure fun buf2 => ?_
    refine .ite .pure (.ite .lift ?_)
    exact .bind (.store fun _ => rfl) fun _ => .bind (.store fun _ => rfl) fun _ => .bind (.store fun _ => rfl) fun _ => .pure

theorem readLoop_mv : ∀ (niov : Nat) (st : RdSt) (mi : MsgInfo), Walk MovedR (readLoop niov st mi) := by
  intro niov
  induction niov with
  | zero => intro st mi; unfold readLoop; exact .pure
  | succ n ih =>
    intro st mi
    unfold readLoop
    refine .ite .pure (.bind (readOne_mv st mi) fun st' => .bind .get fun r => .bind .lift fun x => ?_)
    split
    · exact .pure
    · exact ih _ _

theorem shr_readv_mv (h : Handle) (buf : List Byte) (len niov : Nat) (env : Env) : Walk MovedR (shr_readv h buf len niov env) := by
  unfold shr_readv readvAttempt
  refine .bind ?_ fun x => ?_
  · refine .bind .assert fun _ => .ite .pure (.ite .pure ?_)
    dsimp only
    refine .ite .pure (.bind .get fun r => .bind .lift fun x => ?_)
    split
    · unfold readvBody
      refine .bind (readLoop_mv _ _ _) fun x => ?_
      refine .bind (.store fun _ => rfl) fun _ => .bind (.store fun _ => rfl) fun _ => ?_
      exact .bind .assert fun _ => .pure
    · refine .bind .assert fun _ => .ite .pure ?_
      split <;> exact .pure
  · exact .pure

theorem Walk.points {α : Type} {R : Ring → Ring → Prop} {x : M Ring α} (h : Walk R x) {r p : Ring} (hp : p ∈ (x r).points) : R r p := by
  obtain ⟨h1, h2, h3⟩ := h r
  generalize (x r) = y at *
  obtain ⟨tr, res⟩ := y
  unfold Run.points at hp
  rcases List.mem_append.mp hp with hp | hp
  · exact h1 p hp
  · unfold Run.final at hp
    cases res with
    | ok a s => simp at hp; subst hp; exact h2 a _ rfl
    | abort s => simp at hp; try (subst hp; exact h3 _ rfl)
    | ub => simp at hp
    | hang => simp at hp

/-! ## Whole calls -/

theorem attemptH_points {r : Ring} {sp : Spec} {h : Handle} {sh : SHandle} (hr : RingRel r sp) (hh : HRel sp h sh) {iov : List Msg}
    (hL : Legal sp.cap sp.maxm iov) (env : Env) :
    Ok (do let out ← writevAttempt h.flags h.mm iov (bytesOf iov) env; pure (h, out)) r
      (PointOk r (Fits sp.cap sp.maxm sp.unread iov ∨ sp.drop = false))
      (fun _ p => PointOk r (Fits sp.cap sp.maxm sp.unread iov ∨ sp.drop = false) p) := by
  apply Ok.bind
  rw [hh.mm]
  exact (attempt_points hr hL h.flags env).mono (fun _ h => h) (fun _ _ h => Ok.pure h)

/-- Points of a write when nothing is cached. -/
theorem shr_writev_points {r : Ring} {sp : Spec} (hr : RingRel r sp) {h : Handle} {sh : SHandle}
    (hh : HRel sp h sh) (hw : sh.flags.has SHR_WRONLY = true) {iov : List Msg} (hwf : WriteWF iov)
    (envF env : Env) (hp : sh.pend = []) :
    Ok (shr_writev h iov envF env) r (PointOk r (Fits sp.cap sp.maxm sp.unread iov ∨ sp.drop = false))
      (fun _ p => PointOk r (Fits sp.cap sp.maxm sp.unread iov ∨ sp.drop = false) p) := by
  have hfl := hh.flags
  have hw' : h.flags.has SHR_WRONLY = true := by rw [hfl]; exact hw
  have h0 : PointOk r (Fits sp.cap sp.maxm sp.unread iov ∨ sp.drop = false) r := hr.consistent.pointOk
  unfold shr_writev
  apply Ok.assert_bind hw'
  rw [hh.n, hh.mm, lenCheck_wf hr.cap_le hwf]
  by_cases hL : Legal sp.cap sp.maxm iov
  case neg => rw [if_neg hL]; exact Ok.pure h0
  rw [if_pos hL]
  dsimp only
  apply Ok.bind
  have direct := attemptH_points hr hh hL env
  unfold cacheLoop
  by_cases hb : sh.flags.has SHR_BUFFERED = false
  · rw [if_pos (by rw [hfl]; exact hb)]
    apply Ok.pure
    exact direct
  rw [if_neg (by rw [hfl]; exact hb)]
  by_cases hf : Spec.cacheFits sh iov
  · rw [if_pos ((cacheFits_iff hh iov).mpr hf)]
    obtain ⟨c', e', hh'⟩ := hh.cacheAll hL.2.1 hf
    refine Ok.lift_bind e' ?_
    apply Ok.pure
    exact Ok.pure h0
  rw [if_neg (fun x => hf ((cacheFits_iff hh iov).mp x))]
  rw [if_pos (hh.cache.n_zero.mpr hp)]
  apply Ok.pure
  exact direct

theorem flushCache_points {r : Ring} {sp : Spec} (hr : RingRel r sp) {h : Handle} {sh : SHandle}
    (hn : h.n = sp.cap) (hmm : h.mm = sp.maxm) (hc : CRel h.c sh.pend sh.csz sh.cvt)
    (hw : h.flags.getLsbD 14 = true) (hp : Legal sp.cap sp.maxm sh.pend) (hcs : sh.csz ≤ sp.cap) (env : Env) :
    Ok (flushCache h env) r (PointOk r (Fits sp.cap sp.maxm sp.unread sh.pend ∨ sp.drop = false))
      (fun _ p => PointOk r (Fits sp.cap sp.maxm sp.unread sh.pend ∨ sp.drop = false) p) := by
  unfold flushCache
  refine Ok.lift_bind hc.read ?_
  unfold writevDirect
  have hw' : (h.flags.clear SHR_BUFFERED).has SHR_WRONLY = true := by
    rw [has_WRONLY, clear_BUFFERED _ _ (by decide), hw]; rfl
  apply Ok.assert_bind hw'
  have hbd := pend_bd hc (by have := hr.cap_le; omega)
  rw [hn, hmm, lenCheck_spec hr.cap_le (fun b hb => ⟨hp.2.1 b hb, hbd b hb⟩), if_pos hp]
  dsimp only
  exact attempt_points hr hp (h.flags.clear SHR_BUFFERED) env

/-- Points of a flush. -/
theorem shr_flush_points {r : Ring} {sp : Spec} (hr : RingRel r sp) {h : Handle} {sh : SHandle}
    (hh : HRel sp h sh) (hw : sh.flags.has SHR_WRONLY = true) (wait : Bool) (env : Env) :
    Ok (shr_flush h wait env) r (PointOk r (Fits sp.cap sp.maxm sp.unread sh.pend ∨ sp.drop = false))
      (fun _ p => PointOk r (Fits sp.cap sp.maxm sp.unread sh.pend ∨ sp.drop = false) p) := by
  have h0 : PointOk r (Fits sp.cap sp.maxm sp.unread sh.pend ∨ sp.drop = false) r := hr.consistent.pointOk
  obtain ⟨fl, cur, c, n, mm, r2w⟩ := h
  have hfl : fl = sh.flags := hh.flags
  subst hfl
  unfold shr_flush
  apply Ok.assert_bind hw
  by_cases hp : sh.pend = []
  · rw [if_pos (hh.cache.n_zero.mpr hp)]
    exact Ok.pure h0
  rw [if_neg (fun x => hp (hh.cache.n_zero.mp x))]
  have hfb := hh.buffered hp
  have hpl := hh.pend_legal hp
  have fl : ∀ f : Flags, ∀ b, f.getLsbD 14 = true → Ok (flushCache ⟨f, cur, c, n, mm, b⟩ env) r
      (PointOk r (Fits sp.cap sp.maxm sp.unread sh.pend ∨ sp.drop = false))
      (fun _ p => PointOk r (Fits sp.cap sp.maxm sp.unread sh.pend ∨ sp.drop = false) p) := fun f b hf =>
    flushCache_points (h := ⟨f, cur, c, n, mm, b⟩) hr hh.n hh.mm hh.cache hf hpl hh.csz env
  cases ht : (sh.flags.has SHR_NONBLOCK && wait)
  · simp only [Bool.false_eq_true, false_and, if_false]
    apply Ok.bind
    refine (fl _ _ hfb.2).mono (fun _ h => h) ?_
    rintro o r1 h1
    exact Ok.pure h1
  · simp only [if_true, true_and]
    by_cases hbad : r2w = false ∧ (env.lockOk = false ∨ env.bwOpenOk = false)
    · rw [if_pos hbad]
      exact Ok.pure h0
    · rw [if_neg hbad]
      apply Ok.bind
      refine (fl _ _ (by rw [clear_NONBLOCK _ _ (by decide), hfb.2]; rfl)).mono (fun _ h => h) ?_
      rintro o r1 h1
      exact Ok.pure h1

/-- Points of a close. -/
theorem shr_close_points {r : Ring} {sp : Spec} (hr : RingRel r sp) {h : Handle} {sh : SHandle} (hh : HRel sp h sh) (env : Env) :
    Ok (shr_close h env) r (PointOk r (Fits sp.cap sp.maxm sp.unread sh.pend ∨ sp.drop = false))
      (fun _ p => PointOk r (Fits sp.cap sp.maxm sp.unread sh.pend ∨ sp.drop = false) p) := by
  unfold shr_close
  by_cases hp : sh.pend = []
  · rw [if_neg (by simp [hh.cache.n_zero.mpr hp])]
    exact Ok.pure hr.consistent.pointOk
  · rw [if_pos (fun x => hp (hh.cache.n_zero.mp x))]
    apply Ok.bind
    have hfb := hh.buffered hp
    refine (shr_flush_points hr hh (by rw [has_WRONLY]; exact hfb.2) false env).mono (fun _ h => h) ?_
    rintro x r' h1
    exact Ok.pure h1

end Shr
