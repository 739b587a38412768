import Verif.Proof.FarmWrite
import Verif.Proof.At
import Verif.Proof.Power
/-! # Farm rings whose users are killed: one call, one death -/
namespace Shr
open M

theorem Chain.head {T : Ring → Ring → Prop} {r s : Ring} {l : List Ring} (h : Chain T r l s) : (l ++ [s])[0]? = some r := by
  cases h <;> simp

theorem Chain.adj {T : Ring → Ring → Prop} {r s : Ring} {l : List Ring} (h : Chain T r l s) : ∀ {j : Nat} {p : Ring}, (l ++ [s])[j + 1]? = some p →
    ∃ q, (l ++ [s])[j]? = some q ∧ T q p := by
  induction h with
  | nil r => intro j p e; simp at e
  | @cons r r' s l ht hc ih =>
    intro j p e
    simp only [List.cons_append, List.getElem?_cons_succ] at e
    cases j with
    | zero =>
      rw [hc.head] at e
      cases e
      exact ⟨r, by simp, ht⟩
    | succ j =>
      obtain ⟨q, h1, h2⟩ := ih e
      exact ⟨q, by simpa using h1, h2⟩

/-- Points of a call. -/
theorem Pc.points {α : Type} {x : M Ring α} {r : Ring} {T : Ring → Ring → Prop} {Q : α → Ring → Prop} (h : Pc x r T Q) :
    (∀ p, (x r).points[0]? = some p → p = r) ∧
    ∀ j p, (x r).points[j + 1]? = some p → ∃ q, (x r).points[j]? = some q ∧ T q p := by
  obtain ⟨_, r', hc, h1, h2⟩ := h
  have key : (x r).points <+: (x r).trace ++ [r'] := by
    clear hc
    revert h1 h2
    generalize x r = y
    intro h1 h2
    obtain ⟨t, res⟩ := y
    cases res with
    | ok a s => simp [Run.points, Run.final, (h1 a s rfl).1]
    | abort s => simp [Run.points, Run.final, h2 s rfl]
    | ub => simp [Run.points, Run.final]
    | hang => simp [Run.points, Run.final]
  obtain ⟨t, ht⟩ := key
  have up : ∀ {j : Nat} {p : Ring}, (x r).points[j]? = some p → ((x r).trace ++ [r'])[j]? = some p := fun {j p} e => by
    rw [← ht, List.getElem?_append_left (getElem?_lt e)]; exact e
  refine ⟨fun p e => ?_, fun j p e => ?_⟩
  · have := up e
    rw [hc.head] at this
    cases this; rfl
  · obtain ⟨q, h3, h4⟩ := hc.adj (up e)
    refine ⟨q, ?_, h4⟩
    rw [← ht, List.getElem?_append_left (by have := getElem?_lt e; omega)] at h3
    exact h3

/-- The ring and its users are as the specification says. -/
structure Shows (a : InitArgs) (s : Sys) (sp : Spec) : Prop where
  cap : sp.cap = a.dataSz
  maxm : sp.maxm = a.max_msgs
  gf : sp.gflags = a.gflags
  ring : FarmR sp.cap sp.maxm s.ring sp.log sp.base
  rgf : s.ring.gflags = sp.gflags
  al : s.ring.app_len = a.appsize
  hs : ∀ k, LRel sp (s.hs k) (sp.hs k)

theorem Shows.farm {a : InitArgs} {s : Sys} {sp : Spec} (h : Shows a s sp) : sp.farm = true := by
  unfold Spec.farm; rw [← h.rgf]; exact h.ring.farm

theorem Shows.live {a : InitArgs} {s : Sys} {sp : Spec} (h : Shows a s sp) {k : Nat} {hd : Handle} (hk : s.hs k = .live hd) :
    ∃ sh, sp.hs k = .live sh ∧ HRel sp hd sh := by
  have := h.hs k
  rw [hk] at this
  cases h2 : sp.hs k with
  | live sh => rw [h2] at this; exact ⟨sh, rfl, this⟩
  | never => rw [h2] at this; exact this.elim
  | gone _ => rw [h2] at this; exact this.elim

theorem Shows.dead {a : InitArgs} {s : Sys} {sp : Spec} (h : Shows a s sp) {k : Nat} (hk : ∀ hd, s.hs k ≠ .live hd) : ∀ sh, sp.hs k ≠ .live sh := by
  intro sh e
  have := h.hs k
  rw [e] at this
  cases h2 : s.hs k with
  | live hd => exact hk hd h2
  | never => rw [h2] at this; exact this.elim
  | gone _ => rw [h2] at this; exact this.elim

/-- The specification after `X` was put into the ring by `k`. -/
def Spec.grow (sp : Spec) (k : Nat) (X : List Msg) (base : Nat) (hs : Nat → Life SHandle (List Msg)) : Spec :=
  { sp with tlog := sp.tlog ++ X.map (fun m => (k, m)), base := base, hs := hs }

theorem grow_log (sp : Spec) (k : Nat) (X : List Msg) (base : Nat) (hs : Nat → Life SHandle (List Msg)) : (sp.grow k X base hs).log = sp.log ++ X := by
  unfold Spec.grow Spec.log
  simp [List.map_map, Function.comp_def]

theorem grow_grows (sp : Spec) (k : Nat) (X : List Msg) (base : Nat) (hs : Nat → Life SHandle (List Msg)) : Grows sp (sp.grow k X base hs) X :=
  ⟨rfl, rfl, rfl, grow_log ..⟩

theorem grow_le (sp : Spec) (k : Nat) (X : List Msg) (base : Nat) (hs : Nat → Life SHandle (List Msg)) : SpLe sp (sp.grow k X base hs) :=
  ⟨rfl, rfl, rfl, by rw [grow_log]; simp⟩

theorem Grows.refl (sp : Spec) : Grows sp sp [] := ⟨rfl, rfl, rfl, by simp⟩

theorem Grows.hs (sp : Spec) (hs : Nat → Life SHandle (List Msg)) : Grows sp { sp with hs := hs } [] := ⟨rfl, rfl, rfl, by simp [Spec.log]⟩

theorem Grows.le {sp sp' : Spec} {X : List Msg} (h : Grows sp sp' X) : SpLe sp sp' := ⟨h.cap, h.maxm, h.gf, by rw [h.log]; simp⟩

/-- Put together: the ring after a call or a death, and the table of handles. -/
theorem Shows.next {a : InitArgs} {s s' : Sys} {sp sp' : Spec} (h : Shows a s sp) {X : List Msg} (hg : Grows sp sp' X)
    (hr : FarmR sp.cap sp.maxm s'.ring (sp.log ++ X) sp'.base) (hp : s'.ring.gflags = s.ring.gflags ∧ s'.ring.app_len = s.ring.app_len)
    (hh : ∀ k, LRel sp' (s'.hs k) (sp'.hs k)) : Shows a s' sp' :=
  ⟨by rw [hg.cap, h.cap], by rw [hg.maxm, h.maxm], by rw [hg.gf, h.gf], by rw [hg.log, hg.cap, hg.maxm]; exact hr, by rw [hp.1, h.rgf, hg.gf],
    by rw [hp.2, h.al], hh⟩

theorem Shows.typed {a : InitArgs} {s : Sys} {sp : Spec} (h : Shows a s sp) : Typed s.ring := h.ring.typed

theorem HRel.buf_lt {sp : Spec} {h : Handle} {sh : SHandle} (hh : HRel sp h sh) : h.c.buf.length < W := by
  rw [hh.cache.blen]; exact hh.cache.szw

/-- No call changes the mode and the length of the app data. -/
theorem Shows.params {a : InitArgs} {s : Sys} {sp : Spec} (h : Shows a s sp) {op : Op} (hw : op.WF a.appsize) {p : Ring} (hp : p ∈ s.points op) :
    p.gflags = s.ring.gflags ∧ p.app_len = s.ring.app_len := by
  have hc : ∀ hd, s.hs op.handle = .live hd → hd.c.buf.length < W := fun hd hk => by
    obtain ⟨sh, _, hh⟩ := h.live hk
    exact hh.buf_lt
  have steps : op.Small → p.gflags = s.ring.gflags ∧ p.app_len = s.ring.app_len := fun hs => by
    have := (points_steps hs hc h.typed p hp).params
    exact ⟨this.1, this.2.2.2.1⟩
  cases op with
  | writev k iov e1 e2 => exact steps fun b hb => by have := hw.1 b hb; rw [SSIZE_MAX_val] at this; rw [W_val]; omega
  | stat k reset env =>
    unfold Sys.points at hp
    dsimp only at hp
    split at hp
    · rcases (shr_stat_crash _ reset env s.ring).points (fun _ _ h => h) p hp with rfl | ⟨t, rfl⟩ <;> exact ⟨rfl, rfl⟩
    · rw [List.mem_singleton.mp hp]; exact ⟨rfl, rfl⟩
  | «open» k flags env => exact steps trivial
  | readv k buf niov env => exact steps trivial
  | flush k wait env => exact steps trivial
  | close k env => exact steps trivial
  | farmStat k reset => exact steps trivial
  | appdata k get set sz env => exact steps trivial

theorem FarmR.of_stat {N K : Nat} {r s : Ring} {L : List Msg} {g : Nat} (h : FarmR N K r L g) (hs : s = { r with stat := s.stat }) : FarmR N K s L g := by
  rw [hs]
  exact h.congr rfl h.r

theorem FarmR.of_app {N K : Nat} {r p : Ring} {L : List Msg} {g : Nat} (h : FarmR N K r L g) (hp : AppPt r p) : FarmR N K p L g := by
  rcases hp with rfl | ⟨b, hb, rfl⟩
  · exact h
  · obtain ⟨⟨O, E, hg⟩, t, h2, h3, h4, h5, h6, h7, h8, h9⟩ := h
    exact ⟨⟨O, E, hg.congr rfl rfl rfl rfl rfl⟩, ⟨t.i, t.r, t.e, t.mp, t.d, by dsimp only; rw [hb]; exact t.app⟩, h2, h3, h4, h5, h6, h7, h8, h9⟩

theorem Pc.ret {α : Type} {x : M Ring α} {r s : Ring} {T : Ring → Ring → Prop} {Q : α → Ring → Prop} {a : α} (h : Pc x r T Q) (he : exec x r = .ok (a, s)) : Q a s := by
  obtain ⟨_, r', _, h1, _⟩ := h
  exact (h1 a s (exec_ok.mp he)).2

theorem Ok.ret {α : Type} {x : M Ring α} {r s : Ring} {T : Ring → Prop} {Q : α → Ring → Prop} {a : α} (h : Ok x r T Q) (he : exec x r = .ok (a, s)) : Q a s := by
  obtain ⟨a', r', h1, h2⟩ := h.exec_eq
  rw [he] at h1
  cases h1
  exact h2

theorem shr_farm_stat_ok {h : Handle} (hf : h.flags.has SHR_RDONLY = true) (reset : Bool) (r : Ring) :
    Ok (shr_farm_stat h reset) r (· = r) (fun x s => s = r ∧ x = (if reset then { h with cur := { h.cur with md := 0 } } else h, h.cur.md)) := by
  unfold shr_farm_stat
  exact Ok.assert_bind hf (Ok.pure ⟨rfl, rfl⟩)

theorem Shows.frozen {a : InitArgs} {s : Sys} {sp : Spec} (h : Shows a s sp) : FarmR sp.cap sp.maxm s.ring (sp.log ++ []) sp.base := by
  rw [List.append_nil]; exact h.ring

/-- One call that completes. -/
theorem Shows.step {a : InitArgs} {s s' : Sys} {sp : Spec} (h : Shows a s sp) {op : Op} {o : Out} (hw : op.WF a.appsize)
    (hl : sp.log.length + 2 * sp.maxm < W) (hs : s.step op = .ok (s', o)) :
    ∃ sp', FarmCall sp op o sp' ∧ Shows a s' sp' ∧ sp'.log.length ≤ sp.log.length + 2 * sp.maxm := by
  have hpar := h.params hw (step_points hs)
  have nolive : ∀ k, (∀ hd, s.hs k ≠ .live hd) → ∀ sh, sp.hs k ≠ .live sh := fun k hk => h.dead hk
  cases op with
  | «open» k flags env =>
    unfold Sys.step at hs
    dsimp only at hs
    have hk := h.hs k
    cases e : s.hs k with
    | never =>
      rw [e] at hs hk
      dsimp only at hs
      cases e2 : sp.hs k with
      | live sh => rw [e2] at hk; exact hk.elim
      | gone l => rw [e2] at hk; exact hk.elim
      | never =>
        by_cases hv : validate_flags flags = false
        · rw [if_pos hv] at hs
          cases hs
          exact ⟨sp, ⟨.refl sp, rfl, by simp [Spec.step, e2, hv], by simp [Spec.step, e2, hv]⟩, h, by omega⟩
        · rw [if_neg hv] at hs
          obtain ⟨O, E, hg⟩ := h.ring.geo
          rcases openLocked_facts h.rgf h.ring.n h.ring.mm (by rw [← h.ring.n]; exact hg.nbd) (by rw [← h.ring.mm]; exact hg.mmbd) (fun _ => h.ring.q)
            h.ring.gle flags env hw with ⟨e3, e4⟩ | ⟨hd, sh, e3, e4, hh⟩
          · rw [e3] at hs
            cases hs
            exact ⟨sp, ⟨.refl sp, rfl, by simp [Spec.step, e2, hv, e4], by simp [Spec.step, e2, hv, e4]⟩, h, by omega⟩
          · rw [e3] at hs
            cases hs
            have hg := Grows.hs sp (upd sp.hs k (.live sh))
            refine ⟨_, ⟨hg, rfl, by simp [Spec.step, e2, hv, e4], by simp [Spec.step, e2, hv, e4]⟩, h.next hg h.frozen hpar ?_, by rw [hg.log]; simp⟩
            exact lrel_upd h.hs hg.le k (hh.mono hg.le)
    | live hd =>
      rw [e] at hs hk
      cases hs
      cases e2 : sp.hs k with
      | never => rw [e2] at hk; exact hk.elim
      | _ => exact ⟨sp, ⟨.refl sp, rfl, by simp [Spec.step, e2], by simp [Spec.step, e2]⟩, h, by omega⟩
    | gone u =>
      rw [e] at hs hk
      cases hs
      cases e2 : sp.hs k with
      | never => rw [e2] at hk; exact hk.elim
      | _ => exact ⟨sp, ⟨.refl sp, rfl, by simp [Spec.step, e2], by simp [Spec.step, e2]⟩, h, by omega⟩
  | writev k iov envF env =>
    unfold Sys.step at hs
    dsimp only at hs
    cases e : s.hs k with
    | live hd =>
      rw [e] at hs
      dsimp only at hs
      obtain ⟨sh, e2, hh⟩ := h.live e
      by_cases hf : hd.flags.has SHR_WRONLY = false
      · rw [if_pos hf] at hs
        cases hs
        exact ⟨sp, by simp only [FarmCall, e2]; rw [if_pos (by rw [← hh.flags]; exact hf)]; exact ⟨trivial, .refl sp, trivial, trivial⟩, h, by omega⟩
      · rw [if_neg hf] at hs
        cases e3 : exec (shr_writev hd iov envF env) s.ring with
        | error f => rw [e3] at hs; cases hs
        | ok v =>
          obtain ⟨⟨h', o'⟩, r'⟩ := v
          rw [e3] at hs
          cases hs
          obtain ⟨X, pend, g', h1, h2, h3, h4⟩ := (shr_writev_farm h.ring hh hw hl envF env).ret e3
          have hg := grow_grows sp k X g' (upd sp.hs k (.live { sh with pend := pend }))
          refine ⟨_, by simp only [FarmCall, e2]; rw [if_neg (by rw [← hh.flags]; exact hf)]; exact ⟨X, pend, hg, h3, rfl⟩, h.next hg h1 hpar ?_,
            by rw [hg.log, List.length_append]; omega⟩
          exact lrel_upd h.hs hg.le k (h2.mono hg.le)
    | _ =>
      rw [e] at hs
      cases hs
      have hn := nolive k (by rw [e]; exact fun _ => by simp)
      refine ⟨sp, ?_, h, by omega⟩
      unfold FarmCall; dsimp only
      split
      · exact absurd ‹_› (hn _)
      · exact ⟨rfl, .refl sp, rfl, rfl⟩
  | readv k buf niov env =>
    unfold Sys.step at hs
    dsimp only at hs
    cases e : s.hs k with
    | live hd =>
      rw [e] at hs
      dsimp only at hs
      obtain ⟨sh, e2, hh⟩ := h.live e
      by_cases hf : hd.flags.has SHR_RDONLY = false
      · rw [if_pos hf] at hs
        cases hs
        have hf' : sh.flags.has SHR_RDONLY = false := by rw [← hh.flags]; exact hf
        exact ⟨sp, ⟨.refl sp, rfl, by simp [Spec.step, e2, hf'], by simp [Spec.step, e2, hf']⟩, h, by omega⟩
      · rw [if_neg hf] at hs
        have hf' : ¬ sh.flags.has SHR_RDONLY = false := by rw [← hh.flags]; exact hf
        cases e3 : exec (shr_readv hd buf buf.length niov env) s.ring with
        | error f => rw [e3] at hs; cases hs
        | ok v =>
          obtain ⟨⟨h', o'⟩, r'⟩ := v
          rw [e3] at hs
          cases hs
          obtain ⟨h1, h2, h3⟩ := (shr_readv_farm h.ring h.farm hh (by simpa using hf') buf hw niov env).ret e3
          have hg := Grows.hs sp (upd sp.hs k (.live (sp.readv sh buf niov env).2.1))
          refine ⟨_, ⟨hg, rfl, ?_, ?_⟩, h.next hg (by rw [List.append_nil]; exact h.ring.of_stat h1) hpar ?_, by rw [hg.log]; simp⟩
          · simp only [Spec.step, e2]; rw [if_neg hf']; exact h2
          · simp only [Spec.step, e2]; rw [if_neg hf']
          · exact lrel_upd h.hs hg.le k (h3.mono hg.le)
    | _ =>
      rw [e] at hs
      cases hs
      have hn := nolive k (by rw [e]; exact fun _ => by simp)
      refine ⟨sp, ⟨.refl sp, rfl, ?_, ?_⟩, h, by omega⟩ <;>
      · unfold Spec.step
        dsimp only
        split
        · exact absurd ‹_› (hn _)
        · rfl
  | flush k wait env =>
    unfold Sys.step at hs
    dsimp only at hs
    cases e : s.hs k with
    | live hd =>
      rw [e] at hs
      dsimp only at hs
      obtain ⟨sh, e2, hh⟩ := h.live e
      by_cases hf : hd.flags.has SHR_WRONLY = false
      · rw [if_pos hf] at hs
        cases hs
        exact ⟨sp, by simp only [FarmCall, e2]; rw [if_pos (by rw [← hh.flags]; exact hf)]; exact ⟨trivial, .refl sp, trivial, trivial⟩, h, by omega⟩
      · rw [if_neg hf] at hs
        cases e3 : exec (shr_flush hd wait env) s.ring with
        | error f => rw [e3] at hs; cases hs
        | ok v =>
          obtain ⟨⟨h', o'⟩, r'⟩ := v
          rw [e3] at hs
          cases hs
          obtain ⟨X, pend, g', c, h1, h2, h3, h4⟩ := (shr_flush_farm h.ring hh hl wait env).ret e3
          have hg := grow_grows sp k X g' (upd sp.hs k (.live { sh with pend := pend, canWait := c }))
          refine ⟨_, by simp only [FarmCall, e2]; rw [if_neg (by rw [← hh.flags]; exact hf)]; exact ⟨X, pend, c, hg, h3, rfl⟩, h.next hg h1 hpar ?_,
            by rw [hg.log, List.length_append]; omega⟩
          exact lrel_upd h.hs hg.le k (h2.mono hg.le)
    | _ =>
      rw [e] at hs
      cases hs
      have hn := nolive k (by rw [e]; exact fun _ => by simp)
      refine ⟨sp, ?_, h, by omega⟩
      unfold FarmCall; dsimp only
      split
      · exact absurd ‹_› (hn _)
      · exact ⟨rfl, .refl sp, rfl, rfl⟩
  | close k env =>
    unfold Sys.step at hs
    dsimp only at hs
    cases e : s.hs k with
    | live hd =>
      rw [e] at hs
      dsimp only at hs
      obtain ⟨sh, e2, hh⟩ := h.live e
      cases e3 : exec (shr_close hd env) s.ring with
      | error f => rw [e3] at hs; cases hs
      | ok v =>
        obtain ⟨o', r'⟩ := v
        rw [e3] at hs
        obtain ⟨X, pend, g', h1, h2, h3⟩ := (shr_close_farm h.ring hh hl env).ret e3
        cases o' with
        | wait =>
          cases hs
          have hg := grow_grows sp k X g' sp.hs
          refine ⟨_, by unfold FarmCall; dsimp only; rw [e2]; exact ⟨X, pend, _, hg, h2, Or.inr ⟨rfl, rfl, rfl⟩⟩, h.next hg h1 hpar (fun j => (h.hs j).mono hg.le),
            by rw [hg.log, List.length_append]; omega⟩
        | ret rc w =>
          cases hs
          have hg := grow_grows sp k X g' (upd sp.hs k (.gone pend))
          refine ⟨_, by unfold FarmCall; dsimp only; rw [e2]; exact ⟨X, pend, _, hg, h2, Or.inl ⟨rfl, rfl⟩⟩, h.next hg h1 hpar ?_,
            by rw [hg.log, List.length_append]; omega⟩
          exact lrel_upd h.hs hg.le k trivial
    | _ =>
      rw [e] at hs
      cases hs
      have hn := nolive k (by rw [e]; exact fun _ => by simp)
      refine ⟨sp, ?_, h, by omega⟩
      unfold FarmCall; dsimp only
      split
      · exact absurd ‹_› (hn _)
      · exact ⟨rfl, .refl sp, rfl, rfl⟩
  | stat k reset env =>
    unfold Sys.step at hs
    dsimp only at hs
    cases e : s.hs k with
    | live hd =>
      rw [e] at hs
      dsimp only at hs
      obtain ⟨sh, e2, hh⟩ := h.live e
      cases e3 : exec (shr_stat hd reset env) s.ring with
      | error f => rw [e3] at hs; cases hs
      | ok v =>
        obtain ⟨⟨rc, st⟩, r'⟩ := v
        rw [e3] at hs
        cases hs
        have h1 := (shr_stat_crash hd reset env s.ring).ret e3
        have hr : FarmR sp.cap sp.maxm r' (sp.log ++ []) sp.base := by
          rw [List.append_nil]
          rcases h1 with rfl | ⟨t, rfl⟩
          · exact h.ring
          · exact h.ring.of_stat rfl
        exact ⟨sp, ⟨⟨.refl sp, rfl, rfl⟩, by simp [e2]⟩, h.next (.refl sp) hr hpar h.hs, by omega⟩
    | _ =>
      rw [e] at hs
      cases hs
      exact ⟨sp, ⟨⟨.refl sp, rfl, rfl⟩, by simpa using nolive k (by rw [e]; exact fun _ => by simp)⟩, h, by omega⟩
  | farmStat k reset =>
    unfold Sys.step at hs
    dsimp only at hs
    cases e : s.hs k with
    | live hd =>
      rw [e] at hs
      dsimp only at hs
      obtain ⟨sh, e2, hh⟩ := h.live e
      by_cases hf : hd.flags.has SHR_RDONLY = false
      · rw [if_pos hf] at hs
        cases hs
        have hf' : sh.flags.has SHR_RDONLY = false := by rw [← hh.flags]; exact hf
        exact ⟨sp, ⟨.refl sp, rfl, by simp [Spec.step, e2, hf'], by simp [Spec.step, e2, hf']⟩, h, by omega⟩
      · rw [if_neg hf] at hs
        have hf' : ¬ sh.flags.has SHR_RDONLY = false := by rw [← hh.flags]; exact hf
        cases e3 : exec (shr_farm_stat hd reset) s.ring with
        | error f => rw [e3] at hs; cases hs
        | ok v =>
          obtain ⟨⟨h', n⟩, r'⟩ := v
          rw [e3] at hs
          cases hs
          obtain ⟨h1, h2⟩ := (shr_farm_stat_ok (by simpa using hf) reset s.ring).ret e3
          cases h2
          subst h1
          have hg := Grows.hs sp (upd sp.hs k (.live (if reset then { sh with missed := 0 } else sh)))
          refine ⟨_, ⟨hg, rfl, ?_, ?_⟩, h.next hg h.frozen hpar ?_, by rw [hg.log]; simp⟩
          · simp only [Spec.step, e2]; rw [if_neg hf', hh.cur.2]
          · simp only [Spec.step, e2]; rw [if_neg hf']
          · refine lrel_upd h.hs hg.le k ?_
            have := hh.mono hg.le
            cases reset
            · exact this
            · obtain ⟨b1, b2, b3, ⟨b4, b4'⟩, b5, b6, b7, b8, b9, b10⟩ := this
              exact ⟨b1, b2, b3, ⟨b4, by simp⟩, b5, b6, b7, b8, b9, b10⟩
    | _ =>
      rw [e] at hs
      cases hs
      have hn := nolive k (by rw [e]; exact fun _ => by simp)
      refine ⟨sp, ⟨.refl sp, rfl, ?_, ?_⟩, h, by omega⟩ <;>
      · unfold Spec.step
        dsimp only
        split
        · exact absurd ‹_› (hn _)
        · rfl
  | appdata k get set sz env =>
    unfold Sys.step at hs
    dsimp only at hs
    cases e : s.hs k with
    | live hd =>
      rw [e] at hs
      dsimp only at hs
      obtain ⟨sh, e2, hh⟩ := h.live e
      cases e3 : exec (shr_appdata get set sz env) s.ring with
      | error f => rw [e3] at hs; cases hs
      | ok v =>
        obtain ⟨o', r'⟩ := v
        rw [e3] at hs
        cases hs
        have h1 := (shr_appdata_crash env h.typed.app (by rw [h.al]; exact hw)).ret e3
        exact ⟨sp, ⟨⟨.refl sp, rfl, rfl⟩, by simp [e2]⟩, h.next (.refl sp) (by rw [List.append_nil]; exact h.ring.of_app h1) hpar h.hs, by omega⟩
    | _ =>
      rw [e] at hs
      cases hs
      exact ⟨sp, ⟨⟨.refl sp, rfl, rfl⟩, by simpa using nolive k (by rw [e]; exact fun _ => by simp)⟩, h, by omega⟩

/-- The store before `p`, the `j`-th state of the ring during the call, did not move the position of the eldest message. -/
def CalmAt (s : Sys) (op : Op) (j : Nat) (p : Ring) : Prop :=
  (s.points op)[j]? = some p ∧ ∀ i q, j = i + 1 → (s.points op)[i]? = some q → q.e = p.e ∧ q.q = p.q

theorem Pc.calm {α : Type} {x : M Ring α} {r p : Ring} {N K : Nat} {L : List Msg} {g : Nat} {Xs : List (List Msg)} {Q : α → Ring → Prop}
    (h : Pc x r (Calm N K L g Xs) Q) (hr : FarmR N K r L g) (h0 : [] ∈ Xs) {j : Nat} (hp : (x r).points[j]? = some p)
    (hq : ∀ i q, j = i + 1 → (x r).points[i]? = some q → q.e = p.e ∧ q.q = p.q) : ∃ X ∈ Xs, ∃ g', g ≤ g' ∧ FarmR N K p (L ++ X) g' := by
  obtain ⟨h1, h2⟩ := h.points
  cases j with
  | zero => rw [h1 p hp]; exact ⟨[], h0, g, Nat.le_refl _, by rw [List.append_nil]; exact hr⟩
  | succ j =>
    obtain ⟨q, e, hc⟩ := h2 j p hp
    obtain ⟨e1, e2⟩ := hq j q rfl e
    exact hc e1 e2

/-- The caller is killed. -/
theorem Shows.death {a : InitArgs} {s : Sys} {sp : Spec} (h : Shows a s sp) {op : Op} (hw : op.WF a.appsize) (hl : sp.log.length + 2 * sp.maxm < W)
    {j : Nat} {p : Ring} (hc : CalmAt s op j p) :
    ∃ sp', FarmDeath sp op sp' ∧ Shows a (s.killed op p) sp' ∧ sp'.log.length ≤ sp.log.length + 2 * sp.maxm := by
  obtain ⟨hp, hq⟩ := hc
  have hmem : p ∈ s.points op := List.mem_of_getElem? hp
  have hpar := h.params hw hmem
  have fin : ∀ X ∈ leftBy sp op, ∀ g', sp.base ≤ g' → FarmR sp.cap sp.maxm p (sp.log ++ X) g' → X.length ≤ 2 * sp.maxm →
      ∃ sp', FarmDeath sp op sp' ∧ Shows a (s.killed op p) sp' ∧ sp'.log.length ≤ sp.log.length + 2 * sp.maxm := by
    intro X hX g' hg' hf hlen
    have hg := grow_grows sp op.handle X g' (upd sp.hs op.handle (.gone []))
    refine ⟨_, ⟨X, hX, hg, hg', by rw [hg.log]; exact hf.gle, [], rfl⟩, h.next hg hf hpar ?_, by rw [hg.log, List.length_append]; omega⟩
    exact lrel_upd h.hs hg.le op.handle trivial
  have still : FarmR sp.cap sp.maxm p sp.log sp.base → ∃ sp', FarmDeath sp op sp' ∧ Shows a (s.killed op p) sp' ∧
      sp'.log.length ≤ sp.log.length + 2 * sp.maxm := fun hf =>
    fin [] (by unfold leftBy; split <;> simp) sp.base (Nat.le_refl _) (by rw [List.append_nil]; exact hf) (by simp)
  have one : s.points op = [s.ring] → ∃ sp', FarmDeath sp op sp' ∧ Shows a (s.killed op p) sp' ∧ sp'.log.length ≤ sp.log.length + 2 * sp.maxm := fun e => by
    rw [e] at hmem
    rw [List.mem_singleton.mp hmem] at still ⊢
    exact still h.ring
  cases op with
  | «open» k flags env => exact one rfl
  | writev k iov envF env =>
    cases e : s.hs k with
    | live hd =>
      obtain ⟨sh, e2, hh⟩ := h.live e
      by_cases hf : hd.flags.has SHR_WRONLY = false
      · exact one (by unfold Sys.points; dsimp only; rw [e]; dsimp only; rw [if_pos hf])
      have hpts : s.points (.writev k iov envF env) = (shr_writev hd iov envF env s.ring).points := by
        unfold Sys.points; dsimp only; rw [e]; dsimp only; rw [if_neg hf]
      rw [hpts] at hp hq
      by_cases hL : Legal sp.cap sp.maxm iov
      · obtain ⟨X, hX, g', hg', hF⟩ := (shr_writev_farm h.ring hh hw hl envF env).calm h.ring (by simp) hp hq
        have h1 := hL.2.2.2
        have h2 : sh.pend.length ≤ sp.maxm := by have := hh.cache.vle; have := hh.cvt; omega
        refine fin X (by simp only [leftBy, Op.handle, e2]; exact hX) g' hg' hF ?_
        simp only [List.mem_cons, List.not_mem_nil, or_false] at hX
        rcases hX with rfl | rfl | rfl <;> (try simp) <;> omega
      · obtain ⟨O, E, hg⟩ := h.ring.geo
        have hN : sp.cap ≤ SSIZE_MAX := by rw [← h.ring.n]; exact hg.nbd
        have hpc : Pc (shr_writev hd iov envF env) s.ring (fun _ _ => False) (fun _ _ => True) := by
          unfold shr_writev
          refine Pc.assert_bind fun _ => ?_
          rw [hh.n, hh.mm, lenCheck_wf hN hw, if_neg hL]
          exact Pc.pure trivial
        obtain ⟨h1, h2⟩ := hpc.points
        cases j with
        | zero => rw [h1 p hp] at still ⊢; exact still h.ring
        | succ j => obtain ⟨_, _, hF⟩ := h2 j p hp; exact hF.elim
    | _ => exact one (by unfold Sys.points; dsimp only; rw [e])
  | readv k buf niov env =>
    cases e : s.hs k with
    | live hd =>
      obtain ⟨sh, e2, hh⟩ := h.live e
      by_cases hf : hd.flags.has SHR_RDONLY = false
      · exact one (by unfold Sys.points; dsimp only; rw [e]; dsimp only; rw [if_pos hf])
      have hpts : s.points (.readv k buf niov env) = (shr_readv hd buf buf.length niov env s.ring).points := by
        unfold Sys.points; dsimp only; rw [e]; dsimp only; rw [if_neg hf]
      rw [hpts] at hmem
      have := (shr_readv_farm h.ring h.farm hh (by rw [← hh.flags]; simpa using hf) buf hw niov env).points (fun _ _ h => h.1) p hmem
      exact still (h.ring.of_stat this)
    | _ => exact one (by unfold Sys.points; dsimp only; rw [e])
  | flush k wait env =>
    cases e : s.hs k with
    | live hd =>
      obtain ⟨sh, e2, hh⟩ := h.live e
      by_cases hf : hd.flags.has SHR_WRONLY = false
      · exact one (by unfold Sys.points; dsimp only; rw [e]; dsimp only; rw [if_pos hf])
      have hpts : s.points (.flush k wait env) = (shr_flush hd wait env s.ring).points := by
        unfold Sys.points; dsimp only; rw [e]; dsimp only; rw [if_neg hf]
      rw [hpts] at hp hq
      obtain ⟨X, hX, g', hg', hF⟩ := (shr_flush_farm h.ring hh hl wait env).calm h.ring (by simp) hp hq
      have h2 : sh.pend.length ≤ sp.maxm := by have := hh.cache.vle; have := hh.cvt; omega
      refine fin X (by simp only [leftBy, Op.handle, e2]; exact hX) g' hg' hF ?_
      simp only [List.mem_cons, List.not_mem_nil, or_false] at hX
      rcases hX with rfl | rfl <;> (try simp) <;> omega
    | _ => exact one (by unfold Sys.points; dsimp only; rw [e])
  | close k env =>
    cases e : s.hs k with
    | live hd =>
      obtain ⟨sh, e2, hh⟩ := h.live e
      have hpts : s.points (.close k env) = (shr_close hd env s.ring).points := by
        unfold Sys.points; dsimp only; rw [e]
      rw [hpts] at hp hq
      obtain ⟨X, hX, g', hg', hF⟩ := (shr_close_farm h.ring hh hl env).calm h.ring (by simp) hp hq
      have h2 : sh.pend.length ≤ sp.maxm := by have := hh.cache.vle; have := hh.cvt; omega
      refine fin X (by simp only [leftBy, Op.handle, e2]; exact hX) g' hg' hF ?_
      simp only [List.mem_cons, List.not_mem_nil, or_false] at hX
      rcases hX with rfl | rfl <;> (try simp) <;> omega
    | _ => exact one (by unfold Sys.points; dsimp only; rw [e])
  | stat k reset env =>
    cases e : s.hs k with
    | live hd =>
      have hpts : s.points (.stat k reset env) = (shr_stat hd reset env s.ring).points := by
        unfold Sys.points; dsimp only; rw [e]
      rw [hpts] at hmem
      rcases (shr_stat_crash hd reset env s.ring).points (fun _ _ h => h) p hmem with rfl | ⟨t, rfl⟩
      · exact still h.ring
      · exact still (h.ring.of_stat rfl)
    | _ => exact one (by unfold Sys.points; dsimp only; rw [e])
  | farmStat k reset =>
    cases e : s.hs k with
    | live hd =>
      by_cases hf : hd.flags.has SHR_RDONLY = false
      · exact one (by unfold Sys.points; dsimp only; rw [e]; dsimp only; rw [if_pos hf])
      have hpts : s.points (.farmStat k reset) = (shr_farm_stat hd reset s.ring).points := by
        unfold Sys.points; dsimp only; rw [e]; dsimp only; rw [if_neg hf]
      rw [hpts] at hmem
      have := (shr_farm_stat_ok (by simpa using hf) reset s.ring).points (fun _ _ h => h.1) p hmem
      exact still (this ▸ h.ring)
    | _ => exact one (by unfold Sys.points; dsimp only; rw [e])
  | appdata k get set sz env =>
    cases e : s.hs k with
    | live hd =>
      have hpts : s.points (.appdata k get set sz env) = (shr_appdata get set sz env s.ring).points := by
        unfold Sys.points; dsimp only; rw [e]
      rw [hpts] at hmem
      exact still (h.ring.of_app ((shr_appdata_crash env h.typed.app (by rw [h.al]; exact hw)).points (fun _ _ h => h) p hmem))
    | _ => exact one (by unfold Sys.points; dsimp only; rw [e])

theorem exec_ub {α : Type} {x : M Ring α} {r : Ring} (h : exec x r = .error .ub) : (x r).res = .ub := by
  unfold exec at h
  cases e : (x r).res <;> rw [e] at h <;> first | rfl | cases h

/-- No call accesses anything outside its objects, or has other undefined behaviour. -/
theorem Shows.noUB {a : InitArgs} {s : Sys} {sp : Spec} (h : Shows a s sp) {op : Op} (hw : op.WF a.appsize)
    (hl : sp.log.length + 2 * sp.maxm < W) : s.step op ≠ .error .ub := by
  intro hs
  cases op with
  | «open» k flags env =>
    unfold Sys.step at hs
    dsimp only at hs
    split at hs
    · split at hs
      · cases hs
      · split at hs <;> cases hs
    · cases hs
  | writev k iov envF env =>
    unfold Sys.step at hs
    dsimp only at hs
    cases e : s.hs k with
    | live hd =>
      obtain ⟨sh, e2, hh⟩ := h.live e
      rw [e] at hs
      dsimp only at hs
      split at hs
      · cases hs
      · split at hs
        · rename_i e3; cases hs; exact (shr_writev_farm h.ring hh hw hl envF env).1 (exec_ub e3)
        · cases hs
    | _ => rw [e] at hs; cases hs
  | readv k buf niov env =>
    unfold Sys.step at hs
    dsimp only at hs
    cases e : s.hs k with
    | live hd =>
      obtain ⟨sh, e2, hh⟩ := h.live e
      rw [e] at hs
      dsimp only at hs
      split at hs
      · cases hs
      · rename_i hf
        obtain ⟨x, r', e3, _⟩ := (shr_readv_farm h.ring h.farm hh (by rw [← hh.flags]; simpa using hf) buf hw niov env).exec_eq
        rw [e3] at hs; cases hs
    | _ => rw [e] at hs; cases hs
  | flush k wait env =>
    unfold Sys.step at hs
    dsimp only at hs
    cases e : s.hs k with
    | live hd =>
      obtain ⟨sh, e2, hh⟩ := h.live e
      rw [e] at hs
      dsimp only at hs
      split at hs
      · cases hs
      · split at hs
        · rename_i e3; cases hs; exact (shr_flush_farm h.ring hh hl wait env).1 (exec_ub e3)
        · cases hs
    | _ => rw [e] at hs; cases hs
  | close k env =>
    unfold Sys.step at hs
    dsimp only at hs
    cases e : s.hs k with
    | live hd =>
      obtain ⟨sh, e2, hh⟩ := h.live e
      rw [e] at hs
      dsimp only at hs
      split at hs
      · rename_i e3; cases hs; exact (shr_close_farm h.ring hh hl env).1 (exec_ub e3)
      · cases hs
      · cases hs
    | _ => rw [e] at hs; cases hs
  | stat k reset env =>
    unfold Sys.step at hs
    dsimp only at hs
    cases e : s.hs k with
    | live hd =>
      rw [e] at hs
      dsimp only at hs
      obtain ⟨x, r', e3, _⟩ := (shr_stat_crash hd reset env s.ring).exec_eq
      rw [e3] at hs; cases hs
    | _ => rw [e] at hs; cases hs
  | farmStat k reset =>
    unfold Sys.step at hs
    dsimp only at hs
    cases e : s.hs k with
    | live hd =>
      rw [e] at hs
      dsimp only at hs
      split at hs
      · cases hs
      · rename_i hf
        obtain ⟨x, r', e3, _⟩ := (shr_farm_stat_ok (h := hd) (by simpa using hf) reset s.ring).exec_eq
        rw [e3] at hs; cases hs
    | _ => rw [e] at hs; cases hs
  | appdata k get set sz env =>
    unfold Sys.step at hs
    dsimp only at hs
    cases e : s.hs k with
    | live hd =>
      rw [e] at hs
      dsimp only at hs
      obtain ⟨x, r', e3, _⟩ := (shr_appdata_crash env h.typed.app (by rw [h.al]; exact hw)).exec_eq
      rw [e3] at hs; cases hs
    | _ => rw [e] at hs; cases hs

/-- Calls that only look at the ring. -/
def Op.looks : Op → Bool
  | .open .. | .readv .. | .stat .. | .farmStat .. | .appdata .. => true
  | _ => false

/-- Calls that do not write messages always complete. -/
theorem Shows.total {a : InitArgs} {s : Sys} {sp : Spec} (h : Shows a s sp) {op : Op} (hw : op.WF a.appsize) (hr : op.looks = true) :
    ∃ s' o, s.step op = .ok (s', o) := by
  cases op with
  | «open» k flags env =>
    unfold Sys.step
    dsimp only
    split
    · split
      · exact ⟨_, _, rfl⟩
      · split <;> exact ⟨_, _, rfl⟩
    · exact ⟨_, _, rfl⟩
  | readv k buf niov env =>
    unfold Sys.step
    dsimp only
    cases e : s.hs k with
    | live hd =>
      obtain ⟨sh, e2, hh⟩ := h.live e
      dsimp only
      split
      · exact ⟨_, _, rfl⟩
      · rename_i hf
        obtain ⟨x, r', e3, _⟩ := (shr_readv_farm h.ring h.farm hh (by rw [← hh.flags]; simpa using hf) buf hw niov env).exec_eq
        rw [e3]; exact ⟨_, _, rfl⟩
    | _ => exact ⟨_, _, rfl⟩
  | stat k reset env =>
    unfold Sys.step
    dsimp only
    cases e : s.hs k with
    | live hd =>
      dsimp only
      obtain ⟨x, r', e3, _⟩ := (shr_stat_crash hd reset env s.ring).exec_eq
      rw [e3]; exact ⟨_, _, rfl⟩
    | _ => exact ⟨_, _, rfl⟩
  | farmStat k reset =>
    unfold Sys.step
    dsimp only
    cases e : s.hs k with
    | live hd =>
      dsimp only
      split
      · exact ⟨_, _, rfl⟩
      · rename_i hf
        obtain ⟨x, r', e3, _⟩ := (shr_farm_stat_ok (h := hd) (by simpa using hf) reset s.ring).exec_eq
        rw [e3]; exact ⟨_, _, rfl⟩
    | _ => exact ⟨_, _, rfl⟩
  | appdata k get set sz env =>
    unfold Sys.step
    dsimp only
    cases e : s.hs k with
    | live hd =>
      dsimp only
      obtain ⟨x, r', e3, _⟩ := (shr_appdata_crash env h.typed.app (by rw [h.al]; exact hw)).exec_eq
      rw [e3]; exact ⟨_, _, rfl⟩
    | _ => exact ⟨_, _, rfl⟩
  | _ => cases hr

end Shr
