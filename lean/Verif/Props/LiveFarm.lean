import Verif.Props.Live
/-! # C98: on a farm ring every reader gets everything that is still there -/
namespace Shr

/-! ## Specification -/

/-- What handle `r` has received in a run. -/
def receivedBy (r : Nat) (evs : List (Nat × Out)) : List Msg := delivered ((evs.filter fun e => e.1 == r).map Prod.snd)

/-! ## Theorems -/

theorem farm_ring {a : InitArgs} {pid : Nat → Nat} {hist : List Op} {w : WSys} (h : AReach a pid hist w) (hf : a.flags.has SHR_FARM = true) :
    w.sys.ring.gflags.has SHR_FARM = true := by
  obtain ⟨sp, hrep⟩ := h.state
  rw [hrep.inv.rel.ring.gf, hrep.inv.gf, gflags_farm]
  exact hf

/-- **C98**, first part. On a farm ring no write, flush or close ever waits: whatever waits is a read. -/
theorem C98_only_readers_wait {a : InitArgs} {pid : Nat → Nat} {hist : List Op} {w : WSys} (h : AReach a pid hist w) (hf : a.flags.has SHR_FARM = true)
    {k : Nat} {op : Op} {b : Bool} (hb : w.blk k = some (op, b)) : ∃ buf niov env, op = .readv k buf niov env :=
  farm_waits h (farm_ring h hf) hb

/-- **C98**, second part. If the readers only take their wake-ups, resume their reads and read with sufficient buffers, then after finitely many
steps no further such step is possible. -/
theorem C98_no_endless_run {a : InitArgs} {pid : Nat → Nat} {S : BOp → Bool} (hS : ∀ k y, BOp.forces (2 * k) y = true → S y = true)
    (hist : Nat → List Op) (ws : Nat → WSys) (x : Nat → WOp) (o : Nat → Out) (ops : Nat → List BOp) (h0 : CReach a pid (hist 0) (ws 0))
    (hf : a.flags.has SHR_FARM = true) (hh : ∀ i, hist (i + 1) = hist i ++ (x i).issued (ws i))
    (hs : ∀ i, EStep a pid S (hist i) (ws i) (x i) (ws (i + 1)) (o i) (ops i)) : False := by
  obtain ⟨N, hN⟩ := h0.any.bounded
  have all : ∀ i, CReach a pid (hist i) (ws i) ∧ (ws i).Below N := by
    intro i
    induction i with
    | zero => exact ⟨h0, hN⟩
    | succ i ih =>
      obtain ⟨i1, i2⟩ := ih
      refine ⟨?_, (farm_decreases hS i1 (farm_ring i1.any hf) (hs i) i2).2.1⟩
      rw [hh i]
      exact .step i1 (hs i).step (hs i).clean
  exact no_descent lex4_wf (fun w => w.farmMu N) ws fun i => (farm_decreases hS (all i).1 (farm_ring (all i).1.any hf) (hs i) (all i).2).1

/-- **C98**, third part. At rest every open reader has read everything that is in the ring.  Here `S` are the calls that have not failed since the
last successful wake-up (C34): the wake-ups of writers and, for a non-blocking reader, also its own `bw_force`. -/
theorem C98_rest_is_read {a : InitArgs} {pid : Nat → Nat} {S : BOp → Bool} {hist : List Op} {w : WSys} (h0 : Announced a pid 0 S hist w)
    (hroom : (hist.length + 1) * offered hist < W) (hrest : AtRest a pid hist w) {r : Nat} {hd : Handle}
    (hr : w.sys.hs r = .live hd) (hro : hd.flags.has SHR_RDONLY = true) (hS : ∀ x, BOp.wakes 0 x = true → S x = true)
    (hSr : hd.flags.has SHR_NONBLOCK = true → ∀ x, BOp.forces (2 * r) x = true → S x = true) : w.sys.ring.readableBy hd = [] := by
  obtain ⟨f1, f2⟩ := rest_facts h0.clean.any (fun _ => hroom) hrest
  obtain ⟨sp, hrep, hj⟩ := h0.readers (k := r) (P := hd.flags.has SHR_NONBLOCK = true) hS hSr
  obtain ⟨sh, e1, e2⟩ := hrep.inv.rel.live hr
  rw [readableBy_eq hrep.inv.rel.ring e2]
  by_cases hne : sp.readable sh = []
  · exact hne
  exfalso
  have hro' : sh.flags.has SHR_RDONLY = true := by rw [← e2.flags]; exact hro
  cases hb : w.blk r with
  | none =>
    obtain ⟨g1, g2⟩ := f2 r hd hr hro hb
    have := hj sh e1 hro' (.inl ⟨g1, by rw [← e2.flags]; exact g1⟩) hne
    omega
  | some y =>
    obtain ⟨op, b⟩ := y
    obtain ⟨rfl, g2⟩ := f1 r op b hb
    have := hj sh e1 hro' (.inr ⟨op, hb⟩) hne
    obtain ⟨c1, _, sh', c2, c3⟩ := hrep.inv.blk _ _ _ hb
    rw [e1] at c2; cases c2
    rcases c3 with ⟨⟨k', _, _, _, rfl⟩, _⟩ | ⟨_, c3, _⟩
    · have c1 : k' = r := c1
      subst c1
      have g2 : w.b.pending (2 * k') = 0 := g2
      omega
    · have := e2.mode
      rw [hro', c3] at this
      cases this

theorem receivedBy_ev (r : Nat) (evs : List (Nat × Out)) (k : Nat) (o : Out) :
    receivedBy r (evs ++ [(k, o)]) = receivedBy r evs ++ (if k = r then o.msgs else []) := by
  unfold receivedBy
  rw [List.filter_append]
  by_cases h : k = r
  · subst h
    simp [delivered]
  · simp [delivered, h]

theorem ERun.farm {a : InitArgs} {pid : Nat → Nat} {hist hist' : List Op} {w w' : WSys} {evs : List (Nat × Out)} (h : ERun a pid hist w evs hist' w')
    {S : BOp → Bool} (h0 : Announced a pid 0 S hist w) (hf : a.flags.has SHR_FARM = true) :
    Announced a pid 0 S hist' w' ∧ ∀ r hd, w.sys.hs r = .live hd → ∃ hd', w'.sys.hs r = .live hd' ∧ hd'.flags = hd.flags ∧
      receivedBy r evs ++ w'.sys.ring.readableBy hd' = w.sys.ring.readableBy hd := by
  induction h with
  | refl => exact ⟨h0, fun r hd e => ⟨hd, e, rfl, rfl⟩⟩
  | step _ hs hsync ih =>
    obtain ⟨i0, i1⟩ := ih h0
    refine ⟨.keeps i0 hs.step hs.clean fun _ => Succeed.mono (fun _ _ => rfl) hs.ok, fun r hd e => ?_⟩
    obtain ⟨hd1, g1, g2, g3⟩ := i1 r hd e
    rcases farm_cases i0.clean.any (farm_ring i0.clean.any hf) hs with ⟨k, op, os, rfl, hwk⟩ | ⟨k, op, ht, _, hx⟩
    · obtain ⟨hb, hp, hr, rfl, rfl, rfl⟩ := hwk
      refine ⟨hd1, g1, g2, ?_⟩
      rw [receivedBy_ev]
      have : (if WOp.by (.wakeup k os) = r then Out.blocked.msgs else []) = [] := by split <;> rfl
      rw [this, List.append_nil]
      exact g3
    · rename_i hist1 w1 w2 evs x o ops _ _
      have hby : x.by = k := by
        rcases hx with ⟨op0, env, os, rfl, _⟩ | ⟨os, rfl, h, _⟩
        · rfl
        · exact h
      rw [receivedBy_ev, hby]
      by_cases hrk : k = r
      · subst hrk
        obtain ⟨hd2, c1, c2, c3⟩ := ht.rd hd1 g1
        refine ⟨hd2, c1, c2.trans g2, ?_⟩
        rw [if_pos rfl, List.append_assoc, c3]
        exact g3
      · refine ⟨hd1, ?_, g2, ?_⟩
        · rw [ht.other r (fun e => hrk e.symm)]; exact g1
        · rw [if_neg hrk, List.append_nil, ht.same r hd1 (fun e => hrk e.symm) g1]
          exact g3

/-- **C98**, fourth part. In every eager run each reader receives, from its own position on and in order, messages that were in the ring when the run
began, whatever the other readers do; when the run has come to rest it has received all of them, once. -/
theorem C98_all_read {a : InitArgs} {pid : Nat → Nat} {S : BOp → Bool} {hist hist' : List Op} {w w' : WSys} {evs : List (Nat × Out)}
    (h0 : Announced a pid 0 S hist w) (hf : a.flags.has SHR_FARM = true) (hrun : ERun a pid hist w evs hist' w') {r : Nat} {hd : Handle}
    (hr : w.sys.hs r = .live hd) (hro : hd.flags.has SHR_RDONLY = true) (hS : ∀ x, BOp.wakes 0 x = true → S x = true)
    (hSr : hd.flags.has SHR_NONBLOCK = true → ∀ x, BOp.forces (2 * r) x = true → S x = true) :
    receivedBy r evs <+: w.sys.ring.readableBy hd ∧
    (AtRest a pid hist' w' → (hist'.length + 1) * offered hist' < W → receivedBy r evs = w.sys.ring.readableBy hd) := by
  obtain ⟨i0, i1⟩ := hrun.farm h0 hf
  obtain ⟨hd', g1, g2, g3⟩ := i1 r hd hr
  refine ⟨⟨_, g3⟩, fun hrest hroom => ?_⟩
  have := C98_rest_is_read i0 hroom hrest g1 (by rw [g2]; exact hro) hS (by rw [g2]; exact hSr)
  rw [this, List.append_nil] at g3
  exact g3

/-- **C98**, fifth part. From every state such a run to rest exists. -/
theorem C98_rest_is_reached {a : InitArgs} {pid : Nat → Nat} {hist : List Op} {w : WSys} (h : CReach a pid hist w) (hf : a.flags.has SHR_FARM = true) :
    ∃ evs hist' w', ERun a pid hist w evs hist' w' ∧ AtRest a pid hist' w' := by
  obtain ⟨N, hN⟩ := h.any.bounded
  have key : ∀ (m : Nat × Nat × Nat × Nat) (evs : List (Nat × Out)) (hist1 : List Op) (w1 : WSys), w1.farmMu N = m → ERun a pid hist w evs hist1 w1 →
      CReach a pid hist1 w1 → w1.Below N → ∃ evs hist' w', ERun a pid hist w evs hist' w' ∧ AtRest a pid hist' w' := by
    intro m
    induction m using lex4_wf.induction with
    | _ m ih =>
      intro evs hist1 w1 hm hrun hre hb
      by_cases hrest : AtRest a pid hist1 w1
      · exact ⟨_, _, _, hrun, hrest⟩
      obtain ⟨x, w2, o, ops, hs, hsync⟩ : ∃ x w' o ops, EStep a pid (fun _ => true) hist1 w1 x w' o ops ∧ ∀ k env os, x = .resume k env os → env.syncOk = true :=
        Classical.not_not.1 hrest
      obtain ⟨d1, d2, _⟩ := farm_decreases (S := fun _ => true) (fun _ _ _ => rfl) hre (farm_ring hre.any hf) hs hb
      exact ih _ (hm ▸ d1) _ _ w2 rfl (.step hrun hs hsync) (.step hre hs.step hs.clean) d2
  exact key _ _ _ _ rfl (.refl _ _) h hN

/-! ## The hypotheses can be met -/

/-- Reader 1 waits, reader 2 (non-blocking) has read the first of three messages. -/
def scrFarm : List WOp := [dcall (opn 0 SHR_WRONLY), dcall (opn 1 SHR_RDONLY), dcall (opn 2 (SHR_RDONLY ||| SHR_NONBLOCK)), dcall (rd 1 10 3),
  dcall (wr 0 [[1, 2], [3]]), dcall (rd 2 2 1), dcall (wr 0 [[4]])]

example : ∃ hist w, Announced demoF dpid 0 (fun x => x.wakes 0 || x.forces (2 * 2)) hist w ∧ (∃ env, w.blk 1 = some (.readv 1 (List.replicate 10 0) 3 env, false)) ∧
    (∃ evs hist' w', ERun demoF dpid hist w evs hist' w' ∧ AtRest demoF dpid hist' w') ∧
    ∀ evs hist' w', ERun demoF dpid hist w evs hist' w' → AtRest demoF dpid hist' w' → (hist'.length + 1) * offered hist' < W →
      receivedBy 1 evs = [[1, 2], [3], [4]] ∧ receivedBy 2 evs = [[3], [4]] := by
  obtain ⟨hist, w, h1, h2⟩ := plays_reach (st := true) (P := fun w => (w.sys.hs 1).isLive && (w.sys.hs 2).isLive &&
      decide ((w.sys.handle 1).flags.has SHR_RDONLY = true) && decide ((w.sys.handle 2).flags.has SHR_RDONLY = true) &&
      decide ((w.sys.handle 1).flags.has SHR_NONBLOCK = false) && decide (w.blk 1 = some (rd 1 10 3, false)) &&
      decide (w.sys.ring.readableBy (w.sys.handle 1) = [[1, 2], [3], [4]]) && decide (w.sys.ring.readableBy (w.sys.handle 2) = [[3], [4]]))
    (⟨by decide, by decide, by decide, by decide +kernel⟩ : demoF.WF) (dsends scrFarm (by simp [scrFarm])) (show plays true demoF dpid 6 scrFarm _ = true by decide +kernel)
  simp only [Bool.and_eq_true, decide_eq_true_eq] at h2
  obtain ⟨⟨⟨⟨⟨⟨⟨g1, g2⟩, g3⟩, g4⟩, g5⟩, g6⟩, g7⟩, g8⟩ := h2
  have hf : demoF.flags.has SHR_FARM = true := by decide
  have hann : Announced demoF dpid 0 (fun x => x.wakes 0 || x.forces (2 * 2)) hist w := by
    refine h1.ann rfl _ _ ?_
    intro y hy
    rw [Bool.or_eq_true] at hy
    rcases hy with h | h
    · exact wakes_isSignal y h
    · exact forces_isSignal y h
  refine ⟨hist, w, hann, ⟨_, g6⟩, C98_rest_is_reached h1.clean hf, fun evs hist' w' hrun hrest hroom => ⟨?_, ?_⟩⟩
  · rw [← g7]
    exact (C98_all_read hann hf hrun (live_handle g1) g3 (fun x e => by simp [e]) (fun h => by rw [g5] at h; cases h)).2 hrest hroom
  · rw [← g8]
    exact (C98_all_read hann hf hrun (live_handle g2) g4 (fun x e => by simp [e]) (fun _ x e => by simp [e])).2 hrest hroom

end Shr
