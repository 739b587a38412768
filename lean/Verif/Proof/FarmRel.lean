import Verif.Props.FarmSound
import Verif.Proof.WakeReach
/-! # A farm ring on which all calls have completed is a farm ring of C96 -/
namespace Shr

theorem RingRel.farmR {r : Ring} {sp : Spec} (h : RingRel r sp) (hf : sp.farm = true) : FarmR sp.cap sp.maxm r sp.log sp.base := by
  obtain ⟨h1, h2, h3⟩ := h.farm hf
  obtain ⟨⟨p0, hg⟩, r1, r2, r3, r4, r5, r6, r7⟩ := h.rep
  have hb : sp.base ≤ sp.log.length := by have := h.fle; omega
  have hlen : sp.retained.length = sp.log.length - sp.base := by unfold Spec.retained; simp
  have hgf : r.gflags.has SHR_FARM = true := by rw [h.gf]; exact hf
  have hget : ∀ j b, sp.base ≤ j → sp.log[j]? = some b → sp.retained[j - sp.base]? = some b := by
    intro j b h1 h2
    unfold Spec.retained
    rw [List.getElem?_drop, show sp.base + (j - sp.base) = j by omega]; exact h2
  have mm := hg.mmpos
  refine ⟨⟨fun j => p0 + bytesOf (sp.retained.take (j - sp.base)), p0 + bytesOf sp.retained, hg.npos, hg.nbd, hg.mmpos, hg.mmbd, hg.dlen, hg.mvlen, hg.ieq, hb,
    ?_, ?_, ?_, ?_, ?_, ?_⟩, h.typed, h.n, h.mm, hgf, ?_, ?_, r5, h3, ?_⟩
  · have := hg.cnt; omega
  · intro j b g1 g2
    exact hg.ne b (List.mem_of_getElem? (hget j b g1 g2))
  · intro j b g1 g2
    have g3 := hget j b g1 g2
    refine ⟨?_, fun t x ht => ?_⟩
    · have := hg.slots _ b g3
      rw [show sp.base + (j - sp.base) = j by omega] at this
      exact this
    · have := hg.data (bytesOf (sp.retained.take (j - sp.base)) + t) x ?_
      · rw [← Nat.add_assoc] at this; exact this
      · have e : sp.retained.flatten.drop (bytesOf (sp.retained.take (j - sp.base))) = (sp.retained.drop (j - sp.base)).flatten := (flatten_drop _ _).symm
        rw [← List.getElem?_drop, e, List.drop_eq_getElem_cons (getElem?_lt g3), List.flatten_cons,
          List.getElem?_append_left (by rw [← Option.some.inj ((List.getElem?_eq_getElem (getElem?_lt g3)).symm.trans g3)] at ht; exact getElem?_lt ht)]
        rw [Option.some.inj ((List.getElem?_eq_getElem (getElem?_lt g3)).symm.trans g3)]; exact ht
  · intro j b g1 g2
    have g3 := hget j b g1 g2
    have e := bytesOf_append (sp.retained.take (j - sp.base)) (sp.retained.drop (j - sp.base))
    rw [List.take_append_drop, List.drop_eq_getElem_cons (getElem?_lt g3), bytesOf_cons,
      Option.some.inj ((List.getElem?_eq_getElem (getElem?_lt g3)).symm.trans g3)] at e
    omega
  · intro j g1 g2
    have := hg.tot
    omega
  · intro j k g1 g2 g3
    have e := bytesOf_append (sp.retained.take (j - sp.base)) ((sp.retained.take (k - sp.base)).drop (j - sp.base))
    have e2 : sp.retained.take (j - sp.base) = (sp.retained.take (k - sp.base)).take (j - sp.base) := by
      rw [List.take_take, Nat.min_eq_left (by omega)]
    rw [e2, List.take_append_drop, ← e2] at e
    omega
  · rw [r6 hgf, Nat.mod_eq_of_lt (by omega)]
  · omega
  · rw [r7]; exact Nat.mod_lt _ mm

theorem Rel.shows {a : InitArgs} {s : Sys} {sp : Spec} (h : Rel s sp) (hf : sp.farm = true) (h1 : sp.cap = a.dataSz) (h2 : sp.maxm = a.max_msgs)
    (h3 : sp.gflags = a.gflags) (h4 : sp.app.length = a.appsize) : Shows a s sp :=
  ⟨h1, h2, h3, h.ring.farmR hf, h.ring.gf, by rw [h.ring.app_len, h4], h.hs⟩

/-- The ring that a killed writer of a farm leaves in working order represents a state of the queue machine, in which at most the messages of the call, and those
that the handle held back, are new. -/
theorem farm_corpse {a : InitArgs} {s : Sys} {sp : Spec} (h : Rel s sp) (hf : sp.farm = true) (h1 : sp.cap = a.dataSz) (h2 : sp.maxm = a.max_msgs)
    (h3 : sp.gflags = a.gflags) (h4 : sp.app.length = a.appsize) {op : Op} (hw : op.WF a.appsize) (hl : sp.log.length + 2 * a.max_msgs < W)
    {P : Nat} (hP : PendLe sp P) {j : Nat} {r : Ring} (hc : CalmAt s op j r) (hs : r.FarmSound) (D : Nat → Bool) :
    ∃ sp', Rel { ring := r, hs := (s.discard D).hs } sp' ∧ sp'.hs = (sp.discard D).hs ∧ sp'.cap = sp.cap ∧
      sp'.maxm = sp.maxm ∧ sp'.gflags = sp.gflags ∧ sp'.app.length = sp.app.length ∧ sp'.log.length ≤ sp.log.length + P + offered [op] := by
  have hsh := h.shows hf h1 h2 h3 h4
  obtain ⟨sp1, ⟨X, hX, hg, hb1, hb2, l, hh⟩, hs1, _⟩ := hsh.death hw (by rw [h2]; exact hl) hc
  have hmem : r ∈ s.points op := List.mem_of_getElem? hc.1
  have hfr := points_framedRing h (by rw [h4]; exact hw) hmem
  obtain ⟨st, hst⟩ := hfr.st
  have hd : a.flags.has SHR_FARM = true := by
    have := hsh.farm; unfold Spec.farm at this; rw [h3, gflags_farm] at this; exact this
  -- the state with the handles that are left
  have hsh2 : Shows a { ring := r, hs := (s.discard D).hs } { sp1 with hs := (sp.discard D).hs } := by
    refine ⟨hs1.cap, hs1.maxm, hs1.gf, hs1.ring, hs1.rgf, hs1.al, fun k => ?_⟩
    exact LRel.mono (sp := sp.discard D) (sp' := { sp1 with hs := (sp.discard D).hs }) ⟨hg.cap, hg.maxm, hg.gf, by show sp.log.length ≤ sp1.log.length; rw [hg.log]; simp⟩ ((rel_discard h D).hs k)
  refine ⟨_, hsh2.rel hd hs hst, rfl, hg.cap, hg.maxm, hg.gf, ?_, ?_⟩
  · show r.app.length = _
    rw [← hfr.sized.app, ← h.ring.app_len]
    have := hs1.al
    have h5 : r.app_len = a.appsize := this
    rw [h5, hsh.al]
  · show sp1.log.length ≤ _
    rw [hg.log, List.length_append, Nat.add_assoc]
    refine Nat.add_le_add_left ?_ _
    have pend : ∀ sh, sp.hs op.handle = .live sh → sh.pend.length ≤ P := fun sh hk => hP _ _ hk
    unfold leftBy at hX
    split at hX
    · rename_i k iov e1 e2 sh e
      have := pend sh e
      have ho : offered [Op.writev k iov e1 e2] = iov.length := by simp [offered]
      simp only [List.mem_cons, List.not_mem_nil, or_false] at hX
      rcases hX with rfl | rfl | rfl <;> (try simp) <;> omega
    · rename_i sh e
      have := pend sh e
      simp only [List.mem_cons, List.not_mem_nil, or_false] at hX
      rcases hX with rfl | rfl <;> (try simp) <;> omega
    · rename_i sh e
      have := pend sh e
      simp only [List.mem_cons, List.not_mem_nil, or_false] at hX
      rcases hX with rfl | rfl <;> (try simp) <;> omega
    · simp only [List.mem_cons, List.not_mem_nil, or_false] at hX
      subst hX; simp

end Shr
