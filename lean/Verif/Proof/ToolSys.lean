import Verif.Model.ToolSys
import Verif.Props.Read
import Verif.Proof.Hist
import Verif.Proof.FarmInv
/-! Lemmas about tools and rings. -/
namespace Shr

/-- The rings as the tool finds them: each is in the state to which its history leads, and the tool's handles are open. -/
structure World.Start {τ : Type} (P : Proc τ) (w : World τ) : Prop where
  run : ∀ i, ∃ outs, (Sys.init (w.rings i).a).run (w.rings i).pre = .ok ((w.rings i).sys, outs)
  new : ∀ i, (w.rings i).ops = [] ∧ (w.rings i).outs = []
  own : ∀ i k f, P.own i = some (k, f) → ∃ h, (w.rings i).sys.hs k = .live h ∧ h.flags = f

/-- All calls that were made on the rings satisfy what the library demands of its callers (`Valid`). -/
def World.Valid {τ : Type} (w : World τ) : Prop := ∀ i, Shr.Valid (w.rings i).a ((w.rings i).pre ++ (w.rings i).ops)

structure World.Inv {τ : Type} (P : Proc τ) (w : World τ) : Prop where
  run : ∀ i, ∃ outs, (Sys.init (w.rings i).a).run ((w.rings i).pre ++ (w.rings i).ops) = .ok ((w.rings i).sys, outs)
  len : ∀ i, (w.rings i).outs.length = (w.rings i).ops.length
  own : ∀ i k f, P.own i = some (k, f) → ∃ h, (w.rings i).sys.hs k = .live h ∧ h.flags = f

/-- The calls that tools make. -/
def Proc.Tame {τ : Type} (P : Proc τ) : Prop := ∀ t i op, P.call t i op →
  ∃ k f, P.own i = some (k, f) ∧ ((f = READER ∧ ReadCall k op) ∨ (f = WRITER ∧ ∃ ms, WriteCall k ms op))

theorem sys_step_other {s s' : Sys} {op : Op} {o : Out} {k : Nat} (h : s.step op = .ok (s', o)) (hk : op.handle ≠ k) : s'.hs k = s.hs k := by
  have h' : k ≠ op.handle := fun e => hk e.symm
  cases op <;> unfold Sys.step at h <;> dsimp only at h <;> dsimp only [Op.handle] at h'
  all_goals repeat' split at h
  all_goals first
    | (cases h; done)
    | (cases h; rfl)
    | (cases h; exact upd_other _ _ h')

theorem Rel.live' {s : Sys} {sp : Spec} (h : Rel s sp) {k : Nat} {sh : SHandle} (hk : sp.hs k = .live sh) :
    ∃ hd, s.hs k = .live hd ∧ HRel sp hd sh := by
  have := h.hs k
  rw [hk] at this
  cases h2 : s.hs k with
  | never => rw [h2] at this; exact this.elim
  | live hd => rw [h2] at this; exact ⟨hd, rfl, this⟩
  | gone b => rw [h2] at this; exact this.elim

theorem readv_flags (sp : Spec) (sh : SHandle) (buf : List Byte) (niov : Nat) (env : Env) : (sp.readv sh buf niov env).2.1.flags = sh.flags := by
  unfold Spec.readv Spec.catchUp
  dsimp only
  repeat' split
  all_goals rfl

theorem writev_flags (sp : Spec) (k : Nat) (sh : SHandle) (ms : List Msg) (e1 e2 : Env) : (sp.writev k sh ms e1 e2).2.1.flags = sh.flags := by
  unfold Spec.writev
  dsimp only
  repeat' split
  all_goals rfl

section
variable {a : InitArgs} {ops : List Op} {s s' : Sys} {outs : List Out} {o : Out} {k : Nat} {h : Handle}

/-- What the result of a `shr_read` into a large buffer is. -/
def Read1 (buf : List Byte) (o : Out) : Prop :=
  (∃ rc : Int, rc ≤ 0 ∧ o = .read rc [] buf) ∨
  (∃ m buf', m ≠ [] ∧ o = .read m.length [(0, m.length)] buf' ∧ buf'.take m.length = m ∧ m.length ≤ buf.length)

theorem read_once {buf : List Byte} {env : Env} (v : Valid a (ops ++ [.readv k buf 1 env]))
    (hrun : (Sys.init a).run ops = .ok (s, outs)) (hstep : s.step (.readv k buf 1 env) = .ok (s', o))
    (hk : s.hs k = .live h) (hf : h.flags = READER) (hb : buf ≠ []) :
    Read1 buf o ∧ ∃ h', s'.hs k = .live h' ∧ h'.flags = READER := by
  have hr : h.flags.has SHR_RDONLY = true := by rw [hf]; decide
  have hnb : h.flags.has SHR_NONBLOCK = true := by rw [hf]; decide
  have hfl : ∃ h', s'.hs k = .live h' ∧ h'.flags = READER := by
    obtain ⟨sp, x⟩ := v.at hrun hstep
    obtain ⟨sh, hsk, hh⟩ := x.rel.live hk
    have hrel' := x.rel'
    rw [step_readv_eq hsk (by rw [← hh.flags]; exact hr)] at hrel'
    obtain ⟨h', e1, e2⟩ := hrel'.live' (k := k) (sh := (sp.readv sh buf 1 env).2.1) (by simp [upd])
    exact ⟨h', e1, by rw [e2.flags, readv_flags, ← hh.flags, hf]⟩
  refine ⟨?_, hfl⟩
  by_cases hlk : env.lockOk = true
  · by_cases hU : s.ring.readableBy h = []
    · left
      obtain ⟨sp, sh, h', x, hsk, hh, _, _, e, c1, _⟩ := read_cases v hrun hstep hk hr hb (by decide) hlk
      obtain ⟨_, ho⟩ := c1 (by rw [← e]; exact hU)
      rw [if_pos hnb] at ho
      exact ⟨0, by omega, ho⟩
    · obtain ⟨t, iov, buf', ho, ht, htl, hby, _, hil, him, hij, hbl, hdr, _⟩ := C09_longest_prefix v hrun hstep hk hr hb (by decide) hlk hU
      rcases Nat.eq_zero_or_pos t with rfl | htp
      · left
        rw [if_pos rfl] at ho
        rw [List.length_eq_zero_iff] at hil
        subst hil
        refine ⟨-2, by omega, ?_⟩
        simp only [List.take_zero] at hdr
        have : bytesOf ([] : List Msg) = 0 := rfl
        rw [this, List.drop_zero, List.drop_zero] at hdr
        rw [ho, hdr]
      · right
        have ht1 : t = 1 := by omega
        subst ht1
        cases hrb : s.ring.readableBy h with
        | nil => exact absurd hrb hU
        | cons m U =>
          rw [hrb] at ho him hij hby
          have h0 := hij 0 (by omega)
          have hm : m ≠ [] := by
            obtain ⟨sp, sh, h', x, hsk, hh, _, _, e, _⟩ := read_cases v hrun hstep hk hr hb (by decide) hlk
            exact readable_ne x.rel.ring sh m (by rw [← e, hrb]; simp)
          cases iov with
          | nil => simp at hil
          | cons e iov =>
            have : iov = [] := by simpa using hil
            subst this
            simp only [List.getElem?_cons_zero, Option.some.injEq, List.take_zero, List.getD_cons_zero] at h0
            have hz : bytesOf ([] : List Msg) = 0 := rfl
            rw [hz] at h0
            subst h0
            refine ⟨m, buf', hm, ?_, ?_, by simpa [bytesOf] using hby⟩
            · rw [ho, if_neg (by omega)]
              have : bytesOf ([m].take 1) = m.length := by simp [bytesOf]
              simp [bytesOf]
            · simpa [sliceOf] using him
  · left
    obtain ⟨sp, x⟩ := v.at hrun hstep
    obtain ⟨sh, hsk, hh⟩ := x.rel.live hk
    have ho := x.out
    rw [step_readv_eq hsk (by rw [← hh.flags]; exact hr)] at ho
    unfold Spec.readv at ho
    rw [if_pos (.inr (.inr (by simpa using hlk)))] at ho
    exact ⟨-1, by omega, ho⟩

/-- What the result of a write on a blocking handle is. -/
def Write1 (ms : List Msg) (o : Out) : Prop :=
  o = .blocked ∨ (∃ rc : Int, rc < 0 ∧ o = .wrote rc) ∨ (ms ≠ [] ∧ o = .wrote (bytesOf ms) ∧ 0 < bytesOf ms)

theorem write_once {ms : List Msg} {envF env : Env} (v : Valid a (ops ++ [.writev k ms envF env]))
    (hrun : (Sys.init a).run ops = .ok (s, outs)) (hstep : s.step (.writev k ms envF env) = .ok (s', o))
    (hk : s.hs k = .live h) (hf : h.flags = WRITER) :
    Write1 ms o ∧ ∃ h', s'.hs k = .live h' ∧ h'.flags = WRITER := by
  have hw : h.flags.has SHR_WRONLY = true := by rw [hf]; decide
  obtain ⟨sp, x⟩ := v.at hrun hstep
  obtain ⟨sh, hsk, hh⟩ := x.rel.live hk
  have hrel' := x.rel'
  have ho := x.out
  rw [step_writev_eq hsk (by rw [← hh.flags]; exact hw)] at hrel' ho
  obtain ⟨h', e1, e2⟩ := hrel'.live' (k := k) (sh := (sp.writev k sh ms envF env).2.1) (by simp [upd])
  refine ⟨?_, h', e1, by rw [e2.flags, writev_flags, ← hh.flags, hf]⟩
  have hbuf : sh.flags.has SHR_BUFFERED = false := by rw [← hh.flags, hf]; decide
  have hnb : sh.flags.has SHR_NONBLOCK = false := by rw [← hh.flags, hf]; decide
  dsimp only at ho
  unfold Spec.writev at ho
  dsimp only at ho
  by_cases hl : Legal sp.cap sp.maxm ms
  · rw [if_neg (by simpa using hl), if_pos hbuf, hnb] at ho
    unfold Spec.tryWrite at ho
    have hpos : 0 < bytesOf ms := by
      obtain ⟨h1, h2, _⟩ := hl
      cases ms with
      | nil => exact absurd rfl h1
      | cons m ms =>
        have := List.length_pos_iff.mpr (h2 m (by simp))
        simp [bytesOf]; omega
    repeat' split at ho
    · exact .inr (.inl ⟨-1, by omega, ho⟩)
    · exact .inr (.inl ⟨-1, by omega, ho⟩)
    · exact .inr (.inl ⟨-1, by omega, ho⟩)
    · refine .inr (.inr ⟨?_, ho, hpos⟩)
      rintro rfl; exact absurd hpos (by decide)
    all_goals first
      | (rename_i sc _; cases sc <;> exact .inr (.inl ⟨_, by decide, ho⟩))
      | exact .inl ho
      | (rename_i hx; cases hx)
  · rw [if_pos hl] at ho
    exact .inr (.inl ⟨-1, by omega, ho⟩)

end

/-! ## Runs -/

theorem upd_same' {α : Type} (f : Nat → α) (k : Nat) (v : α) : upd f k v k = v := by simp [upd]

section
variable {τ : Type} {P : Proc τ} {w w' : World τ}

theorem World.Start.inv (h : w.Start P) : w.Inv P where
  run i := by obtain ⟨o, e⟩ := h.run i; exact ⟨o, by rw [(h.new i).1, List.append_nil]; exact e⟩
  len i := by rw [(h.new i).1, (h.new i).2]; rfl
  own := h.own

/-- A call on one ring. -/
theorem World.Inv.ring_call (h : w.Inv P) {i : Nat} {op : Op} {s : Sys} {o : Out} (hs : (w.rings i).sys.step op = .ok (s, o)) :
    ∃ outs, (Sys.init (w.rings i).a).run ((w.rings i).pre ++ ((w.rings i).ops ++ [op])) = .ok (s, outs) := by
  obtain ⟨outs, e⟩ := h.run i
  refine ⟨outs ++ [o], ?_⟩
  rw [← List.append_assoc, sys_run_append, e]
  dsimp only [Sys.run]
  rw [hs]

theorem World.Inv.update (h : w.Inv P) {i : Nat} {op : Op} {s : Sys} {o : Out} {t : τ} (hs : (w.rings i).sys.step op = .ok (s, o))
    (hown : ∀ k f, P.own i = some (k, f) → ∃ h, s.hs k = .live h ∧ h.flags = f) :
    World.Inv P { rings := upd w.rings i ((w.rings i).add s op o), tool := t } where
  run j := by
    by_cases e : j = i
    · subst e; dsimp only; rw [upd_same']; exact h.ring_call hs
    · dsimp only; rw [upd_other _ _ e]; exact h.run j
  len j := by
    by_cases e : j = i
    · subst e; dsimp only; rw [upd_same']; simp [RingLog.add, h.len]
    · dsimp only; rw [upd_other _ _ e]; exact h.len j
  own j k f hj := by
    by_cases e : j = i
    · subst e; dsimp only; rw [upd_same']; exact hown k f hj
    · dsimp only; rw [upd_other _ _ e]; exact h.own j k f hj

theorem World.Valid.at_ring {i : Nat} {op : Op} {s : Sys} {o : Out} {t : τ}
    (v : World.Valid (τ := τ) { rings := upd w.rings i ((w.rings i).add s op o), tool := t }) :
    Shr.Valid (w.rings i).a (((w.rings i).pre ++ (w.rings i).ops) ++ [op]) := by
  have := v i
  dsimp only at this
  rw [upd_same'] at this
  rw [List.append_assoc]; exact this

/-- Result of a call by the tool. -/
theorem World.Inv.tool_read (h : w.Inv P) {i k : Nat} {op : Op} {s : Sys} {o : Out}
    (v : Shr.Valid (w.rings i).a (((w.rings i).pre ++ (w.rings i).ops) ++ [op])) (hs : (w.rings i).sys.step op = .ok (s, o))
    (hown : P.own i = some (k, READER)) (hc : ReadCall k op) :
    (∃ buf, Read1 buf o ∧ buf.length = BUFLEN) ∧ ∃ h', s.hs k = .live h' ∧ h'.flags = READER := by
  obtain ⟨buf, env, hb, rfl⟩ := hc
  obtain ⟨outs, e⟩ := h.run i
  obtain ⟨hd, hk, hf⟩ := h.own i k _ hown
  have hne : buf ≠ [] := by rintro rfl; simp [BUFLEN] at hb
  obtain ⟨h1, h2⟩ := read_once v e hs hk hf hne
  exact ⟨⟨buf, h1, hb⟩, h2⟩

theorem World.Inv.tool_write (h : w.Inv P) {i k : Nat} {ms : List Msg} {op : Op} {s : Sys} {o : Out}
    (v : Shr.Valid (w.rings i).a (((w.rings i).pre ++ (w.rings i).ops) ++ [op])) (hs : (w.rings i).sys.step op = .ok (s, o))
    (hown : P.own i = some (k, WRITER)) (hc : WriteCall k ms op) :
    Write1 ms o ∧ ∃ h', s.hs k = .live h' ∧ h'.flags = WRITER := by
  obtain ⟨e1, e2, rfl⟩ := hc
  obtain ⟨outs, e⟩ := h.run i
  obtain ⟨hd, hk, hf⟩ := h.own i k _ hown
  exact write_once v e hs hk hf

theorem World.Inv.step (ht : P.Tame) (h : w.Inv P) (v : w'.Valid) (hst : World.Step P w w') : w'.Inv P := by
  cases hst with
  | other hne hs =>
    refine h.update hs fun k f hk => ?_
    rw [sys_step_other hs (hne k f hk)]
    exact h.own _ k f hk
  | call hc hs hr =>
    refine h.update hs fun k f hk => ?_
    obtain ⟨k', f', e, hc | hc⟩ := ht _ _ _ hc
    · rw [hk] at e
      cases e
      obtain ⟨rfl, hc⟩ := hc
      exact (h.tool_read v.at_ring hs hk hc).2
    · rw [hk] at e
      cases e
      obtain ⟨rfl, ms, hc⟩ := hc
      exact (h.tool_write v.at_ring hs hk hc).2
  | event _ => exact ⟨h.run, h.len, h.own⟩

theorem World.Valid.before (v : w'.Valid) (hst : World.Step P w w') : w.Valid := by
  intro j
  cases hst with
  | @other i op s o hne hs =>
    have := v j
    by_cases e : j = i
    · subst e
      dsimp only at this
      rw [upd_same'] at this
      refine Shr.Valid.left (ys := [op]) ?_
      rw [List.append_assoc]; exact this
    · dsimp only at this
      rw [upd_other _ _ e] at this
      exact this
  | @call i op s o t hc hs hr =>
    have := v j
    by_cases e : j = i
    · subst e
      dsimp only at this
      rw [upd_same'] at this
      refine Shr.Valid.left (ys := [op]) ?_
      rw [List.append_assoc]; exact this
    · dsimp only at this
      rw [upd_other _ _ e] at this
      exact this
  | event _ => exact v j

theorem World.Reach.inv {w0 : World τ} (ht : P.Tame) (h0 : w0.Start P) (hr : World.Reach P w0 w) (v : w.Valid) : w.Inv P := by
  induction hr with
  | refl => exact h0.inv
  | step _ hst ih => exact (ih (v.before hst)).step ht v hst

/-- Induction over the runs of a tool. -/
theorem World.Reach.induct {w0 : World τ} {J : World τ → Prop} (ht : P.Tame) (h0 : w0.Start P) (hJ : J w0)
    (hstep : ∀ w w', w.Inv P → w'.Valid → World.Step P w w' → J w → J w') (hr : World.Reach P w0 w) (v : w.Valid) : J w := by
  induction hr with
  | refl => exact hJ
  | step hr hst ih => exact hstep _ _ (hr.inv ht h0 (v.before hst)) v hst (ih (v.before hst))

end

/-! ## What a ring's log says about the tool's handle -/

/-- Messages that the tool's calls took from ring `i`, and put into it, since it was started. -/
def RingLog.taken (l : RingLog) (k : Nat) : List Msg := deliveredTo k l.ops l.outs
def RingLog.put (l : RingLog) (k : Nat) : List Msg := acceptedFrom k l.ops l.outs

theorem RingLog.taken_add {l : RingLog} (h : l.outs.length = l.ops.length) (k : Nat) (s : Sys) (op : Op) (o : Out) :
    (l.add s op o).taken k = l.taken k ++ if op.handle = k then o.msgs else [] := deliveredTo_snoc k _ _ _ _ h

theorem RingLog.put_add {l : RingLog} (h : l.outs.length = l.ops.length) (k : Nat) (s : Sys) (op : Op) (o : Out) :
    (l.add s op o).put k = l.put k ++ if op.handle = k then acceptedBy op o else [] := acceptedFrom_snoc k _ _ _ _ h

theorem Read1.msgs {buf : List Byte} {o : Out} (h : Read1 buf o) :
    (∃ rc : Int, rc ≤ 0 ∧ o = .read rc [] buf ∧ o.msgs = []) ∨
    (∃ m buf', m ≠ [] ∧ o = .read m.length [(0, m.length)] buf' ∧ buf'.take m.length = m ∧ o.msgs = [m]) := by
  rcases h with ⟨rc, h1, rfl⟩ | ⟨m, buf', h1, rfl, h2, _⟩
  · exact .inl ⟨rc, h1, rfl, rfl⟩
  · exact .inr ⟨m, buf', h1, rfl, h2, by simp [Out.msgs, sliceOf, h2]⟩

theorem Read1.len {buf : List Byte} {o : Out} (h : Read1 buf o) : ∀ m ∈ o.msgs, m.length ≤ buf.length := by
  intro m hm
  rcases h with ⟨rc, h1, rfl⟩ | ⟨m', buf', h1, rfl, h2, h3⟩
  · simp [Out.msgs] at hm
  · have : m = m' := by simpa [Out.msgs, sliceOf, h2] using hm
    rw [this]; exact h3

/-- The result as the tool sees it. -/
theorem Read1.result {buf : List Byte} {o : Out} (h : Read1 buf o) :
    ∃ rc iov buf', o = .read rc iov buf' ∧
      ((rc < 0 ∧ readResult rc buf' = .error rc ∧ o.msgs = []) ∨ (rc = 0 ∧ readResult rc buf' = .ok [] ∧ o.msgs = []) ∨
        ∃ m, m ≠ [] ∧ 0 < rc ∧ buf'.take rc.toNat = m ∧ readResult rc buf' = .ok m ∧ o.msgs = [m]) := by
  rcases h.msgs with ⟨rc, h1, rfl, h2⟩ | ⟨m, buf', h1, rfl, h2, h3⟩
  · refine ⟨rc, [], buf, rfl, ?_⟩
    by_cases hz : rc < 0
    · exact .inl ⟨hz, by rw [readResult, if_pos hz], h2⟩
    · have : rc = 0 := by omega
      subst this
      exact .inr (.inl ⟨rfl, by rw [readResult, if_neg (by omega)]; simp, h2⟩)
  · refine ⟨m.length, _, buf', rfl, .inr (.inr ⟨m, h1, ?_, by simpa using h2, ?_, h3⟩)⟩
    · have := List.length_pos_iff.mpr h1; omega
    · rw [readResult, if_neg (by omega)]; simp [h2]

theorem Write1.result {ms : List Msg} {o : Out} (h : Write1 ms o) {k : Nat} {op : Op} (hc : WriteCall k ms op) :
    (o = .blocked ∧ acceptedBy op o = []) ∨ (∃ rc : Int, rc < 0 ∧ o = .wrote rc ∧ acceptedBy op o = []) ∨
    (∃ rc : Int, ¬ rc < 0 ∧ o = .wrote rc ∧ acceptedBy op o = ms) := by
  obtain ⟨e1, e2, rfl⟩ := hc
  rcases h with rfl | ⟨rc, h1, rfl⟩ | ⟨_, rfl, h2⟩
  · exact .inl ⟨rfl, rfl⟩
  · exact .inr (.inl ⟨rc, h1, rfl, by simp only [acceptedBy]; rw [if_neg (by omega)]⟩)
  · exact .inr (.inr ⟨_, by omega, rfl, by simp only [acceptedBy]; rw [if_pos (by omega)]⟩)

theorem ReadCall.handle {k : Nat} {op : Op} (h : ReadCall k op) : op.handle = k := by obtain ⟨_, _, _, rfl⟩ := h; rfl
theorem WriteCall.handle {k : Nat} {ms : List Msg} {op : Op} (h : WriteCall k ms op) : op.handle = k := by obtain ⟨_, _, rfl⟩ := h; rfl

end Shr
