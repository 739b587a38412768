import Verif.Props.Read
import Verif.Props.History
/-!
# Properties in terms of calls and results alone

The theorems of `Props/History.lean` speak about the messages stored in the ring.  Here the history
ends with a read that returned 0, and the statements involve nothing but what was called and
what was returned.
-/
namespace Shr

/-- A read that returns 0 found nothing to read. -/
theorem spec_read_zero {r : Ring} {sp : Spec} (hr : RingRel r sp) {k : Nat} {buf : List Byte} {niov : Nat} {env : Env}
    {iov : List (Nat × Nat)} {buf' : List Byte} (h : (sp.step (.readv k buf niov env)).2 = .read 0 iov buf') :
    ∃ sh, sp.hs k = .live sh ∧ sp.readable sh = [] ∧ iov = [] ∧
      (sp.step (.readv k buf niov env)).1 = { sp with hs := upd sp.hs k (.live (sp.catchUp sh)) } := by
  unfold Spec.step at h ⊢
  dsimp only at h ⊢
  cases hk : sp.hs k with
  | never => rw [hk] at h; cases h
  | gone b => rw [hk] at h; cases h
  | live sh =>
    rw [hk] at h
    dsimp only at h ⊢
    split at h
    · cases h
    rename_i h1
    rw [if_neg h1]
    unfold Spec.readv at h ⊢
    split at h
    · simp only [Out.read.injEq] at h; omega
    rename_i h2
    rw [if_neg h2]
    dsimp only at h ⊢
    by_cases hU : sp.readable sh = []
    · rw [if_pos hU] at h ⊢
      by_cases h3 : sh.flags.has SHR_NONBLOCK = true
      · rw [if_pos h3] at h ⊢
        injection h with _ h _
        exact ⟨sh, rfl, hU, h.symm, rfl⟩
      · rw [if_neg h3] at h
        exfalso
        cases hw : env.waitRc with
        | none => rw [hw] at h; cases h
        | some sc => rw [hw] at h; injection h with h _ _; cases sc <;> simp [WaitErr.rc] at h
    · rw [if_neg hU] at h
      injection h with h _ _
      exfalso
      split at h
      · cases h
      · rename_i ht
        have : 0 < bytesOf ((sp.readable sh).take (takeCount (sp.readable sh) (min buf.length SSIZE_MAX) niov)) := by
          apply bytesOf_pos
          · intro b hb; exact readable_ne hr sh b (List.mem_of_mem_take hb)
          · simp [ht, hU]
        omega

theorem spec_open {sp : Spec} {k : Nat} {flags : Flags} {env : Env} (hk : sp.hs k = .never)
    (h : (sp.step (.open k flags env)).2 = .opened true) :
    ∃ sh0, (sp.step (.open k flags env)).1.hs k = .live sh0 ∧ sh0.pos = sp.base ∧ sh0.missed = 0 ∧
      (sp.step (.open k flags env)).1.log = sp.log := by
  unfold Spec.step at h ⊢
  dsimp only at h ⊢
  rw [hk] at h ⊢
  dsimp only at h ⊢
  split at h
  · cases h
  rename_i h1
  rw [if_neg h1]
  split at h
  · cases h
  · rename_i sh0 heq
    refine ⟨sh0, upd_same _ _ _, ?_, ?_, rfl⟩
    all_goals
      unfold Spec.openH at heq
      dsimp only at heq
      split at heq
      · cases heq
      · cases heq; rfl

section
variable {a : InitArgs} {ops : List Op} {s s' : Sys} {outs : List Out} {k niov : Nat} {buf buf' : List Byte}
  {env : Env} {iov : List (Nat × Nat)}

/-- **C01**, in terms of calls and results: at any time, what was delivered is a prefix of what was accepted. -/
theorem C01_delivered_prefix (v : Valid a ops) (hd : a.flags.has SHR_DROP = false)
    (hf : a.flags.has SHR_FARM = false) (hu : Unbuffered ops) (hg : ∀ op ∈ ops, op.good)
    (hrun : (Sys.init a).run ops = .ok (s, outs)) : delivered outs <+: accepted ops outs :=
  ⟨_, C01_fifo_exactly_once v hd hf hu hg hrun⟩

/-- **C01**, in terms of calls and results: once any read (by whichever reader) returns 0, what was delivered is
exactly what was accepted, in the same order. -/
theorem C01_drained (v : Valid a (ops ++ [.readv k buf niov env])) (hd : a.flags.has SHR_DROP = false)
    (hf : a.flags.has SHR_FARM = false) (hu : Unbuffered ops) (hg : ∀ op ∈ ops, op.good)
    (hrun : (Sys.init a).run ops = .ok (s, outs))
    (hstep : s.step (.readv k buf niov env) = .ok (s', .read 0 iov buf')) :
    delivered outs = accepted ops outs := by
  have h1 := C01_fifo_exactly_once v.left hd hf hu hg hrun
  obtain ⟨sp, x⟩ := v.at hrun hstep
  obtain ⟨sh, _, hU, _⟩ := spec_read_zero x.rel.ring x.out.symm
  have : s.ring.unreadMsgs = [] := by
    rw [x.rel.ring.unreadMsgs]
    unfold Spec.readable at hU
    rw [x.farm, hf] at hU
    simpa using hU
  rw [this, List.append_nil] at h1
  exact h1

/-- **C14, C16**, in terms of calls and results: a farm reader that was opened before anything was written and then reads
until it gets 0 has been delivered exactly the accepted messages, in order, except those it missed; their number is what
`shr_farm_stat` tells (now, and at earlier resets). -/
theorem C14_drained {k : Nat} {flags : Flags} {env0 env : Env} {s1 s2 s3 s4 : Sys} {n : Nat} {reset : Bool}
    (hf : a.flags.has SHR_FARM = true)
    (v : Valid a ([.open k flags env0] ++ (ops ++ [.readv k buf niov env])))
    (hu : Unbuffered ([.open k flags env0] ++ ops)) (hg : ∀ op ∈ ops, op.good)
    (hopen : (Sys.init a).step (.open k flags env0) = .ok (s1, .opened true))
    (hcont : s1.run ops = .ok (s2, outs))
    (hread : s2.step (.readv k buf niov env) = .ok (s3, .read 0 iov buf'))
    (hstat : s3.step (.farmStat k reset) = .ok (s4, .farm n)) :
    ∃ X : List (Msg × Bool), X.map Prod.fst = accepted ops outs ∧ kept X = deliveredTo k ops outs ∧
      (lostIn X).length % W = (missedReported k ops outs + n) % W := by
  have hrun1 : (Sys.init a).run [.open k flags env0] = .ok (s1, [.opened true]) := by
    dsimp only [Sys.run]; rw [hopen]
  have hrun2 : (Sys.init a).run ([.open k flags env0] ++ ops) = .ok (s2, [.opened true] ++ outs) := by
    rw [sys_run_append, hrun1]; dsimp only; rw [hcont]
  have hcont3 : s1.run (ops ++ [.readv k buf niov env]) = .ok (s3, outs ++ [.read 0 iov buf']) := by
    rw [sys_run_append, hcont]; dsimp only [Sys.run]; rw [hread]
  have hrun3 : (Sys.init a).run ([.open k flags env0] ++ (ops ++ [.readv k buf niov env])) =
      .ok (s3, [.opened true] ++ (outs ++ [.read 0 iov buf'])) := by
    rw [sys_run_append, hrun1]; dsimp only; rw [hcont3]
  have v2 : Valid a ([.open k flags env0] ++ ops ++ [.readv k buf niov env]) := by
    rw [List.append_assoc]; exact v
  have hlen : outs.length = ops.length := by
    have := sys_run_length _ _ _ _ hcont; exact this
  -- the open
  obtain ⟨spa, xa, ea, eo⟩ := (v2.left).left.state hrun1
  have hop : ∃ sh0, (specAfter a [.open k flags env0]).hs k = .live sh0 ∧ sh0.pos = 0 ∧ sh0.missed = 0 ∧
      (specAfter a [.open k flags env0]).log = [] := by
    have e1 : specAfter a [.open k flags env0] = ((Spec.init a).step (.open k flags env0)).1 := rfl
    have e2 : ((Spec.init a).step (.open k flags env0)).2 = .opened true := by
      have : [((Spec.init a).step (.open k flags env0)).2] = [Out.opened true] := eo.symm
      simpa using this
    rw [e1]
    exact spec_open (sp := Spec.init a) rfl e2
  obtain ⟨sh0, h1, h2, h3, h4⟩ := hop
  -- the last read
  obtain ⟨spx, r1, r2, eo2, w, hspx⟩ := v2.last hrun2 hread
  obtain ⟨sh, hk, hU, hiov, hst⟩ := spec_read_zero r1.ring eo2.symm
  subst hiov
  have hfin : specAfter a ([.open k flags env0] ++ (ops ++ [.readv k buf niov env])) =
      { spx with hs := upd spx.hs k (.live (spx.catchUp sh)) } := by
    rw [← List.append_assoc, specAfter_snoc, ← hst, hspx]
  have hfarm : spx.farm = true := by
    obtain ⟨_, _, p3⟩ := spec_params a ([.open k flags env0] ++ ops)
    have : spx.gflags = a.gflags := by rw [hspx]; exact p3
    unfold Spec.farm; rw [this, gflags_farm]; exact hf
  have hlog : (specAfter a ([.open k flags env0] ++ (ops ++ [.readv k buf niov env]))).log = spx.log := by rw [hfin]; rfl
  have hsh : (specAfter a ([.open k flags env0] ++ (ops ++ [.readv k buf niov env]))).hs k = .live (spx.catchUp sh) := by
    rw [hfin]; exact upd_same _ _ _
  obtain ⟨X, hX⟩ := hist_farm hf hrun1 h1 h2 h3 (Nat.zero_le _) v hcont3 hsh
  have hpos : spx.log.length ≤ (spx.catchUp sh).pos := by
    unfold Spec.readable at hU
    rw [if_pos hfarm] at hU
    have := List.drop_eq_nil_iff.mp hU
    unfold Spec.catchUp
    rw [if_pos hfarm]
    exact this
  have hXlog := hX.log
  rw [hlog, List.drop_zero, Nat.sub_zero, List.take_of_length_le hpos] at hXlog
  obtain ⟨new, e1, _, e3⟩ := hist_entered_from hrun1 v2.left hu hcont
  rw [h4, List.nil_append, e3 hg] at e1
  have hsl : spx.log = accepted ops outs := by rw [← e1, hspx]
  refine ⟨X, by rw [← hXlog, hsl], ?_, ?_⟩
  · rw [hX.got, deliveredTo_snoc _ _ _ _ _ hlen]; simp [Out.msgs]
  · rw [← hX.md, missedReported_snoc _ _ _ _ _ hlen]
    have hn : n = (spx.catchUp sh).missed % W := by
      obtain ⟨spz, xz, ez, _⟩ := v.state hrun3
      have hz : spz.hs k = .live (spx.catchUp sh) := by rw [ez]; exact hsh
      unfold Sys.step at hstat
      dsimp only at hstat
      cases hk3 : s3.hs k with
      | never => rw [hk3] at hstat; cases hstat
      | gone b => rw [hk3] at hstat; cases hstat
      | live hd =>
        rw [hk3] at hstat
        dsimp only at hstat
        obtain ⟨sh', hs', hh⟩ := xz.rel.live hk3
        rw [hz] at hs'; cases hs'
        split at hstat
        · cases hstat
        · rename_i hro
          have hmd := hh.cur.md
          unfold exec shr_farm_stat at hstat
          rw [M.assert_bind_of (by simpa using hro)] at hstat
          rw [← hmd]
          cases reset <;> simp [pure, M.pure] at hstat <;> exact hstat.2.symm
    rw [hn]
    simp [missedBy]

theorem accepted_length_le : ∀ (ops : List Op) (outs : List Out), (accepted ops outs).length ≤ offered ops := by
  intro ops
  induction ops with
  | nil => intro outs; simp [accepted]
  | cons op ops ih =>
    intro outs
    cases outs with
    | nil => simp [accepted]
    | cons o outs =>
      have := ih outs
      rw [offered_cons]
      simp only [accepted, List.length_append]
      have h1 : (acceptedBy op o).length ≤ offered [op] := by
        unfold acceptedBy
        split
        · split <;> simp [offered]
        · simp
      omega

/-- **C14**, corollary: if no message is reported as missed, the reader was delivered exactly what was accepted. -/
theorem C14_nothing_missed {k : Nat} {flags : Flags} {env0 env : Env} {s1 s2 s3 s4 : Sys} {reset : Bool}
    (hf : a.flags.has SHR_FARM = true)
    (v : Valid a ([.open k flags env0] ++ (ops ++ [.readv k buf niov env])))
    (hu : Unbuffered ([.open k flags env0] ++ ops)) (hg : ∀ op ∈ ops, op.good)
    (hopen : (Sys.init a).step (.open k flags env0) = .ok (s1, .opened true))
    (hcont : s1.run ops = .ok (s2, outs))
    (hread : s2.step (.readv k buf niov env) = .ok (s3, .read 0 iov buf'))
    (hstat : s3.step (.farmStat k reset) = .ok (s4, .farm 0)) (hm : missedReported k ops outs = 0) :
    deliveredTo k ops outs = accepted ops outs := by
  obtain ⟨X, h1, h2, h3⟩ := C14_drained hf v hu hg hopen hcont hread hstat
  have hsmall : (accepted ops outs).length < W := by
    have h4 := accepted_length_le ops outs
    have h5 := v.count hf
    have h6 : offered ([.open k flags env0] ++ (ops ++ [.readv k buf niov env])) = offered ops := by
      have : ∀ l : List Op, offered (l ++ [.readv k buf niov env]) = offered l := by
        intro l
        induction l with
        | nil => rfl
        | cons x xs ih => rw [List.cons_append, offered_cons, ih, ← offered_cons]
      show offered (ops ++ _) = _
      exact this ops
    rw [h6] at h5
    have h7 : 1 ≤ ([Op.open k flags env0] ++ (ops ++ [Op.readv k buf niov env])).length := by simp
    have h8 : 1 * offered ops ≤ ([Op.open k flags env0] ++ (ops ++ [Op.readv k buf niov env])).length * offered ops :=
      Nat.mul_le_mul_right _ h7
    omega
  have hl : (lostIn X).length ≤ X.length := by unfold lostIn; rw [List.length_map]; exact List.length_filter_le _ _
  have hX : X.length = (accepted ops outs).length := by rw [← h1, List.length_map]
  rw [hm] at h3
  have h0 : (lostIn X).length = 0 := by
    rw [Nat.mod_eq_of_lt (by omega)] at h3; simpa using h3
  rw [← h2, ← h1]
  have hall : ∀ e ∈ X, e.2 = true := by
    intro e he
    cases hc : e.2
    case true => rfl
    exfalso
    have : e.1 ∈ lostIn X := by
      unfold lostIn
      exact List.mem_map.mpr ⟨e, List.mem_filter.mpr ⟨he, by simpa using hc⟩, rfl⟩
    rw [List.length_eq_zero_iff.mp h0] at this
    cases this
  unfold kept
  rw [List.filter_eq_self.mpr hall]

end

/-! ## Concrete cases -/

def Op.unbuf : Op → Bool
  | .open _ flags _ => !flags.has SHR_BUFFERED
  | _ => true

theorem unbuffered_of {ops : List Op} (h : ops.all Op.unbuf = true) : Unbuffered ops := by
  intro op ho k flags env e
  have := List.all_eq_true.mp h op ho
  subst e
  simpa [Op.unbuf] using this

instance (op : Op) : Decidable op.good := by cases op <;> unfold Op.good <;> infer_instance

theorem good_of {ops : List Op} (h : ops.all (fun op => decide op.good) = true) : ∀ op ∈ ops, op.good :=
  fun op ho => of_decide_eq_true (List.all_eq_true.mp h op ho)

/-- Three messages, the third straddling the end of the data area, read one and then two at a time. -/
example : delivered (outsOf demoA (demoOps ++ [rd 1 20 5])) = [[1, 2, 3], [4, 5, 6, 7], [8, 9, 10, 11]] := by
  have v : Valid demoA ((demoOps ++ [rd 1 20 5]) ++ [rd 1 20 5]) := valid_of (by decide +kernel)
  have h3 : lastOut demoA ((demoOps ++ [rd 1 20 5]) ++ [rd 1 20 5]) = .read 0 [] (List.replicate 20 0) := by decide +kernel
  rw [C01_drained v (by decide +kernel) (by decide +kernel) (unbuffered_of (by decide +kernel)) (good_of (by decide +kernel))
    v.left.runs (h3 ▸ v.steps)]
  decide +kernel

/-- A farm reader and a writer; the reader misses the first message. -/
def drainOps : List Op := [opn 0 (SHR_WRONLY ||| SHR_NONBLOCK), wr 0 [[1, 2, 3], [4, 5, 6, 7]], wr 0 [[8, 9, 10, 11]],
  rd 1 4 1, rd 1 9 4]

example : ∃ X : List (Msg × Bool), X.map Prod.fst = [[1, 2, 3], [4, 5, 6, 7], [8, 9, 10, 11]] ∧
    kept X = [[4, 5, 6, 7], [8, 9, 10, 11]] ∧ (lostIn X).length % W = 1 := by
  have v : Valid demoF ([opn 1 (SHR_RDONLY ||| SHR_NONBLOCK)] ++ (drainOps ++ [rd 1 9 4])) := valid_of (by decide +kernel)
  have v3 : Valid demoF (([opn 1 (SHR_RDONLY ||| SHR_NONBLOCK)] ++ drainOps) ++ [rd 1 9 4] ++ [.farmStat 1 false]) :=
    valid_of (by decide +kernel)
  have h2 : lastOut demoF (([opn 1 (SHR_RDONLY ||| SHR_NONBLOCK)] ++ drainOps) ++ [rd 1 9 4]) =
    .read 0 [] (List.replicate 9 0) := by decide +kernel
  have h3 : lastOut demoF (([opn 1 (SHR_RDONLY ||| SHR_NONBLOCK)] ++ drainOps) ++ [rd 1 9 4] ++ [.farmStat 1 false]) =
    .farm 1 := by decide +kernel
  have ho : (Sys.init demoF).step (opn 1 (SHR_RDONLY ||| SHR_NONBLOCK)) =
      .ok (final demoF ([] ++ [opn 1 (SHR_RDONLY ||| SHR_NONBLOCK)]), .opened true) := by
    have h4 : lastOut demoF ([] ++ [opn 1 (SHR_RDONLY ||| SHR_NONBLOCK)]) = .opened true := by decide +kernel
    have v0 : Valid demoF ([] ++ [opn 1 (SHR_RDONLY ||| SHR_NONBLOCK)]) := v.left
    exact h4 ▸ v0.steps
  obtain ⟨X, e1, e2, e3⟩ := C14_drained (a := demoF) (ops := drainOps) (by decide +kernel) v
    (unbuffered_of (by decide +kernel)) (good_of (by decide +kernel)) ho v3.left.left.cont (h2 ▸ v3.left.steps) (h3 ▸ v3.steps)
  exact ⟨X, e1.trans (by decide +kernel), e2.trans (by decide +kernel), e3.trans (by decide +kernel)⟩

end Shr
