import Verif.Proof.Safe
import Verif.Props.Crash
import Verif.Spec.Consistent
/-!
# C105, C106: memory safety and termination survive any death

A killed or aborted process can leave the numbers of the control block contradicting each other (C33, C95), and later calls may then deliver garbage
or fail an assertion.  Here: what cannot happen, whatever the state left behind.
-/
namespace Shr

/-- What a C program can pass: buffers that are objects in memory (so at most PTRDIFF_MAX bytes long each), and for `shr_appdata` buffers of the size it says,
if it only gets the data not more than there are (a larger buffer makes the library read too far: `C25_counterexample_overread`).  Empty messages, empty vectors, vectors that are too long or too big, and handles opened for both reading and writing are all allowed. -/
def Op.Fair (appLen : Nat) : Op → Prop
  | .writev _ iov _ _ => ∀ b ∈ iov, b.length ≤ SSIZE_MAX
  | .readv _ buf _ _ => buf.length < W
  | .stat _ (some t) _ => t.1 < W ∧ t.2 < W
  | .appdata _ get set sz _ => AppWF appLen get set sz
  | _ => True

/-- The life of a ring with deaths, no matter what they leave behind: calls that complete, and calls in whose course the caller dies (killed before
or after any store, or by a failed assertion). -/
inductive Wrecked (a : InitArgs) : Sys → Prop where
  | new : Wrecked a (Sys.init a)
  | call {s s' : Sys} {op : Op} {o : Out} : Wrecked a s → op.Fair a.appsize → s.step op = .ok (s', o) → Wrecked a s'
  | death {s : Sys} {op : Op} {p : Ring} : Wrecked a s → op.Fair a.appsize → p ∈ s.points op → Wrecked a (s.killed op p)

/-- All numbers that positions are computed from are in range, in the ring and in all handles. -/
structure SysSafe (G : Flags) (n mm al : Nat) (s : Sys) : Prop where
  ring : Sane G n mm al s.ring
  hs : ∀ k h, s.hs k = .live h → HSafe n mm h

section
variable {α : Type} {G : Flags} {n mm al : Nat} {s : Sys}

theorem SysSafe.put (h : SysSafe G n mm al s) {r : Ring} (hr : Sane G n mm al r) {k : Nat} {hd : Handle} (hh : HSafe n mm hd) :
    SysSafe G n mm al ⟨r, upd s.hs k (.live hd)⟩ := by
  refine ⟨hr, ?_⟩
  intro j h' e
  by_cases hj : j = k
  · subst hj; rw [show (Sys.mk r (upd s.hs j (.live hd))).hs j = .live hd from upd_same _ _ _] at e; cases e; exact hh
  · rw [show (Sys.mk r (upd s.hs k (.live hd))).hs j = s.hs j from upd_other _ _ hj] at e; exact h.hs j h' e

theorem SysSafe.gone (h : SysSafe G n mm al s) {r : Ring} (hr : Sane G n mm al r) {k : Nat} : SysSafe G n mm al ⟨r, upd s.hs k (.gone ())⟩ := by
  refine ⟨hr, ?_⟩
  intro j h' e
  by_cases hj : j = k
  · subst hj; rw [show (Sys.mk r (upd s.hs j (.gone ()))).hs j = .gone () from upd_same _ _ _] at e; cases e
  · rw [show (Sys.mk r (upd s.hs k (.gone ()))).hs j = s.hs j from upd_other _ _ hj] at e; exact h.hs j h' e

theorem Safe.exec_cases {x : M Ring α} {r : Ring} {Q : α → Ring → Prop} (h : Safe G n mm al x r Q) :
    (∃ y r', exec x r = .ok (y, r') ∧ Sane G n mm al r' ∧ Q y r') ∨ exec x r = .error .abort ∨ exec x r = .error .hang ∧ ¬ Ends G n mm := by
  unfold exec
  cases e : (x r).res with
  | ok y r' => exact .inl ⟨y, r', rfl, h.ok y r' e⟩
  | abort r' => exact .inr (.inl rfl)
  | hang => exact .inr (.inr ⟨rfl, fun he => h.nohang he e⟩)
  | ub => exact absurd e h.noub

/-- What holds of a call in a system in range. -/
structure StepSafe (G : Flags) (n mm al : Nat) (s : Sys) (op : Op) : Prop where
  noub : s.step op ≠ .error .ub
  nohang : Ends G n mm → s.step op ≠ .error .hang
  next : ∀ s' o, s.step op = .ok (s', o) → SysSafe G n mm al s'
  pts : ∀ p ∈ s.points op, Sane G n mm al p

theorem step_safe (z : Sizes n mm) (h : SysSafe G n mm al s) (op : Op) (hf : op.Fair al) : StepSafe G n mm al s op := by
  have base : ∀ p ∈ [s.ring], Sane G n mm al p := fun p hp => by rw [List.mem_singleton.mp hp]; exact h.ring
  have stay : ∀ o0, s.step op = .ok (s, o0) → s.points op = [s.ring] → StepSafe G n mm al s op := fun o0 e ep =>
    ⟨by rw [e]; exact (fun x => nomatch x), fun _ => by rw [e]; exact (fun x => nomatch x), by rw [e]; intro s' o x; cases x; exact h, by rw [ep]; exact base⟩
  have fin : ∀ {α : Type} {x : M Ring α} {Q : α → Ring → Prop} (k : α × Ring → Sys × Out), Safe G n mm al x s.ring Q →
      (s.step op = match exec x s.ring with
        | .error f => .error f
        | .ok y => .ok (k y)) → s.points op = (x s.ring).points → (∀ y r, Sane G n mm al r → Q y r → SysSafe G n mm al (k (y, r)).1) →
      StepSafe G n mm al s op := by
    intro α x Q k hx e ep hk
    refine ⟨?_, fun he => ?_, ?_, by rw [ep]; exact hx.points⟩ <;> rw [e]
    · rcases hx.exec_cases with ⟨y, r', e', _⟩ | e' | ⟨e', _⟩ <;> rw [e'] <;> exact fun x => nomatch x
    · rcases hx.exec_cases with ⟨y, r', e', _⟩ | e' | ⟨_, h⟩
      · rw [e']; exact fun x => nomatch x
      · rw [e']; exact fun x => nomatch x
      · exact absurd he h
    · intro s' o
      rcases hx.exec_cases with ⟨y, r', e', h1, h2⟩ | e' | ⟨e', _⟩ <;> rw [e'] <;> intro x
      · have hs : s' = (k (y, r')).1 := by injection x with x; rw [x]
        rw [hs]
        exact hk y r' h1 h2
      · cases x
      · cases x
  cases op with
  | «open» k flags env =>
    refine ⟨?_, fun _ => ?_, ?_, base⟩ <;> unfold Sys.step <;> dsimp only
    · split
      · split
        · exact fun x => nomatch x
        · split <;> exact fun x => nomatch x
      · exact fun x => nomatch x
    · split
      · split
        · exact fun x => nomatch x
        · split <;> exact fun x => nomatch x
      · exact fun x => nomatch x
    · intro s' o
      split
      · split
        · intro x; cases x; exact h
        · cases e : openLocked s.ring flags env with
          | none => intro x; cases x; exact h
          | some hd => intro x; cases x; exact h.put h.ring (openLocked_safe z h.ring e)
      · intro x; cases x; exact h
  | writev k iov eF env =>
    cases e : s.hs k with
    | live hd =>
      by_cases hw : hd.flags.has SHR_WRONLY = false
      · exact stay .misuse (by unfold Sys.step; dsimp only; rw [e]; exact if_pos hw) (by unfold Sys.points; dsimp only; rw [e]; exact if_pos hw)
      · refine fin (fun y => (⟨y.2, upd s.hs k (.live y.1.1)⟩, y.1.2.out)) (shr_writev_safe z (h.hs k hd e) hf eF env h.ring) ?_ ?_
          fun y r hr hy => h.put hr hy
        · unfold Sys.step; dsimp only; rw [e]; dsimp only; rw [if_neg hw]
          cases exec (shr_writev hd iov eF env) s.ring <;> rfl
        · unfold Sys.points; dsimp only; rw [e]; exact if_neg hw
    | never => exact stay .misuse (by unfold Sys.step; dsimp only; rw [e]) (by unfold Sys.points; dsimp only; rw [e])
    | gone _ => exact stay .misuse (by unfold Sys.step; dsimp only; rw [e]) (by unfold Sys.points; dsimp only; rw [e])
  | readv k buf niov env =>
    cases e : s.hs k with
    | live hd =>
      by_cases hw : hd.flags.has SHR_RDONLY = false
      · exact stay .misuse (by unfold Sys.step; dsimp only; rw [e]; exact if_pos hw) (by unfold Sys.points; dsimp only; rw [e]; exact if_pos hw)
      · refine fin (fun y => (⟨y.2, upd s.hs k (.live y.1.1)⟩, y.1.2.out)) (shr_readv_safe z hd hf niov env h.ring) ?_ ?_
          fun y r hr hy => h.put hr ?_
        · unfold Sys.step; dsimp only; rw [e]; dsimp only; rw [if_neg hw]
          cases exec (shr_readv hd buf buf.length niov env) s.ring <;> rfl
        · unfold Sys.points; dsimp only; rw [e]; exact if_neg hw
        · have hh := h.hs k hd e
          rw [hy.1]
          exact ⟨hh.n, hh.mm, hh.c⟩
    | never => exact stay .misuse (by unfold Sys.step; dsimp only; rw [e]) (by unfold Sys.points; dsimp only; rw [e])
    | gone _ => exact stay .misuse (by unfold Sys.step; dsimp only; rw [e]) (by unfold Sys.points; dsimp only; rw [e])
  | flush k wait env =>
    cases e : s.hs k with
    | live hd =>
      by_cases hw : hd.flags.has SHR_WRONLY = false
      · exact stay .misuse (by unfold Sys.step; dsimp only; rw [e]; exact if_pos hw) (by unfold Sys.points; dsimp only; rw [e]; exact if_pos hw)
      · refine fin (fun y => (⟨y.2, upd s.hs k (.live y.1.1)⟩, y.1.2.out)) (shr_flush_safe z (h.hs k hd e) wait env h.ring) ?_ ?_
          fun y r hr hy => h.put hr hy
        · unfold Sys.step; dsimp only; rw [e]; dsimp only; rw [if_neg hw]
          cases exec (shr_flush hd wait env) s.ring <;> rfl
        · unfold Sys.points; dsimp only; rw [e]; exact if_neg hw
    | never => exact stay .misuse (by unfold Sys.step; dsimp only; rw [e]) (by unfold Sys.points; dsimp only; rw [e])
    | gone _ => exact stay .misuse (by unfold Sys.step; dsimp only; rw [e]) (by unfold Sys.points; dsimp only; rw [e])
  | close k env =>
    cases e : s.hs k with
    | live hd =>
      refine fin (fun y => match y.1 with
          | .wait => (⟨y.2, s.hs⟩, .blocked)
          | .ret _ _ => (⟨y.2, upd s.hs k (.gone ())⟩, .closed)) (shr_close_safe z (h.hs k hd e) env h.ring) ?_ ?_ ?_
      · unfold Sys.step; dsimp only; rw [e]; dsimp only
        cases exec (shr_close hd env) s.ring with
        | error f => rfl
        | ok y => obtain ⟨o, r⟩ := y; cases o <;> rfl
      · unfold Sys.points; dsimp only; rw [e]
      · intro y r hr _
        cases y with
        | wait => exact ⟨hr, h.hs⟩
        | ret rc w => exact h.gone hr
    | never => exact stay .misuse (by unfold Sys.step; dsimp only; rw [e]) (by unfold Sys.points; dsimp only; rw [e])
    | gone _ => exact stay .misuse (by unfold Sys.step; dsimp only; rw [e]) (by unfold Sys.points; dsimp only; rw [e])
  | stat k reset env =>
    cases e : s.hs k with
    | live hd =>
      refine fin (fun y => (⟨y.2, s.hs⟩, .stat y.1.1 y.1.2)) (shr_stat_safe hd reset env h.ring) ?_ ?_ fun y r hr _ => ⟨hr, h.hs⟩
      · unfold Sys.step; dsimp only; rw [e]; dsimp only
        cases exec (shr_stat hd reset env) s.ring <;> rfl
      · unfold Sys.points; dsimp only; rw [e]
    | never => exact stay .misuse (by unfold Sys.step; dsimp only; rw [e]) (by unfold Sys.points; dsimp only; rw [e])
    | gone _ => exact stay .misuse (by unfold Sys.step; dsimp only; rw [e]) (by unfold Sys.points; dsimp only; rw [e])
  | farmStat k reset =>
    cases e : s.hs k with
    | live hd =>
      by_cases hw : hd.flags.has SHR_RDONLY = false
      · exact stay .misuse (by unfold Sys.step; dsimp only; rw [e]; exact if_pos hw) (by unfold Sys.points; dsimp only; rw [e]; exact if_pos hw)
      · refine fin (fun y => (⟨y.2, upd s.hs k (.live y.1.1)⟩, .farm y.1.2)) (shr_farm_stat_safe hd reset h.ring) ?_ ?_ fun y r hr hy => h.put hr ?_
        · unfold Sys.step; dsimp only; rw [e]; dsimp only; rw [if_neg hw]
          cases exec (shr_farm_stat hd reset) s.ring <;> rfl
        · unfold Sys.points; dsimp only; rw [e]; exact if_neg hw
        · have hh := h.hs k hd e
          exact ⟨hy.1.trans hh.n, hy.2.1.trans hh.mm, by rw [hy.2.2]; exact hh.c⟩
    | never => exact stay .misuse (by unfold Sys.step; dsimp only; rw [e]) (by unfold Sys.points; dsimp only; rw [e])
    | gone _ => exact stay .misuse (by unfold Sys.step; dsimp only; rw [e]) (by unfold Sys.points; dsimp only; rw [e])
  | appdata k get set sz env =>
    cases e : s.hs k with
    | live hd =>
      refine fin (fun y => (⟨y.2, s.hs⟩, .app y.1)) (shr_appdata_safe hf env h.ring) ?_ ?_ fun y r hr _ => ⟨hr, h.hs⟩
      · unfold Sys.step; dsimp only; rw [e]; dsimp only
        cases exec (shr_appdata get set sz env) s.ring <;> rfl
      · unfold Sys.points; dsimp only; rw [e]
    | never => exact stay .misuse (by unfold Sys.step; dsimp only; rw [e]) (by unfold Sys.points; dsimp only; rw [e])
    | gone _ => exact stay .misuse (by unfold Sys.step; dsimp only; rw [e]) (by unfold Sys.points; dsimp only; rw [e])

theorem InitArgs.sizes {a : InitArgs} (ha : a.WF) : Sizes a.dataSz a.max_msgs :=
  ⟨ha.pos, ha.sz, a.mmpos ha, by have := ha.mm; unfold SIZEOF_MSG at this; omega⟩

theorem Wrecked.safe {a : InitArgs} (ha : a.WF) (h : Wrecked a s) : SysSafe a.gflags a.dataSz a.max_msgs a.appsize s := by
  have z := InitArgs.sizes ha
  induction h with
  | new =>
    refine ⟨⟨rfl, rfl, rfl, List.length_replicate, ?_, ?_, z.n0, z.m0, z.m0, ?_, rfl, .inl rfl⟩, (fun k h e => nomatch e)⟩
    · show (List.replicate (a.mv_bytes / SIZEOF_MSG) _).length = a.max_msgs
      unfold InitArgs.mv_bytes wmul
      rw [List.length_replicate, Nat.mod_eq_of_lt ha.mm]
      exact Nat.mul_div_cancel _ (by decide)
    · show (if a.flags.has SHR_APPDATA_1 then a.app else []).length = a.appsize
      unfold InitArgs.appsize; split <;> rfl
    · intro t ht
      rw [(List.mem_replicate.mp ht).2]
      exact ⟨z.n0, Nat.zero_le _⟩
  | call _ hf hs ih => exact (step_safe z ih _ hf).next _ _ hs
  | death _ hf hp ih => exact ih.gone ((step_safe z ih _ hf).pts _ hp)

/-- **C105.** However many processes have died inside calls on a ring, and whatever they left behind: no later call with arguments a C program can pass
accesses memory outside the regions of the ring, the caller's buffers or the writer's cache, or divides by zero.  (It completes, or a failed
assertion ends it, or it does not return.) -/
theorem C105_no_wild_access {a : InitArgs} (ha : a.WF) (h : Wrecked a s) (op : Op) (hf : op.Fair a.appsize) : s.step op ≠ .error .ub :=
  (step_safe (InitArgs.sizes ha) (h.safe ha) op hf).noub

/-- What a C program can pass, without the exception for `shr_appdata`. -/
def Op.Given : Op → Prop
  | .writev _ iov _ _ => ∀ b ∈ iov, b.length ≤ SSIZE_MAX
  | .readv _ buf _ _ => buf.length < W
  | .stat _ (some t) _ => t.1 < W ∧ t.2 < W
  | .appdata _ get set sz _ => (∀ b, set = some b → sz ≤ b.length) ∧ (∀ cap, get = .into cap → sz ≤ cap)
  | _ => True

/-- **C105, the exception.** There is one way only to make the library access memory out of bounds, in a ring on which nobody died as in any other: asking
`shr_appdata` for the data with a buffer larger than them. -/
theorem C105_only_overread {a : InitArgs} (ha : a.WF) (h : Wrecked a s) (op : Op) (hg : op.Given) (hub : s.step op = .error .ub) :
    ∃ k cap sz env, op = .appdata k (.into cap) none sz env ∧ a.appsize < sz ∧ sz ≤ cap := by
  by_cases hf : op.Fair a.appsize
  · exact absurd hub (C105_no_wild_access ha h op hf)
  · cases op with
    | appdata k get set sz env =>
      cases get with
      | into cap =>
        cases set with
        | none =>
          refine ⟨k, cap, sz, env, rfl, ?_, hg.2 cap rfl⟩
          apply Nat.lt_of_not_le
          intro hle
          exact hf ⟨hg.1, hg.2, fun _ _ _ => hle⟩
        | some b => exact absurd ⟨hg.1, hg.2, fun _ _ x => nomatch x⟩ hf
      | null => exact absurd ⟨hg.1, hg.2, fun _ x => nomatch x⟩ hf
      | alloc => exact absurd ⟨hg.1, hg.2, fun _ x => nomatch x⟩ hf
    | writev k iov e1 e2 => exact absurd hg hf
    | readv k buf niov env => exact absurd hg hf
    | «open» k flags env => exact absurd trivial hf
    | flush k w env => exact absurd trivial hf
    | close k env => exact absurd trivial hf
    | stat k r env =>
      cases r with
      | none => exact absurd trivial hf
      | some t => exact absurd hg hf
    | farmStat k r => exact absurd trivial hf

/-- **C106.** However many processes have died inside calls on a ring, and whatever they left behind: no later call loops forever in the library
with the lock held.  It completes (possibly by reporting that it has to wait), or a failed assertion ends it.  For rings in DROP mode
this needs the product of size and slots to be within what the counters of the loop of `drop_unread` can count. -/
theorem C106_no_spin {a : InitArgs} (ha : a.WF) (h : Wrecked a s) (op : Op) (hf : op.Fair a.appsize)
    (hsz : a.gflags.has SHR_DROP = false ∨ (a.dataSz + 4) * a.max_msgs < 2 ^ 64) :
    (∃ s' o, s.step op = .ok (s', o)) ∨ s.step op = .error .abort := by
  have q := step_safe (InitArgs.sizes ha) (h.safe ha) op hf
  cases e : s.step op with
  | ok y => exact .inl ⟨y.1, y.2, rfl⟩
  | error f =>
    cases f with
    | abort => exact .inr rfl
    | ub => exact absurd e q.noub
    | hang => exact absurd e (q.nohang hsz)

/-- **C105, the file.** Neither do the deaths or the calls change the sizes of the regions or move a position out of them: the write position lies in the
data area, the slots of the next read and of the eldest message exist, and every message described in the vector starts in the data area and
is no longer than it. -/
theorem C105_file_in_range {a : InitArgs} (ha : a.WF) (h : Wrecked a s) {op : Op} (hf : op.Fair a.appsize) {p : Ring} (hp : p ∈ s.points op) :
    p.n = a.dataSz ∧ p.mm = a.max_msgs ∧ p.app_len = a.appsize ∧ p.d.length = a.dataSz ∧ p.mv.length = a.max_msgs ∧ p.app.length = a.appsize ∧
    p.i < a.dataSz ∧ p.r < a.max_msgs ∧ p.e < a.max_msgs ∧ ∀ m ∈ p.mv, m.pos < a.dataSz ∧ m.len ≤ a.dataSz := by
  have q := (step_safe (InitArgs.sizes ha) (h.safe ha) op hf).pts p hp
  exact ⟨q.n, q.mm, q.al, q.d, q.mv, q.app, q.i, q.r, q.e, q.slots⟩

/-- **C105, what a read reports.** Whatever the deaths left behind, what a read returns is usable: the buffer has its length, no more messages are reported
than asked for, each lies within the buffer, and the number of bytes returned does not exceed the buffer. -/
theorem C105_reads_stay_in_the_buffer {a : InitArgs} (ha : a.WF) (h : Wrecked a s) {k : Nat} {buf : List Byte} (hb : buf.length < W) {niov : Nat} {env : Env}
    {s' : Sys} {rc : Int} {iov : List (Nat × Nat)} {got : List Byte} (hs : s.step (.readv k buf niov env) = .ok (s', .read rc iov got)) :
    got.length = buf.length ∧ iov.length ≤ niov ∧ (∀ m ∈ iov, m.1 + m.2 ≤ buf.length) ∧ rc ≤ buf.length := by
  unfold Sys.step at hs
  dsimp only at hs
  cases e : s.hs k with
  | live hd =>
    rw [e] at hs
    dsimp only at hs
    split at hs
    · cases hs
    rcases (shr_readv_safe (InitArgs.sizes ha) hd hb niov env (h.safe ha).ring).exec_cases with ⟨y, r', e', h1, h2, h3⟩ | e' | ⟨e', _⟩ <;> rw [e'] at hs
    · obtain ⟨hd', o⟩ := y
      dsimp only at hs h3
      cases o with
      | ret rc' iov' got' f w =>
        cases hs
        exact h3
      | wait => cases hs
    · cases hs
    · cases hs
  | never => rw [e] at hs; cases hs
  | gone _ => rw [e] at hs; cases hs

/-- A history that completes is part of such a life. -/
theorem Wrecked.calls {a : InitArgs} : ∀ {ops : List Op} {s s' : Sys} {os : List Out}, Wrecked a s → (∀ op ∈ ops, op.Fair a.appsize) →
    s.run ops = .ok (s', os) → Wrecked a s'
  | [], s, s', os, h, _, e => by unfold Sys.run at e; cases e; exact h
  | op :: ops, s, s', os, h, hf, e => by
    unfold Sys.run at e
    cases e1 : s.step op with
    | error f => rw [e1] at e; cases e
    | ok y =>
      obtain ⟨t, o⟩ := y
      rw [e1] at e
      dsimp only at e
      cases e2 : t.run ops with
      | error f => rw [e2] at e; cases e
      | ok y =>
        obtain ⟨t', o'⟩ := y
        rw [e2] at e
        cases e
        exact Wrecked.calls (h.call (hf op (by simp)) e1) (fun x hx => hf x (by simp [hx])) e2

end

/-! ## A ring on which every writer dies

On a ring in DROP mode a writer is killed while it copies the second message of a batch (`wrA1`).  The next writer succeeds, and leaves slots that
contradict the counters (`wrA2`); the one after it fails an assertion and dies, and so on.  The theorems above apply to all these states. -/

def wrA : InitArgs := { dataSz := 10, maxMsgs := 5, flags := SHR_MAXMSGS_2 ||| SHR_DROP }
def wrA1 : Sys := (final wrA crOps).killed crOp (((final wrA crOps).points crOp).getD 10 (final wrA crOps).ring)
def wrNext : Op := wr 2 [[21, 22, 23, 24, 25, 26]]
def wrA2 : Sys := match wrA1.step wrNext with
  | .ok (s, _) => s
  | .error _ => wrA1

theorem wrA_wf : wrA.WF := (valid_of (by decide +kernel) : Valid wrA crOps).init
theorem wrA1_wrecked : Wrecked wrA wrA1 := by
  have v : Valid wrA crOps := valid_of (by decide +kernel)
  have h0 : Wrecked wrA (final wrA crOps) := Wrecked.calls .new (by
    intro op hop
    simp only [crOps, opn, wr, List.mem_cons, List.not_mem_nil, or_false] at hop
    rcases hop with rfl | rfl | rfl | rfl
    · trivial
    · trivial
    · trivial
    · intro b hb; rw [List.mem_singleton.mp hb]; decide) v.runs
  refine h0.death (op := crOp) ?_ (crash_getD_mem (by decide +kernel))
  intro b hb
  simp only [List.mem_cons, List.not_mem_nil, or_false] at hb
  rcases hb with rfl | rfl <;> decide

theorem wrNext_fair : wrNext.Fair wrA.appsize := by
  intro b hb; rw [List.mem_singleton.mp hb]; decide

theorem wrA2_wrecked : Wrecked wrA wrA2 := by
  have e : (match wrA1.step wrNext with
    | .ok (_, o) => decide (o = .wrote 6)
    | .error _ => false) = true := by decide +kernel
  unfold wrA2
  cases e1 : wrA1.step wrNext with
  | ok y => obtain ⟨t, o⟩ := y; exact wrA1_wrecked.call wrNext_fair e1
  | error f => rw [e1] at e; cases e

/-- The ring is not in working order, the next writer dies of an assertion, and what it leaves behind is again a ring to which the theorems apply. -/
example : ¬ wrA2.ring.Consistent ∧ wrA2.step wrNext ≠ .error .ub ∧ (∀ p ∈ wrA2.points wrNext, Wrecked wrA (wrA2.killed wrNext p)) :=
  ⟨by decide +kernel, C105_no_wild_access wrA_wf wrA2_wrecked _ wrNext_fair, fun _ hp => wrA2_wrecked.death wrNext_fair hp⟩
example : (match wrA2.step wrNext with
    | .ok _ => false
    | .error f => decide (f = .abort)) = true := by decide +kernel
/-- On all these rings no call spins. -/
example (op : Op) (hf : op.Fair wrA.appsize) : (∃ s' o, wrA2.step op = .ok (s', o)) ∨ wrA2.step op = .error .abort :=
  C106_no_spin wrA_wf wrA2_wrecked op hf (.inr (by decide))
example : wrA.gflags.has SHR_DROP = true := by decide
/-- A read from that ring: a message that nobody wrote, but within the buffer. -/
example : ∃ s', wrA2.step (rd 1 6 3) = .ok (s', .read 4 [(0, 4)] [23, 24, 25, 26, 0, 0]) := by
  have e : (match wrA2.step (rd 1 6 3) with
    | .ok (_, o) => decide (o = .read 4 [(0, 4)] [23, 24, 25, 26, 0, 0])
    | .error _ => false) = true := by decide +kernel
  cases e1 : wrA2.step (rd 1 6 3) with
  | ok y => obtain ⟨t, o⟩ := y; rw [e1] at e; exact ⟨t, by rw [of_decide_eq_true e]⟩
  | error f => rw [e1] at e; cases e

/-! The exception exists: three bytes of application data, a buffer of four. -/

def wrB : InitArgs := { dataSz := 10, maxMsgs := 5, flags := SHR_MAXMSGS_2 ||| SHR_APPDATA_1, app := [1, 2, 3] }
example : wrB.appsize = 3 := by decide
example : Op.Given (.appdata 1 (.into 4) none 4 {}) := ⟨(fun _ x => nomatch x), (fun _ x => by cases x; decide)⟩
example : (match (final wrB [opn 1 SHR_RDONLY]).step (.appdata 1 (.into 4) none 4 {}) with
    | .ok _ => false
    | .error f => decide (f = .ub)) = true := by decide +kernel

end Shr
