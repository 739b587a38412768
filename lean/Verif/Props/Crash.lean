import Verif.Proof.Crash
import Verif.Proof.Demo
/-! # Properties of a ring one of whose users was killed inside a call: C32, C33 -/
namespace Shr

/-- A call by which handle `k` puts messages into the ring: a write of `iov`, a flush or a close. -/
inductive WriterCall (k : Nat) : List Msg → Op → Prop where
  | write (iov : List Msg) (envF env : Env) : WriterCall k iov (.writev k iov envF env)
  | flush (wait : Bool) (env : Env) : WriterCall k [] (.flush k wait env)
  | close (env : Env) : WriterCall k [] (.close k env)

theorem delivered_cons (o : Out) (outs : List Out) : delivered (o :: outs) = o.msgs ++ delivered outs := rfl

theorem msgs_qread (U : List Msg) (flags : Flags) (buf : List Byte) (niov : Nat) (env : Env) :
    (qread U flags buf niov env).1.out.msgs = U.take (qread U flags buf niov env).2 := by
  unfold qread
  by_cases h1 : buf.length = 0 ∨ niov = 0 ∨ env.lockOk = false
  · rw [if_pos h1]; rfl
  rw [if_neg h1]
  by_cases h2 : U = []
  · rw [if_pos h2]
    by_cases h3 : flags.has SHR_NONBLOCK = true
    · rw [if_pos h3]; rfl
    · rw [if_neg h3]
      cases env.waitRc with
      | none => rfl
      | some sc => rfl
  · rw [if_neg h2]
    dsimp only [RdOut.out, Out.msgs]
    exact slices_layout _ _ 0 (by
      have := takeCount_bytes U (min buf.length SSIZE_MAX) niov
      omega)

theorem Rel.noBoth {s : Sys} {sp : Spec} (x : Rel s sp) : NoBoth s.hs := by
  intro k h e hr
  obtain ⟨sh, _, hh⟩ := Rel.live x e
  have hm := hh.mode
  rw [← hh.flags, hr] at hm
  simpa using hm

theorem NoBoth.killed {s : Sys} (nb : NoBoth s.hs) (op : Op) (p : Ring) : NoBoth (s.killed op p).hs := by
  intro j h e
  unfold Sys.killed upd at e
  dsimp only at e
  split at e
  · cases e
  · exact nb j h e

/-- What readers get out of a ring (not a farm) is what was unread in it, in order. -/
theorem reads_deliver : ∀ (reads : List Op) {s : Sys} {g : Nat} {U : List Msg}, s.ring.gflags.has SHR_FARM = false →
    NoBoth s.hs → CView s.ring g U → ReadsOnly reads →
    ∃ s' outs, s.run reads = .ok (s', outs) ∧ delivered outs ++ s'.ring.unreadMsgs = U := by
  intro reads
  induction reads with
  | nil => intro s g U _ _ h _; exact ⟨s, [], rfl, h.unreadMsgs⟩
  | cons op reads ih =>
    intro s g U hf nb hv hr
    obtain ⟨k, buf, niov, env, rfl, hb⟩ := hr op (by simp)
    have hr' : ReadsOnly reads := fun op hm => hr op (by simp [hm])
    have skip : s.step (.readv k buf niov env) = .ok (s, .misuse) →
        ∃ s' outs, s.run (.readv k buf niov env :: reads) = .ok (s', outs) ∧ delivered outs ++ s'.ring.unreadMsgs = U := by
      intro e
      obtain ⟨s', outs, h1, h2⟩ := ih hf nb hv hr'
      exact ⟨s', .misuse :: outs, by unfold Sys.run; rw [e]; dsimp only; rw [h1], h2⟩
    cases e : s.hs k with
    | never => exact skip (by unfold Sys.step; dsimp only; rw [e])
    | gone b => exact skip (by unfold Sys.step; dsimp only; rw [e])
    | live hd =>
      by_cases hrd : hd.flags.has SHR_RDONLY = false
      · exact skip (by unfold Sys.step; dsimp only; rw [e]; dsimp only; rw [if_pos hrd])
      · have hrd' : hd.flags.has SHR_RDONLY = true := by simpa using hrd
        obtain ⟨x, r1, h1, h2, h3, h4⟩ := (readv_view hv hf hd hrd' (nb k hd e hrd') buf hb niov env).res
        have e1 : exec (shr_readv hd buf buf.length niov env) s.ring = .ok (x, r1) := by unfold exec; rw [h1]
        have es : s.step (.readv k buf niov env) =
            .ok (⟨r1, upd s.hs k (.live hd)⟩, (qread U hd.flags buf niov env).1.out) := by
          unfold Sys.step; dsimp only; rw [e]; dsimp only; rw [if_neg hrd, e1, h2]
        obtain ⟨s', outs, i1, i2⟩ := ih (s := ⟨r1, upd s.hs k (.live hd)⟩) (by show r1.gflags.has _ = _; rw [h4]; exact hf) (nb.same e) h3 hr'
        refine ⟨s', (qread U hd.flags buf niov env).1.out :: outs, by unfold Sys.run; rw [es]; dsimp only; rw [i1], ?_⟩
        rw [delivered_cons, List.append_assoc, i2, msgs_qread _ _ _ _ _, List.take_append_drop]

section
variable {a : InitArgs} {ops : List Op} {op : Op} {k : Nat} {iov : List Msg} {s : Sys} {outs : List Out} {p : Ring}

/-- The crash points of a writer's call. -/
theorem writer_points (v : Valid a (ops ++ [op])) (hrun : (Sys.init a).run ops = .ok (s, outs)) (hc : WriterCall k iov op)
    (hnf : a.flags.has SHR_FARM = false)
    (hfit : a.flags.has SHR_DROP = false ∨ Fits a.dataSz a.max_msgs s.ring.unreadMsgs (s.cached k ++ iov)) (hp : p ∈ s.points op) :
    p.gflags.has SHR_FARM = false ∧
    ∃ g, (∃ X ∈ [[], s.cached k, s.cached k ++ iov], CView p g (s.ring.unreadMsgs ++ X)) ∧ Stay s.ring p g s.ring.unreadMsgs ∧
      CView s.ring g s.ring.unreadMsgs := by
  obtain ⟨sp, x, _⟩ := v.left.state hrun
  have hwf := v.wf op (by simp)
  have hsm : op.Small := by
    cases hc with
    | write iov e1 e2 =>
      intro b hb
      have : b.length ≤ SSIZE_MAX := hwf.1 b hb
      rw [SSIZE_MAX_val] at this; rw [W_val]; omega
    | flush => trivial
    | close => trivial
  have hgf : p.gflags = s.ring.gflags := (points_steps hsm (fun h hk => by
    obtain ⟨sh, _, hh⟩ := x.rel.live hk
    rw [hh.cache.blen]; exact hh.cache.szw) x.rel.ring.typed p hp).params.1
  have hfm : sp.farm = false := by rw [x.farm]; exact hnf
  refine ⟨by rw [hgf, x.rel.ring.gf]; exact hfm, ?_⟩
  have hcv : CView s.ring sp.first s.ring.unreadMsgs := by rw [x.rel.ring.unreadMsgs]; exact x.rel.ring.cview
  have hself : p = s.ring → ∃ g, (∃ X ∈ [[], s.cached k, s.cached k ++ iov], CView p g (s.ring.unreadMsgs ++ X)) ∧
      Stay s.ring p g s.ring.unreadMsgs ∧ CView s.ring g s.ring.unreadMsgs := by
    rintro rfl
    exact ⟨_, ⟨[], by simp, by rw [List.append_nil]; exact hcv⟩, Stay.refl _ _ _, hcv⟩
  cases e : s.hs k with
  | never =>
    refine hself ?_
    cases hc <;> simpa [Sys.points, e] using hp
  | gone b =>
    refine hself ?_
    cases hc <;> simpa [Sys.points, e] using hp
  | live h =>
    obtain ⟨sh, hsk, hh⟩ := x.rel.live e
    have hcm : s.cached k = sh.pend := by unfold Sys.cached; rw [e]; exact hh.cache.msgs
    have hdr : Fits sp.cap sp.maxm sp.unread (sh.pend ++ iov) ∨ sp.drop = false := by
      rw [x.drop, hnf, x.cap, x.maxm, ← x.rel.ring.unreadMsgs, ← hcm]
      rcases hfit with h | h
      · rw [h]; exact .inr rfl
      · exact .inl h
    refine ⟨sp.first, ?_⟩
    rw [← and_assoc]
    refine ⟨?_, hcv⟩
    rw [hcm, x.rel.ring.unreadMsgs]
    cases hc with
    | write iov envF env =>
      by_cases hw : h.flags.has SHR_WRONLY = false
      · have : p = s.ring := by simpa [Sys.points, e, hw] using hp
        subst this
        exact ⟨⟨[], by simp, by rw [List.append_nil]; exact x.rel.ring.cview⟩, Stay.refl _ _ _⟩
      · have hpt : p ∈ (shr_writev h iov envF env s.ring).points := by simpa [Sys.points, e, hw] using hp
        exact Ok.points (shr_writev_crash x.rel.ring hfm hh (by rw [← hh.flags]; simpa using hw) k hwf envF env hdr)
          (fun _ _ h => h) p hpt
    | flush wait env =>
      rw [List.append_nil] at hdr ⊢
      by_cases hw : h.flags.has SHR_WRONLY = false
      · have : p = s.ring := by simpa [Sys.points, e, hw] using hp
        subst this
        exact ⟨⟨[], by simp, by rw [List.append_nil]; exact x.rel.ring.cview⟩, Stay.refl _ _ _⟩
      · have hpt : p ∈ (shr_flush h wait env s.ring).points := by simpa [Sys.points, e, hw] using hp
        obtain ⟨⟨X, hX, h2⟩, h3⟩ := Ok.points (shr_flush_crash x.rel.ring hfm hh (by rw [← hh.flags]; simpa using hw) k wait env hdr)
          (fun _ _ h => h) p hpt
        exact ⟨⟨X, by simp at hX ⊢; rcases hX with h | h <;> simp [h], h2⟩, h3⟩
    | close env =>
      rw [List.append_nil] at hdr ⊢
      have hpt : p ∈ (shr_close h env s.ring).points := by simpa [Sys.points, e] using hp
      obtain ⟨⟨X, hX, h2⟩, h3⟩ := Ok.points (shr_close_crash x.rel.ring hfm hh k env hdr) (fun _ _ h => h) p hpt
      exact ⟨⟨X, by simp at hX ⊢; rcases hX with h | h <;> simp [h], h2⟩, h3⟩

/-- **C32.** A process is killed at any store of a write, flush or close that does not need to drop
(the ring has no DROP mode, or the messages fit beside the unread ones).  What is unread afterwards is
what was unread before, followed by nothing, or by all messages cached in the handle, or by these and
all messages of the write (nothing of a batch is ever visible without the rest).  All reads by
anybody afterwards complete without fault and deliver exactly these messages, in order: what has been
delivered, followed by what is still unread, is always that list. -/
theorem C32_killed_writer (v : Valid a (ops ++ [op])) (hrun : (Sys.init a).run ops = .ok (s, outs)) (hc : WriterCall k iov op)
    (hnf : a.flags.has SHR_FARM = false)
    (hfit : a.flags.has SHR_DROP = false ∨ Fits a.dataSz a.max_msgs s.ring.unreadMsgs (s.cached k ++ iov)) (hp : p ∈ s.points op) :
    ∃ X ∈ [[], s.cached k, s.cached k ++ iov], p.unreadMsgs = s.ring.unreadMsgs ++ X ∧
      ∀ reads, ReadsOnly reads → ∃ s' outs', (s.killed op p).run reads = .ok (s', outs') ∧
        delivered outs' ++ s'.ring.unreadMsgs = s.ring.unreadMsgs ++ X := by
  obtain ⟨hf, g, ⟨X, hX, hv⟩, _⟩ := writer_points v hrun hc hnf hfit hp
  obtain ⟨sp, x, _⟩ := v.left.state hrun
  exact ⟨X, hX, hv.unreadMsgs, fun reads hr => reads_deliver reads (s := s.killed op p) hf (x.rel.noBoth.killed op p) hv hr⟩

/-- **C32.** Moreover readers cannot tell the ring from one in which nobody was killed: any reads
return the same there as in any other reachable system with the same handles whose ring (of whatever
size) has the same unread messages. -/
theorem C32_indistinguishable (v : Valid a (ops ++ [op])) (hrun : (Sys.init a).run ops = .ok (s, outs)) (hc : WriterCall k iov op)
    (hnf : a.flags.has SHR_FARM = false)
    (hfit : a.flags.has SHR_DROP = false ∨ Fits a.dataSz a.max_msgs s.ring.unreadMsgs (s.cached k ++ iov)) (hp : p ∈ s.points op)
    {b : InitArgs} {ops' : List Op} {t : Sys} {outs' : List Out} (v' : Valid b ops') (hrun' : (Sys.init b).run ops' = .ok (t, outs'))
    (hnf' : b.flags.has SHR_FARM = false) (hhs : t.hs = (s.killed op p).hs) (hu : t.ring.unreadMsgs = p.unreadMsgs) :
    ∀ reads, ReadsOnly reads → ∃ s2 t2 outs2, (s.killed op p).run reads = .ok (s2, outs2) ∧ t.run reads = .ok (t2, outs2) := by
  obtain ⟨hf, g, ⟨X, hX, hv⟩, _⟩ := writer_points v hrun hc hnf hfit hp
  obtain ⟨sp, x, _⟩ := v'.state hrun'
  intro reads hr
  have hsv : SameView (s.killed op p) t := by
    refine ⟨hhs.symm, hhs ▸ x.rel.noBoth, hf, by rw [x.rel.ring.gf]; exact x.farm.trans hnf', g, sp.first, _, hv, ?_⟩
    rw [← hv.unreadMsgs, ← hu, x.rel.ring.unreadMsgs]
    exact x.rel.ring.cview
  obtain ⟨s2, t2, o2, h1, h2, _⟩ := hsv.run reads hr
  exact ⟨s2, t2, o2, h1, h2⟩

end

/-! ## Non-vacuity and counterexamples: a ring of 10 bytes with the unread message 1 2 3 4 -/

def crA : InitArgs := { dataSz := 10, maxMsgs := 5, flags := SHR_MAXMSGS_2 }
def crOps : List Op := [opn 0 (SHR_WRONLY ||| SHR_NONBLOCK), opn 1 (SHR_RDONLY ||| SHR_NONBLOCK),
  opn 2 (SHR_WRONLY ||| SHR_NONBLOCK), wr 0 [[1, 2, 3, 4]]]
/-- The call during which writer 0 is killed. -/
def crOp : Op := wr 0 [[5, 6, 7, 8], [9]]
/-- The ring with half of that batch copied, and the ring right after the commit. -/
def crMid : Ring := ((final crA crOps).points crOp).getD 10 (final crA crOps).ring
def crEnd : Ring := ((final crA crOps).points crOp).getD 17 (final crA crOps).ring

theorem cr_valid : Valid crA (crOps ++ [crOp]) := valid_of (by decide +kernel)

theorem crash_getD_mem {α : Type} {l : List α} {i : Nat} {d : α} (h : i < l.length) : l.getD i d ∈ l := by
  rw [List.getD_eq_getElem?_getD, List.getElem?_eq_getElem h]; exact List.getElem_mem h

theorem cr_length : ((final crA crOps).points crOp).length = 20 := by decide +kernel
theorem crMid_mem : crMid ∈ (final crA crOps).points crOp := crash_getD_mem (by rw [cr_length]; omega)
theorem crEnd_mem : crEnd ∈ (final crA crOps).points crOp := crash_getD_mem (by rw [cr_length]; omega)

example : ∃ X ∈ [[], (final crA crOps).cached 0, (final crA crOps).cached 0 ++ [[5, 6, 7, 8], [9]]],
    crMid.unreadMsgs = (final crA crOps).ring.unreadMsgs ++ X := by
  obtain ⟨X, h1, h2, _⟩ := C32_killed_writer cr_valid cr_valid.left.runs (.write _ _ _) (by decide +kernel)
    (.inl (by decide +kernel)) crMid_mem
  exact ⟨X, h1, h2⟩
example : crMid.unreadMsgs = [[1, 2, 3, 4]] := by decide +kernel
example : crEnd.unreadMsgs = [[1, 2, 3, 4], [5, 6, 7, 8], [9]] := by decide +kernel

/-- What the calls of a continuation return. -/
def Sys.outs (s : Sys) (ops : List Op) : List Out :=
  match s.run ops with
  | .ok (_, o) => o
  | .error _ => []

/-- **C33 does not hold: a killed writer.**  The ring is in an ordinary state, writer 0 is killed in the
middle of a batch.  Then writer 2 writes a message of 6 bytes, successfully, and what a reader gets next
is not the message 1 2 3 4 that was unread but 23 24 25 26, which nobody ever wrote. -/
theorem C33_counterexample_writer : ∃ p ∈ (final crA crOps).points crOp,
    (final crA crOps).ring.unreadMsgs = [[1, 2, 3, 4]] ∧
    ((final crA crOps).killed crOp p).outs [wr 2 [[21, 22, 23, 24, 25, 26]], rd 1 6 1, rd 1 6 1] =
      [.wrote 6, .read 4 [(0, 4)] [23, 24, 25, 26, 0, 0], .read 6 [(0, 6)] [21, 22, 23, 24, 25, 26]] :=
  ⟨crMid, crMid_mem, by decide +kernel, by decide +kernel⟩

/-- The call during which reader 1 is killed. -/
def crRd : Op := rd 1 10 1
def crRdMid : Ring := ((final crA crOps).points crRd).getD 1 (final crA crOps).ring

/-- **C33 does not hold: a killed reader.**  Reader 1 is killed inside a read, after it advanced the read
position and before it adjusted the count of unread messages.  Two messages are then written; a reader
gets these two and then a third, empty message that nobody wrote. -/
theorem C33_counterexample_reader : ∃ p ∈ (final crA crOps).points crRd,
    ((final crA crOps).killed crRd p).outs
      [opn 3 (SHR_RDONLY ||| SHR_NONBLOCK), wr 2 [[21, 22, 23]], wr 2 [[31, 32, 33]], rd 3 3 1, rd 3 3 1, rd 3 3 1] =
      [.opened true, .wrote 3, .wrote 3, .read 3 [(0, 3)] [21, 22, 23], .read 3 [(0, 3)] [31, 32, 33],
        .read 0 [(0, 0)] [0, 0, 0]] := by
  refine ⟨crRdMid, crash_getD_mem ?_, by decide +kernel⟩
  have : ((final crA crOps).points crRd).length = 6 := by decide +kernel
  rw [this]; omega

/-- A ring with four bytes of app data. -/
def apA : InitArgs := { dataSz := 10, flags := SHR_APPDATA_1, app := [1, 2, 3, 4] }

/-! ## C33 for calls that neither write nor read -/

/-- Neither a write, flush or close nor a read. -/
def StatusCall : Op → Prop
  | .open _ _ _ => True
  | .stat _ _ _ => True
  | .farmStat _ _ => True
  | .appdata _ _ _ _ _ => True
  | _ => False

/-- A call that moves no message: status calls, and closing a handle while the lock cannot be had (which
discards what the handle had cached). -/
def Idle : Op → Prop
  | .close _ env => env.lockOk = false
  | op => StatusCall op

theorem upd_upd {α : Type} (f : Nat → α) (k : Nat) (u v : α) : upd (upd f k u) k v = upd f k v := by
  funext j; unfold upd; split <;> rfl

theorem close_nolock {s : Sys} {k : Nat} {h : Handle} (hk : s.hs k = .live h) {sp : Spec} (hr : Rel s sp) :
    s.step (.close k { lockOk := false }) = .ok (⟨s.ring, upd s.hs k (.gone ())⟩, .closed) := by
  obtain ⟨sh, hsk, hh⟩ := hr.live hk
  have hcl : ∃ rc w, exec (shr_close h { lockOk := false }) s.ring = .ok (.ret rc w, s.ring) := by
    unfold exec shr_close
    by_cases hn : h.c.n = 0
    · rw [if_neg (by simp [hn])]; exact ⟨_, _, rfl⟩
    · have hp : sh.pend ≠ [] := fun e => hn (hh.cache.n_zero.mpr e)
      have hfb := hh.buffered hp
      have hw : h.flags.has SHR_WRONLY = true := by rw [hh.flags, has_WRONLY]; exact hfb.2
      have hpl := hh.pend_legal hp
      have hbd := pend_bd hh.cache (by have := hr.ring.cap_le; have := hh.csz; omega)
      rw [if_pos hn]
      unfold shr_flush flushCache writevDirect
      have hw' : (h.flags.clear SHR_BUFFERED).has SHR_WRONLY = true := by
        rw [has_WRONLY, clear_BUFFERED _ _ (by decide), ← has_WRONLY, hw]; rfl
      simp only [M.bind_apply, hw, M.assert_true, if_neg hn, Bool.and_false, Bool.false_eq_true, false_and, if_false,
        hh.cache.read, M.lift_ok, hw', hh.n, hh.mm, lenCheck_spec hr.ring.cap_le (fun b hb => ⟨hpl.2.1 b hb, hbd b hb⟩),
        if_pos hpl, writevAttempt, if_true, M.pure_apply]
      exact ⟨_, _, rfl⟩
  obtain ⟨rc, w, e⟩ := hcl
  unfold Sys.step
  dsimp only
  rw [hk]
  dsimp only
  rw [e]

section
variable {a : InitArgs} {ops : List Op} {op : Op} {s s' : Sys} {outs : List Out} {o : Out} {p : Ring}

/-- **C33 for status calls.**  A process is killed at any point of a `shr_open`, `shr_stat`,
`shr_farm_stat` or `shr_appdata` call (which the client was entitled to make).  The system is then in a
state that an ordinary history, in which nobody is killed and in which these calls move no message,
leads to; so every property of histories holds of everything that follows.  (Missing from C33: reads
and writes, for which it is false.) -/
theorem C33_status_calls_partial (v : Valid a (ops ++ [op])) (hrun : (Sys.init a).run ops = .ok (s, outs))
    (hst : StatusCall op) (hstep : s.step op = .ok (s', o)) (hent : o ≠ .misuse)
    (hnf : a.flags.has SHR_FARM = false) (hp : p ∈ s.points op) :
    ∃ ops', (∀ x ∈ ops', Idle x) ∧ Valid a (ops ++ ops') ∧
      ∃ outs', (Sys.init a).run (ops ++ ops') = .ok (s.killed op p, outs') := by
  obtain ⟨sp, x, _⟩ := v.left.state hrun
  have hv : ∀ ops', (∀ q ∈ ops', q.WF a.appsize) → Valid a (ops ++ ops') := fun ops' h =>
    ⟨v.init, fun q hq => by
      rcases List.mem_append.mp hq with hq | hq
      · exact v.wf q (by simp [hq])
      · exact h q hq, fun hf => by rw [hnf] at hf; cases hf⟩
  have go : ∀ ops' s2 outs2, s.run ops' = .ok (s2, outs2) →
      (Sys.init a).run (ops ++ ops') = .ok (s2, outs ++ outs2) := by
    intro ops' s2 outs2 h
    rw [sys_run_append, hrun]; dsimp only; rw [h]
  -- close alone
  have close1 : ∀ k h, s.hs k = .live h → op.handle = k → p = s.ring → ∃ ops', (∀ x ∈ ops', Idle x) ∧ Valid a (ops ++ ops') ∧
      ∃ outs', (Sys.init a).run (ops ++ ops') = .ok (s.killed op p, outs') := by
    rintro k h hk rfl rfl
    refine ⟨[.close op.handle { lockOk := false }], by simp [Idle], hv _ (by simp [Op.WF]), _, go _ _ [.closed] ?_⟩
    unfold Sys.run
    rw [close_nolock hk x.rel]
    rfl
  -- a call on a live handle that keeps the handles, then close
  have then_close : ∀ q h, s.hs op.handle = .live h → Idle q → q.WF a.appsize →
      (∃ o1, s.step q = .ok (⟨p, s.hs⟩, o1)) → ∃ ops', (∀ x ∈ ops', Idle x) ∧ Valid a (ops ++ ops') ∧
      ∃ outs', (Sys.init a).run (ops ++ ops') = .ok (s.killed op p, outs') := by
    rintro q h hk hi hw ⟨o1, hq⟩
    have hv2 := hv [q, .close op.handle { lockOk := false }] (by
      intro y hy; rcases List.mem_cons.mp hy with rfl | hy
      · exact hw
      · rw [List.mem_singleton.mp hy]; trivial)
    refine ⟨_, ?_, hv2, ?_⟩
    · intro y hy; rcases List.mem_cons.mp hy with rfl | hy
      · exact hi
      · rw [List.mem_singleton.mp hy]; rfl
    have hv1 : Valid a (ops ++ [q]) := hv [q] (by intro y hy; rw [List.mem_singleton.mp hy]; exact hw)
    obtain ⟨sp1, x1, _⟩ := hv1.state (go [q] ⟨p, s.hs⟩ [o1] (by unfold Sys.run; rw [hq]; rfl))
    refine ⟨_, go _ _ [o1, .closed] ?_⟩
    unfold Sys.run
    rw [hq]
    dsimp only
    unfold Sys.run
    rw [close_nolock (s := ⟨p, s.hs⟩) hk x1.rel]
    rfl
  cases op with
  | writev => exact hst.elim
  | readv => exact hst.elim
  | flush => exact hst.elim
  | close => exact hst.elim
  | farmStat k reset =>
    cases e : s.hs k with
    | live h =>
      refine close1 k h e rfl ?_
      unfold Sys.points at hp; dsimp only at hp; rw [e] at hp; dsimp only at hp
      split at hp
      · simpa using hp
      · rename_i hrd
        have hrd' : h.flags.has SHR_RDONLY = true := by simpa using hrd
        unfold shr_farm_stat at hp
        rw [M.assert_bind_of hrd'] at hp
        simpa [Run.points, Run.final] using hp
    | never => unfold Sys.step at hstep; dsimp only at hstep; rw [e] at hstep; cases hstep; exact absurd rfl hent
    | gone b => unfold Sys.step at hstep; dsimp only at hstep; rw [e] at hstep; cases hstep; exact absurd rfl hent
  | «open» k flags env =>
    have hp : p = s.ring := by simpa [Sys.points] using hp
    subst hp
    cases e : s.hs k with
    | live h => unfold Sys.step at hstep; dsimp only at hstep; rw [e] at hstep; cases hstep; exact absurd rfl hent
    | gone b => unfold Sys.step at hstep; dsimp only at hstep; rw [e] at hstep; cases hstep; exact absurd rfl hent
    | never =>
      -- open for reading, then close
      obtain ⟨h, hop⟩ : ∃ h, openLocked s.ring SHR_RDONLY {} = some h := by
        unfold openLocked init_cache
        simp [show Flags.has SHR_RDONLY SHR_WRONLY = false by decide]
      have hq : s.step (.open k SHR_RDONLY {}) = .ok ({ s with hs := upd s.hs k (.live h) }, .opened true) := by
        unfold Sys.step; dsimp only; rw [e]; dsimp only
        rw [if_neg (by decide), hop]
      have hv1 : Valid a (ops ++ [.open k SHR_RDONLY {}]) := hv _ (by intro y hy; rw [List.mem_singleton.mp hy]; trivial)
      obtain ⟨sp1, x1, _⟩ := hv1.state (go [.open k SHR_RDONLY {}] _ [.opened true] (by unfold Sys.run; rw [hq]; rfl))
      refine ⟨[.open k SHR_RDONLY {}, .close k { lockOk := false }], ?_, hv _ ?_, _, go _ _ [.opened true, .closed] ?_⟩
      · intro y hy; rcases List.mem_cons.mp hy with rfl | hy
        · trivial
        · rw [List.mem_singleton.mp hy]; rfl
      · intro y hy; rcases List.mem_cons.mp hy with rfl | hy
        · trivial
        · rw [List.mem_singleton.mp hy]; trivial
      · unfold Sys.run
        rw [hq]
        dsimp only
        unfold Sys.run
        rw [close_nolock (s := { s with hs := upd s.hs k (.live h) }) (k := k) (h := h) (by simp [upd]) x1.rel]
        dsimp only
        rw [upd_upd]
        rfl
  | stat k reset env =>
    cases e : s.hs k with
    | never => unfold Sys.step at hstep; dsimp only at hstep; rw [e] at hstep; cases hstep; exact absurd rfl hent
    | gone b => unfold Sys.step at hstep; dsimp only at hstep; rw [e] at hstep; cases hstep; exact absurd rfl hent
    | live h =>
      have hpt : p ∈ (shr_stat h reset env s.ring).points := by simpa [Sys.points, e] using hp
      have hcases : StatPt s.ring p := Ok.points (shr_stat_crash h reset env s.ring) (fun _ _ h => h) p hpt
      rcases hcases with h1 | ⟨t, h1⟩
      · exact close1 k h e rfl h1
      · subst h1
        refine then_close (.stat k (some t) {}) h e trivial trivial ?_
        unfold Sys.step; dsimp only; rw [e]; dsimp only
        unfold exec shr_stat
        simp only [Bool.true_eq_false, if_false, and_false]
        exact ⟨_, rfl⟩
  | appdata k get set sz env =>
    cases e : s.hs k with
    | never => unfold Sys.step at hstep; dsimp only at hstep; rw [e] at hstep; cases hstep; exact absurd rfl hent
    | gone b => unfold Sys.step at hstep; dsimp only at hstep; rw [e] at hstep; cases hstep; exact absurd rfl hent
    | live h =>
      have hpt : p ∈ (shr_appdata get set sz env s.ring).points := by simpa [Sys.points, e] using hp
      have hal : s.ring.app.length = s.ring.app_len := x.rel.ring.typed.app
      have hwf : AppWF s.ring.app_len get set sz := by
        obtain ⟨sp2, x2⟩ := v.at hrun hstep
        rw [x2.rel.ring.app_len]
        exact x2.wf
      have hcases : AppPt s.ring p := Ok.points (shr_appdata_crash env hal hwf) (fun _ _ h => h) p hpt
      rcases hcases with h1 | ⟨b, hb, h1⟩
      · exact close1 k h e rfl h1
      · by_cases h0 : s.ring.app_len = 0
        · refine close1 k h e rfl ?_
          rw [h1, List.eq_nil_of_length_eq_zero ((hb.trans hal).trans h0), ← List.eq_nil_of_length_eq_zero (hal.trans h0)]
        · subst h1
          refine then_close (.appdata k .null (some b) b.length {}) h e trivial ⟨?_, ?_, ?_⟩ ?_
          · rintro b' ⟨⟩; exact Nat.le_refl _
          · intro c hc; cases hc
          · intro c hc; cases hc
          · unfold Sys.step; dsimp only; rw [e]; dsimp only
            rw [appdata_set hal h0 hb]
            exact ⟨_, rfl⟩

/-- A call that a process is killed in: storing app data, half done. -/
example : ∃ p ∈ (final apA [opn 0 SHR_RDONLY]).points (.appdata 0 .null (some [7, 8, 9, 10]) 4 {}), p.app = [7, 8, 3, 4] :=
  ⟨((final apA [opn 0 SHR_RDONLY]).points (.appdata 0 .null (some [7, 8, 9, 10]) 4 {})).getD 2 (initRing apA),
    crash_getD_mem (by
      have : ((final apA [opn 0 SHR_RDONLY]).points (.appdata 0 .null (some [7, 8, 9, 10]) 4 {})).length = 5 := by decide +kernel
      omega), by decide +kernel⟩

end
end Shr
