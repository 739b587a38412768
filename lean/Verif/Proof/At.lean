import Verif.Proof.Observe
/-! # From a reachable state to its specification state: lemmas used by the property theorems -/
namespace Shr

theorem spec_params (a : InitArgs) (ops : List Op) :
    ((Spec.init a).run ops).1.cap = a.dataSz ∧ ((Spec.init a).run ops).1.maxm = a.max_msgs ∧
    ((Spec.init a).run ops).1.gflags = a.gflags := by
  have := run_le ops (Spec.init a)
  exact ⟨this.cap, this.maxm, this.gf⟩

/-- A reachable state and one more call. -/
structure AtStep (a : InitArgs) (s s' : Sys) (op : Op) (o : Out) (sp : Spec) : Prop where
  rel : Rel s sp
  rel' : Rel s' (sp.step op).1
  out : o = (sp.step op).2
  wf : op.WF sp.app.length
  cap : sp.cap = a.dataSz
  maxm : sp.maxm = a.max_msgs
  gf : sp.gflags = a.gflags

theorem Valid.at {a : InitArgs} {ops : List Op} {op : Op} (v : Valid a (ops ++ [op])) {s s' : Sys}
    {outs : List Out} {o : Out} (h1 : (Sys.init a).run ops = .ok (s, outs)) (h2 : s.step op = .ok (s', o)) :
    ∃ sp, AtStep a s s' op o sp := by
  obtain ⟨sp, r1, r2, e, w, hsp⟩ := v.last h1 h2
  obtain ⟨p1, p2, p3⟩ := spec_params a ops
  exact ⟨sp, r1, r2, e, w, by rw [hsp]; exact p1, by rw [hsp]; exact p2, by rw [hsp]; exact p3⟩

/-- A reachable state. -/
structure AtState (a : InitArgs) (s : Sys) (sp : Spec) : Prop where
  rel : Rel s sp
  cap : sp.cap = a.dataSz
  maxm : sp.maxm = a.max_msgs
  gf : sp.gflags = a.gflags

theorem Valid.state {a : InitArgs} {ops : List Op} (v : Valid a ops) {s : Sys}
    {outs : List Out} (h1 : (Sys.init a).run ops = .ok (s, outs)) :
    ∃ sp, AtState a s sp ∧ sp = ((Spec.init a).run ops).1 ∧ outs = ((Spec.init a).run ops).2 := by
  obtain ⟨s1, e1, r1⟩ := v.reach
  rw [h1] at e1; cases e1
  obtain ⟨p1, p2, p3⟩ := spec_params a ops
  exact ⟨_, ⟨r1, p1, p2, p3⟩, rfl, rfl⟩

theorem Rel.live {s : Sys} {sp : Spec} (h : Rel s sp) {k : Nat} {hd : Handle} (hk : s.hs k = .live hd) :
    ∃ sh, sp.hs k = .live sh ∧ HRel sp hd sh := by
  have := h.hs k
  rw [hk] at this
  cases h2 : sp.hs k with
  | never => rw [h2] at this; exact this.elim
  | live sh => rw [h2] at this; exact ⟨sh, rfl, this⟩
  | gone b => rw [h2] at this; exact this.elim

theorem AtStep.drop {a : InitArgs} {s s' : Sys} {op : Op} {o : Out} {sp : Spec} (h : AtStep a s s' op o sp) :
    sp.drop = (a.flags.has SHR_DROP || a.flags.has SHR_FARM) := by
  unfold Spec.drop; rw [h.gf, gflags_drop]
theorem AtStep.farm {a : InitArgs} {s s' : Sys} {op : Op} {o : Out} {sp : Spec} (h : AtStep a s s' op o sp) :
    sp.farm = a.flags.has SHR_FARM := by
  unfold Spec.farm; rw [h.gf, gflags_farm]
theorem AtState.drop {a : InitArgs} {s : Sys} {sp : Spec} (h : AtState a s sp) :
    sp.drop = (a.flags.has SHR_DROP || a.flags.has SHR_FARM) := by
  unfold Spec.drop; rw [h.gf, gflags_drop]
theorem AtState.farm {a : InitArgs} {s : Sys} {sp : Spec} (h : AtState a s sp) :
    sp.farm = a.flags.has SHR_FARM := by
  unfold Spec.farm; rw [h.gf, gflags_farm]

theorem step_writev_eq {sp : Spec} {k : Nat} {sh : SHandle} (hk : sp.hs k = .live sh)
    (hw : sh.flags.has SHR_WRONLY = true) (iov : List Msg) (envF env : Env) :
    sp.step (.writev k iov envF env) =
      ({ (sp.writev k sh iov envF env).1 with hs := upd sp.hs k (.live (sp.writev k sh iov envF env).2.1) },
        (sp.writev k sh iov envF env).2.2.out) := by
  unfold Spec.step
  simp only [hk, hw, Bool.true_eq_false, if_false]

theorem step_readv_eq {sp : Spec} {k : Nat} {sh : SHandle} (hk : sp.hs k = .live sh)
    (hw : sh.flags.has SHR_RDONLY = true) (buf : List Byte) (niov : Nat) (env : Env) :
    sp.step (.readv k buf niov env) =
      ({ (sp.readv sh buf niov env).1 with hs := upd sp.hs k (.live (sp.readv sh buf niov env).2.1) },
        (sp.readv sh buf niov env).2.2) := by
  unfold Spec.step
  simp only [hk, hw, Bool.true_eq_false, if_false]

theorem step_flush_eq {sp : Spec} {k : Nat} {sh : SHandle} (hk : sp.hs k = .live sh)
    (hw : sh.flags.has SHR_WRONLY = true) (wait : Bool) (env : Env) :
    sp.step (.flush k wait env) =
      ({ (sp.flush k sh wait env).1 with hs := upd sp.hs k (.live (sp.flush k sh wait env).2.1) },
        (sp.flush k sh wait env).2.2.out) := by
  unfold Spec.step
  simp only [hk, hw, Bool.true_eq_false, if_false]

/-- A direct write. -/
theorem writev_direct {sp : Spec} {k : Nat} {sh : SHandle} (hb : sh.flags.has SHR_BUFFERED = false)
    {iov : List Msg} (hl : Legal sp.cap sp.maxm iov) (envF env : Env) :
    sp.writev k sh iov envF env = ((sp.tryWrite k (sh.flags.has SHR_NONBLOCK) iov env).1, sh,
      (sp.tryWrite k (sh.flags.has SHR_NONBLOCK) iov env).2) := by
  simp only [Spec.writev, hl, not_true_eq_false, if_false, hb, if_true]

theorem writev_illegal {sp : Spec} {k : Nat} {sh : SHandle} {iov : List Msg}
    (hl : ¬ Legal sp.cap sp.maxm iov) (envF env : Env) :
    sp.writev k sh iov envF env = (sp, sh, .ret (-1)) := by
  simp only [Spec.writev, hl, not_false_eq_true, if_true]

theorem unread_with_hs (sp : Spec) (f : Nat → Life SHandle (List Msg)) :
    ({ sp with hs := f } : Spec).unread = sp.unread := rfl
theorem retained_with_hs (sp : Spec) (f : Nat → Life SHandle (List Msg)) :
    ({ sp with hs := f } : Spec).retained = sp.retained := rfl

/-- What an attempt to write can do. -/
inductive TryCase (sp : Spec) (who : Nat) (nb : Bool) (new : List Msg) (env : Env) : Spec × Spec.WRes → Prop where
  | no (rc : Int) (h : rc < 0) (h0 : env.lockOk = false ∨ (¬ Fits sp.cap sp.maxm sp.unread new ∧ sp.drop = false)) :
      TryCase sp who nb new env (sp, .ret rc)
  | full (h : nb = true) (h1 : ¬ Fits sp.cap sp.maxm sp.unread new) (h2 : sp.drop = false) :
      TryCase sp who nb new env (sp, .ret 0)
  | wait (h : nb = false) (h1 : ¬ Fits sp.cap sp.maxm sp.unread new) (h2 : sp.drop = false) :
      TryCase sp who nb new env (sp, .wait)
  | done (h : env.lockOk = true) (h1 : Fits sp.cap sp.maxm sp.unread new ∨ sp.drop = true)
      (h2 : env.wakeOk = true) :
      TryCase sp who nb new env (sp.commit who new true, .ret (bytesOf new))
  | bad (h : env.lockOk = true) (h1 : Fits sp.cap sp.maxm sp.unread new ∨ sp.drop = true)
      (h2 : ¬ env.good) : TryCase sp who nb new env (sp.commit who new env.wakeOk, .ret (-1))

theorem tryCase (sp : Spec) (who : Nat) (nb : Bool) (new : List Msg) (env : Env) :
    TryCase sp who nb new env (sp.tryWrite who nb new env) := by
  unfold Spec.tryWrite
  by_cases h1 : env.lockOk = false
  · rw [if_pos h1]; exact .no _ (by decide) (.inl h1)
  rw [if_neg h1]
  have h1' : env.lockOk = true := by simpa using h1
  by_cases h2 : Fits sp.cap sp.maxm sp.unread new ∨ sp.drop = true
  · rw [if_pos h2]
    by_cases h3 : env.wakeOk = false
    · rw [if_pos h3]; exact .bad h1' h2 (fun h => by rw [h.1] at h3; cases h3)
    · rw [if_neg h3]
      by_cases h4 : sp.gflags.has SHR_SYNC = true ∧ env.syncOk = false
      · rw [if_pos h4]; exact .bad h1' h2 (fun h => by rw [h.2] at h4; cases h4.2)
      · rw [if_neg h4]
        have h3 : env.wakeOk = true := by simpa using h3
        rw [h3]
        exact .done h1' h2 h3
  · rw [if_neg h2]
    have h2' : ¬ Fits sp.cap sp.maxm sp.unread new ∧ sp.drop = false := by
      refine ⟨fun h => h2 (.inl h), ?_⟩
      cases h : sp.drop
      · rfl
      · exact absurd (.inr h) h2
    by_cases h3 : nb = true
    · rw [if_pos h3]; exact .full h3 h2'.1 h2'.2
    · rw [if_neg h3]
      cases h : env.waitRc with
      | none => exact .wait (by simpa using h3) h2'.1 h2'.2
      | some sc => exact .no _ (by cases sc <;> decide) (.inr h2')

/-- Unread messages never exceed the ring's limits. -/
theorem RingRel.unread_bounds {r : Ring} {sp : Spec} (h : RingRel r sp) :
    bytesOf sp.unread ≤ sp.cap ∧ sp.unread.length ≤ sp.maxm := by
  obtain ⟨p0, hg⟩ := h.rep.geo
  have h1 := hg.tot; have h2 := hg.cnt
  rw [← h.unread_eq, ← h.n, ← h.mm]
  have := bytesOf_drop_le sp.retained (sp.first - sp.base)
  simp; omega

theorem RingRel.unread_ne {r : Ring} {sp : Spec} (h : RingRel r sp) : ∀ b ∈ sp.unread, b ≠ [] := by
  obtain ⟨p0, hg⟩ := h.rep.geo
  intro b hb
  rw [← h.unread_eq] at hb
  exact hg.ne b (List.mem_of_mem_drop hb)

end Shr
