import Verif.Props.Total
/-! # C88: how much a buffered writer holds back -/
namespace Shr

def SameHold (a b : SHandle) : Prop := a.flags = b.flags ∧ a.csz = b.csz ∧ a.cvt = b.cvt

def Holds (sp : Spec) (sh : SHandle) : Prop :=
  (sh.csz = if sh.flags.has SHR_WRONLY && sh.flags.has SHR_BUFFERED then Spec.holdBytes sp.cap else 0) ∧
  (sh.cvt = if sh.flags.has SHR_WRONLY && sh.flags.has SHR_BUFFERED then min 10000 sp.maxm else 0)

/-- The capacity of the cache of an open handle never changes. -/
theorem step_hold (sp : Spec) (op : Op) (k : Nat) (sh' : SHandle) (h : (sp.step op).1.hs k = .live sh') :
    (∃ sh, sp.hs k = .live sh ∧ SameHold sh' sh) ∨ Holds sp sh' := by
  have upd_case : ∀ (j : Nat) (l : Life SHandle (List Msg)) (sh : SHandle), sp.hs j = .live sh →
      (∀ x, l = .live x → SameHold x sh) → upd sp.hs j l k = .live sh' →
      (∃ sh, sp.hs k = .live sh ∧ SameHold sh' sh) := by
    intro j l sh hj hl hu
    by_cases e : k = j
    · subst e; rw [upd_same] at hu; exact ⟨sh, hj, hl _ hu⟩
    · rw [upd_other _ _ e] at hu; exact ⟨sh', hu, rfl, rfl, rfl⟩
  have same : sp.hs k = .live sh' → (∃ sh, sp.hs k = .live sh ∧ SameHold sh' sh) := fun h => ⟨sh', h, rfl, rfl, rfl⟩
  cases op <;> unfold Spec.step at h <;> dsimp only at h
  · rename_i j flags env
    split at h
    · rename_i hj
      split at h
      · exact .inl (same h)
      · split at h
        · exact .inl (same h)
        · rename_i sh heq
          dsimp only at h
          by_cases e : k = j
          · subst e
            rw [upd_same] at h
            cases h
            right
            unfold Spec.openH at heq
            dsimp only at heq
            split at heq
            · cases heq
            · cases heq; exact ⟨rfl, rfl⟩
          · rw [upd_other _ _ e] at h; exact .inl (same h)
    · exact .inl (same h)
  · rename_i j iov envF env
    split at h
    · rename_i sh hj
      split at h
      · exact .inl (same h)
      · refine .inl (upd_case j _ sh hj ?_ h)
        intro x e; cases e
        unfold Spec.writev; dsimp only; repeat' split
        all_goals exact ⟨rfl, rfl, rfl⟩
    · exact .inl (same h)
  · rename_i j buf niov env
    split at h
    · rename_i sh hj
      split at h
      · exact .inl (same h)
      · refine .inl (upd_case j _ sh hj ?_ h)
        intro x e; cases e
        unfold Spec.readv Spec.catchUp; dsimp only; repeat' split
        all_goals exact ⟨rfl, rfl, rfl⟩
    · exact .inl (same h)
  · rename_i j wait env
    split at h
    · rename_i sh hj
      split at h
      · exact .inl (same h)
      · refine .inl (upd_case j _ sh hj ?_ h)
        intro x e; cases e
        unfold Spec.flush; dsimp only; repeat' split
        all_goals exact ⟨rfl, rfl, rfl⟩
    · exact .inl (same h)
  · rename_i j env
    split at h
    · rename_i sh hj
      split at h
      · dsimp only at h; rw [flush_hs] at h; exact .inl (same h)
      · refine .inl (upd_case j _ sh hj ?_ h)
        intro x e; cases e
    · exact .inl (same h)
  · split at h
    · split at h
      · exact .inl (same h)
      · dsimp only at h; split at h <;> exact .inl (same h)
    · exact .inl (same h)
  · rename_i j reset
    split at h
    · rename_i sh hj
      split at h
      · exact .inl (same h)
      · refine .inl (upd_case j _ sh hj ?_ h)
        intro x e; cases e
        split <;> exact ⟨rfl, rfl, rfl⟩
    · exact .inl (same h)
  · split at h
    · unfold Spec.appdata at h
      dsimp only at h
      repeat' split at h
      all_goals exact .inl (same h)
    · exact .inl (same h)

theorem run_hold (a : InitArgs) (ops : List Op) : ∀ k sh, ((Spec.init a).run ops).1.hs k = .live sh → Holds ((Spec.init a).run ops).1 sh := by
  induction ops using snoc_induction with
  | h0 => intro k sh h; cases h
  | h1 ops op ih =>
    intro k sh h
    have hle := step_le ((Spec.init a).run ops).1 op
    rw [show ((Spec.init a).run (ops ++ [op])).1 = (((Spec.init a).run ops).1.step op).1 from specAfter_snoc a ops op] at h ⊢
    unfold Holds
    rw [hle.cap, hle.maxm]
    rcases step_hold _ _ _ _ h with ⟨sh0, h0, e1, e2, e3⟩ | h1
    · rw [e1, e2, e3]; exact ih k sh0 h0
    · exact h1

section
variable {a : InitArgs} {ops : List Op} {k : Nat} {s : Sys} {outs : List Out} {h : Handle} {env : Env}

/-- **C88.** After any history, a handle opened for buffered writing holds back at most 10000 messages (and no more than the ring may have), and at
most a tenth of the ring's bytes or 1 GB, whichever is less (all the ring's bytes, if a tenth is less than 1 KB).  Every other handle holds
back nothing. -/
theorem C88_held_back (v : Valid a ops) (hrun : (Sys.init a).run ops = .ok (s, outs)) (hk : s.hs k = .live h) :
    (h.flags.has SHR_WRONLY = true → h.flags.has SHR_BUFFERED = true →
      (s.cached k).length ≤ 10000 ∧ (s.cached k).length ≤ a.max_msgs ∧
      (a.dataSz < 10 * 1024 → bytesOf (s.cached k) ≤ a.dataSz) ∧
      (10 * 1024 ≤ a.dataSz → 10 * bytesOf (s.cached k) ≤ a.dataSz ∧ bytesOf (s.cached k) ≤ 2 ^ 30)) ∧
    (h.flags.has SHR_WRONLY = false ∨ h.flags.has SHR_BUFFERED = false → s.cached k = []) := by
  obtain ⟨sp, x, rfl, _⟩ := v.state hrun
  obtain ⟨sh, hsk, hh⟩ := x.rel.live hk
  obtain ⟨e1, e2⟩ := run_hold a ops k sh hsk
  rw [x.rel.cached hsk, hh.flags]
  have n1 := hh.cache.nle; have n2 := hh.cache.vle
  rw [x.cap] at e1
  rw [x.maxm] at e2
  refine ⟨fun hw hb => ?_, fun hn => ?_⟩
  · rw [hw, hb] at e1 e2
    simp only [Bool.and_self, if_true] at e1 e2
    unfold Spec.holdBytes at e1
    by_cases hs : a.dataSz < 10240
    · rw [if_pos hs] at e1
      exact ⟨by omega, by omega, fun _ => by omega, fun _ => by omega⟩
    · rw [if_neg hs] at e1
      exact ⟨by omega, by omega, fun _ => by omega, fun _ => ⟨by omega, by omega⟩⟩
  · have : sh.csz = 0 := by
      rcases hn with hn | hn <;> rw [hn] at e1 <;> simpa using e1
    have hc := hh.cache
    rw [this] at hc
    exact hc.pend_nil

/-- **C88.** And this much it can hold back: a batch that fits beside what is held back already is accepted without touching the ring, whatever the ring
and the system do. -/
theorem C88_holds {iov : List Msg} {envF : Env} {s' : Sys} {o : Out} (v : Valid a (ops ++ [.writev k iov envF env]))
    (hrun : (Sys.init a).run ops = .ok (s, outs)) (hstep : s.step (.writev k iov envF env) = .ok (s', o)) (hk : s.hs k = .live h)
    (hw : h.flags.has SHR_WRONLY = true) (hb : h.flags.has SHR_BUFFERED = true) (hne : iov ≠ []) (hem : [] ∉ iov)
    (h1 : (s.cached k).length + iov.length ≤ min 10000 a.max_msgs)
    (h2 : if a.dataSz < 10 * 1024 then bytesOf (s.cached k) + bytesOf iov ≤ a.dataSz
      else 10 * (bytesOf (s.cached k) + bytesOf iov) ≤ a.dataSz ∧ bytesOf (s.cached k) + bytesOf iov ≤ 2 ^ 30) :
    o = .wrote (bytesOf iov) ∧ s'.cached k = s.cached k ++ iov ∧
    s'.ring.unreadMsgs = s.ring.unreadMsgs ∧ s'.ring.presentMsgs = s.ring.presentMsgs ∧ s'.ring.stat = s.ring.stat := by
  have hrun' : (Sys.init a).run (ops ++ [.writev k iov envF env]) = .ok (s', outs ++ [o]) := by
    rw [sys_run_append, hrun]
    dsimp only [Sys.run]
    rw [hstep]
  obtain ⟨_, u1, u2, u3, _⟩ := C70_reference_semantics v.left hrun
  obtain ⟨_, w1, w2, w3, _⟩ := C70_reference_semantics v hrun'
  obtain ⟨sp, x, rfl, _⟩ := v.left.state hrun
  obtain ⟨sp', r1, r2, eo, _, rfl⟩ := v.last hrun hstep
  obtain ⟨sh, hsk, hh⟩ := x.rel.live hk
  obtain ⟨e1, e2⟩ := run_hold a ops k sh hsk
  rw [x.rel.cached hsk] at h1 h2 ⊢
  rw [hh.flags] at hw hb
  rw [x.cap, hw, hb] at e1
  rw [x.maxm, hw, hb] at e2
  simp only [Bool.and_self, if_true] at e1 e2
  have hb2 : bytesOf sh.pend + bytesOf iov ≤ sh.csz := by
    rw [e1]; unfold Spec.holdBytes
    by_cases hs : a.dataSz < 10240
    · rw [if_pos hs]; rw [if_pos hs] at h2; exact h2
    · rw [if_neg hs]; rw [if_neg hs] at h2; omega
  have hcf : Spec.cacheFits sh iov := ⟨hb2, by omega⟩
  have hl : Legal ((Spec.init a).run ops).1.cap ((Spec.init a).run ops).1.maxm iov := by
    refine ⟨hne, fun b hb e => hem (e ▸ hb), ?_, ?_⟩
    · have := hh.csz; omega
    · rw [x.maxm]; omega
  have hst : ((Spec.init a).run ops).1.step (.writev k iov envF env) =
      ({ ((Spec.init a).run ops).1 with hs := upd ((Spec.init a).run ops).1.hs k (.live { sh with pend := sh.pend ++ iov }) }, .wrote (bytesOf iov)) := by
    unfold Spec.step
    dsimp only
    rw [hsk]
    dsimp only
    rw [if_neg (by simp [hw])]
    have : ((Spec.init a).run ops).1.writev k sh iov envF env =
        (((Spec.init a).run ops).1, { sh with pend := sh.pend ++ iov }, .ret (bytesOf iov : Int)) := by
      unfold Spec.writev
      dsimp only
      rw [if_neg (by simpa using hl), if_neg (by simp [hb]), if_pos hcf]
    rw [this]
    rfl
  have hsn : ((Spec.init a).run (ops ++ [.writev k iov envF env])).1 = (((Spec.init a).run ops).1.step (.writev k iov envF env)).1 :=
    specAfter_snoc a ops _
  rw [hsn, hst] at w1 w2 w3
  rw [hst] at eo r2
  refine ⟨eo, ?_, w1.trans u1.symm, w2.trans u2.symm, w3.trans u3.symm⟩
  rw [r2.cached (sh := { sh with pend := sh.pend ++ iov }) (upd_same ..)]

end
/-- A ring of 20 kB: a buffered writer holds 2000 bytes, but not 2049. -/
def holdA : InitArgs := { dataSz := 20480, flags := SHR_MAXMSGS_2, maxMsgs := 3 }
def holdOps : List Op := [opn 0 (SHR_WRONLY ||| SHR_BUFFERED), wr 0 [List.replicate 1000 7]]

example : lastOut holdA (holdOps ++ [wr 0 [List.replicate 1000 8]]) = .wrote 1000 ∧
    (final holdA (holdOps ++ [wr 0 [List.replicate 1000 8]])).cached 0 = (final holdA holdOps).cached 0 ++ [List.replicate 1000 8] := by
  have v : Valid holdA (holdOps ++ [wr 0 [List.replicate 1000 8]]) := valid_of (by decide +kernel)
  obtain ⟨h1, h2, _⟩ := C88_holds v v.left.runs v.steps (live_handle (by decide +kernel)) (by decide +kernel) (by decide +kernel) (by decide) (by decide +kernel)
    (by decide +kernel) (by decide +kernel)
  exact ⟨h1.trans (by decide +kernel), h2⟩

example : (final holdA (holdOps ++ [wr 0 [List.replicate 1000 8], wr 0 [List.replicate 49 9]])).ring.unreadMsgs.length = 2 := by decide +kernel

end Shr
