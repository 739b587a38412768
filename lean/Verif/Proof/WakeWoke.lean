import Verif.Proof.WakeReach
/-!
# A successful wake-up leaves a datagram at every waiter

So failures of earlier wake-ups do not matter any more.
-/
namespace Shr

theorem woke_split {c : Nat} : ∀ {ops : List BOp} {b : BSys}, b.Woke c ops →
    ∃ pre i os post, ops = pre ++ .wake i os :: post ∧ i % 2 = c ∧ ((b.runs pre).step (.wake i os)).2 = true
  | [], _, h => h.elim
  | op :: ops, b, h => by
    rcases h with ⟨⟨i, os, rfl, hi⟩, hs⟩ | h
    · exact ⟨[], i, os, ops, rfl, hi, hs⟩
    · obtain ⟨pre, i, os, post, rfl, h1, h2⟩ := woke_split h
      exact ⟨op :: pre, i, os, post, rfl, h1, h2⟩

theorem woke_append {c : Nat} : ∀ {xs ys : List BOp} {b : BSys}, (b.runs xs).Woke c ys → b.Woke c (xs ++ ys)
  | [], _, _, h => h
  | _ :: _, _, _, h => .inr (woke_append h)

/-- If only one of the calls is a wake-up, it is the one that succeeded. -/
theorem woke_one {c : Nat} {b : BSys} {pre post : List BOp} {i : Nat} {os : Os} (hn : ∀ x ∈ pre ++ post, ∀ j os, x ≠ .wake j os)
    (h : b.Woke c (pre ++ .wake i os :: post)) : i % 2 = c ∧ ((b.runs pre).step (.wake i os)).2 = true := by
  induction pre generalizing b with
  | nil =>
    rcases h with ⟨⟨j, os', e, hj⟩, hs⟩ | h
    · cases e; exact ⟨hj, hs⟩
    · obtain ⟨pre', j, os', post', e, _, _⟩ := woke_split h
      exact absurd rfl (hn (.wake j os') (by simp [e]) j os')
  | cons x pre ih =>
    rcases h with ⟨⟨j, os', e, _⟩, _⟩ | h
    · exact absurd e (hn x (by simp) j os')
    · exact ih (fun y hy => hn y (by rw [List.cons_append]; exact List.mem_cons_of_mem _ hy)) h

theorem not_woke {c : Nat} {b : BSys} {ops : List BOp} (hn : ∀ x ∈ ops, ∀ j os, x ≠ .wake j os) : ¬ b.Woke c ops := by
  intro h
  obtain ⟨pre, i, os, post, e, _, _⟩ := woke_split h
  exact hn (.wake i os) (by simp [e]) i os rfl

theorem bops_no_wake {w : WSys} {pid : Nat → Nat} {os : WOs} {o : Out} {op : Op} (hno : ∀ k flags env, op ≠ .open k flags env)
    (hs : (w.sys.signal op).wake = false) : ∀ x ∈ w.bops pid os o op, ∀ j os, x ≠ .wake j os := by
  intro x hx j os' e
  subst e
  cases op with
  | «open» k flags env => exact absurd rfl (hno _ _ _)
  | writev k iov e1 e2 => unfold WSys.bops at hx; dsimp only at hx; rw [hs] at hx; cases hx
  | readv k buf niov env =>
    unfold WSys.bops at hx; dsimp only at hx; rw [hs] at hx
    simp only [Bool.false_eq_true, if_false, List.nil_append] at hx
    split at hx
    · simp at hx
    · cases hx
  | flush k wait env =>
    unfold WSys.bops WSys.flushPre at hx; dsimp only at hx; rw [hs] at hx
    simp only [Bool.false_eq_true, if_false, List.append_nil] at hx
    split at hx
    · simp at hx
    · cases hx
  | close k env =>
    unfold WSys.bops at hx; dsimp only at hx; rw [hs] at hx
    simp only [Bool.false_eq_true, if_false, List.nil_append] at hx
    split at hx
    · simp at hx
    · cases hx
  | stat => cases hx
  | farmStat => cases hx
  | appdata => cases hx

/-- A successful wake-up in a call: by a writer for the readers, or by a reader for the writers; it reaches every other waiter. -/
theorem woke_all {a : InitArgs} {pid : Nat → Nat} {w : WSys} {sp : Spec} (hw : TInv a pid w sp) {op : Op} {os : WOs} {o : Out} {ops : List BOp}
    (hno : ∀ k flags env, op ≠ .open k flags env) (hops : ops = w.bops pid os o (w.fill pid os op)) (hre : BInv w.b) (hc : w.b.CleanRun ops) {c : Nat}
    (h : w.b.Woke c ops) :
    ∃ sh, sp.hs op.handle = .live sh ∧ ((c = 0 ∧ sh.flags.has SHR_WRONLY = true) ∨ (c = 1 ∧ sh.flags.has SHR_RDONLY = true)) ∧
      ∀ i q t, i ≠ 2 * op.handle → i ≠ 2 * op.handle + 1 → w.b.ts i = some (.wait c q t) → 1 ≤ (w.b.runs ops).pending i := by
  have hh := fill_handle w pid os op
  have hno' := fill_open (w := w) (pid := pid) (os := os) hno
  generalize w.fill pid os op = fop at *
  subst hops
  cases hwk : (w.sys.signal fop).wake with
  | false => exact absurd h (not_woke (bops_no_wake hno' hwk))
  | true =>
    obtain ⟨sh, hsh, hcase⟩ := signal_wake hw.rel hwk
    rw [hh] at hsh
    refine ⟨sh, hsh, ?_⟩
    rcases hcase with ⟨⟨k', buf, niov, env, rfl⟩, hro⟩ | ⟨hwrt, hwo⟩
    · obtain ⟨post, e1, e2, e3⟩ := bops_wake_r (pid := pid) (os := os) (o := o) hwk
      have hk : k' = op.handle := hh
      subst hk
      rw [e1] at h hc ⊢
      obtain ⟨f1, f2⟩ := woke_one (pre := []) e3 h
      have hc1 : c = 1 := by omega
      subst hc1
      refine ⟨.inr ⟨rfl, hro⟩, fun i q t h1 h2 e => ?_⟩
      obtain ⟨_, v, hv⟩ := hw.rdl _ sh hsh hro
      exact runs_wake (pre := []) hre hc f2 hv e (by simp) (by simp) (fun x hx => e2 x hx _ _ h1)
    · obtain ⟨pre, post, e1, e2, e3, e4⟩ := bops_wake_w (w := w) (pid := pid) (os := os) (o := o) hwrt hwk
      rw [hh] at e1 e2 e3
      rw [e1] at h hc ⊢
      obtain ⟨f1, f2⟩ := woke_one e4 h
      have hc0 : c = 0 := by omega
      subst hc0
      refine ⟨.inl ⟨rfl, hwo⟩, fun i q t h1 h2 e => ?_⟩
      obtain ⟨⟨v, hv⟩, _⟩ := hw.wrl _ sh hsh hwo
      exact runs_wake hre hc f2 hv e (fun x hx => e2 x hx _ _ (by omega)) (fun x hx => e2 x hx _ _ h2) (fun x hx => e3 x hx _ _ h1 h2)

/-- After a successful wake-up of the readers in a call, every open reader has a datagram. -/
theorem woke_readers {a : InitArgs} {pid : Nat → Nat} {w w' : WSys} {sp : Spec} (hw : TInv a pid w sp) {op : Op} {os : WOs} {o : Out} {ops : List BOp}
    (hno : ∀ k flags env, op ≠ .open k flags env) (hat : w.attempt pid op os = some (w', o, ops)) (hre : BInv w.b) (hc : w.b.CleanRun ops)
    (hrel : Rel w'.sys (sp.step (w.fill pid os op)).1) (h : w.b.Woke 0 ops) :
    ∀ k sh, (sp.step (w.fill pid os op)).1.hs k = .live sh → sh.flags.has SHR_RDONLY = true → 1 ≤ w'.b.pending (2 * k) := by
  intro k sh hk hro
  have hb : ops = w.bops pid os o (w.fill pid os op) ∧ w'.b = w.b.runs ops := by
    unfold WSys.attempt at hat
    split at hat
    · cases hat
    · cases hat; exact ⟨rfl, rfl⟩
  obtain ⟨sh0, g1, g2, g3⟩ := woke_all hw hno hb.1 hre hc h
  rw [hb.2]
  have hko : k ≠ op.handle := by
    rintro rfl
    obtain ⟨sh1, f1, f2⟩ := step_kept sp (w.fill pid os op) (fill_open hno) sh (by rw [fill_handle]; exact hk)
    rw [fill_handle, g1] at f1; cases f1
    rcases g2 with ⟨_, g2⟩ | ⟨e, _⟩
    · exact hrel_mode hw.rel g1 (f2.flags ▸ hro) g2
    · cases e
  have hk0 : sp.hs k = .live sh := by
    rw [← step_other_hs sp (w.fill pid os op) k (by rw [fill_handle]; exact Ne.symm hko)]; exact hk
  obtain ⟨⟨t, ht⟩, _⟩ := hw.rdl k sh hk0 hro
  exact g3 _ _ _ (by omega) (by omega) ht

theorem woke_j1 {a : InitArgs} {pid : Nat → Nat} {w w' : WSys} {sp : Spec} (hw : TInv a pid w sp) {op : Op} {os : WOs} {o : Out} {ops : List BOp}
    (hno : ∀ k flags env, op ≠ .open k flags env) (hat : w.attempt pid op os = some (w', o, ops)) (hre : BInv w.b) (hc : w.b.CleanRun ops)
    (hrel : Rel w'.sys (sp.step (w.fill pid os op)).1) (h : w.b.Woke 0 ops) (k : Nat) (P : Prop) : J1 w' (sp.step (w.fill pid os op)).1 k P :=
  fun sh hk hro _ _ => woke_readers hw hno hat hre hc hrel h k sh hk hro

theorem woke_j2 {a : InitArgs} {pid : Nat → Nat} {w w' : WSys} {sp : Spec} (hw : TInv a pid w sp) {op : Op} {os : WOs} {o : Out} {ops : List BOp}
    (hno : ∀ k flags env, op ≠ .open k flags env) (hat : w.attempt pid op os = some (w', o, ops)) (hre : BInv w.b) (hc : w.b.CleanRun ops)
    (hT : TInv a pid w' (sp.step (w.fill pid os op)).1) (h : w.b.Woke 1 ops) (k : Nat) : J2 w' (sp.step (w.fill pid os op)).1 k := by
  intro op' sh hb' hwr hk _
  have hb : ops = w.bops pid os o (w.fill pid os op) ∧ w'.b = w.b.runs ops ∧ ∀ k, k ≠ op.handle → w'.blk k = w.blk k := by
    unfold WSys.attempt at hat
    split at hat
    · cases hat
    · cases hat; exact ⟨rfl, rfl, fun k hk => upd_other _ _ hk⟩
  obtain ⟨sh0, g1, g2, g3⟩ := woke_all hw hno hb.1 hre hc h
  rw [hb.2.1]
  have wo : ∀ sh, Suspended (sp.step (w.fill pid os op)).1 sh op' → sh.flags.has SHR_WRONLY = true := by
    intro sh hs
    rcases hs with ⟨⟨_, _, _, _, rfl⟩, _⟩ | ⟨_, hs, _⟩
    · cases hwr
    · exact hs
  have hko : k ≠ op.handle := by
    rintro rfl
    obtain ⟨_, _, sh2, f3, f4⟩ := hT.blk _ _ _ hb'
    rw [hk] at f3; cases f3
    obtain ⟨sh1, f1, f2⟩ := step_kept sp (w.fill pid os op) (fill_open hno) sh (by rw [fill_handle]; exact hk)
    rw [fill_handle, g1] at f1; cases f1
    rcases g2 with ⟨e, _⟩ | ⟨_, g2⟩
    · cases e
    · exact hrel_mode hw.rel g1 g2 (f2.flags ▸ wo _ f4)
  rw [hb.2.2 k hko] at hb'
  obtain ⟨_, _, sh2, f3, f4⟩ := hw.blk _ _ _ hb'
  rcases f4 with ⟨⟨_, _, _, _, rfl⟩, _⟩ | ⟨_, f4, f5, _⟩
  · cases hwr
  · obtain ⟨t, ht⟩ := (hw.wrl k sh2 f3 f4).2.1 f5
    exact g3 _ _ _ (by omega) (by omega) ht

end Shr
