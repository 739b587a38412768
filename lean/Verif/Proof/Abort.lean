import Verif.Proof.RefineH
/-! # Writes with an empty message behind a nonempty one: where they abort -/
namespace Shr
open M

/-- The run ends in a failed assertion. -/
def Aborts {α : Type} (x : M Ring α) (r : Ring) : Prop := ∃ s, (x r).res = .abort s

theorem Aborts.bind_right {α β : Type} {x : M Ring α} {f : α → M Ring β} {r : Ring} {T : Ring → Prop} {Q : α → Ring → Prop}
    (h : Ok x r T Q) (hf : ∀ a s, Q a s → Aborts (f a) s) : Aborts (x >>= f) r := by
  obtain ⟨a, s, h1, h2⟩ := h.res
  obtain ⟨t, ht⟩ := hf a s h2
  refine ⟨t, ?_⟩
  rw [M.bind_apply, h1]
  exact ht

theorem Aborts.bind_left {α β : Type} {x : M Ring α} {f : α → M Ring β} {r : Ring} (h : Aborts x r) : Aborts (x >>= f) r := by
  obtain ⟨t, ht⟩ := h
  exact ⟨t, by rw [M.bind_apply, ht]⟩

theorem Aborts.store_bind {β : Type} {g : Ring → Ring} {f : Unit → M Ring β} {r : Ring} (h : Aborts (f ()) (g r)) :
    Aborts (M.store g >>= f) r :=
  .bind_right (T := fun _ => True) (Q := fun _ s => s = g r) (Ok.store trivial rfl) (fun _ _ e => by rw [e]; exact h)

theorem Aborts.get_bind {β : Type} {f : Ring → M Ring β} {r : Ring} (h : Aborts (f r) r) : Aborts (M.get >>= f) r := by
  obtain ⟨t, ht⟩ := h
  exact ⟨t, by rw [M.bind_apply]; exact ht⟩

theorem Aborts.assert_bind {β : Type} {b : Bool} {f : Unit → M Ring β} {r : Ring} (hb : b = true) (h : Aborts (f ()) r) :
    Aborts (M.assert b >>= f) r := by
  obtain ⟨t, ht⟩ := h
  exact ⟨t, by rw [M.assert_bind_of hb]; exact ht⟩

theorem Aborts.lift_bind {α β : Type} {x : Except Fault α} {a : α} {f : α → M Ring β} {r : Ring} (hx : x = .ok a) (h : Aborts (f a) r) :
    Aborts (M.lift x >>= f) r := by
  obtain ⟨t, ht⟩ := h
  subst hx
  exact ⟨t, by rw [M.bind_apply, M.lift_ok]; exact ht⟩

theorem copyOne_empty (p : Nat) (r : Ring) : Aborts (copyOne [] p) r := by
  unfold copyOne
  exact .bind_left ⟨r, rfl⟩

/-- Copying a batch with an empty message in it. -/
theorem copyLoop_empty {post : List Msg} : ∀ {pre : List Msg} {r : Ring} {gq p0 : Nat} {P : List Msg},
    GeoAt r gq p0 P → (∀ b ∈ pre, b ≠ []) → bytesOf P + bytesOf pre ≤ r.n → P.length + pre.length ≤ r.mm →
    Aborts (copyLoop (pre ++ [] :: post) ((gq + P.length) % r.mm)) r := by
  intro pre
  induction pre with
  | nil =>
    intro r gq p0 P _ _ _ _
    exact .bind_left (copyOne_empty _ _)
  | cons b bs ih =>
    intro r gq p0 P h hne hby hcn
    simp at hby hcn
    show Aborts (copyOne b _ >>= _) r
    refine .bind_right (copyOne_spec h (hne b (by simp)) (by omega) (by omega)) ?_
    rintro p' r' ⟨rfl, hg, hf⟩
    have hn := hf.n; have hm := hf.mm
    have := ih (r := r') (P := P ++ [b]) hg (fun x hx => hne x (by simp [hx])) (by simp; omega) (by simp; omega)
    rw [hm] at this
    simpa [Nat.add_assoc] using this

theorem split_first_empty {l : List Msg} (h : [] ∈ l) : ∃ pre post, l = pre ++ [] :: post ∧ ∀ b ∈ pre, b ≠ [] := by
  induction l with
  | nil => cases h
  | cons b bs ih =>
    by_cases hb : b = []
    · exact ⟨[], bs, by rw [hb]; rfl, fun _ h => nomatch h⟩
    · obtain ⟨pre, post, e, hp⟩ := ih (by rcases List.mem_cons.mp h with h | h; exact absurd h.symm hb; exact h)
      exact ⟨b :: pre, post, by rw [e]; rfl, fun x hx => by
        rcases List.mem_cons.mp hx with h | h
        · rw [h]; exact hb
        · exact hp x h⟩

/-- The commit of a batch with an empty message in it. -/
theorem writevCommit_empty {r : Ring} {gq nread : Nat} {P new : List Msg} (h : Rep r gq nread P)
    (he : [] ∈ new) (hnb : bytesOf new ≤ r.n) (hnm : new.length ≤ r.mm) (hf : Fits r.n r.mm (P.drop nread) new) :
    Aborts (writevCommit r.mm new (bytesOf new)) r := by
  obtain ⟨p0, hg⟩ := h.geo
  have hC := hg.toCore
  have nbd := hC.nbd; have mmbd := hC.mmbd; have tot := hC.tot; have cnt := hC.cnt
  have mmpos := hC.mmpos
  rw [SSIZE_MAX_val] at nbd mmbd
  have hu := h.u; have hm := h.m; have hmp := h.mp; have hnr := h.nr
  have hdle := bytesOf_drop_le P nread
  obtain ⟨hf1, hf2⟩ := hf
  simp at hf2
  have hel := eldestLoop_spec (new := new) P gq p0 0 hg (by rw [W_val]; omega)
  have hfit : Fits r.n r.mm (P.drop (evictCount r.n r.mm new P)) new := evictCount_fits hnb hnm P
  generalize evictCount r.n r.mm new P = k at *
  have hfb := hfit.1; have hfm := hfit.2
  simp at hfm
  unfold writevCommit
  apply Aborts.get_bind
  rw [wsub_eq (by omega) (by rw [W_val]; omega), wadd_eq (by rw [W_val]; omega)]
  apply Aborts.assert_bind (decide_eq_true (by omega))
  apply Aborts.assert_bind (decide_eq_true (by omega))
  apply Aborts.assert_bind (decide_eq_true (by omega))
  rw [hmp, h.e]
  refine Aborts.lift_bind hel ?_
  refine Aborts.store_bind ?_
  refine Aborts.store_bind ?_
  refine Aborts.store_bind ?_
  apply Aborts.get_bind
  dsimp only
  rw [if_neg (by omega)]
  have hgl := Nat.mod_lt (gq + k) mmpos
  rw [wadd_eq (a := (gq + k) % r.mm) (by rw [W_val]; omega), mod_add_mod_left]
  apply Aborts.bind_left
  have hgd : GeoAt { r with e := (gq + k) % r.mm, q := wadd r.q (0 + k), mp := P.length - k }
      (gq + k) _ (P.drop k) := (hg.drop k).congr rfl rfl rfl rfl rfl
  have hpl : (gq + k + (P.length - k)) = gq + k + (P.drop k).length := by simp
  rw [hpl]
  obtain ⟨pre, post, e, hpre⟩ := split_first_empty he
  have hb : bytesOf pre ≤ bytesOf new := by rw [e, bytesOf_append]; omega
  have hl : pre.length ≤ new.length := by rw [e, List.length_append]; omega
  rw [e]
  exact copyLoop_empty hgd hpre (by show _ ≤ r.n; omega) (by show _ ≤ r.mm; simp; omega)

/-- One attempt to write such a batch: it aborts iff it gets as far as copying. -/
theorem writevAttempt_empty {r : Ring} {sp : Spec} (h : RingRel r sp) {new : List Msg} (he : [] ∈ new) (hnb : bytesOf new ≤ sp.cap)
    (hnm : new.length ≤ sp.maxm) (flags : Flags) {env : Env} (hlk : env.lockOk = true)
    (hsp : Fits sp.cap sp.maxm sp.unread new ∨ sp.drop = true) :
    Aborts (writevAttempt flags sp.maxm new (bytesOf new) env) r := by
  obtain ⟨p0, hg⟩ := h.rep.geo
  have hC := hg.toCore
  have nbd := hC.nbd; have mmbd := hC.mmbd; have tot := hC.tot; have cnt := hC.cnt
  rw [SSIZE_MAX_val] at nbd mmbd
  have hu := h.rep.u; have hm := h.rep.m
  rw [h.unread_eq] at hu
  have hm' : r.m = sp.unread.length := by rw [hm, ← h.unread_eq]; simp
  have hule : bytesOf sp.unread ≤ r.n := by
    rw [← h.unread_eq]; have := bytesOf_drop_le sp.retained (sp.first - sp.base); omega
  have hmle : r.m ≤ r.mm := by omega
  have hn := h.n; have hmm := h.mm
  unfold writevAttempt
  rw [if_neg (by rw [hlk]; simp)]
  apply Aborts.get_bind
  rw [wsub_eq (a := r.n) (by omega) (by rw [W_val]; omega),
    wsub_eq (a := r.mm) (by omega) (by rw [W_val]; omega)]
  have hiff : (r.n - r.u ≥ bytesOf new ∧ r.mm - r.m ≥ new.length) ↔ Fits sp.cap sp.maxm sp.unread new := by
    unfold Fits; omega
  by_cases hfit : Fits sp.cap sp.maxm sp.unread new
  · rw [if_pos (hiff.mpr hfit)]
    apply Aborts.bind_left
    rw [← hmm]
    exact writevCommit_empty h.rep he (by omega) (by omega) (by rw [h.unread_eq, hn, hmm]; exact hfit)
  · rw [if_neg (fun x => hfit (hiff.mp x))]
    have hdr : sp.drop = true := by rcases hsp with h | h; exact absurd h hfit; exact h
    have hdr' : r.gflags.has SHR_DROP = true := by rw [h.gf]; exact hdr
    rw [if_pos hdr']
    have hno : ¬ Fits r.n r.mm (sp.retained.drop (sp.first - sp.base)) new := by
      rw [h.unread_eq, hn, hmm]; exact hfit
    have hds := drop_unread_spec h.rep hdr' (by rw [hn]; exact hnb) (by rw [hmm]; exact hnm) hno (fun _ => True) (fun _ _ _ _ => trivial)
    rw [h.unread_eq, hn] at hds
    rw [hmm] at hds
    refine Aborts.bind_right hds ?_
    rintro _ rd rfl
    apply Aborts.bind_left
    generalize hk : evictCount sp.cap sp.maxm new sp.unread = k
    generalize hz : bytesOf (sp.unread.take k) = z
    have hkle : k ≤ sp.unread.length := by rw [← hk]; exact evictCount_le_length _ _ _ _
    have hrepd : Rep (dropped r k z sp.base (sp.first - sp.base)) sp.base (sp.first - sp.base + k) sp.retained := by
      refine h.rep.dropped ?_ ?_
      · have : sp.unread.length = sp.retained.length - (sp.first - sp.base) := by rw [← h.unread_eq]; simp
        omega
      · rw [h.unread_eq]; exact hz.symm
    have hfitd : Fits sp.cap sp.maxm (sp.retained.drop (sp.first - sp.base + k)) new := by
      rw [← List.drop_drop, h.unread_eq, ← hk]
      exact evictCount_fits hnb hnm _
    have := writevCommit_empty hrepd he (by show _ ≤ r.n; omega) (by show _ ≤ r.mm; omega) (by show Fits r.n r.mm _ _; rw [hn, hmm]; exact hfitd)
    have ednm : (dropped r k z sp.base (sp.first - sp.base)).mm = sp.maxm := hmm
    rw [ednm] at this
    exact this

/-- The argument check of `shr_writev`, for all vectors. -/
def Checked (cap maxm : Nat) (new : List Msg) : Prop :=
  new ≠ [] ∧ new.head? ≠ some [] ∧ bytesOf new ≤ cap ∧ new.length ≤ maxm

instance (cap maxm : Nat) (new : List Msg) : Decidable (Checked cap maxm new) := by unfold Checked; infer_instance

theorem Checked.legal {cap maxm : Nat} {new : List Msg} (h : Checked cap maxm new) (hne : [] ∉ new) : Legal cap maxm new :=
  ⟨h.1, fun _ hb e => hne (e ▸ hb), h.2.2⟩

theorem Legal.checked {cap maxm : Nat} {new : List Msg} (h : Legal cap maxm new) : Checked cap maxm new :=
  ⟨h.1, fun e => h.2.1 [] (List.mem_of_mem_head? e) rfl, h.2.2⟩

theorem lenLoop_checked {sn smm niov : Nat} (hsn : sn ≤ SSIZE_MAX) : ∀ (ls : List Nat) (len : Nat), len ≤ sn → 0 < len →
    (∀ l ∈ ls, l ≤ SSIZE_MAX) → niov ≤ smm →
    lenLoop sn smm niov ls len = if len + ls.sum ≤ sn then some (len + ls.sum) else none := by
  intro ls
  induction ls with
  | nil => intro len h1 _ _ _; simp [lenLoop, h1]
  | cons l ls ih =>
    intro len h1 h0 h2 h3
    have hs := hsn
    have hl := h2 l (by simp)
    rw [SSIZE_MAX_val] at hs hl
    unfold lenLoop
    dsimp only
    rw [wadd_eq (by rw [W_val]; omega), if_neg (by omega)]
    by_cases hb : sn < len + l
    · have hx : ¬ len + (l :: ls).sum ≤ sn := by simp; omega
      rw [if_neg hx]
      by_cases hz : len + l > SSIZE_MAX
      · rw [if_pos hz]
      · rw [if_neg hz, if_pos hb]
    · rw [if_neg (by rw [SSIZE_MAX_val]; omega), if_neg (by omega), if_neg (by omega),
        ih _ (by omega) (by omega) (fun x hx => h2 x (by simp [hx])) h3]
      rw [List.sum_cons, Nat.add_assoc]

theorem lenCheck_checked {cap maxm : Nat} (hcap : cap ≤ SSIZE_MAX) {iov : List Msg} (h : ∀ b ∈ iov, b.length ≤ SSIZE_MAX) :
    lenCheck cap maxm (iov.map List.length) = if Checked cap maxm iov then some (bytesOf iov) else none := by
  unfold lenCheck
  cases iov with
  | nil => rw [if_neg (fun x => x.1 rfl)]; simp [lenLoop]
  | cons b bs =>
    have hb := h b (by simp)
    rw [SSIZE_MAX_val] at hb
    have hc := hcap
    rw [SSIZE_MAX_val] at hc
    simp only [List.map_cons, lenLoop]
    rw [wadd_eq (by rw [W_val]; omega), Nat.zero_add]
    by_cases h0 : b = []
    · subst h0
      rw [if_pos List.length_nil]
      dsimp only
      rw [if_neg (fun x => x.2.1 rfl)]
    have hb0 : 0 < b.length := List.length_pos_iff.mpr h0
    rw [if_neg (by omega), if_neg (by rw [SSIZE_MAX_val]; omega)]
    have hbo : bytesOf (b :: bs) = b.length + (bs.map List.length).sum := by simp [bytesOf]
    by_cases h1 : b.length > cap
    · rw [if_pos h1, if_neg (fun x => by have := x.2.2.1; omega)]
    rw [if_neg h1]
    by_cases h2 : (b.length :: bs.map List.length).length > maxm
    · rw [if_pos h2, if_neg (fun x => by have := x.2.2.2; simp at this h2; omega)]
    rw [if_neg h2, lenLoop_checked hcap _ _ (by omega) hb0 (by simpa using fun x hx => h x (by simp [hx])) (by omega)]
    simp at h2
    by_cases h3 : b.length + (bs.map List.length).sum ≤ cap
    · rw [if_pos h3, if_pos ⟨by simp, by simpa using h0, by omega, by simp; omega⟩]
      dsimp only
      rw [if_neg (by omega), hbo]
    · rw [if_neg h3, if_neg (fun x => h3 (by have := x.2.2.1; omega))]
end Shr
