import Verif.Props.ToolSys
/-!
# C63, C68: shr-tool pub and sub on real rings

For the vocabulary see `Props/ToolSys.lean`.  Connections are numbered in the order in which the publisher accepts them; `t.taken` lists the
messages that the publisher has taken from its ring, each with the number of the connection to which it was writing, and `t.p.stream c`
is all that was written to connection `c`.
-/
namespace Shr

/-- What a client that gets the messages `ms` receives: their frames, or just their bytes. -/
def wire (lenPrefix : Bool) (ms : List Msg) : List Byte := if lenPrefix then framesOf ms else ms.flatten

/-- The messages taken for connection `c`. -/
def PubRun.sentTo (t : PubRun) (c : Nat) : List Msg := (t.taken.filter (fun x => x.1 == c)).map Prod.snd

theorem wire_append (l : Bool) (a b : List Msg) : wire l (a ++ b) = wire l a ++ wire l b := by
  cases l <;> simp [wire, framesOf_append]

theorem wire_nil (l : Bool) : wire l [] = [] := by cases l <;> rfl

theorem pubWrite_spec (l : Bool) (pre : Option Nat) (ws : List (Option Nat)) (m : Msg) (hm : m ≠ []) :
    (∀ bs, pubWrite l pre ws m = .sent bs → bs = wire l [m]) ∧
    (∀ bs, pubWrite l pre ws m = .dropped bs ∨ pubWrite l pre ws m = .more bs ∨ pubWrite l pre ws m = .abort bs →
      bs <+: wire l [m] ∧ bs ≠ wire l [m]) := by
  cases l with
  | true =>
    have e : wire true [m] = frameOf m := by simp [wire, framesOf]
    rw [e]
    exact C45_publisher pre ws m hm
  | false =>
    have e : wire false [m] = m := by simp [wire]
    rw [e]
    obtain ⟨h1, h2, h3⟩ := pubBody_spec ws m [] hm
    refine ⟨fun bs h => by simpa using h1 bs h, fun bs h => ?_⟩
    have : ∃ k, k < m.length ∧ bs = [] ++ m.take k := by
      rcases h with h | h | h
      · exact h2 bs (.inl h)
      · exact h2 bs (.inr h)
      · exact absurd h (h3 bs)
    obtain ⟨k, hk, e⟩ := this
    rw [List.nil_append] at e
    subst e
    refine ⟨List.take_prefix _ _, fun h => ?_⟩
    have := congrArg List.length h
    rw [List.length_take] at this; omega

/-- What holds of a publisher at any time. -/
structure PubJ (l : Bool) (t : PubRun) : Prop where
  cl : ∀ c, t.p.client = some c → c < t.p.next
  lt : ∀ x ∈ t.taken, x.1 < t.p.next
  le : ∀ c, t.p.client = some c → ∀ x ∈ t.taken, x.1 ≤ c
  sorted : t.taken.Pairwise (fun x y => x.1 ≤ y.1)
  ne : ∀ x ∈ t.taken, x.2 ≠ []
  cut : ∀ c, t.p.stream c <+: wire l (t.sentTo c) ∧ wire l (t.sentTo c).dropLast <+: t.p.stream c
  whole : t.ending = .run → ∀ c, t.p.client = some c → t.p.stream c = wire l (t.sentTo c)

theorem sentTo_snoc (t : PubRun) (c d : Nat) (m : Msg) (p : Pub) (e : PubEnd) :
    (⟨p, e, t.taken ++ [(d, m)]⟩ : PubRun).sentTo c = t.sentTo c ++ if c = d then [m] else [] := by
  unfold PubRun.sentTo
  rw [List.filter_append, List.map_append]
  by_cases h : c = d
  · subst h; simp
  · rw [if_neg h]
    have : ¬ d = c := fun e => h e.symm
    simp [this]

theorem wire_dropLast (l : Bool) (ms : List Msg) : wire l ms.dropLast <+: wire l ms := by
  by_cases h : ms = []
  · subst h; exact List.prefix_refl _
  · conv => rhs; rw [← List.dropLast_concat_getLast h, wire_append]
    exact List.prefix_append _ _

theorem PubJ.init (l : Bool) : PubJ l ⟨{}, .run, []⟩ where
  cl := by rintro c ⟨⟩
  lt := by simp
  le := by simp
  sorted := .nil
  ne := by simp
  cut c := by constructor <;> simp [PubRun.sentTo, wire_nil]
  whole := by rintro _ c ⟨⟩

/-- The same messages and streams, and no client. -/
theorem PubJ.closed {l : Bool} {t : PubRun} (h : PubJ l t) (p : Pub) (e : PubEnd) (h1 : p.next = t.p.next) (h2 : p.stream = t.p.stream)
    (h3 : p.client = none) : PubJ l ⟨p, e, t.taken⟩ where
  cl := by intro c hc; dsimp only at hc; rw [h3] at hc; cases hc
  lt := by dsimp only; rw [h1]; exact h.lt
  le := by intro c hc; dsimp only at hc; rw [h3] at hc; cases hc
  sorted := h.sorted
  ne := h.ne
  cut c := by dsimp only; rw [h2]; exact h.cut c
  whole := by intro _ c hc; dsimp only at hc; rw [h3] at hc; cases hc

/-- A message is taken for the client, and `b` is written. -/
theorem PubJ.take {l : Bool} {t : PubRun} (h : PubJ l t) (hrun : t.ending = .run) {c : Nat} (hc : t.p.client = some c) {m : Msg} (hm : m ≠ [])
    {b : List Byte} {p : Pub} {e : PubEnd} (hb : b <+: wire l [m]) (h1 : p.next = t.p.next)
    (h2 : p.stream = fun i => if i = c then t.p.stream i ++ b else t.p.stream i)
    (h3 : p.client = none ∨ p.client = some c ∧ (e = .run → b = wire l [m])) : PubJ l ⟨p, e, t.taken ++ [(c, m)]⟩ := by
  have hw := h.whole hrun c hc
  have hsc : ∀ d, (⟨p, e, t.taken ++ [(c, m)]⟩ : PubRun).sentTo d = t.sentTo d ++ if d = c then [m] else [] := fun d => sentTo_snoc t d c m p e
  have hcl : ∀ d, p.client = some d → d = c := by
    rintro d hd
    rcases h3 with h3 | ⟨h3, _⟩ <;> rw [h3] at hd <;> cases hd
    rfl
  refine ⟨?_, ?_, ?_, ?_, ?_, ?_, ?_⟩
  · intro d hd
    dsimp only at hd ⊢
    rw [hcl d hd, h1]; exact h.cl c hc
  · intro x hx
    dsimp only at hx ⊢
    rw [h1]
    rcases List.mem_append.mp hx with hx | hx
    · exact h.lt x hx
    · rw [List.mem_singleton.mp hx]; exact h.cl c hc
  · intro d hd x hx
    dsimp only at hd hx
    rw [hcl d hd]
    rcases List.mem_append.mp hx with hx | hx
    · exact h.le c hc x hx
    · rw [List.mem_singleton.mp hx]
  · dsimp only
    rw [List.pairwise_append]
    refine ⟨h.sorted, by simp, ?_⟩
    intro x hx y hy
    rw [List.mem_singleton.mp hy]
    exact h.le c hc x hx
  · intro x hx
    rcases List.mem_append.mp hx with hx | hx
    · exact h.ne x hx
    · rw [List.mem_singleton.mp hx]; exact hm
  · intro d
    rw [hsc d]
    dsimp only
    rw [h2]
    dsimp only
    by_cases hd : d = c
    · subst hd
      rw [if_pos rfl, if_pos rfl, hw, List.dropLast_concat, wire_append]
      exact ⟨(List.prefix_append_right_inj _).mpr hb, List.prefix_append _ _⟩
    · rw [if_neg hd, if_neg hd, List.append_nil]
      exact h.cut d
  · intro he d hd
    dsimp only at he hd
    rw [hsc d]
    have := hcl d hd
    subst this
    dsimp only
    rw [h2]
    dsimp only
    rw [if_pos rfl, if_pos rfl, hw, wire_append]
    rcases h3 with h3 | ⟨_, h3⟩
    · rw [h3] at hd; cases hd
    · rw [h3 he]

/-- One event. -/
theorem PubJ.step {l : Bool} {t : PubRun} (h : PubJ l t) (hrun : t.ending = .run) (ev : PubEv) :
    PubJ l ⟨(pubStep l t.p ev).1, (pubStep l t.p ev).2.1, t.taken ++ (pubStep l t.p ev).2.2⟩ := by
  have same : ∀ e, PubJ l ⟨t.p, e, t.taken⟩ := fun e =>
    { cl := h.cl, lt := h.lt, le := h.le, sorted := h.sorted, ne := h.ne, cut := h.cut, whole := fun _ => h.whole hrun }
  cases ev with
  | accept ok modOk =>
    unfold pubStep
    dsimp only
    split
    · simp only [List.append_nil]; exact same _
    · split
      · simp only [List.append_nil]
        refine { cl := ?_, lt := ?_, le := h.le, sorted := h.sorted, ne := h.ne, cut := h.cut, whole := fun _ => h.whole hrun }
        · intro c hc; have := h.cl c hc; show c < t.p.next + 1; omega
        · intro x hx; have := h.lt x hx; show x.1 < t.p.next + 1; omega
      · rename_i hn
        have : ∀ (b : Bool) (e : PubEnd), PubJ l ⟨{ t.p with client := some t.p.next, next := t.p.next + 1, polled := b }, e, t.taken⟩ := by
          intro b e
          refine { cl := ?_, lt := ?_, le := ?_, sorted := h.sorted, ne := h.ne, cut := h.cut, whole := ?_ }
          · rintro c ⟨rfl⟩; exact Nat.lt_succ_self _
          · intro x hx; have := h.lt x hx; show x.1 < t.p.next + 1; omega
          · rintro c ⟨rfl⟩ x hx; have := h.lt x hx; show x.1 ≤ t.p.next; omega
          · rintro _ c ⟨rfl⟩
            have hs : t.sentTo t.p.next = [] := by
              unfold PubRun.sentTo
              rw [List.map_eq_nil_iff, List.filter_eq_nil_iff]
              intro x hx hx'
              have := h.lt x hx
              have : x.1 = t.p.next := by simpa using hx'
              omega
            have hc := (h.cut t.p.next).1
            rw [hs, wire_nil] at hc
            show t.p.stream t.p.next = wire l (t.sentTo t.p.next)
            rw [hs, wire_nil]; exact List.prefix_nil.mp hc
        split
        · simp only [List.append_nil]; exact this true _
        · simp only [List.append_nil]; exact this t.p.polled _
  | ring r pre ws modOk =>
    unfold pubStep
    dsimp only
    cases r with
    | error => simp only [List.append_nil]; exact same _
    | ok m =>
      cases hc : t.p.client with
      | none => simp only [List.append_nil]; exact same _
      | some c =>
        dsimp only
        by_cases hm : m = []
        · rw [if_pos hm]; simp only [List.append_nil]; exact same _
        · rw [if_neg hm]
          obtain ⟨w1, w2⟩ := pubWrite_spec l pre ws m hm
          cases hw : pubWrite l pre ws m with
          | sent b => exact h.take hrun hc hm (by rw [w1 b hw]; exact List.prefix_refl _) rfl rfl (.inr ⟨rfl, fun _ => w1 b hw⟩)
          | dropped b => exact h.take hrun hc hm (w2 b (.inl hw)).1 rfl rfl (.inl rfl)
          | abort b => exact h.take hrun hc hm (w2 b (.inr (.inr hw))).1 rfl rfl (.inr ⟨rfl, by rintro ⟨⟩⟩)
          | more b => exact h.take hrun hc hm (w2 b (.inr (.inl hw))).1 rfl rfl (.inr ⟨rfl, by rintro ⟨⟩⟩)
  | client nr modOk =>
    unfold pubStep
    dsimp only
    split
    · simp only [List.append_nil]; exact h.closed _ _ rfl rfl rfl
    · simp only [List.append_nil]; exact h.closed _ _ rfl rfl rfl
    · simp only [List.append_nil]; exact same _
  | signal alarm => unfold pubStep; simp only [List.append_nil]; exact same _

/-- What the publisher takes when the ring's descriptor is readable. -/
theorem pubStep_takes (l : Bool) (p : Pub) (r : Except Int Msg) (pre : Option Nat) (ws : List (Option Nat)) (modOk : Bool) :
    (∀ rc, r = .error rc → (pubStep l p (.ring r pre ws modOk)).2.2 = []) ∧
    (r = .ok [] → (pubStep l p (.ring r pre ws modOk)).2.2 = []) ∧
    (∀ m, m ≠ [] → r = .ok m → (p.client = none ∧ (pubStep l p (.ring r pre ws modOk)) = (p, .abort, [])) ∨
      ∃ c, p.client = some c ∧ (pubStep l p (.ring r pre ws modOk)).2.2 = [(c, m)]) := by
  refine ⟨?_, ?_, ?_⟩
  · rintro rc rfl; rfl
  · rintro rfl
    unfold pubStep
    dsimp only
    cases p.client <;> simp
  · rintro m hm rfl
    unfold pubStep
    dsimp only
    cases hc : p.client with
    | none => exact .inl ⟨rfl, rfl⟩
    | some c =>
      refine .inr ⟨c, rfl, ?_⟩
      dsimp only
      rw [if_neg hm]
      cases pubWrite l pre ws m <;> rfl

theorem pubStep_others (l : Bool) (p : Pub) {ev : PubEv} (h : ∀ r pre ws modOk, ev ≠ .ring r pre ws modOk) : (pubStep l p ev).2.2 = [] := by
  cases ev with
  | accept ok modOk => unfold pubStep; dsimp only; repeat' split
                       all_goals rfl
  | ring r pre ws modOk => exact absurd rfl (h r pre ws modOk)
  | client nr modOk => unfold pubStep; dsimp only; split <;> rfl
  | signal alarm => rfl

theorem pubProc_tame (k : Nat) (l : Bool) : (pubProc k l).Tame := by
  rintro t i op ⟨rfl, _, _, hc⟩
  exact ⟨k, READER, rfl, .inl ⟨rfl, hc⟩⟩

/-- What the publisher has taken from the ring is what it has written about; if it has been killed by an assertion there may be one message more. -/
def PubTook (t : PubRun) (A : List Msg) : Prop :=
  t.taken.map Prod.snd = A ∨ (t.ending = .abort ∧ t.p.client = none ∧ ∃ m, A = t.taken.map Prod.snd ++ [m])

theorem PubTook.run {t : PubRun} {A : List Msg} (h : PubTook t A) (hr : t.ending ≠ .abort) : t.taken.map Prod.snd = A := by
  rcases h with h | ⟨h, _⟩
  · exact h
  · exact absurd h hr

/-- One call of the publisher on its ring. -/
theorem pub_call {l : Bool} {t t' : PubRun} {A : List Msg} {k : Nat} {op : Op} {o : Out} {buf : List Byte} (hj : PubJ l t) (hA : PubTook t A)
    (hrun : t.ending = .run) (h1 : Read1 buf o) (hret : (pubProc k l).ret t op o t') : PubJ l t' ∧ PubTook t' (A ++ o.msgs) := by
  obtain ⟨rc, iov, buf', rfl, hres⟩ := h1.result
  obtain ⟨pre, ws, modOk, rfl⟩ := hret
  refine ⟨hj.step hrun _, ?_⟩
  have hA := hA.run (by rw [hrun]; decide)
  obtain ⟨g1, g2, g3⟩ := pubStep_takes l t.p (readResult rc buf') pre ws modOk
  rcases hres with ⟨_, e1, e2⟩ | ⟨_, e1, e2⟩ | ⟨m, hm, _, _, e1, e2⟩
  · left; dsimp only; rw [g1 _ e1, e2]; simp [hA]
  · left; dsimp only; rw [g2 e1, e2]; simp [hA]
  · rcases g3 m hm e1 with ⟨hc, e⟩ | ⟨c, hc, e⟩
    · right
      dsimp only
      rw [e]
      exact ⟨rfl, hc, m, by simp [hA, e2]⟩
    · left; dsimp only; rw [e, e2]; simp [hA]

theorem pub_event {l : Bool} {t t' : PubRun} {A : List Msg} {k : Nat} (hj : PubJ l t) (hA : PubTook t A) (he : (pubProc k l).event t t') :
    PubJ l t' ∧ PubTook t' A := by
  obtain ⟨ev, hrun, _, hne, rfl⟩ := he
  refine ⟨hj.step hrun ev, .inl ?_⟩
  dsimp only
  rw [pubStep_others l t.p hne, List.append_nil]
  exact hA.run (by rw [hrun]; decide)

theorem pub_inv {k : Nat} {l : Bool} {w0 w : World PubRun} (h0 : w0.Start (pubProc k l)) (ht : w0.tool = ⟨{}, .run, []⟩)
    (hr : World.Reach (pubProc k l) w0 w) (v : w.Valid) : PubJ l w.tool ∧ PubTook w.tool ((w.rings 0).taken k) := by
  refine hr.induct (pubProc_tame k l) h0 (J := fun w => PubJ l w.tool ∧ PubTook w.tool ((w.rings 0).taken k)) ?_ ?_ v
  · have : (w0.rings 0).taken k = [] := by unfold RingLog.taken; rw [(h0.new 0).1]; rfl
    rw [ht, this]
    exact ⟨PubJ.init l, .inl rfl⟩
  · intro w w' inv v hst ⟨j1, j2⟩
    cases hst with
    | @other i op s o hne hs =>
      have : (({ w with rings := upd w.rings i ((w.rings i).add s op o) } : World _).rings 0).taken k = (w.rings 0).taken k := by
        dsimp only
        by_cases e : (0 : Nat) = i
        · subst e
          rw [upd_same', RingLog.taken_add (inv.len 0), if_neg (hne k READER rfl), List.append_nil]
        · rw [upd_other _ _ e]
      rw [this]; exact ⟨j1, j2⟩
    | @call i op s o t hc hs hret =>
      obtain ⟨rfl, hrun, hpol, hc⟩ := hc
      obtain ⟨⟨buf, h1, hbl⟩, _⟩ := inv.tool_read v.at_ring hs rfl hc
      dsimp only
      rw [upd_same', RingLog.taken_add (inv.len 0), if_pos hc.handle]
      exact pub_call j1 j2 hrun h1 hret
    | event h => exact pub_event j1 j2 h

/-- **C63.** What is missing: the message that is being written when a client goes away is lost (`C63_counterexample`), likewise the one
that is being written when the publisher dies of its assertion on a short write (`C45_counterexample_short_prefix`).

What holds, whatever other processes do with the ring: `pub` writes the messages that it takes from the ring, all of them and in order,
first those for the first client, then those for the second, and so on.  At any time, the connected client has been sent exactly the frames of
the messages that were taken since it connected; any other client has been sent the frames of the messages taken for it, except that
the last one may be cut. -/
theorem C63_pub_partial {k : Nat} {l : Bool} {w0 w : World PubRun} (h0 : w0.Start (pubProc k l)) (ht : w0.tool = ⟨{}, .run, []⟩)
    (hr : World.Reach (pubProc k l) w0 w) (v : w.Valid) :
    (w.tool.ending ≠ .abort → (w.rings 0).taken k = w.tool.taken.map Prod.snd) ∧ w.tool.taken.Pairwise (fun x y => x.1 ≤ y.1) ∧
    (∀ c, w.tool.ending = .run → w.tool.p.client = some c → w.tool.p.stream c = wire l (w.tool.sentTo c)) ∧
    (∀ c, w.tool.p.stream c <+: wire l (w.tool.sentTo c) ∧ wire l (w.tool.sentTo c).dropLast <+: w.tool.p.stream c) := by
  obtain ⟨j1, j2⟩ := pub_inv h0 ht hr v
  exact ⟨fun h => (j2.run h).symm, j1.sorted, fun c h => j1.whole h c, j1.cut⟩

/-- **C63.** A message is taken from the ring only while a client is connected, and for this client; the only exception is the call in which the
publisher dies of its assertion that there is a client, which takes place only if the ring's descriptor is polled although there is
none (see `C63_polled`). -/
theorem C63_taken_for_client {k : Nat} {l : Bool} {w0 w w' : World PubRun} (h0 : w0.Start (pubProc k l))
    (hr : World.Reach (pubProc k l) w0 w) (v : w'.Valid) (hst : World.Step (pubProc k l) w w')
    (hne : (w'.rings 0).taken k ≠ (w.rings 0).taken k) :
    ∃ m, (w'.rings 0).taken k = (w.rings 0).taken k ++ [m] ∧
      ((∃ c, w.tool.p.client = some c ∧ w'.tool.taken = w.tool.taken ++ [(c, m)]) ∨
       (w.tool.p.client = none ∧ w.tool.p.polled = true ∧ w'.tool.ending = .abort)) := by
  have inv := hr.inv (pubProc_tame k l) h0 (v.before hst)
  cases hst with
  | @other i op s o hne' hs =>
    exfalso; apply hne
    dsimp only
    by_cases e : (0 : Nat) = i
    · subst e
      rw [upd_same', RingLog.taken_add (inv.len 0), if_neg (hne' k READER rfl), List.append_nil]
    · rw [upd_other _ _ e]
  | @call i op s o t hc hs hret =>
    obtain ⟨rfl, hrun, hpol, hc⟩ := hc
    obtain ⟨⟨buf, h1, hbl⟩, _⟩ := inv.tool_read v.at_ring hs rfl hc
    dsimp only at hne ⊢
    rw [upd_same', RingLog.taken_add (inv.len 0), if_pos hc.handle] at hne ⊢
    obtain ⟨rc, iov, buf', rfl, hres⟩ := h1.result
    obtain ⟨pre, ws, modOk, rfl⟩ := hret
    obtain ⟨g1, g2, g3⟩ := pubStep_takes l w.tool.p (readResult rc buf') pre ws modOk
    rcases hres with ⟨_, e1, e2⟩ | ⟨_, e1, e2⟩ | ⟨m, hm, _, _, e1, e2⟩
    · rw [e2, List.append_nil] at hne; exact absurd rfl hne
    · rw [e2, List.append_nil] at hne; exact absurd rfl hne
    · refine ⟨m, by rw [e2], ?_⟩
      rcases g3 m hm e1 with ⟨hc, e⟩ | ⟨c, hc, e⟩
      · exact .inr ⟨hc, hpol, by rw [e]⟩
      · exact .inl ⟨c, hc, by rw [e]⟩
  | event h => exact absurd rfl hne

/-- **C63.** The ring's descriptor is polled only while there is a client: no event changes this as long as the publisher goes on, except that
`epoll_ctl` fails when a client has disconnected. -/
theorem C63_polled {l : Bool} {p : Pub} {ev : PubEv} (h : p.polled = true → p.client ≠ none)
    (hrun : (pubStep l p ev).2.1 = .run) (hev : ev ≠ .client (some 0) false) :
    (pubStep l p ev).1.polled = true → (pubStep l p ev).1.client ≠ none := by
  cases ev with
  | accept ok modOk =>
    unfold pubStep at hrun ⊢
    dsimp only at hrun ⊢
    repeat' split
    all_goals first | exact h | simp
  | ring r pre ws modOk =>
    unfold pubStep at hrun ⊢
    dsimp only at hrun ⊢
    cases r with
    | error => exact h
    | ok m =>
      cases hc : p.client with
      | none => rw [hc] at hrun; cases hrun
      | some c =>
        rw [hc] at hrun
        dsimp only at hrun ⊢
        by_cases hm : m = []
        · rw [if_pos hm]; exact fun hp => h hp
        · rw [if_neg hm] at hrun ⊢
          cases hw : pubWrite l pre ws m with
          | sent b => simp
          | dropped b =>
            rw [hw] at hrun
            dsimp only at hrun ⊢
            cases modOk with
            | true => unfold Pub.close; simp
            | false => cases hrun
          | abort b => simp
          | more b => simp
  | client nr modOk =>
    unfold pubStep at hrun ⊢
    dsimp only at hrun ⊢
    cases nr with
    | none => cases hrun
    | some n =>
      cases n with
      | zero =>
        cases modOk with
        | true => unfold Pub.close; simp
        | false => exact absurd rfl hev
      | succ n => exact h
  | signal alarm => exact h

/-- A connection that is not the client (any more, or because it was refused) is sent nothing by an event, and does not become the client. -/
theorem pubStep_frozen (l : Bool) (p : Pub) (ev : PubEv) {c : Nat} (hc : c < p.next) (hn : p.client ≠ some c) :
    c < (pubStep l p ev).1.next ∧ (pubStep l p ev).1.client ≠ some c ∧ (pubStep l p ev).1.stream c = p.stream c := by
  cases ev with
  | accept ok modOk =>
    unfold pubStep
    dsimp only
    repeat' split
    · exact ⟨hc, hn, rfl⟩
    · exact ⟨by dsimp only; omega, hn, rfl⟩
    · exact ⟨by dsimp only; omega, by simp; omega, rfl⟩
    · exact ⟨by dsimp only; omega, by simp; omega, rfl⟩
  | ring r pre ws modOk =>
    unfold pubStep
    dsimp only
    cases r with
    | error => exact ⟨hc, hn, rfl⟩
    | ok m =>
      cases hd : p.client with
      | none => exact ⟨hc, hn, rfl⟩
      | some d =>
        rw [hd] at hn
        have hcd : c ≠ d := fun e => hn (by rw [e])
        dsimp only
        by_cases hm : m = []
        · rw [if_pos hm]; dsimp only; rw [hd]; exact ⟨hc, hn, rfl⟩
        · rw [if_neg hm]
          cases hw : pubWrite l pre ws m with
          | sent b => exact ⟨hc, hn, if_neg hcd⟩
          | dropped b => exact ⟨hc, by simp [Pub.close], if_neg hcd⟩
          | abort b => exact ⟨hc, hn, if_neg hcd⟩
          | more b => exact ⟨hc, hn, if_neg hcd⟩
  | client nr modOk =>
    unfold pubStep
    dsimp only
    split
    · exact ⟨hc, by simp [Pub.close], rfl⟩
    · exact ⟨hc, by simp [Pub.close], rfl⟩
    · exact ⟨hc, hn, rfl⟩
  | signal alarm => exact ⟨hc, hn, rfl⟩

/-- The states between two events of a publisher that has just been started, if `epoll_ctl` does not fail when a client disconnects. -/
inductive PubLife (l : Bool) : Pub → Prop where
  | init : PubLife l {}
  | step {p : Pub} {ev : PubEv} : PubLife l p → p.enabled ev → (∀ nr, ev ≠ .client nr false) → (pubStep l p ev).2.1 = .run → PubLife l (pubStep l p ev).1

theorem pub_polls {l : Bool} {p : Pub} {ev : PubEv} (h : p.client ≠ none → p.polled = true) (hrun : (pubStep l p ev).2.1 = .run) :
    (pubStep l p ev).1.client ≠ none → (pubStep l p ev).1.polled = true := by
  cases ev with
  | accept ok modOk =>
    unfold pubStep at hrun ⊢
    cases ok
    · cases hrun
    · dsimp only at hrun ⊢
      rw [if_neg (by simp)] at hrun ⊢
      by_cases hc : p.client ≠ none
      · rw [if_pos hc]; exact h
      · rw [if_neg hc] at hrun ⊢
        cases modOk
        · cases hrun
        · intro _; rfl
  | ring r pre ws modOk =>
    unfold pubStep at hrun ⊢
    dsimp only at hrun ⊢
    cases r with
    | error => exact h
    | ok m =>
      cases hc : p.client with
      | none => rw [hc] at hrun; cases hrun
      | some c =>
        have hp : p.polled = true := h (by rw [hc]; simp)
        dsimp only
        by_cases hm : m = []
        · rw [if_pos hm]; exact fun _ => hp
        · rw [if_neg hm]
          cases hw : pubWrite l pre ws m with
          | sent b => exact fun _ => hp
          | dropped b => intro h2; exact absurd rfl h2
          | abort b => exact fun _ => hp
          | more b => exact fun _ => hp
  | client nr modOk =>
    unfold pubStep
    rcases nr with _ | _ | n
    · intro h2; exact absurd rfl h2
    · intro h2; exact absurd rfl h2
    · exact h
  | signal alarm => exact h

/-- **C63.** From its start on, whatever events come in whatever order, the publisher polls the ring exactly while a client is connected; so the
assertion that there is a client when the ring becomes readable never fails.  (What can still fail is the assertion that the four bytes of the length are
written at once.) -/
theorem C63_polls_iff {l : Bool} {p : Pub} (h : PubLife l p) : (p.polled = true ↔ p.client ≠ none) ∧
    ∀ ev, p.enabled ev → (pubStep l p ev).2.1 = .abort →
      l = true ∧ ∃ m k ws modOk, ev = .ring (.ok m) (some k) ws modOk ∧ k < 4 := by
  have hp : p.polled = true ↔ p.client ≠ none := by
    induction h with
    | init => simp
    | step _ _ hev hrun ih => exact ⟨C63_polled ih.1 hrun (hev _), pub_polls ih.2 hrun⟩
  refine ⟨hp, ?_⟩
  intro ev hen hab
  cases ev with
  | accept ok modOk =>
    unfold pubStep at hab
    dsimp only at hab
    repeat' split at hab
    all_goals cases hab
  | ring r pre ws modOk =>
    unfold pubStep at hab
    cases r with
    | error => cases hab
    | ok m =>
      dsimp only at hab
      cases hc : p.client with
      | none => exact absurd hc (hp.1 hen)
      | some c =>
        rw [hc] at hab
        dsimp only at hab
        by_cases hm : m = []
        · rw [if_pos hm] at hab; cases hab
        · rw [if_neg hm] at hab
          have hbody : ∀ ws out acc b, pubBody ws out acc ≠ .abort b := by
            intro ws
            induction ws with
            | nil => intro out acc b e; cases e
            | cons x ws ih =>
              intro out acc b e
              cases x with
              | none => cases e
              | some k =>
                unfold pubBody at e
                dsimp only at e
                split at e
                · exact ih _ _ _ e
                · cases e
          cases hw : pubWrite l pre ws m with
          | sent b => rw [hw] at hab; cases hab
          | dropped b => rw [hw] at hab; dsimp only at hab; split at hab <;> cases hab
          | more b => rw [hw] at hab; cases hab
          | abort b =>
            unfold pubWrite at hw
            cases l with
            | false => exact absurd hw (hbody _ _ _ _)
            | true =>
              rw [if_pos rfl] at hw
              unfold pubFrame at hw
              cases pre with
              | none => cases hw
              | some k =>
                refine ⟨rfl, m, k, ws, modOk, rfl, ?_⟩
                dsimp only at hw
                by_cases h4 : min k 4 ≠ 4
                · omega
                · rw [if_neg h4] at hw; exact absurd hw (hbody _ _ _ _)
  | client nr modOk =>
    unfold pubStep at hab
    rcases nr with _ | _ | n <;> cases hab
  | signal alarm =>
    unfold pubStep at hab
    dsimp only at hab
    split at hab <;> cases hab

/-- The publisher after a client has come and gone and another has come, and a third was refused: a life with all kinds of events. -/
example : PubLife true (pubStep true (pubStep true (pubStep true (pubStep true {} (.accept true true)).1 (.client (some 0) true)).1 (.accept true true)).1 (.accept true true)).1 ∧
    (pubStep true (pubStep true (pubStep true (pubStep true {} (.accept true true)).1 (.client (some 0) true)).1 (.accept true true)).1 (.accept true true)).1.client = some 1 :=
  ⟨.step (.step (.step (.step .init trivial (by simp) rfl) (by show some 0 ≠ none; simp) (by simp) rfl) trivial (by simp) rfl) trivial (by simp) rfl, rfl⟩

/-- **C63.** One client at a time: a connection that was accepted while there was a client gets nothing, now and later, and one that was the client
and is not any more is sent nothing more. -/
theorem C63_one_client {k : Nat} {l : Bool} {w w' : World PubRun} (hr : World.Reach (pubProc k l) w w') {c : Nat} (hc : c < w.tool.p.next)
    (hn : w.tool.p.client ≠ some c) : w'.tool.p.stream c = w.tool.p.stream c ∧ w'.tool.p.client ≠ some c := by
  suffices c < w'.tool.p.next ∧ w'.tool.p.client ≠ some c ∧ w'.tool.p.stream c = w.tool.p.stream c from ⟨this.2.2, this.2.1⟩
  induction hr with
  | refl => exact ⟨hc, hn, rfl⟩
  | @step w1 w2 hr hst ih =>
    obtain ⟨i1, i2, i3⟩ := ih
    cases hst with
    | other hne hs => exact ⟨i1, i2, i3⟩
    | @call i op s o t hc hs hret =>
      dsimp only
      cases o with
      | read rc iov buf =>
        obtain ⟨pre, ws, modOk, rfl⟩ := hret
        obtain ⟨f1, f2, f3⟩ := pubStep_frozen l w1.tool.p (.ring (readResult rc buf) pre ws modOk) i1 i2
        exact ⟨f1, f2, f3.trans i3⟩
      | _ =>
        have : t = w1.tool := hret
        rw [this]; exact ⟨i1, i2, i3⟩
    | @event t h =>
      obtain ⟨ev, _, _, _, rfl⟩ := h
      obtain ⟨f1, f2, f3⟩ := pubStep_frozen l w1.tool.p ev i1 i2
      exact ⟨f1, f2, f3.trans i3⟩

/-! ## C68: from ring to ring -/

theorem sorted_infix {l : List (Nat × Msg)} (h : l.Pairwise (fun x y => x.1 ≤ y.1)) (c : Nat) :
    (l.filter (fun x => x.1 == c)).map Prod.snd <:+: l.map Prod.snd := by
  apply List.IsInfix.map
  induction l with
  | nil => exact List.infix_refl _
  | cons x l ih =>
    obtain ⟨h1, h2⟩ := List.pairwise_cons.mp h
    have ih := ih h2
    by_cases hx : x.1 = c
    · -- all that equal `c` come first
      have hp : ∀ (l : List (Nat × Msg)), (∀ y ∈ l, c ≤ y.1) → l.Pairwise (fun x y => x.1 ≤ y.1) → l.filter (fun x => x.1 == c) <+: l := by
        intro l
        induction l with
        | nil => intro _ _; exact List.prefix_refl _
        | cons y l ih =>
          intro hge hs
          obtain ⟨s1, s2⟩ := List.pairwise_cons.mp hs
          by_cases hy : y.1 = c
          · rw [List.filter_cons_of_pos (by simpa using hy)]
            exact (List.prefix_cons_inj y).mpr (ih (fun z hz => hge z (by simp [hz])) s2)
          · have hgt : c < y.1 := by have := hge y (by simp); omega
            have : (y :: l).filter (fun x => x.1 == c) = [] := by
              rw [List.filter_eq_nil_iff]
              intro z hz
              have : y.1 ≤ z.1 := by
                rcases List.mem_cons.mp hz with rfl | hz
                · exact Nat.le_refl _
                · exact s1 z hz
              simp; omega
            rw [this]; exact List.nil_prefix
      rw [List.filter_cons_of_pos (by simpa using hx)]
      exact ((List.prefix_cons_inj x).mpr (hp l (fun y hy => by have := h1 y hy; omega) h2)).isInfix
    · rw [List.filter_cons_of_neg (by simpa using hx)]
      exact ih.trans (List.suffix_cons x l).isInfix

theorem pubSubProc_tame (kA kB : Nat) : (pubSubProc kA kB).Tame := by
  rintro t i op (⟨rfl, _, _, hc⟩ | ⟨rfl, fs, rest, _, hc⟩)
  · exact ⟨kA, READER, rfl, .inl ⟨rfl, hc⟩⟩
  · exact ⟨kB, WRITER, rfl, .inr ⟨rfl, fs, hc⟩⟩

/-- An event only adds to the streams. -/
theorem pubStep_grow (l : Bool) (p : Pub) (ev : PubEv) (c : Nat) : p.stream c <+: (pubStep l p ev).1.stream c := by
  cases ev with
  | accept ok modOk =>
    unfold pubStep
    dsimp only
    repeat' split
    all_goals exact List.prefix_refl _
  | ring r pre ws modOk =>
    unfold pubStep
    dsimp only
    cases r with
    | error => exact List.prefix_refl _
    | ok m =>
      cases hd : p.client with
      | none => exact List.prefix_refl _
      | some d =>
        dsimp only
        by_cases hm : m = []
        · rw [if_pos hm]; exact List.prefix_refl _
        · rw [if_neg hm]
          have : ∀ b, p.stream c <+: if c = d then p.stream c ++ b else p.stream c := by
            intro b
            split
            · exact List.prefix_append _ _
            · exact List.prefix_refl _
          cases hw : pubWrite l pre ws m <;> exact this _
  | client nr modOk =>
    unfold pubStep
    dsimp only
    split <;> exact List.prefix_refl _
  | signal alarm => exact List.prefix_refl _

/-- `buf` is what has been received after some complete frames, and `M'` are the messages from then on. -/
def Pending (M' : List Msg) (buf : List Byte) : Prop :=
  (M' = [] → buf = []) ∧ ∀ m M'', M' = m :: M'' → buf.length < (frameOf m).length

theorem Pending.grow {M' : List Msg} {buf : List Byte} (h : Pending M' buf) (N : List Msg) : Pending (M' ++ N) buf := by
  cases M' with
  | nil =>
    rw [h.1 rfl]
    exact ⟨fun _ => rfl, fun m M'' _ => by rw [frameOf_length]; simp⟩
  | cons m M' =>
    refine ⟨(by intro h; cases h), ?_⟩
    intro m' M'' e
    cases e
    exact h.2 m M' rfl

theorem Pending.all {M' : List Msg} {buf : List Byte} (h : Pending M' buf) (e : buf = framesOf M') : M' = [] := by
  cases M' with
  | nil => rfl
  | cons m M' =>
    have := h.2 m M' rfl
    rw [e, framesOf_cons, List.length_append] at this
    omega

/-- What holds of a subscriber: `M` the messages sent to it, `R` what it has received, `B` what it has put into its ring. -/
def SubJ (t : SubSt) (M : List Msg) (R : List Byte) (B : List Msg) : Prop :=
  match t with
  | .idle buf => ∃ M', M = B ++ M' ∧ R = framesOf B ++ buf ∧ Pending M' buf
  | .hand fs rest => ∃ M', M = B ++ fs ++ M' ∧ R = framesOf (B ++ fs) ++ rest ∧ Pending M' rest
  | .exited => B <+: M
  | .aborted => B <+: M ∧ ∃ m ∈ M, 999996 < m.length

theorem SubJ.grow {t : SubSt} {M : List Msg} {R : List Byte} {B : List Msg} (h : SubJ t M R B) (N : List Msg) : SubJ t (M ++ N) R B := by
  cases t with
  | idle buf =>
    obtain ⟨M', rfl, h2, h3⟩ := h
    exact ⟨M' ++ N, by simp, h2, h3.grow N⟩
  | hand fs rest =>
    obtain ⟨M', rfl, h2, h3⟩ := h
    exact ⟨M' ++ N, by simp, h2, h3.grow N⟩
  | exited => exact h.trans (List.prefix_append _ _)
  | aborted =>
    obtain ⟨h1, m, hm, h2⟩ := h
    exact ⟨h1.trans (List.prefix_append _ _), m, by simp [hm], h2⟩

theorem SubJ.pre {t : SubSt} {M : List Msg} {R : List Byte} {B : List Msg} (h : SubJ t M R B) : B <+: M := by
  cases t with
  | idle buf => obtain ⟨M', rfl, _⟩ := h; exact List.prefix_append _ _
  | hand fs rest => obtain ⟨M', rfl, _⟩ := h; rw [List.append_assoc]; exact List.prefix_append _ _
  | exited => exact h
  | aborted => exact h.1

/-- The subscriber receives a piece of the stream. -/
theorem SubJ.recv {buf : List Byte} {M : List Msg} {R chunk : List Byte} {B : List Msg} (h : SubJ (.idle buf) M R B)
    (hM : ∀ m ∈ M, m.length ≤ BUFLEN) (hp : R ++ chunk <+: framesOf M) (hne : chunk ≠ []) (hl : chunk.length ≤ BUFLEN - buf.length) :
    SubJ (subRecv buf (some chunk)) M (R ++ chunk) B ∧ subRecv buf (some chunk) ≠ .exited ∧ subRecv buf (some chunk) ≠ .aborted := by
  obtain ⟨M', rfl, rfl, h3⟩ := h
  have hc : 0 < chunk.length := List.length_pos_iff.mpr hne
  have hlen : (buf ++ chunk).length ≤ BUFLEN := by rw [List.length_append]; omega
  rw [framesOf_append, List.append_assoc] at hp
  have hp := (List.prefix_append_right_inj _).mp hp
  obtain ⟨fs, M2, rest, e1, e2, e3, e4, e5⟩ := decodeLoop_prefix M' 0 (buf ++ chunk)
    (fun m hm => by
      have := hM m (by simp [hm])
      simp only [BUFLEN] at this
      simp only [MAX_FRAME]; omega) hp (by
      simp only [BUFLEN] at hlen
      simp only [NUMIOV]; omega)
  have hrun : subRecv buf (some chunk) = match decodeLoop 0 (buf ++ chunk) with
      | none => .exited
      | some ([], _) => .idle (buf ++ chunk)
      | some (fs, rest) => .hand fs rest := by
    unfold subRecv
    rw [if_neg (by omega)]
    cases chunk with
    | nil => exact absurd rfl hne
    | cons c cs => rfl
  rw [hrun, e2]
  subst e1
  cases fs with
  | nil =>
    simp only [framesOf_nil, List.nil_append] at e3
    refine ⟨⟨M2, by simp, by rw [List.append_assoc], ?_⟩, by simp, by simp⟩
    rw [e3]; exact ⟨e4, e5⟩
  | cons f fs =>
    refine ⟨⟨M2, by simp, ?_, e4, e5⟩, by simp, by simp⟩
    rw [List.append_assoc, e3, framesOf_append, List.append_assoc]

/-- `read` fails or reports the end of the file. -/
theorem SubJ.eof {buf : List Byte} {M : List Msg} {R : List Byte} {B : List Msg} (h : SubJ (.idle buf) M R B)
    {chunk : Option (List Byte)} (hc : chunk = none ∨ chunk = some []) : SubJ (subRecv buf chunk) M R B := by
  unfold subRecv
  split
  · rename_i hb
    refine ⟨h.pre, ?_⟩
    obtain ⟨M', rfl, rfl, h3⟩ := h
    cases M' with
    | nil => rw [h3.1 rfl] at hb; exact absurd (by decide) hb
    | cons m M' =>
      refine ⟨m, by simp, ?_⟩
      have := h3.2 m M' rfl
      rw [frameOf_length] at this
      simp only [BUFLEN] at hb; omega
  · rcases hc with rfl | rfl <;> exact h.pre

structure PSJ (t : PubSub) (A B : List Msg) : Prop where
  pub : PubJ true t.pub
  took : PubTook t.pub A
  len : ∀ m ∈ A, m.length ≤ BUFLEN
  nr : t.nread ≤ (t.pub.p.stream t.conn).length
  sub : SubJ t.sub (t.pub.sentTo t.conn) ((t.pub.p.stream t.conn).take t.nread) B

theorem sentTo_mem {t : PubRun} {c : Nat} {m : Msg} (h : m ∈ t.sentTo c) : m ∈ t.taken.map Prod.snd := by
  unfold PubRun.sentTo at h
  obtain ⟨x, hx, rfl⟩ := List.mem_map.mp h
  exact List.mem_map.mpr ⟨x, (List.mem_filter.mp hx).1, rfl⟩

theorem PSJ.sent_len {t : PubSub} {A B : List Msg} (h : PSJ t A B) : ∀ m ∈ t.pub.sentTo t.conn, m.length ≤ BUFLEN := by
  intro m hm
  have hm := sentTo_mem hm
  rcases h.took with e | ⟨_, _, m', e⟩
  · exact h.len m (by rw [← e]; exact hm)
  · exact h.len m (by rw [e]; exact List.mem_append_left _ hm)

/-- The publisher makes a step. -/
theorem PSJ.pubStep {t : PubSub} {A A' B : List Msg} (h : PSJ t A B) (ev : PubEv) {p' : PubRun}
    (he : p' = ⟨(pubStep true t.pub.p ev).1, (pubStep true t.pub.p ev).2.1, t.pub.taken ++ (pubStep true t.pub.p ev).2.2⟩)
    (hj : PubJ true p') (ht : PubTook p' A') (hA : ∀ m ∈ A', m.length ≤ BUFLEN) : PSJ { t with pub := p' } A' B := by
  have hg := pubStep_grow true t.pub.p ev t.conn
  have hs : p'.sentTo t.conn = t.pub.sentTo t.conn ++ ((_root_.Shr.pubStep true t.pub.p ev).2.2.filter (fun x => x.1 == t.conn)).map Prod.snd := by
    rw [he]; unfold PubRun.sentTo; rw [List.filter_append, List.map_append]
  have hst : p'.p.stream t.conn = (_root_.Shr.pubStep true t.pub.p ev).1.stream t.conn := by rw [he]
  refine ⟨hj, ht, hA, ?_, ?_⟩
  · show t.nread ≤ (p'.p.stream t.conn).length
    rw [hst]
    exact Nat.le_trans h.nr hg.length_le
  · show SubJ t.sub (p'.sentTo t.conn) ((p'.p.stream t.conn).take t.nread) B
    obtain ⟨b, hb⟩ := hg
    rw [hs, hst, ← hb, List.take_append_of_le_length h.nr]
    exact h.sub.grow _

theorem pubSub_event {t t' : PubSub} {A B : List Msg} {kA kB : Nat} (h : PSJ t A B) (he : (pubSubProc kA kB).event t t') : PSJ t' A B := by
  rcases he with ⟨p', hp, rfl⟩ | ⟨buf, n, hb, hn0, hn, hnl, rfl⟩ | ⟨buf, hb, rfl | rfl⟩
  · obtain ⟨hj, ht⟩ := pub_event h.pub h.took hp
    obtain ⟨ev, hrun, _, hne, rfl⟩ := hp
    exact h.pubStep ev rfl hj ht h.len
  · refine ⟨h.pub, h.took, h.len, hn, ?_⟩
    have hs := h.sub
    rw [hb] at hs
    have hR : (t.pub.p.stream t.conn).take (t.nread + n) = (t.pub.p.stream t.conn).take t.nread ++ ((t.pub.p.stream t.conn).drop t.nread).take n :=
      List.take_add
    have hcl : (((t.pub.p.stream t.conn).drop t.nread).take n).length = n := by
      rw [List.length_take, List.length_drop]; omega
    show SubJ (subRecv buf _) (t.pub.sentTo t.conn) ((t.pub.p.stream t.conn).take (t.nread + n)) B
    rw [hR]
    refine (hs.recv h.sent_len ?_ ?_ (by omega)).1
    · rw [← hR]
      exact (List.take_prefix _ _).trans (h.pub.cut t.conn).1
    · intro e; rw [e] at hcl; simp at hcl; omega
  · have hs := h.sub
    rw [hb] at hs
    exact ⟨h.pub, h.took, h.len, h.nr, hs.eof (.inl rfl)⟩
  · have hs := h.sub
    rw [hb] at hs
    exact ⟨h.pub, h.took, h.len, h.nr, hs.eof (.inr rfl)⟩

theorem pubSub_inv {kA kB : Nat} {w0 w : World PubSub} (h0 : w0.Start (pubSubProc kA kB)) (hp : w0.tool.pub = ⟨{}, .run, []⟩)
    (hs : w0.tool.sub = .idle []) (hn : w0.tool.nread = 0) (hr : World.Reach (pubSubProc kA kB) w0 w) (v : w.Valid) :
    PSJ w.tool ((w.rings 0).taken kA) ((w.rings 1).put kB) := by
  refine hr.induct (pubSubProc_tame kA kB) h0 (J := fun w => PSJ w.tool ((w.rings 0).taken kA) ((w.rings 1).put kB)) ?_ ?_ v
  · have e0 : (w0.rings 0).taken kA = [] := by unfold RingLog.taken; rw [(h0.new 0).1]; rfl
    have e1 : (w0.rings 1).put kB = [] := by unfold RingLog.put; rw [(h0.new 1).1]; rfl
    rw [e0, e1]
    refine ⟨by rw [hp]; exact PubJ.init true, by rw [hp]; exact .inl rfl, by simp, by rw [hn]; omega, ?_⟩
    rw [hs, hn, hp]
    exact ⟨[], rfl, rfl, fun _ => rfl, by intro m M'' h; cases h⟩
  · intro w w' inv v hst j
    cases hst with
    | @other i op s o hne hs =>
      dsimp only
      have e0 : (upd w.rings i ((w.rings i).add s op o) 0).taken kA = (w.rings 0).taken kA := by
        by_cases e : (0 : Nat) = i
        · subst e
          rw [upd_same', RingLog.taken_add (inv.len 0), if_neg (hne kA READER rfl), List.append_nil]
        · rw [upd_other _ _ e]
      have e1 : (upd w.rings i ((w.rings i).add s op o) 1).put kB = (w.rings 1).put kB := by
        by_cases e : (1 : Nat) = i
        · subst e
          rw [upd_same', RingLog.put_add (inv.len 1), if_neg (hne kB WRITER rfl), List.append_nil]
        · rw [upd_other _ _ e]
      rw [e0, e1]; exact j
    | @call i op s o t hc hs hret =>
      dsimp only
      rcases hc with ⟨rfl, hrun, hpol, hc⟩ | ⟨rfl, fs, rest, hsub, hc⟩
      · obtain ⟨⟨buf, h1, hbl⟩, _⟩ := inv.tool_read v.at_ring hs rfl hc
        rw [upd_same', upd_other _ _ (by decide), RingLog.taken_add (inv.len 0), if_pos hc.handle]
        obtain ⟨rc, iov, buf', rfl, _⟩ := h1.result
        obtain ⟨p', hp', rfl⟩ := hret
        obtain ⟨hj, ht⟩ := pub_call j.pub j.took hrun h1 hp'
        obtain ⟨pre, ws, modOk, he⟩ := hp'
        refine j.pubStep _ he hj ht ?_
        intro m hm
        rcases List.mem_append.mp hm with hm | hm
        · exact j.len m hm
        · rw [← hbl]; exact h1.len m hm
      · obtain ⟨h1, _⟩ := inv.tool_write v.at_ring hs rfl hc
        rw [upd_same', upd_other _ _ (by decide), RingLog.put_add (inv.len 1), if_pos hc.handle]
        have js := j.sub
        rw [hsub] at js
        rcases h1.result hc with ⟨rfl, e⟩ | ⟨rc, hrc, rfl, e⟩ | ⟨rc, hrc, rfl, e⟩
        · obtain ⟨p', hp', rfl⟩ := hret
          have : p' = w.tool.pub := hp'
          rw [this, e, List.append_nil]; exact j
        · have hret : t = { w.tool with sub := subRet w.tool.sub (.wrote rc) } := hret
          rw [hret, e, List.append_nil, hsub, subRet, if_pos hrc]
          exact ⟨j.pub, j.took, j.len, j.nr, js.pre⟩
        · have hret : t = { w.tool with sub := subRet w.tool.sub (.wrote rc) } := hret
          rw [hret, e, hsub, subRet, if_neg hrc]
          obtain ⟨M', m1, m2, m3⟩ := js
          exact ⟨j.pub, j.took, j.len, j.nr, M', m1, m2, m3⟩
    | event h => exact pubSub_event j h

/-- **C68.** `shr-tool pub` on ring A and `shr-tool sub` on ring B, connected by TCP; other processes use the rings, and other clients
connect, at any time; the stream is cut in any way.  At any time, what the subscriber has put into B is a beginning of the list of messages that
the publisher has taken from A for it; this list is a contiguous part of the list of all messages that the publisher has taken from A; and when the
subscriber has received all that was sent and waits for more, B has got all of them. -/
theorem C68_ring_to_ring {kA kB : Nat} {w0 w : World PubSub} (h0 : w0.Start (pubSubProc kA kB)) (hp : w0.tool.pub = ⟨{}, .run, []⟩)
    (hs : w0.tool.sub = .idle []) (hn : w0.tool.nread = 0) (hr : World.Reach (pubSubProc kA kB) w0 w) (v : w.Valid) :
    (w.rings 1).put kB <+: w.tool.pub.sentTo w.tool.conn ∧
    w.tool.pub.sentTo w.tool.conn <:+: (w.rings 0).taken kA ∧
    (∀ buf, w.tool.sub = .idle buf → w.tool.pub.ending = .run → w.tool.pub.p.client = some w.tool.conn →
      w.tool.nread = (w.tool.pub.p.stream w.tool.conn).length → (w.rings 1).put kB = w.tool.pub.sentTo w.tool.conn ∧ buf = []) := by
  have j := pubSub_inv h0 hp hs hn hr v
  refine ⟨j.sub.pre, ?_, ?_⟩
  · have : w.tool.pub.sentTo w.tool.conn <:+: w.tool.pub.taken.map Prod.snd := sorted_infix j.pub.sorted _
    rcases j.took with e | ⟨_, _, m, e⟩
    · rw [← e]; exact this
    · rw [e]; exact this.trans (List.prefix_append _ _).isInfix
  · intro buf hb hrun hc hlen
    have js := j.sub
    rw [hb, hlen, List.take_length, j.pub.whole hrun _ hc] at js
    obtain ⟨M', m1, m2, m3⟩ := js
    have : wire true (w.tool.pub.sentTo w.tool.conn) = framesOf (w.tool.pub.sentTo w.tool.conn) := rfl
    rw [this, m1, framesOf_append] at m2
    have e := List.append_cancel_left m2
    have e' := m3.all e.symm
    subst e'
    rw [m1]
    exact ⟨by simp, m3.1 rfl⟩

/-- **C68.** The subscriber stops only because `read` failed or reported the end (an event in which it receives nothing), or because its ring refused
what it wrote; and it dies of a failed assertion only if a message of more than 999996 bytes was sent to it. -/
theorem C68_stops_only {kA kB : Nat} {w0 w w' : World PubSub} (h0 : w0.Start (pubSubProc kA kB)) (hp : w0.tool.pub = ⟨{}, .run, []⟩)
    (hs : w0.tool.sub = .idle []) (hn : w0.tool.nread = 0) (hr : World.Reach (pubSubProc kA kB) w0 w) (v : w'.Valid)
    (hst : World.Step (pubSubProc kA kB) w w') :
    (w.tool.sub ≠ .exited → w'.tool.sub = .exited →
      (∃ rc, rc < 0 ∧ (w'.rings 1).outs.getLast? = some (.wrote rc)) ∨
      (∃ buf, w.tool.sub = .idle buf ∧ (subRecv buf none = .exited ∨ subRecv buf (some []) = .exited) ∧ w'.tool.nread = w.tool.nread)) ∧
    (w'.tool.sub = .aborted → ∃ m ∈ w'.tool.pub.sentTo w'.tool.conn, 999996 < m.length) := by
  have inv := hr.inv (pubSubProc_tame kA kB) h0 (v.before hst)
  have j := pubSub_inv h0 hp hs hn hr (v.before hst)
  have j' := pubSub_inv h0 hp hs hn (.step hr hst) v
  refine ⟨?_, fun h => by have := j'.sub; rw [h] at this; exact this.2⟩
  intro hne hex
  cases hst with
  | other _ _ => exact absurd hex hne
  | @call i op s o t hc hs hret =>
    dsimp only at hex ⊢
    rcases hc with ⟨rfl, hrun, hpol, hc⟩ | ⟨rfl, fs, rest, hsub, hc⟩
    · exfalso
      obtain ⟨⟨buf, h1, hbl⟩, _⟩ := inv.tool_read v.at_ring hs rfl hc
      obtain ⟨rc, iov, buf', rfl, _⟩ := h1.result
      obtain ⟨p', hp', rfl⟩ := hret
      exact hne hex
    · left
      obtain ⟨h1, _⟩ := inv.tool_write v.at_ring hs rfl hc
      rw [upd_same']
      have hl : ((w.rings 1).add s op o).outs.getLast? = some o := by simp [RingLog.add]
      rw [hl]
      rcases h1.result hc with ⟨rfl, e⟩ | ⟨rc, hrc, rfl, e⟩ | ⟨rc, hrc, rfl, e⟩
      · obtain ⟨p', hp', rfl⟩ := hret
        exact absurd hex hne
      · exact ⟨rc, hrc, rfl⟩
      · have hret : t = { w.tool with sub := subRet w.tool.sub (.wrote rc) } := hret
        rw [hret, hsub, subRet, if_neg hrc] at hex
        cases hex
  | @event t h =>
    right
    dsimp only at hex ⊢
    rcases h with ⟨p', hp, rfl⟩ | ⟨buf, n, hb, hn0, hn, hnl, rfl⟩ | ⟨buf, hb, rfl | rfl⟩
    · exact absurd hex hne
    · exfalso
      have js := j.sub
      rw [hb] at js
      have hR : (w.tool.pub.p.stream w.tool.conn).take (w.tool.nread + n) =
          (w.tool.pub.p.stream w.tool.conn).take w.tool.nread ++ ((w.tool.pub.p.stream w.tool.conn).drop w.tool.nread).take n := List.take_add
      have hcl : (((w.tool.pub.p.stream w.tool.conn).drop w.tool.nread).take n).length = n := by
        rw [List.length_take, List.length_drop]; omega
      refine (js.recv j.sent_len (chunk := ((w.tool.pub.p.stream w.tool.conn).drop w.tool.nread).take n) ?_ ?_ (by omega)).2.1 hex
      · rw [← hR]
        exact (List.take_prefix _ _).trans (j.pub.cut _).1
      · intro e; rw [e] at hcl; simp at hcl; omega
    · exact ⟨buf, hb, .inl hex, rfl⟩
    · exact ⟨buf, hb, .inr hex, rfl⟩

/-! ## The theorems apply; the message that is lost -/

theorem pub_own {i k : Nat} {f : Flags} {l : Bool} (h : (pubProc 1 l).own i = some (k, f)) :
    ((final (demoAs i) (demoPres i)).hs k).isLive = true ∧ ((final (demoAs i) (demoPres i)).handle k).flags = f := by
  apply demo_own
  unfold pubProc at h
  dsimp only at h
  split at h
  · cases h; exact .inl ⟨by assumption, rfl, rfl⟩
  · cases h

theorem pub_ret_read {k : Nat} {l : Bool} {t : PubRun} {op : Op} {o : Out} {m : Msg} {buf' : List Byte}
    (ho : o = .read m.length [(0, m.length)] buf') (hb : buf'.take m.length = m) (pre : Option Nat) (ws : List (Option Nat)) (modOk : Bool) :
    (pubProc k l).ret t op o ⟨(pubStep l t.p (.ring (.ok m) pre ws modOk)).1, (pubStep l t.p (.ring (.ok m) pre ws modOk)).2.1,
      t.taken ++ (pubStep l t.p (.ring (.ok m) pre ws modOk)).2.2⟩ := by
  subst ho
  have : readResult (m.length : Int) buf' = .ok m := by
    rw [readResult, if_neg (by omega), Int.toNat_natCast, hb]
  refine ⟨pre, ws, modOk, ?_⟩
  rw [this]

/-- A publisher after the first client has connected. -/
def pubDemo : PubRun := ⟨{ client := some 0, polled := true, next := 1 }, .run, []⟩

theorem pubDemo_reach {k : Nat} {l : Bool} {rings : Nat → RingLog} :
    World.Reach (pubProc k l) ⟨rings, ⟨{}, .run, []⟩⟩ ⟨rings, pubDemo⟩ :=
  Reach_event .refl ⟨.accept true true, rfl, trivial, by intros; simp, rfl⟩

attribute [local irreducible] lastOut in
theorem pub_demo {l : Bool} {pre : Option Nat} {ws : List (Option Nat)} {modOk : Bool} : ∃ w0 w : World PubRun,
    w0.Start (pubProc 1 l) ∧ w0.tool = ⟨{}, .run, []⟩ ∧ World.Reach (pubProc 1 l) w0 w ∧ w.Valid ∧ (w.rings 0).taken 1 = [[4, 5, 6, 7]] ∧
    (∃ h, (w.rings 0).sys.hs 1 = .live h ∧ (w.rings 0).sys.ring.readableBy h = [[8, 9, 10, 11]]) ∧
    w.tool = ⟨(pubStep l pubDemo.p (.ring (.ok [4, 5, 6, 7]) pre ws modOk)).1, (pubStep l pubDemo.p (.ring (.ok [4, 5, 6, 7]) pre ws modOk)).2.1,
      pubDemo.taken ++ (pubStep l pubDemo.p (.ring (.ok [4, 5, 6, 7]) pre ws modOk)).2.2⟩ := by
  have v0 : Valid demoA (demoOps ++ [] ++ [.readv 1 toolBuf 1 {}]) := by
    have := valid_read (demo_valid 0) (k := 1) (env := {}) (by decide) toolBuf_length
    rw [List.append_nil]; exact this
  obtain ⟨⟨buf', ho, hb⟩, h', hk', hU'⟩ := demo_read (a := demoA) (ops := demoOps) (k := 1) (m := [4, 5, 6, 7]) (U := [[8, 9, 10, 11]])
    (by rw [List.append_nil] at v0; exact v0) (by decide +kernel) (by decide +kernel) (by decide +kernel) (by decide)
  have ho' : lastOut demoA (demoOps ++ [] ++ [.readv 1 toolBuf 1 {}]) = .read ([4, 5, 6, 7] : Msg).length [(0, ([4, 5, 6, 7] : Msg).length)] buf' := by
    rw [List.append_nil]; exact ho
  have hret := pub_ret_read (k := 1) (l := l) (t := pubDemo) (op := .readv 1 toolBuf 1 {}) ho' hb pre ws modOk
  have r1 := Reach_call (P := pubProc 1 l) (w0 := ⟨demoRings, ⟨{}, .run, []⟩⟩) (t := pubDemo) (i := 0) (a := demoA) (pre := demoOps) (ops := [])
    pubDemo_reach (demoRings_eq 0) v0 ⟨rfl, rfl, rfl, toolBuf, {}, toolBuf_length, rfl⟩ hret
  refine ⟨_, _, start_of demoAs demoPres demoRings_eq demo_valid (fun _ _ _ h => pub_own h), rfl, r1, ?_, ?_, ?_, rfl⟩
  · intro i
    dsimp only
    by_cases h0 : i = 0
    · subst h0; rw [upd_same']; rw [List.append_assoc] at v0; exact v0
    · rw [upd_other _ _ h0, demoRings_eq]
      have := demo_valid i
      show Valid (demoAs i) (demoPres i ++ [])
      rw [List.append_nil]; exact this
  · dsimp only
    rw [upd_same', ringAfter_taken1 (k := 1) v0 rfl, List.append_nil, ho]
    simp only [Out.msgs, List.map_cons, List.map_nil, sliceOf, List.drop_zero]
    rw [hb]
  · refine ⟨h', ?_⟩
    dsimp only
    rw [upd_same', ringAfter_sys, List.nil_append]
    exact ⟨hk', hU'⟩

/-- **C63 is false** as far as no message may be lost: the first client goes away while a message is written to it (`write` fails after one byte of the
message).  The publisher goes on; the message is not in the ring any more, and no client has got it or will get it. -/
theorem C63_counterexample : ∃ w0 w : World PubRun, w0.Start (pubProc 1 true) ∧ w0.tool = ⟨{}, .run, []⟩ ∧ World.Reach (pubProc 1 true) w0 w ∧
    w.Valid ∧ (w.rings 0).taken 1 = [[4, 5, 6, 7]] ∧
    (∃ h, (w.rings 0).sys.hs 1 = .live h ∧ (w.rings 0).sys.ring.readableBy h = [[8, 9, 10, 11]]) ∧
    w.tool.ending = .run ∧ w.tool.p.client = none ∧ w.tool.p.next = 1 ∧ w.tool.p.stream 0 = [4, 0, 0, 0, 4] := by
  obtain ⟨w0, w, h1, h2, h3, h4, h5, h6, h7⟩ := pub_demo (l := true) (pre := some 4) (ws := [some 1, none]) (modOk := true)
  exact ⟨w0, w, h1, h2, h3, h4, h5, h6, by rw [h7]; decide +kernel, by rw [h7]; decide +kernel, by rw [h7]; decide +kernel,
    by rw [h7]; decide +kernel⟩

/-- A publisher that has sent a whole frame to its client. -/
example : ∃ w0 w : World PubRun, w0.Start (pubProc 1 true) ∧ w0.tool = ⟨{}, .run, []⟩ ∧ World.Reach (pubProc 1 true) w0 w ∧
    w.Valid ∧ w.tool.ending = .run ∧ w.tool.p.client = some 0 ∧ w.tool.sentTo 0 = [[4, 5, 6, 7]] ∧ w.tool.p.stream 0 = [4, 0, 0, 0, 4, 5, 6, 7] := by
  obtain ⟨w0, w, h1, h2, h3, h4, h5, h6, h7⟩ := pub_demo (l := true) (pre := some 4) (ws := [some 1, some 3]) (modOk := true)
  exact ⟨w0, w, h1, h2, h3, h4, by rw [h7]; decide +kernel, by rw [h7]; decide +kernel, by rw [h7]; decide +kernel,
    by rw [h7]; decide +kernel⟩

/-- The rings of the next example: ring 0 has two unread messages and a reader 1, the others are rings of ten bytes with a writer 1. -/
def demoAs2 : Nat → InitArgs := fun _ => demoA
def demoPres2 : Nat → List Op := fun i => if i = 0 then demoOps else demoPreW

theorem demo_valid2 (i : Nat) : Valid (demoAs2 i) (demoPres2 i) := by
  unfold demoAs2 demoPres2
  split
  · exact valid_of (by decide +kernel)
  · exact valid_of (by decide +kernel)

def pubSubDemo (t : PubRun) (sub : SubSt) (n : Nat) : PubSub := { pub := t, sub := sub, conn := 0, nread := n }

/-- The publisher of the example after it has sent the first message. -/
def pubDemo1 : PubRun := ⟨(pubStep true pubDemo.p (.ring (.ok [4, 5, 6, 7]) (some 4) [some 1, some 3] true)).1, .run, [(0, [4, 5, 6, 7])]⟩

theorem pubDemo1_eq : (⟨(pubStep true pubDemo.p (.ring (.ok [4, 5, 6, 7]) (some 4) [some 1, some 3] true)).1,
    (pubStep true pubDemo.p (.ring (.ok [4, 5, 6, 7]) (some 4) [some 1, some 3] true)).2.1,
      pubDemo.taken ++ (pubStep true pubDemo.p (.ring (.ok [4, 5, 6, 7]) (some 4) [some 1, some 3] true)).2.2⟩ : PubRun) = pubDemo1 := by
  have h1 : (pubStep true pubDemo.p (.ring (.ok [4, 5, 6, 7]) (some 4) [some 1, some 3] true)).2.1 = .run := by decide +kernel
  have h2 : pubDemo.taken ++ (pubStep true pubDemo.p (.ring (.ok [4, 5, 6, 7]) (some 4) [some 1, some 3] true)).2.2 = [(0, [4, 5, 6, 7])] := by
    decide +kernel
  rw [h1, h2]; rfl

theorem pubDemo1_stream : pubDemo1.p.stream 0 = [4, 0, 0, 0, 4, 5, 6, 7] := by decide +kernel

/-- The publisher of a pair reads a message. -/
theorem pubSub_reach_read {kA kB : Nat} {w0 : World PubSub} {rings : Nat → RingLog} {t t' : PubSub} {a : InitArgs} {pre ops : List Op} {m : Msg}
    {buf' : List Byte} {np : Option Nat} {ws : List (Option Nat)} {modOk : Bool}
    (hr : World.Reach (pubSubProc kA kB) w0 ⟨rings, t⟩) (hi : rings 0 = ringAfter a pre ops) (v : Valid a (pre ++ ops ++ [.readv kA toolBuf 1 {}]))
    (hrun : t.pub.ending = .run) (hpol : t.pub.p.polled = true) (ho : lastOut a (pre ++ ops ++ [.readv kA toolBuf 1 {}]) = .read m.length [(0, m.length)] buf')
    (hb : buf'.take m.length = m) (ht : t' = { t with pub := ⟨(pubStep true t.pub.p (.ring (.ok m) np ws modOk)).1,
      (pubStep true t.pub.p (.ring (.ok m) np ws modOk)).2.1, t.pub.taken ++ (pubStep true t.pub.p (.ring (.ok m) np ws modOk)).2.2⟩ }) :
    World.Reach (pubSubProc kA kB) w0 ⟨upd rings 0 (ringAfter a pre (ops ++ [.readv kA toolBuf 1 {}])), t'⟩ := by
  have hret := pub_ret_read (k := kA) (l := true) (t := t.pub) (op := .readv kA toolBuf 1 {}) rfl hb np ws modOk
  refine Reach_call hr hi v (.inl ⟨rfl, hrun, hpol, toolBuf, {}, toolBuf_length, rfl⟩) ?_
  rw [ho]
  exact ⟨_, hret, ht⟩

/-- The subscriber of a pair writes. -/
theorem pubSub_reach_write {kA kB : Nat} {w0 : World PubSub} {rings : Nat → RingLog} {t t' : PubSub} {a : InitArgs} {pre ops : List Op} {fs : List Msg}
    {rest : List Byte} {rc : Int} (hr : World.Reach (pubSubProc kA kB) w0 ⟨rings, t⟩) (hi : rings 1 = ringAfter a pre ops)
    (v : Valid a (pre ++ ops ++ [wr kB fs])) (hsub : t.sub = .hand fs rest) (ho : lastOut a (pre ++ ops ++ [wr kB fs]) = .wrote rc)
    (ht : t' = { t with sub := subRet t.sub (.wrote rc) }) :
    World.Reach (pubSubProc kA kB) w0 ⟨upd rings 1 (ringAfter a pre (ops ++ [wr kB fs])), t'⟩ := by
  refine Reach_call hr hi v (.inr ⟨rfl, fs, rest, hsub, {}, {}, rfl⟩) ?_
  rw [ho]
  exact ht

attribute [local irreducible] lastOut in
/-- A message has gone from ring 0 to ring 1. -/
example : ∃ w0 w : World PubSub, w0.Start (pubSubProc 1 1) ∧ w0.tool = pubSubDemo ⟨{}, .run, []⟩ (.idle []) 0 ∧
    World.Reach (pubSubProc 1 1) w0 w ∧ w.Valid ∧ w.tool = pubSubDemo pubDemo1 (.idle []) 8 ∧ (w.rings 1).put 1 = [[4, 5, 6, 7]] := by
  have v0 : Valid demoA (demoOps ++ [] ++ [.readv 1 toolBuf 1 {}]) := by
    have := valid_read (demo_valid 0) (k := 1) (env := {}) (by decide) toolBuf_length
    rw [List.append_nil]; exact this
  have v1 : Valid demoA (demoPreW ++ [] ++ [wr 1 [[4, 5, 6, 7]]]) := valid_of (by decide +kernel)
  obtain ⟨⟨buf', ho, hb⟩, h', hk', hU'⟩ := demo_read (a := demoA) (ops := demoOps) (k := 1) (m := [4, 5, 6, 7]) (U := [[8, 9, 10, 11]])
    (by rw [List.append_nil] at v0; exact v0) (by decide +kernel) (by decide +kernel) (by decide +kernel) (by decide)
  have ho' : lastOut demoA (demoOps ++ [] ++ [.readv 1 toolBuf 1 {}]) = .read ([4, 5, 6, 7] : Msg).length [(0, ([4, 5, 6, 7] : Msg).length)] buf' := by
    rw [List.append_nil]; exact ho
  let rings : Nat → RingLog := fun i => ringAfter (demoAs2 i) (demoPres2 i) []
  have r0 : World.Reach (pubSubProc 1 1) ⟨rings, pubSubDemo ⟨{}, .run, []⟩ (.idle []) 0⟩ ⟨rings, pubSubDemo pubDemo (.idle []) 0⟩ :=
    Reach_event .refl (.inl ⟨pubDemo, ⟨.accept true true, rfl, trivial, by intros; simp, rfl⟩, rfl⟩)
  have r1 := pubSub_reach_read (t' := pubSubDemo pubDemo1 (.idle []) 0) (np := some 4) (ws := [some 1, some 3]) (modOk := true)
    (a := demoA) (pre := demoOps) (ops := []) r0 rfl v0 rfl rfl ho' hb (by rw [← pubDemo1_eq]; rfl)
  have r2 := Reach_event (t' := pubSubDemo pubDemo1 (.hand [[4, 5, 6, 7]] []) 8) r1 (.inr (.inl ⟨[], 8, rfl, by decide, by
      show 0 + 8 ≤ (pubDemo1.p.stream 0).length
      rw [pubDemo1_stream]; decide, by decide, by
      have e : subRecv [] (some (((pubDemo1.p.stream 0).drop 0).take 8)) = .hand [[4, 5, 6, 7]] [] := by
        rw [pubDemo1_stream]; decide +kernel
      show _ = pubSubDemo pubDemo1 (subRecv [] (some (((pubDemo1.p.stream 0).drop 0).take 8))) 8
      rw [e]⟩))
  have hw : lastOut demoA (demoPreW ++ [] ++ [wr 1 [[4, 5, 6, 7]]]) = .wrote 4 := by decide +kernel
  have r3 := pubSub_reach_write (t' := pubSubDemo pubDemo1 (.idle []) 8) (a := demoA) (pre := demoPreW) (ops := []) r2
    (by rw [upd_other _ _ (by decide)]; rfl) v1 rfl hw rfl
  refine ⟨_, _, ?_, rfl, r3, ?_, rfl, ?_⟩
  · refine start_of demoAs2 demoPres2 (fun _ => rfl) demo_valid2 ?_
    intro i k f h
    unfold pubSubProc at h
    unfold demoAs2 demoPres2
    dsimp only at h
    split at h
    · rename_i hi; subst hi; cases h; decide +kernel
    · split at h
      · rename_i hi; subst hi; cases h; decide +kernel
      · cases h
  · intro i
    dsimp only
    by_cases h1 : i = 1
    · subst h1; rw [upd_same']; exact v1
    · rw [upd_other _ _ h1]
      by_cases h0 : i = 0
      · subst h0; rw [upd_same']; rw [List.append_assoc] at v0; exact v0
      · rw [upd_other _ _ h0]
        have := demo_valid2 i
        show Valid (demoAs2 i) (demoPres2 i ++ [])
        rw [List.append_nil]; exact this
  · dsimp only
    rw [upd_same']
    unfold RingLog.put
    rw [ringAfter_outs1 v1, hw]
    decide +kernel

end Shr
