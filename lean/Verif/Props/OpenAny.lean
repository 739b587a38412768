import Verif.Props.OpenFile
import Verif.Proof.Range
/-! # A ring in use can be opened at any moment (C73) -/
namespace Shr

/-- The ring `p` is found at some moment in the life of a ring made with the arguments `a`: after some valid history of calls, at some
point of one more valid call (between any two of its stores, or before the first or after the last one). -/
def Moment (a : InitArgs) (p : Ring) : Prop :=
  ∃ ops op s outs, Valid a (ops ++ [op]) ∧ TimesOk (ops ++ [op]) ∧ (Sys.init a).run ops = .ok (s, outs) ∧ p ∈ s.points op

/-- **C73.** At every moment the ring has its sizes and attributes, not more unread bytes than data bytes, and its write position and
read slot in range.  The bounds are constants, so they also hold for numbers that are read at different moments. -/
theorem C73_in_range {a : InitArgs} {p : Ring} (h : Moment a p) :
    p.n = a.dataSz ∧ p.mm = a.max_msgs ∧ p.gflags = a.gflags ∧ p.u ≤ a.dataSz ∧ p.i < a.dataSz ∧ p.r < a.max_msgs := by
  obtain ⟨ops, op, s, outs, v, ht, hrun, hp⟩ := h
  have hs : s = final a ops := by
    have := v.left.runs
    rw [hrun] at this
    exact (Prod.mk.inj (Except.ok.inj this)).1
  obtain ⟨sp, x⟩ := v.at hrun (hs ▸ v.steps)
  have hlog : sp.farm = true → (sp.step op).1.log.length < W := fun hf => by
    refine (x.rel'.ring.farm ?_).2.2
    have e : (sp.step op).1.gflags = sp.gflags := (step_le sp op).gf
    unfold Spec.farm at hf ⊢
    rw [e]; exact hf
  have hr := points_inRange x.rel x.wf hlog p hp
  have hst := points_steps (v.small (by simp) (ht op (by simp))) (cache_small v.left hrun _) x.rel.ring.typed p hp
  obtain ⟨e1, e2, e3, _⟩ := hst.params
  have hi := points_i x.rel x.wf p hp e2 x.rel.ring.consistent.i
  have r0 := x.rel.ring
  rw [e2, r0.n] at hi
  rw [x.cap, x.maxm] at hr
  rw [x.cap] at hi
  exact ⟨by rw [e2, r0.n, x.cap], by rw [e3, r0.mm, x.maxm], by rw [e1, r0.gf, x.gf], hr.u, hi, hr.r⟩

section
variable {a : InitArgs} {env : InitEnv} {fs fs' : FS}

theorem ld_congr {f g : List Byte} {o n : Nat} (h : ∀ k, o ≤ k → k < o + n → f[k]? = g[k]?) : ld f o n = ld g o n := by
  apply List.ext_getElem?
  intro k
  rw [ld_getElem?, ld_getElem?]
  split
  · exact h _ (by omega) (by omega)
  · rfl

/-- **C73.** A ring is made by `shr_init` and used.  `shr_open` checks the file under the lock (src/shr.c:591-592), but an
`fcntl` lock does not exclude threads of the same process: such an opener reads the numbers one after the other while calls are in progress.  It sees a file `f` of the length made by `shr_init`, with the
same identification, sizes and attributes in its header, and with the number of unread bytes, the write position and the read slot of three
moments in the life of the ring, in any order.  The file passes its checks, and the open succeeds if its system calls do. -/
theorem C73_torn_header_accepted (hs : SizesOk a) (he : env.WF a) (hf : fs.WF) (h : Inits a env fs 0 fs')
    (hnew : fs.path = none ∨ a.flags.has SHR_KEEPEXIST = false) {ino : Nat} (hp : fs'.path = some ino) {f : List Byte}
    (hlen : f.length = (fs'.files ino).length)
    (hfix : ∀ k, k < OFF_I ∨ (OFF_MM ≤ k ∧ k < SIZEOF_CTRL) → f[k]? = (fs'.files ino)[k]?)
    {p1 p2 p3 : Ring} (h1 : Moment a p1) (h2 : Moment a p2) (h3 : Moment a p3)
    (hu : (decode f).u = p1.u) (hi : (decode f).i = p2.i) (hr : (decode f).r = p3.r) :
    Accepted f := by
  have e := h.end_ hs he hf
  rcases e.ok rfl with ⟨_, g1, g2⟩ | ⟨_, hp', hw, _⟩
  · rcases hnew with hn | hn
    · rw [hn] at g1; cases g1
    · rw [hn] at g2; cases g2
  rw [hp] at hp'; cases hp'
  obtain ⟨w1, w2, w3, w4, w5⟩ := whole_fields hw
  have ld0 : ∀ o n, o + n ≤ OFF_I ∨ (OFF_MM ≤ o ∧ o + n ≤ SIZEOF_CTRL) → ld f o n = ld (fs'.files fs.next) o n := by
    intro o n ho
    refine ld_congr fun k hk1 hk2 => hfix k ?_
    omega
  have l64 : ∀ o, o + 8 ≤ OFF_I ∨ (OFF_MM ≤ o ∧ o + 8 ≤ SIZEOF_CTRL) → ld64 f o = ld64 (fs'.files fs.next) o := by
    intro o ho
    unfold ld64
    rw [ld0 o 8 ho]
  have hL : a.fileSz ≤ env.trunc.len a.fileSz := by
    unfold Trunc.len; split
    · rename_i l h; exact he _ h
    · exact Nat.le_refl _
  have hsz := hs.fileSz
  have e1 := l64 OFF_N (.inl (by decide))
  have e2 := l64 OFF_PAD_LEN (.inr ⟨by decide, by decide⟩)
  have e3 := l64 OFF_MV_LEN (.inr ⟨by decide, by decide⟩)
  have e4 := l64 OFF_APP_LEN (.inr ⟨by decide, by decide⟩)
  have e5 := l64 OFF_MM (.inr ⟨by decide, by decide⟩)
  have hn : (decode f).n = a.dataSz := e1.trans w1
  have hmm : (decode f).mm = a.max_msgs := e5.trans w5
  obtain ⟨_, _, _, b1, _, _⟩ := C73_in_range h1
  obtain ⟨_, _, _, _, b2, _⟩ := C73_in_range h2
  obtain ⟨_, _, _, _, _, b3⟩ := C73_in_range h3
  have hpos := hs.pos
  have hmv := hs.mv
  refine ⟨?_, ?_, ?_, by rw [hu, hn]; exact b1, by rw [hi, hn]; exact b2, by rw [hr, hmm]; exact b3⟩
  · rw [hlen, hw.1]; omega
  · rw [ld0 0 8 (.inl (by decide))]; exact hw.2.1
  · intro _
    have : headerSize f ≤ SIZEOF_CTRL + ld64 f OFF_N + ld64 f OFF_PAD_LEN + ld64 f OFF_MV_LEN + ld64 f OFF_APP_LEN := Nat.mod_le _ _
    rw [e1, e2, e3, e4, w1, w2, w3, w4, hmv] at this
    rw [hlen, hw.1]
    omega

/-- **C73.** A ring is made by `shr_init`, any history of calls follows, and one more call is in progress or its caller is killed: at
every point of it the file can be opened with any valid mode, provided the opener's system calls succeed. -/
theorem C73_opens_any_time {ops : List Op} {op : Op} {s : Sys} {outs : List Out} (hs : SizesOk a) (he : env.WF a) (hf : fs.WF)
    (h : Inits a env fs 0 fs') (hnew : fs.path = none ∨ a.flags.has SHR_KEEPEXIST = false)
    (v : Valid a (ops ++ [op])) (ht : TimesOk (ops ++ [op])) (hrun : (Sys.init a).run ops = .ok (s, outs)) :
    ∃ ino, fs'.path = some ino ∧ ∀ p ∈ s.points op, ∃ g, FSteps (fs'.files ino) g ∧ decode g = p ∧
      ∀ flags oe, (flags.has SHR_RDONLY = true ∨ flags.has SHR_WRONLY = true) → (∀ b < 12, flags.getLsbD b = false) → oe.good →
        oe.env.lockOk = true → oe.env.mlockOk = true → oe.env.bwOpenOk = true → oe.env.mallocOk = true → oe.env.syncOk = true →
        ∃ x, shr_open { fs' with files := upd fs'.files ino g } flags oe = some x := by
  obtain ⟨ino, f, k1, hl, k2, k3, k4⟩ := C19_every_store hs he hf h hnew v ht hrun
  refine ⟨ino, k1, fun p hp => ?_⟩
  obtain ⟨g, g1, g2⟩ := k4 p hp
  have g0 := k2.trans g1
  obtain ⟨j1, _, j2, j3⟩ := C19_fixed_bytes hl g0
  have hm : Moment a p := ⟨ops, op, s, outs, v, ht, hrun, hp⟩
  have hA : Accepted g := by
    refine C73_torn_header_accepted hs he hf h hnew k1 j1 ?_ hm hm hm (by rw [g2]) (by rw [g2]) (by rw [g2])
    intro k hk
    refine j3 k ?_
    rcases hk with hk | hk
    · exact .inl hk
    · exact .inr (.inl hk)
  refine ⟨g, g0, g2, fun flags oe m1 m2 m3 m4 m5 m6 m7 m8 => ?_⟩
  refine (C71_opens_iff _ flags oe).mpr ⟨⟨m1, m2⟩, m3, ino, k1, ?_, m4, fun _ => m5, m6, fun _ _ => m7, fun _ => m8⟩
  show Accepted (upd fs'.files ino g ino)
  unfold upd
  rw [if_pos rfl]
  exact hA
end

/-! ## After a reader was killed -/

/-- A ring for two messages; one of six bytes was written and read, and one of two bytes is waiting. -/
def unA : InitArgs := { dataSz := 10, maxMsgs := 2, flags := SHR_MAXMSGS_2 }
def unOps : List Op := [opn 0 (SHR_WRONLY ||| SHR_NONBLOCK), opn 1 (SHR_RDONLY ||| SHR_NONBLOCK), opn 2 (SHR_RDONLY ||| SHR_NONBLOCK),
  wr 0 [[1, 2, 3, 4, 5, 6]], rd 1 10 1, wr 0 [[7, 8]]]
/-- The ring after the first store of the next read of reader 1. -/
def unMid : Ring := ((final unA unOps).points (rd 1 10 1)).getD 1 (final unA unOps).ring

/-- The system after reader 1 was killed there and reader 2 has read once. -/
def unAfter : Sys := match ((final unA unOps).killed (rd 1 10 1) unMid).run [rd 2 10 1] with
  | .ok x => x.1
  | .error _ => final unA unOps

/-- **C33 does not hold: a ring that cannot be opened any more.**  Reader 1 is killed between two stores of a read.  The file can still be
opened (C73), but the next read, by reader 2, returns a message that was read before and makes the number of unread bytes
negative: no file that contains this ring passes the checks of `shr_open`. -/
theorem C33_counterexample_unopenable : unMid ∈ (final unA unOps).points (rd 1 10 1) ∧
    ((final unA unOps).killed (rd 1 10 1) unMid).run [rd 2 10 1] = .ok (unAfter, [.read 6 [(0, 6)] [1, 2, 3, 4, 5, 6, 0, 0, 0, 0]]) ∧
    unAfter.ring.u = 2 ^ 64 - 4 ∧ ∀ f, decode f = unAfter.ring → ¬ Accepted f := by
  refine ⟨crash_getD_mem ?_, ?_, by decide +kernel, fun f hf h => ?_⟩
  · have : ((final unA unOps).points (rd 1 10 1)).length = 6 := by decide +kernel
    rw [this]; omega
  · have h1 : ((final unA unOps).killed (rd 1 10 1) unMid).outs [rd 2 10 1] = [.read 6 [(0, 6)] [1, 2, 3, 4, 5, 6, 0, 0, 0, 0]] := by
      decide +kernel
    unfold unAfter
    unfold Sys.outs at h1
    cases e : ((final unA unOps).killed (rd 1 10 1) unMid).run [rd 2 10 1] with
    | error x => rw [e] at h1; cases h1
    | ok x => rw [e] at h1; obtain ⟨x1, x2⟩ := x; dsimp only at h1 ⊢; rw [h1]
  · have := h.u
    rw [hf] at this
    exact absurd this (by decide +kernel)

/-! ## The hypotheses can be met -/

/-- The call in progress is a write that drops a message and straddles the end of the data area: the file can be opened at each of
its 22 points. -/
example : ∃ ino, (afterInit smallArgs {} emptyFS).path = some ino ∧
    ((final smallArgs demoOps).points (wr 0 [[12, 13, 14, 15, 16]])).length = 22 ∧
    ∀ p ∈ (final smallArgs demoOps).points (wr 0 [[12, 13, 14, 15, 16]]), ∃ g, decode g = p ∧
      ∃ x, shr_open { (afterInit smallArgs {} emptyFS) with files := upd (afterInit smallArgs {} emptyFS).files ino g } SHR_RDONLY {} =
        some x := by
  have v : Valid smallArgs (demoOps ++ [wr 0 [[12, 13, 14, 15, 16]]]) := valid_of (by decide +kernel)
  obtain ⟨ino, h1, h2⟩ := C73_opens_any_time smallArgs_ok (env := {}) (fun _ h => nomatch h) emptyFS_wf
    (inits_of (by decide +kernel)) (.inl rfl) v
    (fun op hm k t env e => by subst e; simp [demoOps, opn, wr, rd] at hm) v.left.runs
  refine ⟨ino, h1, by decide +kernel, fun p hp => ?_⟩
  obtain ⟨g, _, g2, g3⟩ := h2 p hp
  exact ⟨g, g2, g3 SHR_RDONLY {} (.inl (by decide)) (by decide) ⟨rfl, rfl, rfl, rfl⟩ rfl rfl rfl rfl rfl⟩

/-- Inside that call the read slot and the number of unread bytes do not fit together (the message is dropped one store at a time). -/
example : ∃ p ∈ (final smallArgs demoOps).points (wr 0 [[12, 13, 14, 15, 16]]), ¬ p.Consistent := by
  refine ⟨((final smallArgs demoOps).points (wr 0 [[12, 13, 14, 15, 16]])).getD 1 (final smallArgs demoOps).ring, crash_getD_mem ?_,
    by decide +kernel⟩
  have : ((final smallArgs demoOps).points (wr 0 [[12, 13, 14, 15, 16]])).length = 22 := by decide +kernel
  rw [this]; omega

end Shr
