import Verif.Props.File
import Verif.Proof.Stores
import Verif.Proof.Demo
/-! # Properties of the bytes of the ring file under calls: C19, continued -/
namespace Shr
open M

/-- The bytes of a ring file that no call on an open handle is meant to change (the two block/wake tables, bytes 240-1783, are changed
only by the functions of lib/bw.c): magic, flags and sizes, padding, and anything behind the app data. -/
def Fixed (f : List Byte) (k : Nat) : Prop :=
  k < OFF_I ∨ (OFF_MM ≤ k ∧ k < SIZEOF_CTRL) ∨ (SIZEOF_CTRL + ld64 f OFF_N ≤ k ∧ k < mvOff f) ∨ appOff f + ld64 f OFF_APP_LEN ≤ k

/-- The header fields the layout depends on. -/
def sizesOf (f : List Byte) : Nat × Nat × Nat × Nat := (ld64 f OFF_N, ld64 f OFF_PAD_LEN, ld64 f OFF_MV_LEN, ld64 f OFF_APP_LEN)

theorem sizes_store {f : List Byte} (hl : LayoutOk f) (s : Store) (hb : s.inBounds (decode f)) : sizesOf (s.onFile f) = sizesOf f := by
  have hdec := decode_store hl s hb
  have e : (decode (s.onFile f)).n = (decode f).n ∧ (decode (s.onFile f)).pad_len = (decode f).pad_len ∧
      (decode (s.onFile f)).mv_len = (decode f).mv_len ∧ (decode (s.onFile f)).app_len = (decode f).app_len := by
    rw [hdec]; cases s <;> exact ⟨rfl, rfl, rfl, rfl⟩
  obtain ⟨e1, e2, e3, e4⟩ := e
  unfold sizesOf
  exact Prod.ext e1 (Prod.ext e2 (Prod.ext e3 e4))

theorem Fixed.congr {f g : List Byte} (h : sizesOf g = sizesOf f) {k : Nat} : Fixed g k ↔ Fixed f k := by
  unfold sizesOf at h
  simp only [Prod.mk.injEq] at h
  obtain ⟨e1, e2, e3, e4⟩ := h
  unfold Fixed appOff mvOff
  rw [e1, e2, e3, e4]

theorem fixed_store {f : List Byte} (hl : LayoutOk f) (s : Store) (hb : s.inBounds (decode f)) {k : Nat} (hk : Fixed f k) :
    (s.onFile f)[k]? = f[k]? := by
  apply (C19_store hl s hb).2.2.1
  unfold LayoutOk at hl
  unfold Fixed appOff mvOff at hk
  cases s with
  | data o b =>
    have hb' : o + b.length ≤ ld64 f OFF_N := hb
    simp only [Store.inFile, OFF_I, OFF_MM, SIZEOF_CTRL] at *; omega
  | pos p v =>
    have hp := hb.1
    rw [decode_mv_length] at hp
    simp only [Store.inFile, le_length, mvOff, OFF_I, OFF_MM, SIZEOF_MSG, SIZEOF_CTRL] at *; omega
  | len p v =>
    have hp := hb.1
    rw [decode_mv_length] at hp
    simp only [Store.inFile, le_length, mvOff, OFF_I, OFF_MM, SIZEOF_MSG, SIZEOF_CTRL] at *; omega
  | app o b =>
    have hb' : o + b.length ≤ ld64 f OFF_APP_LEN := hb
    simp only [Store.inFile, appOff, mvOff, OFF_I, OFF_MM, SIZEOF_CTRL] at *; omega
  | statZero => simp only [Store.inFile, List.length_replicate, OFF_STAT, OFF_I, OFF_MM, SIZEOF_CTRL] at *; omega
  | start t => simp only [Store.inFile, List.length_append, le_length, OFF_STAT, OFF_I, OFF_MM, SIZEOF_CTRL] at *; omega
  | _ =>
    simp only [Store.inFile, le_length, OFF_I, OFF_U, OFF_M, OFF_MP, OFF_R, OFF_E, OFF_Q, OFF_STAT, OFF_MM, SIZEOF_CTRL] at *; omega

/-- **C19.** Any sequence of in-region stores keeps the length of the file, its layout and all fixed bytes. -/
theorem C19_fixed_bytes {f g : List Byte} (hl : LayoutOk f) (h : FSteps f g) :
    g.length = f.length ∧ LayoutOk g ∧ sizesOf g = sizesOf f ∧ ∀ k, Fixed f k → g[k]? = f[k]? := by
  induction h with
  | refl => exact ⟨rfl, hl, rfl, fun _ _ => rfl⟩
  | step s hb _ ih =>
    obtain ⟨h1, h2⟩ := onFile_layout hl s hb
    have hz := sizes_store hl s hb
    obtain ⟨i1, i2, i3, i4⟩ := ih h2
    exact ⟨i1.trans h1, i2, i3.trans hz, fun k hk => (i4 k ((Fixed.congr hz).mpr hk)).trans (fixed_store hl s hb hk)⟩

section
variable {a : InitArgs} {ops : List Op} {s : Sys} {outs : List Out}

theorem Valid.small (v : Valid a ops) {op : Op} (hm : op ∈ ops) (ht : ∀ k t env, op = .stat k (some t) env → t.1 < W ∧ t.2 < W) :
    op.Small := by
  have hw := v.wf op hm
  cases op with
  | writev k iov e1 e2 =>
    intro b hb
    have h1 : b.length ≤ SSIZE_MAX := hw.1 b hb
    rw [SSIZE_MAX_val] at h1
    rw [W_val]; omega
  | stat k reset env =>
    cases reset with
    | none => trivial
    | some t => exact ht k t env rfl
  | _ => trivial

theorem cache_small (v : Valid a ops) (hrun : (Sys.init a).run ops = .ok (s, outs)) (k : Nat) (h : Handle) (hk : s.hs k = .live h) :
    h.c.buf.length < W := by
  obtain ⟨sp, x, _, _⟩ := v.state hrun
  obtain ⟨sh, _, hh⟩ := x.rel.live hk
  rw [hh.cache.blen]; exact hh.cache.szw

/-- Reset times are `struct timeval`s. -/
def TimesOk (ops : List Op) : Prop := ∀ op ∈ ops, ∀ k t env, op = .stat k (some t) env → t.1 < W ∧ t.2 < W

theorem run_files : ∀ (ops : List Op) {pre : List Op} {s0 : Sys} {outs0 : List Out}, Valid a (pre ++ ops) → TimesOk ops →
    (Sys.init a).run pre = .ok (s0, outs0) → ∀ {f0 : List Byte}, LayoutOk f0 → decode f0 = s0.ring →
    ∀ {s : Sys} {outs : List Out}, s0.run ops = .ok (s, outs) → ∃ f, FSteps f0 f ∧ decode f = s.ring := by
  intro ops
  induction ops with
  | nil => intro pre s0 outs0 _ _ _ f0 _ hd s outs h; cases h; exact ⟨f0, .refl f0, hd⟩
  | cons op ops ih =>
    intro pre s0 outs0 v ht hpre f0 hl hd s outs h
    unfold Sys.run at h
    cases e : s0.step op with
    | error f => rw [e] at h; cases h
    | ok x =>
      obtain ⟨s1, o⟩ := x
      rw [e] at h
      dsimp only at h
      cases e2 : s1.run ops with
      | error f => rw [e2] at h; cases h
      | ok y =>
        obtain ⟨s2, os⟩ := y
        rw [e2] at h
        cases h
        obtain ⟨g, h1, h2⟩ := points_files (v.small (by simp) (ht op (by simp)))
          (cache_small (v.left) hpre _) hl hd _ (step_points e)
        have hpre' : (Sys.init a).run (pre ++ [op]) = .ok (s1, outs0 ++ [o]) := by
          rw [sys_run_append, hpre]; dsimp only; unfold Sys.run; rw [e]; rfl
        obtain ⟨f, h3, h4⟩ := ih (pre := pre ++ [op]) (by rw [List.append_assoc]; exact v)
          (fun op' hm => ht op' (by simp [hm])) hpre' (h1.layout hl).2 h2 e2
        exact ⟨f, h1.trans h3, h4⟩

/-- **C19.** A ring is made by `shr_init`; any history of calls follows; then one more call is in progress.  The file is at every moment what
the library's single stores made of it, each of them inside its own region: the final ring of the history is the one in a file `f` reached
that way, and every intermediate state of the last call is the one in a file `g` reached from `f`.  Hence (`C19_fixed_bytes`) the layout
stays valid, and the file keeps its length and its fixed bytes, whatever happens. -/
theorem C19_every_store {env : InitEnv} {fs fs' : FS} {op : Op} (hs : SizesOk a) (he : env.WF a) (hf : fs.WF) (h : Inits a env fs 0 fs')
    (hnew : fs.path = none ∨ a.flags.has SHR_KEEPEXIST = false)
    (v : Valid a (ops ++ [op])) (ht : TimesOk (ops ++ [op])) (hrun : (Sys.init a).run ops = .ok (s, outs)) :
    ∃ ino f, fs'.path = some ino ∧ LayoutOk (fs'.files ino) ∧ FSteps (fs'.files ino) f ∧ decode f = s.ring ∧
      ∀ p ∈ s.points op, ∃ g, FSteps f g ∧ decode g = p := by
  have e := h.end_ hs he hf
  rcases e.ok rfl with ⟨_, h1, h2⟩ | ⟨_, hp, hw, _⟩
  · rcases hnew with hn | hn
    · rw [hn] at h1; cases h1
    · rw [hn] at h2; cases h2
  have hl : LayoutOk (fs'.files fs.next) := by
    obtain ⟨g1, g2, g3, g4, _⟩ := whole_fields hw
    unfold LayoutOk appOff mvOff
    rw [g1, g2, g3, g4, hw.1, hs.mv]
    have hsz := hs.fileSz
    have hL : a.fileSz ≤ env.trunc.len a.fileSz := by
      unfold Trunc.len; split
      · rename_i l h; exact he _ h
      · exact Nat.le_refl _
    omega
  obtain ⟨f, h1, h2⟩ := run_files ops (pre := []) (s0 := Sys.init a) (outs0 := []) v.left (fun o hm => ht o (by simp [hm])) rfl hl
    hw.2.2 hrun
  refine ⟨fs.next, f, hp, hl, h1, h2, ?_⟩
  exact points_files (v.small (by simp) (ht op (by simp))) (cache_small v.left hrun _) (h1.layout hl).2 h2

end

/-! ## The hypotheses can be met -/

/-- The call in progress is a write that drops a message and straddles the end of the data area: it makes 21 single stores. -/
example : ∃ ino f, (afterInit smallArgs {} emptyFS).path = some ino ∧ FSteps ((afterInit smallArgs {} emptyFS).files ino) f ∧
    decode f = (final smallArgs demoOps).ring ∧ ((final smallArgs demoOps).points (wr 0 [[12, 13, 14, 15, 16]])).length = 22 ∧
    ∀ p ∈ (final smallArgs demoOps).points (wr 0 [[12, 13, 14, 15, 16]]), ∃ g, FSteps f g ∧ decode g = p := by
  have v : Valid smallArgs (demoOps ++ [wr 0 [[12, 13, 14, 15, 16]]]) := valid_of (by decide +kernel)
  obtain ⟨ino, f, h1, _, h2, h3, h4⟩ := C19_every_store smallArgs_ok (env := {}) (fun _ h => nomatch h) emptyFS_wf
    (inits_of (by decide +kernel)) (.inl rfl) v
    (fun op hm k t env e => by subst e; simp [demoOps, opn, wr, rd] at hm) v.left.runs
  exact ⟨ino, f, h1, h2, h3, by decide +kernel, h4⟩

end Shr
