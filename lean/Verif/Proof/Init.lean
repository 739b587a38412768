import Verif.Proof.File
import Verif.Proof.Hoare
/-! # `shr_init` on the mapped file -/
namespace Shr
open M

theorem stw_ok {k off v : Nat} {f : List Byte} {T : List Byte → Prop} {Q : Unit → List Byte → Prop}
    (hf : off + k ≤ f.length) (hT : T f) (hQ : Q () (put f off (le k v))) : Ok (stw k off v) f T Q := by
  unfold stw
  refine Ok.get_bind ?_
  rw [if_pos hf]
  exact .store hT hQ

theorem stb_ok {off : Nat} {b f : List Byte} {T : List Byte → Prop} {Q : Unit → List Byte → Prop}
    (hf : off + b.length ≤ f.length) (hT : ∀ k, k < b.length → T (put f off (b.take k))) (hQ : Q () (put f off b)) :
    Ok (stb off b) f T Q := by
  have e : stb off b f = ⟨(List.range b.length).map (fun k => put f off (b.take k)), .ok () (put f off b)⟩ := by
    unfold stb memcpyShared; rw [if_pos (by simpa using hf)]; rfl
  refine ⟨?_, ?_⟩
  · rw [e]; intro t ht
    simp only [List.mem_map, List.mem_range] at ht
    obtain ⟨k, hk, rfl⟩ := ht
    exact hT k hk
  · rw [e]; exact ⟨(), _, rfl, hQ⟩

theorem zoom_ok {σ τ α : Type} {rd : σ → τ} {wr : τ → σ → σ} {x : M τ α} {s : σ} {T : σ → Prop} {Q : α → σ → Prop}
    (h : Ok x (rd s) (fun t => T (wr t s)) (fun a t => Q a (wr t s))) : Ok (M.zoom rd wr x) s T Q := by
  obtain ⟨h1, a, t, h2, h3⟩ := h
  refine ⟨?_, ?_⟩
  · intro y hy
    unfold M.zoom at hy
    simp only [List.mem_map] at hy
    obtain ⟨t, ht, rfl⟩ := hy
    exact h1 t ht
  · exact ⟨a, wr t s, by unfold M.zoom; dsimp only; rw [h2], h3⟩

/-- The sizes do not overflow: the file length computed by `shr_init` is the sum of its parts. -/
structure SizesOk (a : InitArgs) : Prop where
  pos : 0 < a.dataSz
  msgs : a.max_msgs * SIZEOF_MSG < W
  sum : SIZEOF_CTRL + a.dataSz + a.pad + a.max_msgs * SIZEOF_MSG + a.appsize ≤ SSIZE_MAX

theorem SizesOk.mv {a : InitArgs} (h : SizesOk a) : a.mv_bytes = a.max_msgs * SIZEOF_MSG := by
  unfold InitArgs.mv_bytes wmul; rw [Nat.mod_eq_of_lt h.msgs]

theorem SSIZE_MAX_lt : SSIZE_MAX < W := by decide

theorem SizesOk.fileSz {a : InitArgs} (h : SizesOk a) :
    a.fileSz = SIZEOF_CTRL + a.dataSz + a.pad + a.max_msgs * SIZEOF_MSG + a.appsize := by
  have h1 := h.sum; have h2 := SSIZE_MAX_lt
  unfold InitArgs.fileSz wadd
  rw [h.mv, Nat.mod_eq_of_lt (a := SIZEOF_CTRL + a.dataSz) (by omega),
    Nat.mod_eq_of_lt (a := SIZEOF_CTRL + a.dataSz + a.pad) (by omega),
    Nat.mod_eq_of_lt (a := SIZEOF_CTRL + a.dataSz + a.pad + _) (by omega), Nat.mod_eq_of_lt (by omega)]

theorem pad_lt (a : InitArgs) : a.pad < 8 ∧ (a.dataSz + a.pad) % 8 = 0 := by
  unfold InitArgs.pad SIZEOF_PTR
  split
  · unfold wsub W; omega
  · omega

theorem memset_zero {L : Nat} (h : SIZEOF_CTRL ≤ L) (k : Nat) (hk : k ≤ SIZEOF_CTRL) :
    put (List.replicate L 0) 0 ((List.replicate SIZEOF_CTRL (0 : Byte)).take k) = List.replicate L 0 := by
  simp only [put, List.take_replicate, List.drop_replicate, List.length_replicate, List.replicate_append_replicate]
  congr 1
  rw [Nat.min_eq_left hk]
  omega

/-- What the file looks like before `r->n` is stored: it is not accepted by `validate_ring`. -/
def Raw (L : Nat) (f : List Byte) : Prop := f.length = L ∧ ld f 16 8 = List.replicate 8 0 ∧ ld f 24 8 = List.replicate 8 0

/-- The file is a ring as requested except possibly for its attributes and app data. -/
def RingIs (a : InitArgs) (L : Nat) (g : Flags) (app : List Byte) (f : List Byte) : Prop :=
  f.length = L ∧ ld f 0 8 = MAGIC ∧ decode f = { initRing a with gflags := g, app := app }

/-- The attributes stored after the first `j` of the four assignments src/shr.c:284-287. -/
def attrsAfter (a : InitArgs) (j : Nat) : Flags :=
  (if 1 ≤ j ∧ a.flags.has SHR_SYNC then SHR_SYNC else 0#32) ||| (if 2 ≤ j ∧ a.flags.has SHR_DROP then SHR_DROP else 0#32) |||
  (if 3 ≤ j ∧ a.flags.has SHR_FARM then SHR_FARM ||| SHR_DROP else 0#32) ||| (if 4 ≤ j ∧ a.flags.has SHR_MLOCK then SHR_MLOCK else 0#32)

/-- The attributes and the app data of a ring while `shr_init` stores them: first the attributes, one by one, while the app data are
zeros, then the bytes of the app data. -/
def HalfWay (a : InitArgs) (g : Flags) (app : List Byte) : Prop :=
  (∃ j ≤ 4, g = attrsAfter a j ∧ app = List.replicate a.appsize 0) ∨
  (g = a.gflags ∧ ∃ k ≤ a.appsize, app = a.app.take k ++ List.replicate (a.appsize - k) 0)

/-- What it looks like afterwards: a ring whose attributes and app data may be missing. -/
def Half (a : InitArgs) (L : Nat) (f : List Byte) : Prop :=
  ∃ g app, RingIs a L g app f ∧ g ||| a.gflags = a.gflags ∧ app.length = a.appsize ∧ HalfWay a g app

theorem HalfWay.whole (a : InitArgs) : HalfWay a a.gflags (initRing a).app := by
  refine .inr ⟨rfl, a.appsize, Nat.le_refl _, ?_⟩
  unfold initRing InitArgs.appsize
  cases h : a.flags.has SHR_APPDATA_1 <;> simp

/-- Complete. -/
def Whole (a : InitArgs) (L : Nat) (f : List Byte) : Prop := f.length = L ∧ ld f 0 8 = MAGIC ∧ decode f = initRing a

theorem leVal_le8 {v : Nat} (h : v < W) : leVal (le 8 v) = v := by rw [leVal_le, ← W_eq, Nat.mod_eq_of_lt h]

theorem put_frame {f b : List Byte} {off : Nat} (hf : off + b.length ≤ f.length) :
    (put f off b).length = f.length ∧ ld (put f off b) off b.length = b ∧
    ∀ o l, (o + l ≤ off ∨ off + b.length ≤ o) → ld (put f off b) o l = ld f o l :=
  ⟨put_length hf, ld_put_same hf, fun _ _ h => ld_put_ne hf h⟩

theorem init_decode {a : InitArgs} (hs : SizesOk a) {L : Nat} (hL : a.fileSz ≤ L) {f1 f2 f3 f4 f5 f6 : List Byte}
    (e1 : f1 = put (List.replicate L 0) 0 MAGIC) (e2 : f2 = put f1 OFF_MM (le 8 a.max_msgs))
    (e3 : f3 = put f2 OFF_PAD_LEN (le 8 a.pad)) (e4 : f4 = put f3 OFF_MV_LEN (le 8 a.mv_bytes))
    (e5 : f5 = put f4 OFF_APP_LEN (le 8 a.appsize)) (e6 : f6 = put f5 OFF_N (le 8 a.dataSz)) :
    (Raw L f1 ∧ Raw L f2 ∧ Raw L f3 ∧ Raw L f4 ∧ Raw L f5) ∧ f6.length = L ∧ ld f6 0 8 = MAGIC ∧
      decode f6 = { initRing a with gflags := 0#32, app := List.replicate a.appsize 0 } := by
  have hsz := hs.fileSz
  have h1 := hs.sum
  have h2 := SSIZE_MAX_lt
  have hmsgs := hs.msgs
  have hpad := pad_lt a
  unfold SIZEOF_CTRL SIZEOF_MSG at *
  unfold OFF_MM at e2; unfold OFF_PAD_LEN at e3; unfold OFF_MV_LEN at e4; unfold OFF_APP_LEN at e5; unfold OFF_N at e6
  have hm : MAGIC.length = 8 := rfl
  have z : ∀ o l, o + l ≤ L → ld (List.replicate L (0 : Byte)) o l = List.replicate l 0 := fun o l h => ld_replicate h
  obtain ⟨l1, s1, n1⟩ := put_frame (f := List.replicate L 0) (b := MAGIC) (off := 0) (by simp [hm]; omega)
  rw [← e1] at l1 s1 n1
  obtain ⟨l2, s2, n2⟩ := put_frame (f := f1) (b := le 8 a.max_msgs) (off := 208) (by simp at l1 ⊢; omega)
  rw [← e2] at l2 s2 n2
  obtain ⟨l3, s3, n3⟩ := put_frame (f := f2) (b := le 8 a.pad) (off := 224) (by simp at l1 ⊢; omega)
  rw [← e3] at l3 s3 n3
  obtain ⟨l4, s4, n4⟩ := put_frame (f := f3) (b := le 8 a.mv_bytes) (off := 216) (by simp at l1 ⊢; omega)
  rw [← e4] at l4 s4 n4
  obtain ⟨l5, s5, n5⟩ := put_frame (f := f4) (b := le 8 a.appsize) (off := 232) (by simp at l1 ⊢; omega)
  rw [← e5] at l5 s5 n5
  obtain ⟨l6, s6, n6⟩ := put_frame (f := f5) (b := le 8 a.dataSz) (off := 16) (by simp at l1 ⊢; omega)
  rw [← e6] at l6 s6 n6
  clear e1 e2 e3 e4 e5 e6
  simp only [hm, le_length, List.length_replicate] at l1 s1 n1 l2 s2 n2 l3 s3 n3 l4 s4 n4 l5 s5 n5 l6 s6 n6
  have hL2 : 1784 < L := by have := hs.pos; omega
  refine ⟨⟨⟨by omega, ?_, ?_⟩, ⟨by omega, ?_, ?_⟩, ⟨by omega, ?_, ?_⟩, ⟨by omega, ?_, ?_⟩, ⟨by omega, ?_, ?_⟩⟩, by omega, ?_, ?_⟩
  all_goals try simp (disch := omega) only [n1, n2, n3, n4, n5, n6, z, s1]
  have vn : ld64 f6 16 = a.dataSz := by unfold ld64; rw [s6, leVal_le8 (by omega)]
  have vmm : ld64 f6 208 = a.max_msgs := by
    unfold ld64; simp (disch := omega) only [n3, n4, n5, n6, s2]; rw [leVal_le8 (by omega)]
  have vpad : ld64 f6 224 = a.pad := by
    unfold ld64; simp (disch := omega) only [n4, n5, n6, s3]; rw [leVal_le8 (by omega)]
  have vmv : ld64 f6 216 = a.max_msgs * 16 := by
    unfold ld64; simp (disch := omega) only [n5, n6, s4]; rw [hs.mv, leVal_le8 (by unfold SIZEOF_MSG; omega)]; rfl
  have vapp : ld64 f6 232 = a.appsize := by
    unfold ld64; simp (disch := omega) only [n6, s5]; rw [leVal_le8 (by omega)]
  have zl : ∀ o l, o + l ≤ L → (8 ≤ o ∧ o + l ≤ 16 ∨ 24 ≤ o ∧ o + l ≤ 208 ∨ 240 ≤ o) → ld f6 o l = List.replicate l 0 := by
    intro o l h h'
    rw [n6 _ _ (by omega), n5 _ _ (by omega), n4 _ _ (by omega), n3 _ _ (by omega), n2 _ _ (by omega), n1 _ _ (by omega), z _ _ h]
  have z64 : ∀ o, o + 8 ≤ L → (8 ≤ o ∧ o + 8 ≤ 16 ∨ 24 ≤ o ∧ o + 8 ≤ 208 ∨ 240 ≤ o) → ld64 f6 o = 0 := by
    intro o h h'; unfold ld64; rw [zl o 8 h h', leVal_replicate]
  have z32 : ∀ o, o + 4 ≤ L → (8 ≤ o ∧ o + 4 ≤ 16 ∨ 24 ≤ o ∧ o + 4 ≤ 208 ∨ 240 ≤ o) → ld32 f6 o = 0 := by
    intro o h h'; unfold ld32; rw [zl o 4 h h', leVal_replicate]
  have hmv : a.mv_bytes = a.max_msgs * 16 := hs.mv
  unfold initRing
  rw [hmv]
  have hdiv : a.max_msgs * 16 / 16 = a.max_msgs := by omega
  simp (disch := omega) only [decode, decodeStat, mvOff, appOff, OFF_GFLAGS, OFF_N,
      OFF_I, OFF_U, OFF_M, OFF_MP, OFF_R, OFF_E, OFF_Q, OFF_STAT, OFF_MM, OFF_MV_LEN, OFF_PAD_LEN, OFF_APP_LEN, SIZEOF_CTRL,
      SIZEOF_MSG, vn, vmm, vpad, vmv, vapp, z64, z32, zl, hdiv, Ring.mk.injEq, and_true, true_and]
  apply List.ext_getElem?
  intro j
  rw [List.getElem?_map, List.getElem?_replicate]
  by_cases hj : j < a.max_msgs
  · rw [List.getElem?_range hj, if_pos hj, Option.map_some, z64 _ (by omega) (by omega), z64 _ (by omega) (by omega)]
  · rw [if_neg hj, List.getElem?_eq_none (by simpa using hj)]; rfl

theorem half_gflags {a : InitArgs} {L : Nat} {f : List Byte} {g : Flags} {app : List Byte}
    (hl : SIZEOF_CTRL ≤ f.length) (h : RingIs a L g app f)
    (g' : Flags) : RingIs a L g' app (put f OFF_GFLAGS (le 4 g'.toNat)) := by
  unfold SIZEOF_CTRL at hl
  have e : decode (st f 4 8 g'.toNat) = { decode f with gflags := g' } := by
    have hg : ld32 (st f 4 8 g'.toNat) 8 = g'.toNat := ld32_st_same (by omega) g'.isLt
    simp (disch := omega) only [decode, decodeStat, mvOff, appOff, OFF_GFLAGS, OFF_N,
      OFF_I, OFF_U, OFF_M, OFF_MP, OFF_R, OFF_E, OFF_Q, OFF_STAT, OFF_MM, OFF_MV_LEN, OFF_PAD_LEN, OFF_APP_LEN, SIZEOF_CTRL,
      ld64_st_ne, ld32_st_ne, ld_st_ne, hg, BitVec.ofNat_toNat, BitVec.setWidth_eq]
  unfold OFF_GFLAGS
  refine ⟨?_, ?_, ?_⟩
  · rw [st_length (by omega)]; exact h.1
  · rw [ld_st_ne (by omega) (by omega)]; exact h.2.1
  · rw [e, h.2.2]

theorem orFlag_ok {a : InitArgs} {L : Nat} {f : List Byte} {g : Flags} {app : List Byte} (hl : SIZEOF_CTRL ≤ L)
    (h : RingIs a L g app f) (bit val : Flags) {T : List Byte → Prop} {Q : Unit → List Byte → Prop}
    (hT : T f) (hQ : ∀ f', RingIs a L (if a.flags.has bit then g ||| val else g) app f' → Q () f') :
    Ok (orFlag a.flags bit val) f T Q := by
  unfold orFlag
  refine Ok.get_bind ?_
  have hlf : f.length = L := h.1
  have hg : BitVec.ofNat 32 (ld32 f OFF_GFLAGS) = g := by
    have := congrArg Ring.gflags h.2.2
    exact this
  by_cases hb : a.flags.has bit = true
  · rw [if_pos hb] at hQ ⊢
    refine stw_ok (by unfold OFF_GFLAGS; unfold SIZEOF_CTRL at hl; omega) hT (hQ _ ?_)
    rw [hg]
    exact half_gflags (by omega) h _
  · rw [if_neg hb] at hQ ⊢
    exact .pure (hQ _ h)

/-- Bits only accumulate. -/
theorem gflags_accumulate (a : InitArgs) :
    let g1 := if a.flags.has SHR_SYNC then 0#32 ||| SHR_SYNC else 0#32
    let g2 := if a.flags.has SHR_DROP then g1 ||| SHR_DROP else g1
    let g3 := if a.flags.has SHR_FARM then g2 ||| (SHR_FARM ||| SHR_DROP) else g2
    let g4 := if a.flags.has SHR_MLOCK then g3 ||| SHR_MLOCK else g3
    0#32 ||| a.gflags = a.gflags ∧ g1 ||| a.gflags = a.gflags ∧ g2 ||| a.gflags = a.gflags ∧ g3 ||| a.gflags = a.gflags ∧
      g4 = a.gflags := by
  unfold InitArgs.gflags
  dsimp only
  cases a.flags.has SHR_SYNC <;> cases a.flags.has SHR_DROP <;> cases a.flags.has SHR_FARM <;> cases a.flags.has SHR_MLOCK <;>
    decide

theorem attrs_steps (a : InitArgs) :
    let g1 := if a.flags.has SHR_SYNC then 0#32 ||| SHR_SYNC else 0#32
    let g2 := if a.flags.has SHR_DROP then g1 ||| SHR_DROP else g1
    let g3 := if a.flags.has SHR_FARM then g2 ||| (SHR_FARM ||| SHR_DROP) else g2
    g1 = attrsAfter a 1 ∧ g2 = attrsAfter a 2 ∧ g3 = attrsAfter a 3 := by
  unfold attrsAfter
  cases a.flags.has SHR_SYNC <;> cases a.flags.has SHR_DROP <;> cases a.flags.has SHR_FARM <;> cases a.flags.has SHR_MLOCK <;> decide

theorem attrs_all (a : InitArgs) : attrsAfter a 4 = a.gflags := by
  unfold attrsAfter InitArgs.gflags
  cases a.flags.has SHR_SYNC <;> cases a.flags.has SHR_DROP <;> cases a.flags.has SHR_FARM <;> cases a.flags.has SHR_MLOCK <;> decide

theorem attrs_farm (a : InitArgs) {j : Nat} (hj : j ≤ 4) (h : (attrsAfter a j).has SHR_FARM = true) : (attrsAfter a j).has SHR_DROP = true := by
  have : j = 0 ∨ j = 1 ∨ j = 2 ∨ j = 3 ∨ j = 4 := by omega
  rcases this with rfl | rfl | rfl | rfl | rfl <;> revert h <;> unfold attrsAfter <;>
    cases a.flags.has SHR_SYNC <;> cases a.flags.has SHR_DROP <;> cases a.flags.has SHR_FARM <;> cases a.flags.has SHR_MLOCK <;> decide

theorem initFill_ok {a : InitArgs} (hs : SizesOk a) {L : Nat} (hL : a.fileSz ≤ L) :
    Ok (initFill a) (List.replicate L 0) (fun f => Raw L f ∨ Half a L f) (fun _ f => Whole a L f) := by
  have hsz := hs.fileSz
  have h1 := hs.sum
  have h2 := SSIZE_MAX_lt
  have hL2 : SIZEOF_CTRL < L := by have := hs.pos; omega
  have hLn : 1784 < L := hL2
  have hraw0 : Raw L (List.replicate L 0) := by
    refine ⟨by simp, ?_, ?_⟩ <;> exact ld_replicate (by omega)
  obtain ⟨⟨r1, r2, r3, r4, r5⟩, d1, d2, d3⟩ := init_decode hs hL rfl rfl rfl rfl rfl rfl
  have hm : MAGIC.length = 8 := rfl
  unfold initFill
  refine .bind (stb_ok (by simp; omega) ?_ ?_)
  · intro k hk
    simp only [List.length_replicate] at hk
    rw [memset_zero (by omega) k (by omega)]
    exact .inl hraw0
  rw [show put (List.replicate L (0 : Byte)) 0 (List.replicate SIZEOF_CTRL 0) = List.replicate L 0 from by
    have := memset_zero (L := L) (by omega) SIZEOF_CTRL (Nat.le_refl _)
    rwa [List.take_of_length_le (by simp)] at this]
  refine .bind (stb_ok (by simp [hm]; omega) ?_ ?_)
  · intro k hk
    left
    have hb : 0 + (MAGIC.take k).length ≤ (List.replicate L (0 : Byte)).length := by simp [hm]; omega
    have hk' : (MAGIC.take k).length ≤ 8 := by simp [hm]; omega
    refine ⟨by rw [put_length hb]; simp, ?_, ?_⟩
    · rw [ld_put_ne hb (by omega)]; exact hraw0.2.1
    · rw [ld_put_ne hb (by omega)]; exact hraw0.2.2
  refine .bind (stw_ok (by rw [r1.1]; unfold OFF_MM; omega) (.inl r1) ?_)
  refine .bind (stw_ok (by rw [r2.1]; unfold OFF_PAD_LEN; omega) (.inl r2) ?_)
  refine .bind (stw_ok (by rw [r3.1]; unfold OFF_MV_LEN; omega) (.inl r3) ?_)
  refine .bind (stw_ok (by rw [r4.1]; unfold OFF_APP_LEN; omega) (.inl r4) ?_)
  refine .bind (stw_ok (by rw [r5.1]; unfold OFF_N; omega) (.inl r5) ?_)
  have hr : RingIs a L 0#32 (List.replicate a.appsize 0) _ := ⟨d1, d2, d3⟩
  clear d1 d2 d3 r1 r2 r3 r4 r5
  revert hr
  generalize (put (put (put (put (put (put (List.replicate L (0 : Byte)) 0 MAGIC) OFF_MM (le 8 a.max_msgs)) OFF_PAD_LEN (le 8 a.pad))
    OFF_MV_LEN (le 8 a.mv_bytes)) OFF_APP_LEN (le 8 a.appsize)) OFF_N (le 8 a.dataSz)) = f6
  intro hr
  obtain ⟨q0, q1, q2, q3, q4⟩ := gflags_accumulate a
  have hlen : (List.replicate a.appsize (0 : Byte)).length = a.appsize := by simp
  obtain ⟨w1, w2, w3⟩ := attrs_steps a
  have hw : ∀ j ≤ 4, ∀ g, g = attrsAfter a j → (List.replicate a.appsize (0 : Byte)).length = a.appsize ∧
      HalfWay a g (List.replicate a.appsize 0) := fun j hj g hg => ⟨hlen, .inl ⟨j, hj, hg, rfl⟩⟩
  have hw0 := hw 0 (by decide) 0#32 (by simp [attrsAfter])
  refine .bind (stw_ok (by rw [hr.1]; unfold OFF_GFLAGS; omega) (.inr ⟨_, _, hr, q0, hw0⟩) ?_)
  replace hr : RingIs a L 0#32 (List.replicate a.appsize 0) (put f6 OFF_GFLAGS (le 4 0)) :=
    half_gflags (by rw [hr.1]; omega) hr 0#32
  refine .bind (orFlag_ok (by omega) hr _ _ (.inr ⟨_, _, hr, q0, hw0⟩) fun f7 hr7 => ?_)
  refine .bind (orFlag_ok (by omega) hr7 _ _ (.inr ⟨_, _, hr7, q1, hw 1 (by decide) _ w1⟩) fun f8 hr8 => ?_)
  refine .bind (orFlag_ok (by omega) hr8 _ _ (.inr ⟨_, _, hr8, q2, hw 2 (by decide) _ w2⟩) fun f9 hr9 => ?_)
  refine .bind (orFlag_ok (by omega) hr9 _ _ (.inr ⟨_, _, hr9, q3, hw 3 (by decide) _ w3⟩) fun f10 hr10 => ?_)
  rw [q4] at hr10
  refine Ok.get_bind ?_
  have hA : SHR_APPDATA = SHR_APPDATA_1 := rfl
  rw [hA]
  by_cases hap : a.flags.has SHR_APPDATA_1 = true
  · rw [if_pos hap]
    have hsz' : a.appsize = a.app.length := by unfold InitArgs.appsize; rw [if_pos hap]
    obtain ⟨g1, g2, g3⟩ := hr10
    have en : ld64 f10 OFF_N = a.dataSz := congrArg Ring.n g3
    have ep : ld64 f10 OFF_PAD_LEN = a.pad := congrArg Ring.pad_len g3
    have em : ld64 f10 OFF_MV_LEN = a.mv_bytes := congrArg Ring.mv_len g3
    have ea : ld64 f10 OFF_APP_LEN = a.appsize := congrArg Ring.app_len g3
    have hmv := hs.mv
    have hao : appOff f10 = SIZEOF_CTRL + a.dataSz + a.pad + a.max_msgs * SIZEOF_MSG := by
      unfold appOff mvOff; rw [en, ep, em, hmv]
    have hw : wadd (wadd (wadd SIZEOF_CTRL (ld64 f10 OFF_N)) (ld64 f10 OFF_PAD_LEN)) (ld64 f10 OFF_MV_LEN) = appOff f10 := by
      rw [hao, en, ep, em, hmv]
      unfold wadd
      rw [Nat.mod_eq_of_lt (a := SIZEOF_CTRL + a.dataSz) (by omega),
        Nat.mod_eq_of_lt (a := SIZEOF_CTRL + a.dataSz + a.pad) (by omega), Nat.mod_eq_of_lt (by omega)]
    rw [hw]
    have hlay : LayoutOk f10 := by unfold LayoutOk; rw [hao, ea, g1]; omega
    have key : ∀ b : List Byte, b.length ≤ a.app.length →
        RingIs a L a.gflags (put (List.replicate a.appsize 0) 0 b) (put f10 (appOff f10) b) := by
      intro b hb
      have hin : appOff f10 + b.length ≤ f10.length := by rw [hao, g1]; omega
      refine ⟨by rw [put_length hin, g1], ?_, ?_⟩
      · rw [ld_put_ne hin (by unfold SIZEOF_CTRL at hao; omega)]; exact g2
      · have hbd : (Store.app 0 b).inBounds (decode f10) := by
          unfold Store.inBounds; rw [g3]; show 0 + b.length ≤ a.appsize; omega
        have := decode_store_app hlay 0 b hbd
        simp only [Store.onFile, Store.inFile, Store.onRing, Nat.add_zero] at this
        rw [this, g3]
    refine stb_ok (by rw [hao, g1]; omega) ?_ ?_
    · intro k hk
      right
      refine ⟨_, _, key _ (by simp; omega), BitVec.or_self, ?_, .inr ⟨rfl, k, by omega, ?_⟩⟩
      · rw [put_length (by simp; omega), List.length_replicate]
      · have hkl : (a.app.take k).length = k := by simp; omega
        unfold put
        simp [hkl]
    · obtain ⟨k1, k2, k3⟩ := key a.app (Nat.le_refl _)
      refine ⟨k1, k2, ?_⟩
      rw [k3]
      unfold initRing
      simp only [hap, if_true, Ring.mk.injEq, true_and]
      unfold put
      rw [hsz']; simp
  · rw [if_neg hap]
    have h0 : a.appsize = 0 := by unfold InitArgs.appsize; rw [if_neg hap]
    refine .pure ⟨hr10.1, hr10.2.1, ?_⟩
    rw [hr10.2.2]
    unfold initRing
    simp only [hap, h0]
    simp

end Shr
