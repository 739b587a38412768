import Verif.Spec.Layout
import Verif.Props.File
/-! # C19: the offsets that the model of the ring file uses are those of the declarations -/
namespace Shr

/-- **C19.** The members of the control block lie where the C declaration puts them: one behind the other, in the order of the declaration, without overlap,
the two tables of waiters inside the control block, and the data area right behind it. -/
theorem C19_ctrl_layout :
    Layout.place 0 Layout.shr_ctrl =
      [("magic", 0), ("gflags", OFF_GFLAGS), ("n", OFF_N), ("i", OFF_I), ("u", OFF_U), ("m", OFF_M), ("mp", OFF_MP), ("r", OFF_R), ("e", OFF_E), ("q", OFF_Q),
       ("stat", OFF_STAT), ("mm", OFF_MM), ("mv_len", OFF_MV_LEN), ("pad_len", OFF_PAD_LEN), ("app_len", OFF_APP_LEN), ("w2r", OFF_W2R), ("r2w", OFF_R2W),
       ("d", SIZEOF_CTRL)] ∧
    (Layout.struct Layout.shr_ctrl).size = SIZEOF_CTRL ∧ MIN_RING_SZ = SIZEOF_CTRL + 1 ∧ (Layout.struct Layout.msg).size = SIZEOF_MSG ∧
    (Layout.struct Layout.bw_handle).size = SIZEOF_BW ∧ Layout.place 0 Layout.msg = [("pos", 0), ("len", 8)] := by decide +kernel

/-- The offset of a member. -/
def offIn (ms : List (String × Layout.CTy)) (n : String) : Nat := ((Layout.place 0 ms).lookup n).getD 0

/-- **C19.** What a ring file says, member by member: every member of the control block and of the statistics is read at its declared offset, every message's
position and length at its place in the vector behind the data, for every file. -/
theorem C19_members (f : List Byte) :
    let at_ := fun n => ld64 f (offIn Layout.shr_ctrl n)
    let stat_ := fun n => ld64 f (offIn Layout.shr_ctrl "stat" + offIn Layout.shr_stat n)
    (decode f).gflags = BitVec.ofNat 32 (ld32 f (offIn Layout.shr_ctrl "gflags")) ∧ (decode f).n = at_ "n" ∧ (decode f).i = at_ "i" ∧ (decode f).u = at_ "u" ∧ (decode f).m = at_ "m" ∧ (decode f).mp = at_ "mp" ∧ (decode f).r = at_ "r" ∧
    (decode f).e = at_ "e" ∧ (decode f).q = at_ "q" ∧ (decode f).mm = at_ "mm" ∧
    (decode f).stat.bw = stat_ "bw" ∧ (decode f).stat.br = stat_ "br" ∧ (decode f).stat.mw = stat_ "mw" ∧ (decode f).stat.mr = stat_ "mr" ∧
    (decode f).stat.md = stat_ "md" ∧ (decode f).stat.bd = stat_ "bd" ∧ (decode f).stat.start = (stat_ "start", ld64 f (offIn Layout.shr_ctrl "stat" + offIn Layout.shr_stat "start" + 8)) ∧
    (decode f).stat.bn = stat_ "bn" ∧ (decode f).stat.bu = stat_ "bu" ∧ (decode f).stat.mu = stat_ "mu" ∧ (decode f).stat.mm = stat_ "mm" ∧
    (decode f).stat.cn = stat_ "cn" ∧ (decode f).stat.cm = stat_ "cm" ∧ (decode f).stat.cb = stat_ "cb" ∧
    (decode f).stat.flags = BitVec.ofNat 32 (ld32 f (offIn Layout.shr_ctrl "stat" + offIn Layout.shr_stat "flags")) ∧
    (decode f).d = ld f (offIn Layout.shr_ctrl "d") (at_ "n") ∧
    (∀ j, j < at_ "mv_len" / 16 → ∀ m, (decode f).mv[j]? = some m →
      m.pos = ld64 f (offIn Layout.shr_ctrl "d" + at_ "n" + at_ "pad_len" + 16 * j) ∧
      m.len = ld64 f (offIn Layout.shr_ctrl "d" + at_ "n" + at_ "pad_len" + 16 * j + 8)) ∧
    (decode f).mv.length = at_ "mv_len" / 16 ∧
    (decode f).app = ld f (offIn Layout.shr_ctrl "d" + at_ "n" + at_ "pad_len" + at_ "mv_len") (at_ "app_len") := by
  dsimp only
  have h : ∀ n o, (Layout.place 0 Layout.shr_ctrl).lookup n = some o → offIn Layout.shr_ctrl n = o := by
    intro n o h; unfold offIn; rw [h]; rfl
  have g : ∀ n o, (Layout.place 0 Layout.shr_stat).lookup n = some o → offIn Layout.shr_stat n = o := by
    intro n o h; unfold offIn; rw [h]; rfl
  rw [h "gflags" 8 (by decide +kernel), h "n" 16 (by decide +kernel), h "i" 24 (by decide +kernel), h "u" 32 (by decide +kernel), h "m" 40 (by decide +kernel), h "mp" 48 (by decide +kernel),
    h "r" 56 (by decide +kernel), h "e" 64 (by decide +kernel), h "q" 72 (by decide +kernel), h "mm" 208 (by decide +kernel), h "stat" 80 (by decide +kernel),
    h "d" 1784 (by decide +kernel), h "mv_len" 216 (by decide +kernel), h "pad_len" 224 (by decide +kernel), h "app_len" 232 (by decide +kernel),
    g "bw" 16 (by decide +kernel), g "br" 24 (by decide +kernel), g "mw" 32 (by decide +kernel), g "mr" 40 (by decide +kernel), g "md" 48 (by decide +kernel),
    g "bd" 56 (by decide +kernel), g "start" 0 (by decide +kernel), g "bn" 64 (by decide +kernel), g "bu" 72 (by decide +kernel), g "mu" 80 (by decide +kernel),
    g "mm" 88 (by decide +kernel), g "cn" 96 (by decide +kernel), g "cm" 104 (by decide +kernel), g "cb" 112 (by decide +kernel), g "flags" 120 (by decide +kernel)]
  refine ⟨rfl, rfl, rfl, rfl, rfl, rfl, rfl, rfl, rfl, rfl, rfl, rfl, rfl, rfl, rfl, rfl, rfl, rfl, rfl, rfl, rfl, rfl, rfl, rfl, rfl, rfl, ?_, ?_, rfl⟩
  · intro j hj m hm
    have hj' : j < ld64 f OFF_MV_LEN / SIZEOF_MSG := hj
    have : (decode f).mv[j]? = some ⟨ld64 f (mvOff f + SIZEOF_MSG * j), ld64 f (mvOff f + SIZEOF_MSG * j + 8)⟩ := by
      simp [decode, hj']
    rw [this] at hm
    cases hm
    exact ⟨rfl, rfl⟩
  · simp [decode, OFF_MV_LEN, SIZEOF_MSG]

/-- A file of a ring with 3 bytes of data, whose next write goes to byte 2. -/
example : (decode (List.replicate 16 0 ++ le 8 3 ++ le 8 2 ++ List.replicate 1752 0 ++ [7, 8, 9])).i = 2 ∧
    (decode (List.replicate 16 0 ++ le 8 3 ++ le 8 2 ++ List.replicate 1752 0 ++ [7, 8, 9])).d = [7, 8, 9] := by
  decide +kernel

/-- **C19.** The flags are the numbers of src/shr.h:72-84, which programs compiled against different versions of the library exchange through the file and the
API: each a bit of its own. -/
theorem C19_flag_values :
    [SHR_KEEPEXIST, SHR_DROP, SHR_APPDATA_1, SHR_FARM, SHR_MAXMSGS_2, SHR_SYNC, SHR_MLOCK, SHR_OPEN_FENCE, SHR_RDONLY, SHR_WRONLY, SHR_NONBLOCK, SHR_BUFFERED,
      SHR_POLLFD].map (·.toNat) = [1, 2, 4, 8, 16, 32, 64, 4096, 8192, 16384, 32768, 65536, 131072] := by decide

end Shr
