import Verif.Model.Exit
import Verif.Props.File
import Verif.Props.Main
/-! # What shr-tool's exit status says (C78), and what mount does (C79) -/
namespace Shr

/-! ## create -/

/-- The name now stands for what `create` was asked for: a ring that was there is kept, if asked to, and otherwise there is a fresh, empty
ring with the requested sizes, attributes and app data (`initRing a`) in a new file, and no other file changed. -/
def Made (a : InitArgs) (fs fs' : FS) : Prop :=
  (fs.path.isSome = true ∧ a.flags.has SHR_KEEPEXIST = true ∧ fs' = fs) ∨
  ((fs.path = none ∨ a.flags.has SHR_KEEPEXIST = false) ∧
    ∃ ino, fs'.path = some ino ∧ (∀ old, fs.path = some old → ino ≠ old) ∧ (∀ j, j ≠ ino → fs'.files j = fs.files j) ∧
      decode (fs'.files ino) = initRing a ∧ (decode (fs'.files ino)).unreadMsgs = [] ∧ (decode (fs'.files ino)).presentMsgs = [])

theorem made_of_inits {a : InitArgs} {env : InitEnv} {fs fs' : FS} (hs : SizesOk a) (he : env.WF a) (hf : fs.WF)
    (h : Inits a env fs 0 fs') : Made a fs fs' := by
  by_cases hk : fs.path.isSome = true ∧ a.flags.has SHR_KEEPEXIST = true
  · refine .inl ⟨hk.1, hk.2, ?_⟩
    rcases (h.end_ hs he hf).ok rfl with h1 | h1
    · exact h1.1
    · rw [h1.1 hk.1] at hk; cases hk.2
  · have hnew : fs.path = none ∨ a.flags.has SHR_KEEPEXIST = false := by
      cases hp : fs.path
      · exact .inl rfl
      · right
        cases hb : a.flags.has SHR_KEEPEXIST
        · rfl
        · exact absurd ⟨by rw [hp]; rfl, hb⟩ hk
    exact .inr ⟨hnew, C20_replaces hs he hf h hnew⟩

theorem set_same (d : Disk) (name : List Byte) (fs : FS) : d.set name fs name = fs := if_pos rfl

theorem set_ne (d : Disk) (name : List Byte) (fs : FS) {n : List Byte} (h : n ≠ name) : d.set name fs n = d n := if_neg h

theorem creates_end {a : InitArgs} (hs : SizesOk a) {d d' : Disk} {ops : List (List Byte × InitEnv)} {e : Exit}
    (h : Creates a d ops d' e) (he : ∀ x ∈ ops, x.2.WF a) (hf : ∀ x ∈ ops, (d x.1).WF) (hn : (ops.map Prod.fst).Nodup) :
    (∀ n, n ∉ ops.map Prod.fst → d' n = d n) ∧
    ((e = .status 0 ∧ ∀ x ∈ ops, Made a (d x.1) (d' x.1)) ∨
     (e = .status 255 ∧ ∃ pre x post, ops = pre ++ x :: post ∧ (∀ y ∈ pre, Made a (d y.1) (d' y.1)) ∧
        Inits a x.2 (d x.1) (-1) (d' x.1) ∧ ∀ y ∈ post, d' y.1 = d y.1)) := by
  induction h with
  | done => exact ⟨fun _ _ => rfl, .inl ⟨rfl, fun _ hx => by cases hx⟩⟩
  | @ok d d' name env fs rest e h1 h2 ih =>
    rw [List.map_cons, List.nodup_cons] at hn
    replace hn : name ∉ rest.map Prod.fst ∧ (rest.map Prod.fst).Nodup := hn
    have hw : env.WF a := he (name, env) (by simp)
    have hd : (d name).WF := hf (name, env) (by simp)
    have key : ∀ y ∈ rest, y.1 ≠ name := fun y hy e => hn.1 (by rw [← e]; exact List.mem_map_of_mem hy)
    obtain ⟨i1, i2⟩ := ih (fun x hx => he x (by simp [hx]))
      (fun x hx => by rw [set_ne _ _ _ (key x hx)]; exact hf x (by simp [hx])) hn.2
    have hname : d' name = fs := by rw [i1 name hn.1, set_same]
    have hm : Made a (d name) (d' name) := hname ▸ made_of_inits hs hw hd h1
    refine ⟨fun n hnm => ?_, ?_⟩
    · rw [List.map_cons, List.mem_cons, not_or] at hnm
      rw [i1 n hnm.2, set_ne _ _ _ hnm.1]
    · rcases i2 with ⟨e1, e2⟩ | ⟨e1, pre, x, post, e2, e3, e4, e5⟩
      · refine .inl ⟨e1, fun x hx => ?_⟩
        rcases List.mem_cons.mp hx with rfl | hx
        · exact hm
        · have := e2 x hx
          rwa [set_ne _ _ _ (key x hx)] at this
      · subst e2
        refine .inr ⟨e1, (name, env) :: pre, x, post, rfl, fun y hy => ?_, ?_, fun y hy => ?_⟩
        · rcases List.mem_cons.mp hy with rfl | hy
          · exact hm
          · have := e3 y hy
            rwa [set_ne _ _ _ (key y (by simp [hy]))] at this
        · rwa [set_ne _ _ _ (key x (by simp))] at e4
        · have := e5 y hy
          rwa [set_ne _ _ _ (key y (by simp [hy]))] at this
  | @fail d name env fs rest rc h1 h2 =>
    rw [List.map_cons, List.nodup_cons] at hn
    replace hn : name ∉ rest.map Prod.fst ∧ (rest.map Prod.fst).Nodup := hn
    have hw : env.WF a := he (name, env) (by simp)
    have hd : (d name).WF := hf (name, env) (by simp)
    have hrc : rc = -1 := ((Inits.end_ hs hw hd h1).rcs).resolve_left (by omega)
    subst hrc
    refine ⟨fun n hnm => ?_, .inr ⟨rfl, [], (name, env), rest, rfl, fun _ hy => (by cases hy), ?_, fun y hy => ?_⟩⟩
    · rw [List.map_cons, List.mem_cons, not_or] at hnm
      rw [set_ne _ _ _ hnm.1]
    · rw [set_same]; exact h1
    · rw [set_ne _ _ _ (fun e => hn.1 (by rw [← e]; exact List.mem_map_of_mem hy))]

theorem not_made_of_fail {a : InitArgs} {env : InitEnv} {fs fs' : FS} (hs : SizesOk a) (he : env.WF a) (hf : fs.WF)
    (hfl : a.flags.toNat < SHR_OPEN_FENCE.toNat) (h : Inits a env fs (-1) fs') : ¬ Made a fs fs' := by
  rintro (⟨h1, h2, _⟩ | ⟨_, ino, h2, h3, _⟩)
  · have hp := hs.pos
    have := C20_keepexist (env := env) (by omega) hfl h2 h1
    unfold Inits at h
    rw [this] at h
    cases h
  · rcases (C20_failure hs he hf h).1 with rfl | h4
    · exact h3 ino h2 rfl
    · rw [h4] at h2; cases h2

/-- **C78, create.** `shr-tool create` with any options, for any number of names (pairwise different), whatever the system calls inside
return: the exit status is 0 if and only if every name now stands for what was asked for (`Made`).  Otherwise it is 255, and then either
nothing changed because no size or an unusable file was given, or there is a first name that could not be made: the names before it are
made, it is unchanged or without a file, and the names behind it are untouched.  Names that were not given are untouched. -/
theorem C78_create {opts : List (Byte × List Byte)} {c : Cfg} {file : Option (List Byte)} {d d' : Disk}
    {ops : List (List Byte × InitEnv)} {e : Exit} (hp : parseOpts opts {} = some c)
    (hs : ∀ a, createCmd c file = .inits a → SizesOk a ∧ ∀ x ∈ ops, x.2.WF a) (hf : ∀ x ∈ ops, (d x.1).WF)
    (hn : (ops.map Prod.fst).Nodup) (h : CreateRun c file d ops d' e) :
    (∀ n, n ∉ ops.map Prod.fst → d' n = d n) ∧
    (e = .status 0 ↔ ∃ a, createCmd c file = .inits a ∧ ∀ x ∈ ops, Made a (d x.1) (d' x.1)) ∧
    (e ≠ .status 0 → e = .status 255 ∧
      (((c.size = 0 ∨ (c.wfile ≠ none ∧ (file = none ∨ file = some []))) ∧ d' = d) ∨
        ∃ a pre x post, createCmd c file = .inits a ∧ ops = pre ++ x :: post ∧ (∀ y ∈ pre, Made a (d y.1) (d' y.1)) ∧
          (d' x.1 = d x.1 ∨ (d' x.1).path = none) ∧ ∀ y ∈ post, d' y.1 = d y.1)) := by
  unfold CreateRun at h
  cases hc : createCmd c file with
  | usage =>
    rw [hc] at h
    obtain ⟨rfl, rfl⟩ := h
    have h0 : c.size = 0 := by
      unfold createCmd at hc
      split at hc
      · assumption
      · split at hc
        · split at hc <;> cases hc
        · cases hc
    refine ⟨fun _ _ => rfl, ⟨fun h => (by cases h), fun ⟨a, h, _⟩ => (by cases h)⟩, fun _ => ⟨rfl, .inl ⟨.inl h0, rfl⟩⟩⟩
  | nofile =>
    rw [hc] at h
    obtain ⟨rfl, rfl⟩ := h
    have h0 : c.wfile ≠ none ∧ (file = none ∨ file = some []) := by
      unfold createCmd at hc
      split at hc
      · cases hc
      · split at hc
        · rename_i w hw
          refine ⟨by rw [hw]; simp, ?_⟩
          match file, hc with
          | none, _ => exact .inl rfl
          | some [], _ => exact .inr rfl
          | some (b :: bs), hc => cases hc
        · cases hc
    refine ⟨fun _ _ => rfl, ⟨fun h => (by cases h), fun ⟨a, h, _⟩ => (by cases h)⟩, fun _ => ⟨rfl, .inl ⟨.inr h0, rfl⟩⟩⟩
  | inits a =>
    rw [hc] at h
    obtain ⟨hs1, hs2⟩ := hs a hc
    have hfl := (C61_create_partial hp hc).2.2.2.2.2
    obtain ⟨h1, h2⟩ := creates_end hs1 h hs2 hf hn
    refine ⟨h1, ?_⟩
    rcases h2 with ⟨rfl, h3⟩ | ⟨rfl, pre, x, post, rfl, h4, h5, h6⟩
    · exact ⟨⟨fun _ => ⟨a, rfl, h3⟩, fun _ => rfl⟩, fun h => absurd rfl h⟩
    · have hx : x ∈ pre ++ x :: post := by simp
      refine ⟨⟨fun h => (by cases h), ?_⟩, fun _ => ⟨rfl, .inr ⟨a, pre, x, post, rfl, rfl, h4, ?_, h6⟩⟩⟩
      · rintro ⟨a', ha, h7⟩
        cases ha
        exact absurd (h7 x hx) (not_made_of_fail hs1 (hs2 x hx) (hf x hx) hfl h5)
      · exact (C20_failure hs1 (hs2 x hx) (hf x hx) h5).1

/-- C78, create: it always comes to an end. -/
theorem C78_create_ends {a : InitArgs} (hs : SizesOk a) {d : Disk} {ops : List (List Byte × InitEnv)}
    (he : ∀ x ∈ ops, x.2.WF a) (hf : ∀ x ∈ ops, (d x.1).WF) (hn : (ops.map Prod.fst).Nodup) :
    ∃ d' e, Creates a d ops d' e := by
  induction ops generalizing d with
  | nil => exact ⟨_, _, .done⟩
  | cons x rest ih =>
    obtain ⟨name, env⟩ := x
    rw [List.map_cons, List.nodup_cons] at hn
    replace hn : name ∉ rest.map Prod.fst ∧ (rest.map Prod.fst).Nodup := hn
    obtain ⟨rc, fs, h1, h2⟩ := init_completes hs (he (name, env) (by simp)) (hf (name, env) (by simp))
    rcases h2 with rfl | rfl
    · obtain ⟨d', e, h3⟩ := ih (d := d.set name fs) (fun x hx => he x (by simp [hx]))
        (fun x hx => by
          rw [set_ne _ _ _ (fun e => hn.1 (by rw [← e]; exact List.mem_map_of_mem hx))]
          exact hf x (by simp [hx])) hn.2
      exact ⟨d', e, .ok h1 h3⟩
    · exact ⟨_, _, .fail h1 (by omega)⟩

/-- A disk without rings. -/
def noRings : Disk := fun _ => emptyFS

/-- C78_create: `shr-tool create -s 10 -N 3 a b`. -/
def twoArgs : InitArgs := { dataSz := 10, flags := SHR_MAXMSGS_2, maxMsgs := 3 }

theorem twoArgs_ok : SizesOk twoArgs := ⟨by decide, by decide, by decide⟩

theorem noRings_set_b (fs : FS) : noRings.set (asc "a") fs (asc "b") = emptyFS := set_ne _ _ _ (by decide)

example : ∃ c d', parseOpts [(115, asc "10"), (78, asc "3")] {} = some c ∧ createCmd c none = .inits twoArgs ∧
    CreateRun c none noRings [(asc "a", {}), (asc "b", {})] d' (.status 0) ∧
    Made twoArgs emptyFS (d' (asc "a")) ∧ Made twoArgs emptyFS (d' (asc "b")) := by
  have hi : Inits twoArgs {} emptyFS 0 (afterInit twoArgs {} emptyFS) := inits_of (by decide +kernel)
  have hp : parseOpts [(115, asc "10"), (78, asc "3")] {} = some { flags := SHR_MAXMSGS_2, maxMsgs := 3, size := 10 } := by decide +kernel
  have hc : createCmd { flags := SHR_MAXMSGS_2, maxMsgs := 3, size := 10 } none = .inits twoArgs := by decide +kernel
  have hr : CreateRun { flags := SHR_MAXMSGS_2, maxMsgs := 3, size := 10 } none noRings [(asc "a", {}), (asc "b", {})]
      ((noRings.set (asc "a") (afterInit twoArgs {} emptyFS)).set (asc "b") (afterInit twoArgs {} emptyFS)) (.status 0) := by
    unfold CreateRun
    rw [hc]
    exact .ok hi (.ok (by rw [noRings_set_b]; exact hi) .done)
  have h := C78_create hp (fun a ha => by
    rw [hc] at ha; cases ha
    refine ⟨twoArgs_ok, fun x hx l hl => ?_⟩
    simp at hx
    rcases hx with rfl | rfl <;> cases hl) (fun _ _ => emptyFS_wf) (by decide) hr
  obtain ⟨a, ha, hm⟩ := h.2.1.mp rfl
  rw [hc] at ha; cases ha
  refine ⟨_, _, hp, hc, hr, ?_, ?_⟩
  · exact hm (asc "a", {}) (by simp)
  · exact hm (asc "b", {}) (by simp)

/-- C78_create: the second of two rings cannot be made. -/
example : ∃ d', CreateRun { flags := SHR_MAXMSGS_2, maxMsgs := 3, size := 10 } none noRings [(asc "a", {}), (asc "b", { mmapOk := false })] d' (.status 255) ∧
    (d' (asc "a")).path = some 0 ∧ (d' (asc "b")).path = none := by
  have hi : Inits twoArgs {} emptyFS 0 (afterInit twoArgs {} emptyFS) := inits_of (by decide +kernel)
  have hj : Inits twoArgs { mmapOk := false } emptyFS (-1) (afterInit twoArgs { mmapOk := false } emptyFS) := inits_of (by decide +kernel)
  have hc : createCmd { flags := SHR_MAXMSGS_2, maxMsgs := 3, size := 10 } none = .inits twoArgs := by decide +kernel
  refine ⟨(noRings.set (asc "a") (afterInit twoArgs {} emptyFS)).set (asc "b") (afterInit twoArgs { mmapOk := false } emptyFS), ?_, ?_, ?_⟩
  · unfold CreateRun
    rw [hc, show Exit.status 255 = exitOf (-1) by decide]
    exact .ok hi (.fail (rc := -1) (by rw [noRings_set_b]; exact hj) (by decide))
  · rw [set_ne _ _ _ (by decide), set_same]; decide +kernel
  · rw [set_same]; decide +kernel

/-! ## write, writehex, writefile -/

/-- What `shr-tool write` puts into the ring if `shr_write` never fails (C60 says which messages these are). -/
def inputMsgs (input : List Byte) : List Msg := (writeLoop (fun _ _ => 0) 0 input).1

theorem writeLoop_cases (write : Nat → Msg → Int) (input : List Byte) (i : Nat) (k : Nat) :
    (writeLoop write i input = ((writeLoop (fun _ _ => 0) k input).1, true) ∧
      ∀ j m, (writeLoop (fun _ _ => 0) k input).1[j]? = some m → 0 ≤ write (i + j) m) ∨
    ∃ pre bad post, (writeLoop (fun _ _ => 0) k input).1 = pre ++ bad :: post ∧ (∀ j m, pre[j]? = some m → 0 ≤ write (i + j) m) ∧
      write (i + pre.length) bad < 0 ∧ writeLoop write i input = (pre ++ [bad], false) := by
  by_cases h : input = []
  · subst h
    rw [writeLoop, dif_pos rfl, writeLoop, dif_pos rfl]
    exact .inl ⟨rfl, fun j m hj => by simp at hj⟩
  · have hlt : (fgets1000 input).2.length < input.length := by
      have : 0 < input.length := List.length_pos_iff.mpr h
      simp only [fgets1000, List.length_drop]; omega
    have hz : writeLoop (fun _ _ => 0) k input = (lineMsg (fgets1000 input).1 :: (writeLoop (fun _ _ => 0) (k + 1) (fgets1000 input).2).1,
        (writeLoop (fun _ _ => 0) (k + 1) (fgets1000 input).2).2) := by
      rw [writeLoop, dif_neg h]
      dsimp only
      rw [if_neg (by decide)]
    rw [hz, writeLoop, dif_neg h]
    dsimp only
    by_cases hw : write i (lineMsg (fgets1000 input).1) < 0
    · rw [if_pos hw]
      exact .inr ⟨[], _, _, rfl, fun j m hj => by simp at hj, hw, rfl⟩
    · rw [if_neg hw]
      rcases writeLoop_cases write (fgets1000 input).2 (i + 1) (k + 1) with ⟨h1, h2⟩ | ⟨pre, bad, post, h1, h2, h3, h4⟩
      · refine .inl ⟨by rw [h1], fun j m hj => ?_⟩
        cases j with
        | zero => simp at hj; subst hj; show 0 ≤ write i _; omega
        | succ j =>
          have := h2 j m (by simpa using hj)
          rwa [show i + (j + 1) = i + 1 + j by omega]
      · refine .inr ⟨_ :: pre, bad, post, by rw [h1]; rfl, fun j m hj => ?_, ?_, by rw [h4]; rfl⟩
        · cases j with
          | zero => simp at hj; subst hj; show 0 ≤ write i _; omega
          | succ j =>
            have := h2 j m (by simpa using hj)
            rwa [show i + (j + 1) = i + 1 + j by omega]
        · rwa [List.length_cons, show i + (pre.length + 1) = i + 1 + pre.length by omega]
termination_by input.length

/-- **C78, write.** `shr-tool write` exits with 0 if and only if the ring could be opened and every message of the input was accepted by
`shr_write`; otherwise with 255, and then the messages given to `shr_write` end with the first that was refused. -/
theorem C78_write (openOk : Bool) (write : Nat → Msg → Int) (input : List Byte) :
    ((writeCmd openOk write input).2 = .status 0 ↔
      openOk = true ∧ ∀ j m, (inputMsgs input)[j]? = some m → 0 ≤ write j m) ∧
    ((writeCmd openOk write input).2 = .status 0 → (writeCmd openOk write input).1 = inputMsgs input) ∧
    ((writeCmd openOk write input).2 ≠ .status 0 → (writeCmd openOk write input).2 = .status 255 ∧
      ((openOk = false ∧ (writeCmd openOk write input).1 = []) ∨
        ∃ pre bad post, inputMsgs input = pre ++ bad :: post ∧ (∀ j m, pre[j]? = some m → 0 ≤ write j m) ∧ write pre.length bad < 0 ∧
          (writeCmd openOk write input).1 = pre ++ [bad])) := by
  unfold writeCmd inputMsgs
  cases openOk
  · rw [if_pos rfl]
    exact ⟨⟨fun h => absurd h (by show exitOf (-1) ≠ _; decide), fun h => absurd h.1 (by decide)⟩,
      fun h => absurd h (by show exitOf (-1) ≠ _; decide), fun _ => ⟨rfl, .inl ⟨rfl, rfl⟩⟩⟩
  · rw [if_neg (by decide)]
    rcases writeLoop_cases write input 0 0 with ⟨h1, h2⟩ | ⟨pre, bad, post, h1, h2, h3, h4⟩
    · rw [h1]
      simp only [Nat.zero_add] at h2
      exact ⟨⟨fun _ => ⟨rfl, h2⟩, fun _ => rfl⟩, fun _ => rfl, fun h => absurd rfl h⟩
    · rw [h4, h1]
      simp only [Nat.zero_add] at h2 h3
      refine ⟨⟨fun h => absurd h (by show exitOf (-1) ≠ _; decide), fun h => ?_⟩,
        fun h => absurd h (by show exitOf (-1) ≠ _; decide), fun _ => ⟨rfl, .inr ⟨pre, bad, post, rfl, h2, h3, rfl⟩⟩⟩
      have := h.2 pre.length bad (by simp)
      omega

/-- C78_write: the second line is refused. -/
example : writeCmd true (fun i _ => if i = 1 then -2 else 5) (asc "hello\nworld\nagain\n") = ([asc "hello", asc "world"], .status 255) ∧
    inputMsgs (asc "hello\nworld\nagain\n") = [asc "hello", asc "world", asc "again"] := by decide +kernel

/-- **C78, writehex.** `shr-tool writehex` exits with 0 if and only if the ring could be opened, the text stands for at least one byte (C47
says which text does) and `shr_write` accepted the message. -/
theorem C78_writehex (lax openOk : Bool) (write : Msg → Int) (text : List Byte) :
    ((writeHexCmd lax openOk write text).2 = .status 0 ↔ openOk = true ∧ ∃ m, unhex lax text = .ok m ∧ m ≠ [] ∧ 0 ≤ write m) ∧
    (∀ x ∈ (writeHexCmd lax openOk write text).1, unhex lax text = .ok x) ∧
    ((writeHexCmd lax openOk write text).2 = .status 0 → ∃ m, unhex lax text = .ok m ∧ (writeHexCmd lax openOk write text).1 = [m]) ∧
    ((writeHexCmd lax openOk write text).2 ∈ [.status 0, .status 255, .abort]) := by
  unfold writeHexCmd
  cases openOk
  · rw [if_pos rfl]
    exact ⟨⟨fun h => absurd h (by decide), fun h => absurd h.1 (by decide)⟩, fun x hx => (by cases hx), fun h => absurd h (by decide), by decide⟩
  · rw [if_neg (by decide)]
    cases hu : unhex lax text with
    | abort => exact ⟨⟨fun h => (by cases h), fun ⟨_, m, h, _⟩ => (by cases h)⟩, fun x hx => (by cases hx), fun h => (by cases h), by simp⟩
    | reject =>
      dsimp only
      exact ⟨⟨fun h => absurd h (by decide), fun ⟨_, m, h, _⟩ => (by cases h)⟩, fun x hx => (by cases hx), fun h => absurd h (by decide), by decide⟩
    | ok m =>
      dsimp only
      by_cases hm : m = []
      · rw [if_pos hm]
        refine ⟨⟨fun h => absurd h (by decide), fun ⟨_, m', h, h1, _⟩ => ?_⟩, fun x hx => (by cases hx), fun h => absurd h (by decide), by decide⟩
        cases h; exact absurd hm h1
      · rw [if_neg hm]
        dsimp only
        by_cases hw : write m < 0
        · rw [if_pos hw]
          refine ⟨⟨fun h => absurd h (by decide), fun ⟨_, m', h, _, h2⟩ => ?_⟩, fun x hx => ?_, fun h => absurd h (by decide), by decide⟩
          · cases h; omega
          · simp at hx; rw [hx]
        · rw [if_neg hw]
          exact ⟨⟨fun _ => ⟨rfl, m, rfl, hm, by omega⟩, fun _ => rfl⟩, fun x hx => by simp at hx; rw [hx], fun _ => ⟨m, rfl, rfl⟩, by decide⟩

/-- **C78, writefile.** `shr-tool writefile` exits with 0 if and only if the ring could be opened, the file can be read and is not empty, and
`shr_write` accepted its content as one message; otherwise with 255. -/
theorem C78_writefile (openOk : Bool) (write : Msg → Int) (content : Option (List Byte)) :
    ((writeFileCmd openOk write content).2 = .status 0 ↔ openOk = true ∧ ∃ m, content = some m ∧ m ≠ [] ∧ 0 ≤ write m) ∧
    ((writeFileCmd openOk write content).2 = .status 0 → ∃ m, content = some m ∧ (writeFileCmd openOk write content).1 = [m]) ∧
    ((writeFileCmd openOk write content).2 = .status 0 ∨ (writeFileCmd openOk write content).2 = .status 255) := by
  unfold writeFileCmd
  cases openOk
  · rw [if_pos rfl]
    exact ⟨⟨fun h => absurd h (by decide), fun h => absurd h.1 (by decide)⟩, fun h => absurd h (by decide), .inr rfl⟩
  · rw [if_neg (by decide)]
    match content with
    | none =>
      simp only [mapFile]
      exact ⟨⟨fun h => absurd h (by decide), fun ⟨_, m, h, _⟩ => (by cases h)⟩, fun h => absurd h (by decide), .inr rfl⟩
    | some [] =>
      simp only [mapFile]
      refine ⟨⟨fun h => absurd h (by decide), fun ⟨_, m, h, h1, _⟩ => ?_⟩, fun h => absurd h (by decide), .inr rfl⟩
      cases h; exact absurd rfl h1
    | some (b :: bs) =>
      unfold mapFile
      dsimp only
      by_cases hw : write (b :: bs) < 0
      · rw [if_pos hw]
        refine ⟨⟨fun h => absurd h (by decide), fun ⟨_, m, h, _, h2⟩ => ?_⟩, fun h => absurd h (by decide), .inr rfl⟩
        cases h; omega
      · rw [if_neg hw]
        exact ⟨⟨fun _ => ⟨rfl, _, rfl, by simp, by omega⟩, fun _ => rfl⟩, fun _ => ⟨_, rfl, rfl⟩, .inl rfl⟩

example : writeHexCmd false true (fun m => m.length) (asc "6162") = ([asc "ab"], .status 0) ∧
    writeFileCmd true (fun m => m.length) (some (asc "ab")) = ([asc "ab"], .status 0) ∧
    writeFileCmd true (fun m => m.length) (some []) = ([], .status 255) := by decide +kernel

/-! ## status and the event loop -/

/-- **C78, status.** What is missing: the exit status is 0 although the app data could not be stored in the file given with -A
(`C78_counterexample_status`).  Without -A it is 0 if and only if the ring could be opened and `shr_stat` succeeded (`shr_stat`
returns 0 or a small negative number). -/
theorem C78_status_partial (openOk : Bool) (statRc appRc : Int) (fileOk : Bool) (nr : Int) (hs : statRc = 0 ∨ statRc = -1) :
    (statusExit openOk statRc appRc false fileOk nr = .status 0 ↔ openOk = true ∧ statRc = 0) ∧
    (statusExit openOk statRc appRc false fileOk nr = .status 0 ∨ statusExit openOk statRc appRc false fileOk nr = .status 255) := by
  rcases hs with rfl | rfl <;> cases openOk <;> simp [statusExit, exitOf]

/-- **C78, status**, the limit exactly: also with -A the exit status is 0 if and only if the ring could be opened and `shr_stat` succeeded,
whatever became of the file. -/
theorem C78_status_exact (openOk : Bool) (statRc appRc : Int) (wfile fileOk : Bool) (nr : Int) (hs : statRc = 0 ∨ statRc = -1) (ha : appRc = 0 ∨ appRc = -1) :
    statusExit openOk statRc appRc wfile fileOk nr = if openOk = true ∧ statRc = 0 then .status 0 else .status 255 := by
  rcases hs with rfl | rfl <;> rcases ha with rfl | rfl <;> cases openOk <;> simp [statusExit, exitOf]

/-- **C78.** `status -A file`: the file cannot be opened, or not written; the exit status is 0. -/
theorem C78_counterexample_status :
    statusExit true 0 0 true false 0 = .status 0 ∧ statusExit true 0 0 true true (-1) = .status 0 := by decide

/-- **C78.** The commands that run an event loop (read, readhex, pub, sub, tee), whatever the events are: if the program ends, then with 0
exactly if `epoll_wait` itself failed, and otherwise with 255. -/
theorem C78_loops (evs : List LoopEv) :
    (loopExit evs = some (.status 0) ↔ ∃ pre post, evs = pre ++ .fails :: post ∧ ∀ x ∈ pre, ∃ rc, x = .handled rc ∧ 0 ≤ rc) ∧
    (loopExit evs = some (.status 255) ↔
      ∃ pre rc post, evs = pre ++ .handled rc :: post ∧ rc < 0 ∧ ∀ x ∈ pre, ∃ rc, x = .handled rc ∧ 0 ≤ rc) ∧
    (loopExit evs = none ∨ loopExit evs = some (.status 0) ∨ loopExit evs = some (.status 255)) := by
  induction evs with
  | nil =>
    refine ⟨⟨fun h => (by cases h), fun ⟨pre, post, h, _⟩ => (by simp at h)⟩, ⟨fun h => (by cases h), fun ⟨pre, rc, post, h, _⟩ => (by simp at h)⟩, .inl rfl⟩
  | cons x evs ih =>
    cases x with
    | fails =>
      have he : loopExit (.fails :: evs) = some (.status 0) := rfl
      rw [he]
      refine ⟨⟨fun _ => ⟨[], evs, rfl, fun x hx => (by cases hx)⟩, fun _ => rfl⟩, ⟨fun h => absurd h (by decide), ?_⟩, .inr (.inl rfl)⟩
      rintro ⟨pre, rc, post, h1, _, h2⟩
      cases pre with
      | nil => simp at h1
      | cons p pre =>
        simp at h1
        obtain ⟨rc, h3, _⟩ := h2 p (by simp)
        rw [← h1.1] at h3; cases h3
    | handled rc =>
      by_cases hr : rc < 0
      · have he : loopExit (.handled rc :: evs) = some (.status 255) := by
          show (if rc < 0 then some (exitOf (-1)) else _) = _
          rw [if_pos hr]; rfl
        rw [he]
        refine ⟨⟨fun h => (by cases h), ?_⟩, ⟨fun _ => ⟨[], rc, evs, rfl, hr, fun x hx => (by cases hx)⟩, fun _ => rfl⟩, .inr (.inr rfl)⟩
        rintro ⟨pre, post, h1, h2⟩
        cases pre with
        | nil => simp at h1
        | cons p pre =>
          simp at h1
          obtain ⟨rc', h3, h4⟩ := h2 p (by simp)
          rw [← h1.1] at h3; cases h3; omega
      · have he : loopExit (.handled rc :: evs) = loopExit evs := by
          show (if rc < 0 then some (exitOf (-1)) else _) = _
          rw [if_neg hr]
        rw [he]
        refine ⟨ih.1.trans ⟨?_, ?_⟩, ih.2.1.trans ⟨?_, ?_⟩, ih.2.2⟩
        · rintro ⟨pre, post, rfl, h⟩
          refine ⟨.handled rc :: pre, post, rfl, fun x hx => ?_⟩
          rcases List.mem_cons.mp hx with rfl | hx
          · exact ⟨rc, rfl, by omega⟩
          · exact h x hx
        · rintro ⟨pre, post, h1, h⟩
          cases pre with
          | nil => simp at h1
          | cons p pre =>
            simp at h1
            exact ⟨pre, post, h1.2, fun x hx => h x (by simp [hx])⟩
        · rintro ⟨pre, r, post, rfl, h0, h⟩
          refine ⟨.handled rc :: pre, r, post, rfl, h0, fun x hx => ?_⟩
          rcases List.mem_cons.mp hx with rfl | hx
          · exact ⟨rc, rfl, by omega⟩
          · exact h x hx
        · rintro ⟨pre, r, post, h1, h0, h⟩
          cases pre with
          | nil => simp at h1; exact absurd h0 (by omega)
          | cons p pre =>
            simp at h1
            exact ⟨pre, r, post, h1.2, h0, fun x hx => h x (by simp [hx])⟩

/-- **C78.** So the exit status of `read` says nothing: all messages in the ring were read and printed, and it is 255; it is 255 as well if
`shr_read` failed. -/
theorem C78_counterexample_read :
    readExit false false 0 [.ok (asc "hello"), .ok (asc "world"), .ok []] = ([.raw (asc "hello"), .raw (asc "world")], some (.status 255)) ∧
    readExit false false 0 [.error (-1)] = ([], some (.status 255)) := by decide +kernel

/-- The messages among the results of `shr_read`. -/
def messages (rs : List (Except Int Msg)) : List Msg :=
  rs.filterMap (fun r => match r with | .ok m => if m = [] then none else some m | .error _ => none)

/-- `read` stops on this result of `shr_read`, after the earlier ones `pre`: an error, nothing to read (unless -b), or the last of the -n messages. -/
def StopsRead (block : Bool) (N : Nat) (pre : List (Except Int Msg)) (r : Except Int Msg) : Prop :=
  (∃ rc, r = .error rc) ∨ (r = .ok [] ∧ block = false) ∨ (0 < N ∧ (messages pre).length < N ∧ (messages (pre ++ [r])).length = N)

theorem messages_cons_msg {m : Msg} (hm : m ≠ []) (rs : List (Except Int Msg)) : messages (.ok m :: rs) = m :: messages rs := by simp [messages, hm]
theorem messages_cons_err (rc : Int) (rs : List (Except Int Msg)) : messages (.error rc :: rs) = messages rs := by simp [messages]
theorem messages_cons_nil (rs : List (Except Int Msg)) : messages (.ok [] :: rs) = messages rs := by simp [messages]
theorem messages_append (a b : List (Except Int Msg)) : messages (a ++ b) = messages a ++ messages b := by simp [messages]

/-- **C78.** What `read` and `readhex` print and how they end, for every sequence of results of `shr_read`: either none of the results stops it, every message
is printed, and it still runs; or it stops on the first one that does, has printed the messages up to there, and the status is 255. -/
theorem C78_read (hex block : Bool) (N : Nat) (rs : List (Except Int Msg)) :
    ((∀ pre r post, rs = pre ++ r :: post → ¬ StopsRead block N pre r) ∧
      readExit hex block N rs = ((messages rs).map (if hex then .hex else .raw), none)) ∨
    (∃ pre r post, rs = pre ++ r :: post ∧ StopsRead block N pre r ∧ (∀ p x q, pre = p ++ x :: q → ¬ StopsRead block N p x) ∧
      readExit hex block N rs = ((messages (pre ++ [r])).map (if hex then .hex else .raw), some (.status 255))) := by
  suffices key : ∀ (rs done : List (Except Int Msg)), (∀ p x q, done = p ++ x :: q → ¬ StopsRead block N p x) → (0 < N → (messages done).length < N) →
      ((∀ pre r post, done ++ rs = pre ++ r :: post → ¬ StopsRead block N pre r) ∧
        readRun hex block N (messages done).length rs = (messages rs).map (if hex then .hex else .raw) ∧
        loopExit (readExit.readEvs hex block N (messages done).length rs) = none) ∨
      (∃ pre r post, done ++ rs = done ++ pre ++ r :: post ∧ StopsRead block N (done ++ pre) r ∧
        (∀ p x q, done ++ pre = p ++ x :: q → ¬ StopsRead block N p x) ∧
        readRun hex block N (messages done).length rs = (messages (pre ++ [r])).map (if hex then .hex else .raw) ∧
        loopExit (readExit.readEvs hex block N (messages done).length rs) = some (.status 255)) by
    have := key rs [] (by intro p x q h; cases p <;> cases h) (by intro h; exact h)
    simpa [readExit, messages] using this
  intro rs
  induction rs with
  | nil => intro done h _; exact .inl ⟨by simpa using h, rfl, rfl⟩
  | cons r rs ih =>
    intro done h hN
    by_cases hs : StopsRead block N done r
    · refine .inr ⟨[], r, rs, by simp, by simpa using hs, by simpa using h, ?_⟩
      have hst : readStep hex block N (messages done).length r = ((messages [r]).map (if hex then .hex else .raw), .done) := by
        rcases hs with ⟨rc, rfl⟩ | ⟨rfl, rfl⟩ | ⟨h0, h1, h2⟩
        · simp [readStep, messages]
        · simp [readStep, messages]
        · rw [messages_append] at h2
          cases r with
          | error rc => simp [messages] at h2 h1; omega
          | ok m =>
            by_cases hm : m = []
            · subst hm; simp [messages] at h2 h1; omega
            · rw [messages_cons_msg hm] at h2
              simp [messages] at h2 h1
              have : N ≤ (messages done).length + 1 := by simp [messages]; omega
              cases hex <;> simp [readStep, messages, hm] <;> (simp [messages] at this; omega)
      simp [readRun, readExit.readEvs, readEv, hst, loopExit, exitOf]
    · have h' : ∀ p x q, done ++ [r] = p ++ x :: q → ¬ StopsRead block N p x := by
        intro p x q e
        rcases List.eq_nil_or_concat q with rfl | ⟨q', z, rfl⟩
        · have := List.append_inj' e (by simp)
          obtain ⟨rfl, h2⟩ := this
          simp at h2; subst h2; exact hs
        · have e2 : done ++ [r] = (p ++ x :: q') ++ [z] := by rw [e]; simp
          exact h p x q' (List.append_inj' e2 rfl).1
      have hN' : 0 < N → (messages (done ++ [r])).length < N := by
        intro h0
        have h1 := hN h0
        apply Nat.lt_of_le_of_ne
        · rw [messages_append]
          have : (messages [r]).length ≤ 1 := by unfold messages; exact List.length_filterMap_le _ _
          simp; omega
        · intro e
          exact hs (.inr (.inr ⟨h0, h1, e⟩))
      have hst : readStep hex block N (messages done).length r = ((messages [r]).map (if hex then .hex else .raw), .run (messages (done ++ [r])).length) := by
        cases r with
        | error rc => exact absurd (.inl ⟨rc, rfl⟩) hs
        | ok m =>
          by_cases hm : m = []
          · subst hm
            have hb : block = true := by
              cases hb : block
              · exact absurd (.inr (.inl ⟨rfl, hb⟩)) hs
              · rfl
            simp [readStep, hb, messages]
          · have e1 : messages [.ok m] = [m] := by simp [messages, hm]
            have e2 : ¬ (N > 0 ∧ (messages done).length + 1 ≥ N) := by
              rintro ⟨h0, h1⟩
              have := hN' h0
              rw [messages_append, e1] at this
              simp at this; omega
            simp only [readStep, messages_append, e1, hm, e2]
            cases hex <;> simp
      rcases ih (done ++ [r]) h' hN' with ⟨h1, h2, h3⟩ | ⟨pre, x, post, h1, h2, h3, h4, h5⟩
      · refine .inl ⟨by simpa using h1, ?_, ?_⟩
        · rw [readRun, hst]
          have : messages (r :: rs) = messages [r] ++ messages rs := messages_append [r] rs
          simp [this, h2]
        · simp [readExit.readEvs, readEv, hst, loopExit, h3]
      · refine .inr ⟨r :: pre, x, post, by simpa using h1, by simpa using h2, by simpa using h3, ?_, ?_⟩
        · rw [readRun, hst]
          have : messages (r :: (pre ++ [x])) = messages [r] ++ messages (pre ++ [x]) := messages_append [r] (pre ++ [x])
          simp [this, h4]
        · simp [readExit.readEvs, readEv, hst, loopExit, h5]

/-- Two messages, -n 2: it stops after the second. -/
example : readExit false false 2 [.ok [1], .ok [2, 3], .ok [4]] = ([.raw [1], .raw [2, 3]], some (.status 255)) := by decide +kernel

/-! ## mount -/

/-- What `mount` is asked to do to the system, in order: mount and go there, make the subdirectories there, set the number of huge
pages. -/
def mountAsked (c : Cfg) (dir : List Byte) (subs : List (List Byte)) : List SysEff :=
  let mnt := [.mount dir c.fsType (if c.size = 0 then none else some c.size), .enter dir]
  let huge := if c.nrHuge = 0 then [] else [.hugepages c.nrHuge]
  match c.mountMode with
  | .query => []
  | .unmount => [.umount dir]
  | .mount => mnt ++ huge
  | .makeSubdirs => mnt ++ subs.map .mkdir ++ huge

/-- The directory is where a ramdisk is mounted, as far as `stat` and `statfs` can tell: its device is another than that of its
parent, and the file system is tmpfs, ramfs or hugetlbfs. -/
def IsRamdisk (i : DirInfo) : Prop :=
  ∃ dev pdev t, i.self = some (true, dev) ∧ i.parent = some pdev ∧ i.fsType = some t ∧ pdev ≠ dev ∧
    (t = 0x01021994 ∨ t = 0x858458F6 ∨ t = 0x958458F6)

theorem suitable_ramdisk {dir : List Byte} {i : DirInfo} (hd : dir.length + 4 ≤ 4096) : suitable dir i = -2 ↔ IsRamdisk i := by
  unfold suitable IsRamdisk
  rw [if_neg (by show ¬ _ > 4096; omega)]
  rcases i with ⟨self, parent, ty⟩
  match self with
  | none => simp
  | some (false, dev) => simp
  | some (true, dev) =>
    match parent with
    | none => simp
    | some pdev =>
      match ty with
      | none => simp
      | some t =>
        simp only [Bool.true_eq_false, if_false, Option.some.injEq, Prod.mk.injEq, true_and]
        constructor
        · intro h
          split at h
          · rename_i hc; exact ⟨dev, pdev, t, rfl, rfl, rfl, hc.1, hc.2⟩
          · cases h
        · rintro ⟨_, _, _, rfl, rfl, rfl, h1, h2⟩
          rw [if_pos ⟨h1, h2⟩]

theorem mkdirs_prefix (ok : List Byte → Bool) : ∀ subs, (mkdirs ok subs).1 <+: subs.map .mkdir ∧
    ((mkdirs ok subs).2 = true ↔ (mkdirs ok subs).1 = subs.map .mkdir) ∧ ∀ x ∈ (mkdirs ok subs).1, ∃ s, x = .mkdir s
  | [] => by simp [mkdirs]
  | s :: rest => by
    obtain ⟨h1, h2, h3⟩ := mkdirs_prefix ok rest
    unfold mkdirs
    by_cases h : ok s = false
    · rw [if_pos h]; simp
    · rw [if_neg h]
      refine ⟨by simpa using h1, by simpa using h2, ?_⟩
      intro x hx
      rcases List.mem_cons.mp hx with rfl | hx
      · exact ⟨_, rfl⟩
      · exact h3 x hx

/-- The end of `mount`. -/
theorem mount_tail (m m' : SysEff) (T ds : List SysEff) (ok : Bool) (bad : Prop) [Decidable bad] (n : Int) (h1 : ds <+: T)
    (h2 : ok = true ↔ ds = T) (r : List SysEff × Exit)
    (hr : r = if ok = false then (m :: m' :: ds, exitOf (-1)) else if n = 0 then (m :: m' :: ds, exitOf 0)
      else if bad then (m :: m' :: ds, exitOf (-1)) else (m :: m' :: ds ++ [.hugepages n], exitOf 0)) :
    r.1 <+: [m, m'] ++ T ++ (if n = 0 then [] else [.hugepages n]) ∧
    (r.2 = .status 0 ↔ r.1 = [m, m'] ++ T ++ (if n = 0 then [] else [.hugepages n])) ∧ (r.2 = .status 0 ∨ r.2 = .status 255) := by
  have hE : exitOf (-1) = .status 255 := by decide
  have h0 : exitOf 0 = .status 0 := by decide
  subst hr
  by_cases ho : ok = true
  · have hT := h2.mp ho
    subst hT
    rw [if_neg (by simp [ho])]
    by_cases hn : n = 0
    · simp [hn, h0]
    · rw [if_neg hn, if_neg hn]
      by_cases hb : bad <;> simp [hb, h0, hE]
  · have ho' : ok = false := by simpa using ho
    rw [if_pos ho']
    obtain ⟨t, rfl⟩ := h1
    have ht : t ≠ [] := fun h => ho (h2.mpr (by simp [h]))
    refine ⟨?_, ?_, .inr hE⟩
    · refine ⟨t ++ (if n = 0 then [] else [.hugepages n]), by simp⟩
    · refine ⟨fun h => absurd (show exitOf (-1) = _ from h) (by decide), fun h => ?_⟩
      have := congrArg List.length h
      have hl := List.length_pos_iff.mpr ht
      simp only [List.length_cons, List.length_append, List.length_nil] at this
      omega

/-- **C79.** `shr-tool mount`, whatever the options, the directories and the outcomes of the system calls: it does what was asked (the mount, then
the subdirectories in the order given, then the huge pages) up to the first step that fails and nothing else; the exit status is 0
if and only if everything was done, and 255 otherwise; and if the directory is a ramdisk already, it changes nothing and exits with 255
(unless asked to unmount it or to tell). -/
theorem C79_mount (c : Cfg) (dir : List Byte) (subs : List (List Byte)) (e : MountEnv) (hd : dir.length + 4 ≤ 4096) :
    (mountCmd c dir subs e).1 <+: mountAsked c dir subs ∧
    ((mountCmd c dir subs e).2 = .status 0 ↔ (mountCmd c dir subs e).1 = mountAsked c dir subs) ∧
    ((mountCmd c dir subs e).2 = .status 0 ∨ (mountCmd c dir subs e).2 = .status 255) ∧
    (IsRamdisk e.info → c.mountMode = .mount ∨ c.mountMode = .makeSubdirs → mountCmd c dir subs e = ([], .status 255)) := by
  have h255 : exitOf (-1) ≠ .status 0 := by decide
  have hE : exitOf (-1) = .status 255 := by decide
  have h0 : exitOf 0 = .status 0 := by decide
  unfold mountCmd mountAsked
  obtain ⟨m1, m2, _⟩ := mkdirs_prefix e.mkdirOk subs
  generalize (SysEff.mount dir c.fsType (if c.size = 0 then none else some c.size)) = mnt
  cases hm : c.mountMode <;> dsimp only
  case query => simp [h0]
  case unmount =>
    by_cases hu : e.umountOk = false
    · rw [if_pos hu]; simp [hE]
    · rw [if_neg hu]; simp [h0]
  all_goals
    by_cases hs : suitable dir e.info = -2
    · rw [if_pos hs]; simp [hE]
    have hnr : ¬ IsRamdisk e.info := fun h => hs ((suitable_ramdisk hd).mpr h)
    rw [if_neg hs]
    by_cases h1 : e.mountOk = false
    · rw [if_pos h1]; simp [hE, hnr]
    rw [if_neg h1]
    by_cases h2 : e.chdirOk = false
    · rw [if_pos h2]; simp [hE, hnr]
    rw [if_neg h2]
  · have := mount_tail mnt (.enter dir) [] [] true (e.hugeOpenOk = false ∨ e.hugeWriteOk = false) c.nrHuge (List.prefix_refl _) (by simp) _ rfl
    simp only [List.append_nil] at this
    exact ⟨this.1, this.2.1, this.2.2, fun h => absurd h hnr⟩
  · have := mount_tail mnt (.enter dir) (subs.map .mkdir) (mkdirs e.mkdirOk subs).1 (mkdirs e.mkdirOk subs).2
      (e.hugeOpenOk = false ∨ e.hugeWriteOk = false) c.nrHuge m1 m2 _ rfl
    exact ⟨this.1, this.2.1, this.2.2, fun h => absurd h hnr⟩

/-- **C78.** `mount -q` exits with 0 whether or not the directory is a ramdisk. -/
theorem C78_counterexample_query (c : Cfg) (dir : List Byte) (subs : List (List Byte)) (e : MountEnv) (h : c.mountMode = .query) :
    mountCmd c dir subs e = ([], .status 0) := by
  unfold mountCmd; rw [h]; rfl

/-- C79_mount: two subdirectories, the second cannot be made. -/
example : mountCmd { mountMode := .makeSubdirs, size := 4096 } (asc "/mnt/r") [asc "a", asc "b", asc "c"] { mkdirOk := fun n => n ≠ asc "b" } =
    ([.mount (asc "/mnt/r") (asc "ramfs") (some 4096), .enter (asc "/mnt/r"), .mkdir (asc "a")], .status 255) := by decide +kernel

example : mountCmd { mountMode := .makeSubdirs } (asc "/mnt/r") [asc "a", asc "b"] {} =
    ([.mount (asc "/mnt/r") (asc "ramfs") none, .enter (asc "/mnt/r"), .mkdir (asc "a"), .mkdir (asc "b")], .status 0) := by decide +kernel

example : IsRamdisk ⟨some (true, 2), some 1, some 0x858458F6⟩ := ⟨2, 1, 0x858458F6, rfl, rfl, rfl, by decide, by decide⟩

/-- What the test for a ramdisk does not see: a directory whose parent cannot be examined, or a path that is too long, is mounted over
without further question. -/
theorem C79_unknown_is_mounted : mountCmd {} (asc "/mnt/r") [] { info := ⟨some (true, 2), none, some 0x858458F6⟩ } =
    ([.mount (asc "/mnt/r") (asc "ramfs") none, .enter (asc "/mnt/r")], .status 0) := by decide +kernel

end Shr
