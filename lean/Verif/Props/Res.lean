import Verif.Proof.Res
/-!
# What a process holds (C76, C77)

The model is `Model/Res.lean`: every call of the library as a computation on the ledger of descriptors, mappings and blocks of memory, where
the outcome of every system call inside is arbitrary.
-/
namespace Shr

/-- **C76** (partial).  Start with nothing and make any calls, in any order, on any number of handles, each with any outcomes of the system
calls inside, as long as none of the calls meets one of the failures in `ROp.Clean`: then the process holds what its open handles hold and the
copies that `shr_appdata` gave to the caller, nothing else. -/
theorem C76_held_partial (ops : List ROp) (hc : ∀ op ∈ ops, op.Clean) :
    let p := PRes.run {} ops
    ∃ n, (∀ k, n ≤ k → p.hs k = none) ∧ p.led.live.Perm (heldBy p.hs n ++ p.given) := by
  obtain ⟨L, h, hL⟩ := PRes.Inv.run ops PRes.Inv.start
  obtain ⟨n, hn, hp⟩ := h.held
  rw [hL hc rfl] at hp
  exact ⟨n, hn, by simpa using hp⟩

/-- When all handles are closed, nothing is held. -/
theorem C76_all_closed_partial (ops : List ROp) (hc : ∀ op ∈ ops, op.Clean) (hcl : ∀ k, (PRes.run {} ops).hs k = none) :
    (PRes.run {} ops).led.live.Perm (PRes.run {} ops).given := by
  obtain ⟨n, _, hp⟩ := C76_held_partial ops hc
  rw [heldBy_grow (n := 0) (fun k _ => hcl k) n (Nat.zero_le _)] at hp
  exact hp

/-- A failing `shr_open` releases what it acquired. -/
theorem C76_open_failed_partial {s : Led} (hs : s.Good) (flags gflags : Flags) (e : OpenREnv) (hc : e.Clean flags gflags)
    (hf : (openR flags gflags e s).1 = none) : (openR flags gflags e s).2.live.Perm s.live := by
  obtain ⟨_, B, L, ⟨h1, _⟩, h2, h3⟩ := openR_tr (A := []) flags gflags e s s.live hs (.refl _)
  rw [hf] at h1
  rw [h3 hc, List.perm_nil.1 h1] at h2
  exact h2

/-- `shr_init` holds nothing when it returns, however it ends. -/
theorem C76_init {s : Led} (hs : s.Good) (a b c d e f g : Bool) : (initR a b c d e f g s).2.live.Perm s.live := by
  obtain ⟨_, B, L, rfl, h2, h3⟩ := initR_tr (c := True) (A := []) a b c d e f g s s.live hs (.refl _)
  rw [h3 trivial] at h2
  exact h2

theorem socks_length_le (l : List (Option Nat)) : (socks l).length ≤ l.length := by
  induction l with
  | nil => exact Nat.le_refl _
  | cons f l ih =>
    rw [socks_cons, List.length_append, List.length_cons]
    cases f <;> simp [Option.toList] <;> omega

theorem resOpt_length_le {w : Option BwR} (h : okOpt w) : (resOpt w).length ≤ 69 := by
  cases w with
  | none => exact Nat.zero_le _
  | some w =>
    have h1 := socks_length_le w.fds
    rw [h.1] at h1
    have h2 : w.drain.toList.length ≤ 1 := by cases w.drain <;> simp
    show (BwR.res w).length ≤ 69
    unfold BwR.res
    cases w.wait with
    | none => simp only [List.length_cons, List.length_append, List.length_nil]; omega
    | some x => simp only [List.length_cons, List.length_append, List.length_nil]; omega

/-- Whatever happens, also after the failures in `ROp.Clean`, an open handle never holds more than 143 things: repeated calls do not
accumulate anything in it. -/
theorem C76_handle_bound (ops : List ROp) (k : Nat) (s : ShrR) (hs : (PRes.run {} ops).hs k = some s) : s.res.length ≤ 143 := by
  obtain ⟨L, h, _⟩ := PRes.Inv.run ops PRes.Inv.start
  have hok := h.ok k
  rw [hs] at hok
  have h1 := resOpt_length_le hok.1
  have h2 := resOpt_length_le hok.2
  have h3 : s.cbuf.toList.length ≤ 1 := by cases s.cbuf <;> simp
  have h4 : s.ciov.toList.length ≤ 1 := by cases s.ciov <;> simp
  unfold ShrR.res
  simp only [List.length_cons, List.length_append]
  omega

/-- **C77**, what is recorded: releasing something that is not held is, and for good. -/
theorem C77_monitor (i : Nat) (s : Led) :
    ((release i s).2.bad = true ↔ s.bad = true ∨ i ∉ s.live) ∧ (release i s).2.live = s.live.erase i := by
  simp [release]

/-- **C77.**  Any calls, in any order, on any number of handles, with any outcomes of all the system calls inside: nothing is closed, unmapped or
freed that the process does not hold at that time; what an open handle refers to is held (it is not used after it was closed or freed);
and no two open handles refer to the same thing. -/
theorem C77_never_twice (ops : List ROp) :
    let p := PRes.run {} ops
    p.led.bad = false ∧
    (∀ k s, p.hs k = some s → s.res.Nodup ∧ ∀ i ∈ s.res, i ∈ p.led.live) ∧
    (∀ j k s t, j ≠ k → p.hs j = some s → p.hs k = some t → ∀ i ∈ s.res, i ∉ t.res) := by
  intro p
  obtain ⟨L, h, _⟩ := PRes.Inv.run ops PRes.Inv.start
  obtain ⟨n, hn, hp⟩ := h.held
  have hp' : p.led.live.Perm (heldBy p.hs n ++ (p.given ++ L)) := hp
  have hnd : (heldBy p.hs n ++ (p.given ++ L)).Nodup := hp'.nodup_iff.1 h.good.2.1
  have hlt : ∀ k s, p.hs k = some s → k < n := by
    intro k s hk
    refine Nat.lt_of_not_le fun hle => ?_
    have := hn k hle
    rw [show p.hs k = some s from hk] at this; cases this
  have hmem : ∀ k s, p.hs k = some s → ∀ i ∈ s.res, i ∈ heldBy p.hs n := by
    intro k s hk i hi
    exact List.mem_flatMap.2 ⟨k, List.mem_range.2 (hlt k s hk), by rw [hk]; exact hi⟩
  refine ⟨h.good.1, fun k s hk => ⟨?_, fun i hi => hp'.mem_iff.2 (List.mem_append_left _ (hmem k s hk i hi))⟩, ?_⟩
  · obtain ⟨rest, hr⟩ := heldBy_split p.hs k n (hlt k s hk)
    have := (hr p.hs fun _ _ => rfl).nodup_iff.1 (List.nodup_append.1 hnd).1
    rw [hk] at this
    exact (List.nodup_append.1 this).1
  · intro j k s t hjk hj hk i hi ht
    obtain ⟨rest, hr⟩ := heldBy_split p.hs k n (hlt k t hk)
    have h1 := hr p.hs fun _ _ => rfl
    rw [hk] at h1
    have h2 := hr (fun l => if l = k then none else p.hs l) fun l hl => if_neg hl
    rw [if_pos rfl] at h2
    have hi' : i ∈ heldBy (fun l => if l = k then none else p.hs l) n :=
      List.mem_flatMap.2 ⟨j, List.mem_range.2 (hlt j s hj), by dsimp only; rw [if_neg hjk, hj]; exact hi⟩
    have hrest : i ∈ rest := by simpa [resShr] using h2.mem_iff.1 hi'
    have := h1.nodup_iff.1 (List.nodup_append.1 hnd).1
    exact (List.nodup_append.1 this).2.2 i ht i hrest rfl

/-! ## The failures after which something is lost -/

/-- A reader is opened and closed; the writer whose slot was examined has a descriptor that cannot be read: the directory stays open
(lib/ux.c:87-113). -/
def leakDir : List ROp := [.open 0 SHR_RDONLY 0 { rdWait := { prune := [{ walkOk := false }] } }, .close 0 false true []]
/-- A writer is opened while the second of two readers cannot be connected: the socket for the first one stays open (lib/bw.c:421-430). -/
def leakSock : List ROp := [.open 0 (SHR_WRONLY ||| SHR_NONBLOCK) 0 { wrWake := { slots := [{}, { sockOk := false }] } }]
/-- A buffered writer is opened with too little memory for the cache: the wake-up handles stay open (src/shr.c:610, 616-621). -/
def leakCache : List ROp := [.open 0 (SHR_WRONLY ||| SHR_BUFFERED) 0 { bufOk := false }]
/-- A reader of a ring with SHR_SYNC is opened and `msync` fails: the wake-up handles stay open (src/shr.c:611, 616-621). -/
def leakSync : List ROp := [.open 0 SHR_RDONLY SHR_SYNC { syncOk := false }]
/-- A ring is opened for reading and writing at the same time, and closed: the reader's handles stay open (src/shr.c:457, 463). -/
def leakBoth : List ROp := [.open 0 (SHR_RDONLY ||| SHR_WRONLY) 0 {}, .close 0 false true []]
/-- The lock fails in `shr_close`: the wake-up handles stay open (src/shr.c:1163). -/
def leakLock : List ROp := [.open 0 SHR_RDONLY 0 {}, .close 0 false false []]

/-- The full claim is false: in each of these histories no handle is open at the end, but something is held (the number of things).  So there
is a failure for every part of `ROp.Clean`. -/
theorem C76_counterexamples :
    ([leakDir, leakSock, leakCache, leakSync, leakBoth, leakLock].map fun ops =>
      (((PRes.run {} ops).hs 0).isSome, (PRes.run {} ops).led.live.length, (PRes.run {} ops).given.length)) =
    [(false, 1, 0), (false, 1, 0), (false, 5, 0), (false, 5, 0), (false, 5, 0), (false, 5, 0)] := by decide +kernel

/-- A history with two handles, failing system calls of the harmless kind, wake-ups and a copy of the application data: `C76_held_partial`
applies, and at the end the reader and the copy are left. -/
def heldDemo : List ROp :=
  [.init true false true true true true true,
   .open 0 SHR_RDONLY 0 {},
   .open 1 (SHR_WRONLY ||| SHR_BUFFERED) 0 { wrWake := { slots := [{}] } },
   .open 2 SHR_RDONLY 0 { mmapOk := false },
   .open 2 SHR_RDONLY 0 { rdWait := { epollOk := false }, rdWake := { slots := [{ connOk := false, pid := { alive := false } }, {}] } },
   .write 1 [{ slots := [{ used := false }, {}] }, { sends := [true, false] }],
   .read 0 (some { slots := [{}], sends := [true] }) (some (true, true)),
   .appdata 0 true,
   .close 1 true true [{ slots := [{}] }]]

theorem heldDemo_clean : ∀ op ∈ heldDemo, op.Clean := by
  have r : SHR_RDONLY.has SHR_WRONLY = false := by decide
  have w : (SHR_WRONLY ||| SHR_BUFFERED).has SHR_RDONLY = false := by decide
  simp [heldDemo, ROp.Clean, OpenREnv.Clean, BwEnv.CleanWait, BwEnv.CleanWake, WakeEnv.Clean, SlotEnv.Clean, PidEnv.Clean, PidEnv.Extinct, r, w]

example : ((PRes.run {} heldDemo).hs 0).isSome = true ∧ ((PRes.run {} heldDemo).hs 1).isSome = false ∧ ((PRes.run {} heldDemo).hs 2).isSome = false ∧
    (PRes.run {} heldDemo).led.live.length = 11 ∧ (PRes.run {} heldDemo).led.next = 37 ∧ (PRes.run {} heldDemo).given.length = 1 := by decide +kernel

end Shr
