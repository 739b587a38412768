import Verif.Proof.MapB
import Verif.Props.Safe
/-!
# C108: bytes are only carried, also on a damaged ring

C93 says for valid histories that the library treats the bytes of messages and application data as opaque.  Here the same for everything that can happen to
a ring: calls that complete with any result, calls with any arguments, and callers that die anywhere inside a call, whatever they leave behind.
-/
namespace Shr

/-- What can happen to a ring: a call that completes, or a call whose caller dies inside it; `j` tells at which of the moments of that call. -/
inductive Ev where
  | call (op : Op)
  | death (op : Op) (j : Nat)

def Ev.op : Ev → Op
  | .call op => op
  | .death op _ => op

/-- What the callers observe of these events, and what is left (`none`: a call that should complete does not, or a call has no such moment). -/
def Sys.live : Sys → List Ev → Option (Sys × List Out)
  | s, [] => some (s, [])
  | s, .call op :: evs =>
    match s.step op with
    | .ok (s', o) => (s'.live evs).map fun x => (x.1, o :: x.2)
    | .error _ => none
  | s, .death op j :: evs =>
    match (s.points op)[j]? with
    | some p => (s.killed op p).live evs
    | none => none

def Ev.mapBytes (f : Byte → Byte) : Ev → Ev
  | .call op => .call (op.mapBytes f)
  | .death op j => .death (op.mapBytes f) j

/-- The bytes a caller hands over: of the messages, of the reader's buffer, of the application data. -/
def Op.bytes : Op → List Byte
  | .writev _ iov _ _ => iov.flatten
  | .readv _ buf _ _ => buf
  | .appdata _ _ set _ _ => set.getD []
  | _ => []

/-- The bytes a caller is handed. -/
def Out.bytes : Out → List Byte
  | .read _ _ buf => buf
  | .app o => o.got.getD []
  | _ => []

/-! ## The system with replaced bytes -/

section
variable (f : Byte → Byte)

def Life.mapB : Life Handle Unit → Life Handle Unit
  | .never => .never
  | .live h => .live (h.mapB f)
  | .gone b => .gone b

/-- The same state with every byte of data, application data, and writers' caches replaced. -/
def Sys.mapB (s : Sys) : Sys := ⟨s.ring.mapB f, fun k => (s.hs k).mapB f⟩

theorem upd_mapLife (hs : Nat → Life Handle Unit) (k : Nat) (v : Life Handle Unit) :
    (fun j => (upd hs k v j).mapB f) = upd (fun j => (hs j).mapB f) k (v.mapB f) := by
  funext j; unfold upd; split <;> rfl

theorem killed_mapB (s : Sys) (op : Op) (p : Ring) : (s.killed op p).mapB f = (s.mapB f).killed (op.mapBytes f) (p.mapB f) := by
  have e : (op.mapBytes f).handle = op.handle := by cases op <;> rfl
  unfold Sys.killed Sys.mapB
  rw [e]
  dsimp only
  rw [upd_mapLife]; rfl

theorem init_mapAny (hf : f 0 = 0) (a : InitArgs) : Sys.init (a.mapBytes f) = (Sys.init a).mapB f := by
  have h1 : (a.mapBytes f).appsize = a.appsize := by simp [InitArgs.appsize, InitArgs.mapBytes]
  have h2 : initRing (a.mapBytes f) = (initRing a).mapB f := by
    unfold initRing Ring.mapB
    rw [h1]
    congr 1
    · show List.replicate a.dataSz (0 : Byte) = (List.replicate a.dataSz 0).map f
      rw [List.map_replicate, hf]
    · show (if a.flags.has SHR_APPDATA_1 then a.app.map f else []) = (if a.flags.has SHR_APPDATA_1 then a.app else []).map f
      split <;> rfl
  unfold Sys.init Sys.mapB
  rw [h2]; rfl

theorem openLocked_mapB (hf : f 0 = 0) (r : Ring) (flags : Flags) (env : Env) :
    openLocked (r.mapB f) flags env = (openLocked r flags env).map (Handle.mapB f) := by
  have hc : init_cache (r.mapB f) flags env = (init_cache r flags env).map (Cache.mapB f) := by
    unfold init_cache
    have h1 : (r.mapB f).n = r.n := rfl
    have h2 : (r.mapB f).mm = r.mm := rfl
    rw [h1, h2]
    split
    · rfl
    · split
      · rfl
      · split
        · rfl
        · simp [Cache.mapB, hf]
  have h3 : (r.mapB f).gflags = r.gflags := rfl
  unfold openLocked
  rw [hc, h3]
  cases init_cache r flags env with
  | none => simp only [Option.map_none]; split <;> (try rfl) ; split <;> (try rfl); split <;> rfl
  | some c => simp only [Option.map_some]; split <;> (try rfl) ; split <;> (try rfl); split <;> (try rfl); split <;> rfl

variable {f}
theorem Comm.exec {α β : Type} {x : M Ring α} {y : M Ring β} {g : α → β} {r : Ring} (h : Comm f x y g r) :
    exec y (r.mapB f) = (exec x r).map fun z => (g z.1, z.2.mapB f) := by
  unfold Comm at h
  unfold Shr.exec
  rw [h]
  cases (x r).res <;> rfl

theorem Comm.pts {α β : Type} {x : M Ring α} {y : M Ring β} {g : α → β} {r : Ring} (h : Comm f x y g r) :
    (y (r.mapB f)).points = ((x r).points).map (Ring.mapB f) := by
  unfold Comm at h
  unfold Run.points Run.final
  rw [h]
  generalize x r = R
  obtain ⟨t, o⟩ := R
  cases o <;> simp [Res.mapB]
variable (f)

theorem WrOut.out_mapB (o : WrOut) : o.out.mapBytes f = o.out := by cases o <;> rfl
theorem RdOut.out_mapB (o : RdOut) : (o.mapB f).out = o.out.mapBytes f := by cases o <;> rfl

/-- One call, in any state, with any arguments. -/
theorem step_mapAny (hf : f 0 = 0) (s : Sys) (op : Op) :
    (s.mapB f).step (op.mapBytes f) = (s.step op).map fun x => (x.1.mapB f, x.2.mapBytes f) := by
  have hh : ∀ k, (s.mapB f).hs k = (s.hs k).mapB f := fun _ => rfl
  have hr : (s.mapB f).ring = s.ring.mapB f := rfl
  cases op with
  | «open» k flags env =>
    simp only [Op.mapBytes, Sys.step, hh, hr, openLocked_mapB f hf]
    cases hk : s.hs k with
    | never =>
      simp only [Life.mapB]
      split
      · rfl
      · cases openLocked s.ring flags env with
        | none => rfl
        | some h =>
          simp only [Option.map_some, Except.map, Out.mapBytes, Sys.mapB, upd_mapLife]; rfl
    | live h => rfl
    | gone _ => rfl
  | writev k iov envF env =>
    simp only [Op.mapBytes, Sys.step, hh, hr]
    cases hk : s.hs k with
    | never => rfl
    | gone _ => rfl
    | live h =>
      have e : (h.mapB f).flags = h.flags := rfl
      simp only [Life.mapB, e, (shr_writev_comm f h iov envF env s.ring).exec]
      split
      · rfl
      · cases exec (shr_writev h iov envF env) s.ring with
        | error x => rfl
        | ok x => obtain ⟨⟨h', o⟩, r⟩ := x; simp only [Except.map, Sys.mapB, upd_mapLife, WrOut.out_mapB]; rfl
  | readv k buf niov env =>
    simp only [Op.mapBytes, Sys.step, hh, hr]
    cases hk : s.hs k with
    | never => rfl
    | gone _ => rfl
    | live h =>
      have e : (h.mapB f).flags = h.flags := rfl
      simp only [Life.mapB, e, List.length_map, (shr_readv_comm f h buf buf.length niov env s.ring).exec]
      split
      · rfl
      · cases exec (shr_readv h buf buf.length niov env) s.ring with
        | error x => rfl
        | ok x => obtain ⟨⟨h', o⟩, r⟩ := x; simp only [Except.map, Sys.mapB, upd_mapLife, RdOut.out_mapB]; rfl
  | flush k wait env =>
    simp only [Op.mapBytes, Sys.step, hh, hr]
    cases hk : s.hs k with
    | never => rfl
    | gone _ => rfl
    | live h =>
      have e : (h.mapB f).flags = h.flags := rfl
      simp only [Life.mapB, e, (shr_flush_comm f h wait env s.ring).exec]
      split
      · rfl
      · cases exec (shr_flush h wait env) s.ring with
        | error x => rfl
        | ok x => obtain ⟨⟨h', o⟩, r⟩ := x; simp only [Except.map, Sys.mapB, upd_mapLife, WrOut.out_mapB]; rfl
  | close k env =>
    simp only [Op.mapBytes, Sys.step, hh, hr]
    cases hk : s.hs k with
    | never => rfl
    | gone _ => rfl
    | live h =>
      simp only [Life.mapB, (shr_close_comm f h env s.ring).exec]
      cases exec (shr_close h env) s.ring with
      | error x => rfl
      | ok x =>
        obtain ⟨o, r⟩ := x
        cases o with
        | wait => rfl
        | ret a b => simp only [Except.map, Sys.mapB, upd_mapLife, id]; rfl
  | stat k reset env =>
    simp only [Op.mapBytes, Sys.step, hh, hr]
    cases hk : s.hs k with
    | never => rfl
    | gone _ => rfl
    | live h =>
      simp only [Life.mapB, (shr_stat_comm f h reset env s.ring).exec]
      cases exec (shr_stat h reset env) s.ring with
      | error x => rfl
      | ok x => obtain ⟨o, r⟩ := x; rfl
  | farmStat k reset =>
    simp only [Op.mapBytes, Sys.step, hh, hr]
    cases hk : s.hs k with
    | never => rfl
    | gone _ => rfl
    | live h =>
      have e : (h.mapB f).flags = h.flags := rfl
      simp only [Life.mapB, e, (shr_farm_stat_comm f h reset s.ring).exec]
      split
      · rfl
      · cases exec (shr_farm_stat h reset) s.ring with
        | error x => rfl
        | ok x => obtain ⟨⟨h', o⟩, r⟩ := x; simp only [Except.map, Sys.mapB, upd_mapLife]; rfl
  | appdata k get set sz env =>
    simp only [Op.mapBytes, Sys.step, hh, hr]
    cases hk : s.hs k with
    | never => rfl
    | gone _ => rfl
    | live h =>
      simp only [Life.mapB, (shr_appdata_comm f get set sz env s.ring).exec]
      cases exec (shr_appdata get set sz env) s.ring with
      | error x => rfl
      | ok x => obtain ⟨o, r⟩ := x; rfl

/-- The moments of a call, in any state. -/
theorem points_mapAny (s : Sys) (op : Op) : (s.mapB f).points (op.mapBytes f) = (s.points op).map (Ring.mapB f) := by
  have hh : ∀ k, (s.mapB f).hs k = (s.hs k).mapB f := fun _ => rfl
  have hr : (s.mapB f).ring = s.ring.mapB f := rfl
  have ef : ∀ h : Handle, (h.mapB f).flags = h.flags := fun _ => rfl
  cases op with
  | «open» k flags env => rfl
  | writev k iov envF env =>
    simp only [Op.mapBytes, Sys.points, hh, hr]
    cases hk : s.hs k with
    | never => rfl
    | gone _ => rfl
    | live h => simp only [Life.mapB, ef, (shr_writev_comm f h iov envF env s.ring).pts]; split <;> rfl
  | readv k buf niov env =>
    simp only [Op.mapBytes, Sys.points, hh, hr]
    cases hk : s.hs k with
    | never => rfl
    | gone _ => rfl
    | live h => simp only [Life.mapB, ef, List.length_map, (shr_readv_comm f h buf buf.length niov env s.ring).pts]; split <;> rfl
  | flush k wait env =>
    simp only [Op.mapBytes, Sys.points, hh, hr]
    cases hk : s.hs k with
    | never => rfl
    | gone _ => rfl
    | live h => simp only [Life.mapB, ef, (shr_flush_comm f h wait env s.ring).pts]; split <;> rfl
  | close k env =>
    simp only [Op.mapBytes, Sys.points, hh, hr]
    cases hk : s.hs k with
    | never => rfl
    | gone _ => rfl
    | live h => simp only [Life.mapB, (shr_close_comm f h env s.ring).pts]
  | stat k reset env =>
    simp only [Op.mapBytes, Sys.points, hh, hr]
    cases hk : s.hs k with
    | never => rfl
    | gone _ => rfl
    | live h => simp only [Life.mapB, (shr_stat_comm f h reset env s.ring).pts]
  | farmStat k reset =>
    simp only [Op.mapBytes, Sys.points, hh, hr]
    cases hk : s.hs k with
    | never => rfl
    | gone _ => rfl
    | live h => simp only [Life.mapB, ef, (shr_farm_stat_comm f h reset s.ring).pts]; split <;> rfl
  | appdata k get set sz env =>
    simp only [Op.mapBytes, Sys.points, hh, hr]
    cases hk : s.hs k with
    | never => rfl
    | gone _ => rfl
    | live h => simp only [Life.mapB, (shr_appdata_comm f get set sz env s.ring).pts]

theorem live_mapAny (hf : f 0 = 0) : ∀ (evs : List Ev) (s : Sys),
    (s.mapB f).live (evs.map (Ev.mapBytes f)) = (s.live evs).map fun x => (x.1.mapB f, x.2.map (Out.mapBytes f))
  | [], s => rfl
  | .call op :: evs, s => by
    simp only [List.map_cons, Ev.mapBytes, Sys.live, step_mapAny f hf]
    cases s.step op with
    | error x => rfl
    | ok x =>
      obtain ⟨s', o⟩ := x
      simp only [Except.map, live_mapAny hf evs s']
      cases s'.live evs <;> rfl
  | .death op j :: evs, s => by
    simp only [List.map_cons, Ev.mapBytes, Sys.live, points_mapAny, List.getElem?_map]
    cases (s.points op)[j]? with
    | none => rfl
    | some p => simp only [Option.map_some, ← killed_mapB, live_mapAny hf evs]

/-- **C108, opaque.** Replace all bytes that callers hand over, each byte by the byte that `f` gives for it (0 by 0, as fresh files and fresh memory
are full of zeros): calls and deaths then leave everything as before with the bytes replaced, and the callers observe the same with the bytes replaced. -/
theorem C108_data (hf : f 0 = 0) (a : InitArgs) (evs : List Ev) {s : Sys} {outs : List Out} (h : (Sys.init a).live evs = some (s, outs)) :
    ∃ s', (Sys.init (a.mapBytes f)).live (evs.map (Ev.mapBytes f)) = some (s', outs.map (Out.mapBytes f)) ∧
      s'.ring = { s.ring with d := s.ring.d.map f, app := s.ring.app.map f } :=
  ⟨s.mapB f, by rw [init_mapAny f hf, live_mapAny f hf, h]; rfl, rfl⟩

/-- **C108, opaque (failures).** After calls and deaths, the next call with replaced bytes completes, fails an assertion, or goes wrong exactly if
the one with the original bytes does. -/
theorem C108_data_fault (hf : f 0 = 0) (a : InitArgs) (evs : List Ev) {s : Sys} {outs : List Out} (h : (Sys.init a).live evs = some (s, outs)) :
    ∃ s', (Sys.init (a.mapBytes f)).live (evs.map (Ev.mapBytes f)) = some (s', outs.map (Out.mapBytes f)) ∧
      ∀ op e, s'.step (op.mapBytes f) = .error e ↔ s.step op = .error e := by
  refine ⟨s.mapB f, by rw [init_mapAny f hf, live_mapAny f hf, h]; rfl, fun op e => ?_⟩
  rw [step_mapAny f hf]
  cases s.step op <;> simp [Except.map]

end

/-- **C108, shape.** Two lives of a ring that differ in the bytes only: the same calls fail, the same numbers are returned, and the same deaths are
possible at the same moments. -/
theorem C108_shape {a b : InitArgs} {evs evs' : List Ev} (hab : a.mapBytes (fun _ => 0) = b.mapBytes (fun _ => 0))
    (hev : evs.map (Ev.mapBytes (fun _ => 0)) = evs'.map (Ev.mapBytes (fun _ => 0))) {s : Sys} {outs : List Out}
    (h : (Sys.init a).live evs = some (s, outs)) :
    ∃ s' outs', (Sys.init b).live evs' = some (s', outs') ∧ outs.map (Out.mapBytes (fun _ => 0)) = outs'.map (Out.mapBytes (fun _ => 0)) := by
  obtain ⟨t, e, _⟩ := C108_data (fun _ => 0) rfl a evs h
  rw [hab, hev, init_mapAny _ rfl, live_mapAny _ rfl] at e
  cases e2 : (Sys.init b).live evs' with
  | none => rw [e2] at e; cases e
  | some x =>
    obtain ⟨s', outs'⟩ := x
    rw [e2] at e
    simp only [Option.map_some, Option.some.injEq, Prod.mk.injEq] at e
    exact ⟨s', outs', rfl, e.2.symm⟩

/-! ## No byte is invented -/

theorem map_fix {f : Byte → Byte} {l : List Byte} (h : ∀ b ∈ l, f b = b) : l.map f = l :=
  (List.map_congr_left h).trans (List.map_id' l)
theorem of_map_fix {f : Byte → Byte} {l : List Byte} (h : l.map f = l) : ∀ b ∈ l, f b = b := by
  induction l with
  | nil => simp
  | cons x l ih =>
    simp only [List.map_cons, List.cons.injEq] at h
    intro b hb
    rcases List.mem_cons.mp hb with rfl | hb
    · exact h.1
    · exact ih h.2 b hb

theorem op_fix {f : Byte → Byte} {op : Op} (h : ∀ b ∈ op.bytes, f b = b) : op.mapBytes f = op := by
  cases op with
  | writev k iov envF env =>
    have e : iov.map (List.map f) = iov :=
      (List.map_congr_left fun m hm => map_fix fun b hb => h b (List.mem_flatten.mpr ⟨m, hm, hb⟩)).trans (List.map_id' iov)
    simp only [Op.mapBytes, e]
  | readv k buf niov env =>
    have e : buf.map f = buf := map_fix h
    simp only [Op.mapBytes, e]
  | appdata k get set sz env =>
    cases set with
    | none => rfl
    | some l =>
      have e : l.map f = l := map_fix h
      simp only [Op.mapBytes, Option.map_some, e]
  | _ => rfl

theorem ev_fix {f : Byte → Byte} {evs : List Ev} (h : ∀ e ∈ evs, ∀ b ∈ e.op.bytes, f b = b) : evs.map (Ev.mapBytes f) = evs := by
  refine (List.map_congr_left fun e he => ?_).trans (List.map_id' evs)
  cases e with
  | call op => exact congrArg Ev.call (op_fix (h _ he))
  | death op j => exact congrArg (Ev.death · j) (op_fix (h _ he))

theorem live_fix {f : Byte → Byte} (hf : f 0 = 0) {a : InitArgs} (ha : ∀ b ∈ a.app, f b = b) {evs : List Ev}
    (he : ∀ e ∈ evs, ∀ b ∈ e.op.bytes, f b = b) {s : Sys} {outs : List Out} (h : (Sys.init a).live evs = some (s, outs)) : s.mapB f = s := by
  have e1 := live_mapAny f hf evs (Sys.init a)
  have e2 : a.mapBytes f = a := by unfold InitArgs.mapBytes; rw [map_fix ha]
  rw [ev_fix he, ← init_mapAny f hf, e2, h] at e1
  simp only [Option.map_some, Option.some.injEq, Prod.mk.injEq] at e1
  exact e1.1.symm

/-- The bytes that were handed to the ring: when it was made, or in a call that happened, completed or not. -/
def HandedOver (a : InitArgs) (evs : List Ev) (b : Byte) : Prop := b ∈ a.app ∨ ∃ e ∈ evs, b ∈ e.op.bytes

/-- **C108, no invention.** Whatever calls and deaths happened: every byte that a call hands out is zero, or was handed over by somebody before, or was
already in the caller's own buffer. -/
theorem C108_no_invention {a : InitArgs} {evs : List Ev} {s s' : Sys} {outs : List Out} (h : (Sys.init a).live evs = some (s, outs))
    {op : Op} {o : Out} (hs : s.step op = .ok (s', o)) : ∀ b ∈ o.bytes, b = 0 ∨ HandedOver a evs b ∨ b ∈ op.bytes := by
  classical
  let f : Byte → Byte := fun b => if b = 0 ∨ HandedOver a evs b ∨ b ∈ op.bytes then b else 0
  have hf0 : f 0 = 0 := if_pos (.inl rfl)
  have hfg : ∀ b, HandedOver a evs b → f b = b := fun b hb => if_pos (.inr (.inl hb))
  have hfo : ∀ b ∈ op.bytes, f b = b := fun b hb => if_pos (.inr (.inr hb))
  have e1 := live_fix hf0 (fun b hb => hfg b (.inl hb)) (fun e he b hb => hfg b (.inr ⟨e, he, hb⟩)) h
  have e2 := step_mapAny f hf0 s op
  rw [e1, op_fix hfo, hs] at e2
  simp only [Except.map, Except.ok.injEq, Prod.mk.injEq] at e2
  have key : ∀ b ∈ o.bytes, f b = b := by
    have e3 : o.mapBytes f = o := e2.2.symm
    cases o with
    | read rc iov buf =>
      simp only [Out.mapBytes, Out.read.injEq, true_and] at e3
      exact of_map_fix e3
    | app x =>
      simp only [Out.mapBytes, Out.app.injEq] at e3
      have e4 := congrArg AppOut.got e3
      simp only at e4
      cases hx : x.got with
      | none => simp [Out.bytes, hx]
      | some l =>
        rw [hx] at e4
        simp only [Option.map_some, Option.some.injEq] at e4
        simpa [Out.bytes, hx] using of_map_fix e4
    | _ => simp [Out.bytes]
  intro b hb
  by_cases hp : b = 0 ∨ HandedOver a evs b ∨ b ∈ op.bytes
  · exact hp
  · have := key b hb
    rw [show f b = 0 from if_neg hp] at this
    exact .inl this.symm

/-- **C108, no invention in the file.** At every moment, also inside a call, every byte of the data and of the application data in the file is zero
or was handed over by somebody. -/
theorem C108_file_bytes {a : InitArgs} {evs : List Ev} {s : Sys} {outs : List Out} (h : (Sys.init a).live evs = some (s, outs))
    {op : Op} {p : Ring} (hp : p ∈ s.points op) : ∀ b, b ∈ p.d ∨ b ∈ p.app → b = 0 ∨ HandedOver a evs b ∨ b ∈ op.bytes := by
  classical
  let f : Byte → Byte := fun b => if b = 0 ∨ HandedOver a evs b ∨ b ∈ op.bytes then b else 0
  have hf0 : f 0 = 0 := if_pos (.inl rfl)
  have hfg : ∀ b, HandedOver a evs b → f b = b := fun b hb => if_pos (.inr (.inl hb))
  have hfo : ∀ b ∈ op.bytes, f b = b := fun b hb => if_pos (.inr (.inr hb))
  have e1 := live_fix hf0 (fun b hb => hfg b (.inl hb)) (fun e he b hb => hfg b (.inr ⟨e, he, hb⟩)) h
  have e2 := points_mapAny f s op
  rw [e1, op_fix hfo] at e2
  obtain ⟨j, hj, rfl⟩ := List.mem_iff_getElem.mp hp
  have e3 : (s.points op)[j] = ((s.points op)[j]).mapB f := by
    have := congrArg (·[j]?) e2
    simp only [List.getElem?_map, List.getElem?_eq_getElem hj, Option.map_some, Option.some.injEq] at this
    exact this
  intro b hb
  have key : f b = b := by
    rcases hb with hb | hb
    · exact of_map_fix (congrArg Ring.d e3).symm b hb
    · exact of_map_fix (congrArg Ring.app e3).symm b hb
  by_cases hq : b = 0 ∨ HandedOver a evs b ∨ b ∈ op.bytes
  · exact hq
  · rw [show f b = 0 from if_neg hq] at key
    exact .inl key.symm

/-! ## The ring on which every writer dies -/

def maEvs : List Ev := (crOps.map .call) ++ [.death crOp 10, .call wrNext]

/-- The reader gets bytes 23 to 26 as a message, which nobody wrote as one; but every single byte was in the file. -/
example : ((Sys.init wrA).live (maEvs ++ [Ev.call (rd 1 6 3)])).map (fun x => x.2.getLast?) = some (some (.read 4 [(0, 4)] [23, 24, 25, 26, 0, 0])) := by
  decide +kernel
/-- The hypotheses of the theorems are met, and the messages with other bytes are misread in the same way. -/
example : ((Sys.init wrA).live (maEvs ++ [Ev.call (rd 1 6 3)])).isSome = true := by decide +kernel
example : ((Sys.init (wrA.mapBytes (3 * ·))).live ((maEvs ++ [Ev.call (rd 1 6 3)]).map (Ev.mapBytes (3 * ·)))).map (fun x => x.2.getLast?) =
    some (some (.read 4 [(0, 4)] [69, 72, 75, 78, 0, 0])) := by decide +kernel
/-- The byte 23 is one that was handed over, 99 is not. -/
example : HandedOver wrA maEvs 23 ∧ ¬ HandedOver wrA maEvs 99 := by
  unfold HandedOver
  decide +kernel
end Shr
