import Verif.Props.Read
import Verif.Props.Total
/-! # C86: `shr_write` and `shr_read`, the calls for one message -/
namespace Shr

section
variable {a : InitArgs} {ops : List Op} {k : Nat} {s : Sys} {outs : List Out} {h : Handle} {env envF : Env}

theorem step_write_one {m : Msg} (hk : s.hs k = .live h) (hw : h.flags.has SHR_WRONLY = true) {s' : Sys} {o : Out}
    (e : s.step (.writev k [m] envF env) = .ok (s', o)) :
    ∃ h' out, exec (shr_write h m envF env) s.ring = .ok ((h', out), s'.ring) ∧ out.out = o ∧ s'.hs k = .live h' := by
  unfold Sys.step at e
  simp only [hk, hw, Bool.true_eq_false, if_false] at e
  have hx : shr_write h m envF env = shr_writev h [m] envF env := rfl
  rw [hx]
  cases e1 : exec (shr_writev h [m] envF env) s.ring with
  | error f => rw [e1] at e; cases e
  | ok x =>
    obtain ⟨⟨h', out⟩, r⟩ := x
    rw [e1] at e
    cases e
    exact ⟨h', out, rfl, rfl, upd_same ..⟩

theorem step_read_one {buf : List Byte} (hk : s.hs k = .live h) (hr : h.flags.has SHR_RDONLY = true) {s' : Sys} {o : Out}
    (e : s.step (.readv k buf 1 env) = .ok (s', o)) :
    ∃ h' out, exec (shr_read h buf buf.length env) s.ring = .ok ((h', out), s'.ring) ∧ out.out = o ∧ s'.hs k = .live h' := by
  unfold Sys.step at e
  simp only [hk, hr, Bool.true_eq_false, if_false] at e
  have hx : shr_read h buf buf.length env = shr_readv h buf buf.length 1 env := rfl
  rw [hx]
  cases e1 : exec (shr_readv h buf buf.length 1 env) s.ring with
  | error f => rw [e1] at e; cases e
  | ok x =>
    obtain ⟨⟨h', out⟩, r⟩ := x
    rw [e1] at e
    cases e
    exact ⟨h', out, rfl, rfl, upd_same ..⟩

/-- **C86.** `shr_read` with a nonempty buffer, after any history: if there is nothing to read it returns 0 on a non-blocking handle and waits on
a blocking one (or returns what interrupted the wait).  If there is, it takes exactly the next message, provided that it fits into the buffer:
returns its length, has it at the beginning of the buffer, and the rest of the buffer is untouched.  If it does not fit, it returns -2 and nothing changes. -/
theorem C86_read {buf : List Byte} (v : Valid a (ops ++ [.readv k buf 1 env])) (hrun : (Sys.init a).run ops = .ok (s, outs))
    (hk : s.hs k = .live h) (hr : h.flags.has SHR_RDONLY = true) (hb : buf ≠ []) (hlk : env.lockOk = true) :
    ∃ h' out r', exec (shr_read h buf buf.length env) s.ring = .ok ((h', out), r') ∧
      (s.ring.readableBy h = [] → r'.readableBy h' = [] ∧
        out.out = if h.flags.has SHR_NONBLOCK then .read 0 [] buf else match env.waitRc with | some e => .read e.rc [] buf | none => .blocked) ∧
      (∀ m rest, s.ring.readableBy h = m :: rest →
        (m.length ≤ buf.length → out.out = .read m.length [(0, m.length)] (m ++ buf.drop m.length) ∧ r'.readableBy h' = rest) ∧
        (buf.length < m.length → out.out = .read (-2) [] buf ∧ r' = s.ring ∧ r'.readableBy h' = m :: rest)) := by
  obtain ⟨s', o, hstep⟩ : ∃ s' o, s.step (.readv k buf 1 env) = .ok (s', o) := by
    have h1 := v.left.runs
    rw [hrun] at h1; cases h1
    exact ⟨_, _, v.steps⟩
  obtain ⟨h', out, e1, e2, e3⟩ := step_read_one hk hr hstep
  obtain ⟨sp, sh, h2, x, hsk, hh, hk', hfl, hrb, c1, c2⟩ := read_cases v hrun hstep hk hr hb (by omega) hlk
  rw [e3] at hk'; cases hk'
  refine ⟨h', out, s'.ring, e1, fun hn => ?_, fun m rest hm => ⟨fun hl => ?_, fun hl => ?_⟩⟩
  · rw [e2]; exact c1 (hrb ▸ hn)
  · obtain ⟨d1, d2⟩ := c2 (by rw [← hrb, hm]; simp)
    rw [← hrb, hm] at d1 d2
    have ht : takeCount (m :: rest) buf.length 1 = 1 := by simp [takeCount, hl]; cases rest <;> rfl
    rw [ht] at d1 d2
    refine ⟨?_, d1⟩
    rw [e2, d2]
    simp [layout, put, bytesOf]
  · obtain ⟨g1, g2, h3, g3, g4⟩ := C10_message_left_in_place v hrun hstep hk hr hb (by omega) hlk hm hl
    rw [e3] at g3; cases g3
    exact ⟨by rw [e2, g1], g2, g4⟩

/-- **C86.** `shr_write` on an unbuffered handle, after any history.  An empty message, one longer than the ring, or a lock that cannot be taken:
-1 and nothing changes.  No room (and the ring does not drop): 0 on a non-blocking handle, a blocking one waits, and nothing changes.  Otherwise
exactly this message is appended (and the fewest oldest ones dropped that make room for it), and its length is returned, or -1
if the wake-up or the msync failed. -/
theorem C86_write {m : Msg} (v : Valid a (ops ++ [.writev k [m] envF env])) (hrun : (Sys.init a).run ops = .ok (s, outs))
    (hk : s.hs k = .live h) (hw : h.flags.has SHR_WRONLY = true) (hub : h.flags.has SHR_BUFFERED = false) :
    ∃ h' out r', exec (shr_write h m envF env) s.ring = .ok ((h', out), r') ∧
      (m = [] ∨ a.dataSz < m.length ∨ env.lockOk = false → out.out = .wrote (-1) ∧ r' = s.ring ∧ h' = h) ∧
      (m ≠ [] → m.length ≤ a.dataSz → env.lockOk = true →
        (¬ Room a s [m] → r' = s.ring ∧ h' = h ∧
          out.out = if h.flags.has SHR_NONBLOCK then .wrote 0 else match env.waitRc with | some e => .wrote e.rc | none => .blocked) ∧
        (Room a s [m] → h' = h ∧
          out.out = .wrote (if env.wakeOk = true ∧ (a.flags.has SHR_SYNC = true → env.syncOk = true) then m.length else -1) ∧
          ∃ d, r'.unreadMsgs = s.ring.unreadMsgs.drop d ++ [m] ∧ ∀ d', Fits a.dataSz a.max_msgs (s.ring.unreadMsgs.drop d') [m] ↔ d ≤ d')) := by
  have hsz : ∀ b ∈ [m], b.length ≤ SSIZE_MAX := (show WriteWF [m] from v.wf (.writev k [m] envF env) (by simp)).1
  obtain ⟨s', o, hstep⟩ : ∃ s' o, s.step (.writev k [m] envF env) = .ok (s', o) := by
    have h1 := v.left.runs
    rw [hrun] at h1; cases h1
    exact ⟨_, _, v.steps⟩
  obtain ⟨h', out, e1, e2, e3⟩ := step_write_one hk hw hstep
  refine ⟨h', out, s'.ring, e1, fun hbad => ?_, fun hne hl hlk => ?_⟩
  · have := C69_refused (envF := envF) v.left hrun hk hw hub hsz (env := env) (by
      rcases hbad with rfl | e | e
      · exact .inr (.inl rfl)
      · exact .inr (.inr (.inl (by simpa [bytesOf] using e)))
      · exact .inr (.inr (.inr (.inr e))))
    rw [this] at hstep; cases hstep
    rw [hk] at e3; cases e3
    exact ⟨e2, rfl, rfl⟩
  · have hc : Checked a.dataSz a.max_msgs [m] := ⟨by simp, by simpa using hne, by simpa [bytesOf] using hl, by have := a.mmpos v.init; simp; omega⟩
    refine ⟨fun hroom => ?_, fun hroom => ?_⟩
    · have := C69_no_room (envF := envF) v.left hrun hk hw hub hsz hc hlk hroom
      rw [this] at hstep; cases hstep
      rw [hk] at e3; cases e3
      exact ⟨rfl, rfl, e2⟩
    · obtain ⟨s2, d, f1, f2, f3, f4, _⟩ := C69_written (envF := envF) v.left hrun hk hw hub hsz (by
        intro hf
        have := v.count hf
        rw [offered_append, List.length_append] at this
        exact this) hc hlk hroom (by simpa using fun e => hne e)
      rw [f1] at hstep; cases hstep
      rw [f2, hk] at e3; cases e3
      exact ⟨rfl, by rw [e2]; simp [bytesOf], d, f3, f4⟩

end

/-- Two messages are waiting; `shr_read` takes the first one only, with room for both. -/
example : ∃ h' out r', exec (shr_read ((final demoA demoOps).handle 1) (List.replicate 8 0) 8 {}) (final demoA demoOps).ring = .ok ((h', out), r') ∧
    out.out = .read 4 [(0, 4)] [4, 5, 6, 7, 0, 0, 0, 0] ∧ r'.readableBy h' = [[8, 9, 10, 11]] := by
  have v : Valid demoA (demoOps ++ [rd 1 8 1]) := valid_of (by decide +kernel)
  obtain ⟨h', out, r', e, _, h2⟩ := C86_read v v.left.runs (live_handle (by decide +kernel)) (by decide +kernel) (by decide) rfl
  have h3 := (h2 [4, 5, 6, 7] [[8, 9, 10, 11]] (by decide +kernel)).1 (by decide)
  exact ⟨h', out, r', e, h3.1, h3.2⟩

/-- On a DROP ring: one more message, of 3 bytes; the oldest is dropped. -/
example : ∃ h' out r', exec (shr_write ((final demoD demoOps).handle 0) [7, 8, 9] {} {}) (final demoD demoOps).ring = .ok ((h', out), r') ∧
    out.out = .wrote 3 ∧ ∃ d, r'.unreadMsgs = (final demoD demoOps).ring.unreadMsgs.drop d ++ [[7, 8, 9]] := by
  have v : Valid demoD (demoOps ++ [wr 0 [[7, 8, 9]]]) := valid_of (by decide +kernel)
  obtain ⟨h', out, r', e, _, h2⟩ := C86_write v v.left.runs (live_handle (by decide +kernel)) (by decide +kernel) (by decide +kernel)
  obtain ⟨_, h3, d, h4, _⟩ := (h2 (by decide) (by decide) rfl).2 (by decide +kernel)
  exact ⟨h', out, r', e, h3.trans (by decide +kernel), d, h4⟩

end Shr
