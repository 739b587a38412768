import Verif.Spec.Observe
/-!
# What a call does to the messages if its wake-up or its msync fails

`c` and `c'` are the messages in the write cache of the handle before and after the call, `new` the messages it put into the
ring, `unc` those of them that were not added to the write counters.
-/
namespace Shr

/-- A write of `iov`, whose implicit flush meets the environment `eF` and whose own commit meets `e`. -/
inductive WriteDid (iov : List Msg) (eF e : Env) (c : List Msg) : Out → List Msg → List Msg → List Msg → Prop where
  /-- accepted: some of it cached, the rest in the ring, in order -/
  | accepted (new c' : List Msg) (h : c ++ iov = new ++ c') (h1 : new = [] ∨ new = c ∨ c' = []) (h2 : 0 < bytesOf iov) :
      WriteDid iov eF e c (.wrote (bytesOf iov)) new [] c'
  /-- refused, or waiting: nothing happened -/
  | nothing (o : Out) (h : ∀ rc : Int, o = .wrote rc → rc ≤ 0) : WriteDid iov eF e c o [] [] c
  /-- refused, or waiting, after what was cached had been moved into the ring -/
  | flushed (o : Out) (h : ∀ rc : Int, o = .wrote rc → rc ≤ 0) : WriteDid iov eF e c o c [] []
  /-- what was cached is in the ring, but the wake-up or the msync after that failed: it stays cached as well -/
  | flushFailed (h : ¬ eF.good) : WriteDid iov eF e c (.wrote (-1)) c (if eF.wakeOk then [] else c) c
  /-- everything is in the ring, but the wake-up or the msync after that failed -/
  | writeFailed (h : ¬ e.good) : WriteDid iov eF e c (.wrote (-1)) (c ++ iov) (if e.wakeOk then [] else iov) []

/-- A flush. -/
inductive FlushDid (e : Env) (c : List Msg) : Out → List Msg → List Msg → List Msg → Prop where
  | done (h : c ≠ []) : FlushDid e c (.wrote (bytesOf c)) c [] []
  | nothing (o : Out) (h : ∀ rc : Int, o = .wrote rc → rc ≤ 0) : FlushDid e c o [] [] c
  | failed (h : ¬ e.good) : FlushDid e c (.wrote (-1)) c (if e.wakeOk then [] else c) c

/-- A close. -/
inductive CloseDid (e : Env) (c : List Msg) : Out → List Msg → List Msg → List Msg → Prop where
  /-- what was cached is in the ring -/
  | flushed : CloseDid e c .closed c (if e.wakeOk then [] else c) []
  /-- what was cached is gone -/
  | dropped : CloseDid e c .closed [] [] []
  | nothing (o : Out) (h : o ≠ .closed) : CloseDid e c o [] [] c

/-- Any call. -/
def CallDid (op : Op) (o : Out) (c new unc c' : List Msg) : Prop :=
  match op with
  | .writev _ iov eF e => WriteDid iov eF e c o new unc c'
  | .flush _ _ e => FlushDid e c o new unc c'
  | .close _ e => CloseDid e c o new unc c'
  | _ => new = [] ∧ unc = [] ∧ c' = c

/-- The history `ops` leads from `s` to `t` with the results `outs`, and does to the messages what its calls do one by one: `N` are the
messages put into the ring, each with the handle it came from, `U` those of them that were not counted as written. -/
inductive Story (s : Sys) : List Op → List Out → Sys → List (Nat × Msg) → List Msg → Prop where
  | start : Story s [] [] s [] []
  | call {ops : List Op} {outs : List Out} {t t' : Sys} {N : List (Nat × Msg)} {U : List Msg} {op : Op} {o : Out} {new unc : List Msg}
      (before : Story s ops outs t N U) (step : t.step op = .ok (t', o))
      (did : CallDid op o (t.cached op.handle) new unc (t'.cached op.handle))
      (others : ∀ j, j ≠ op.handle → t'.cached j = t.cached j) :
      Story s (ops ++ [op]) (outs ++ [o]) t' (N ++ new.map fun m => (op.handle, m)) (U ++ unc)

/-- The messages handle `k` was given to write, accepted or not. -/
def offeredBy (k : Nat) : List Op → List Msg
  | .writev j iov _ _ :: ops => (if j = k then iov else []) ++ offeredBy k ops
  | _ :: ops => offeredBy k ops
  | [] => []

end Shr
