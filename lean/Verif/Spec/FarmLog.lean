import Verif.Spec.Machine
import Verif.Model.Crash
import Verif.Spec.Observe
/-!
# A farm as an append-only log, with users who die

What the users of a farm ring may see when some of them are killed inside calls.  The state is that of the queue
machine (`Spec/Machine.lean`), of which only the following parts are used here: `log`, all messages ever put into
the ring; `base`, how many of the eldest are gone; for each handle `pos`, how many messages it is past, `missed`, how
many it has skipped, and `pend`, what a buffered writer holds back.  Opening, reading and `shr_farm_stat` work exactly as in the queue
machine; which of the eldest messages are given up for a write is left open, except that the message put last stays.
-/
namespace Shr

/-- What a call of `shr_writev` with the vector `iov` that returns `o` has done: `X` was put into the ring, `pend` is what the handle holds now,
`base` the number of messages gone. -/
structure Wrote (sp : Spec) (sh : SHandle) (iov : List Msg) (o : Out) (X pend : List Msg) (base : Nat) : Prop where
  mono : sp.base ≤ base
  idle : X = [] → base = sp.base
  newest : X ≠ [] → base < (sp.log ++ X).length
  bound : base ≤ sp.log.length + sh.pend.length
  done : ∀ rc, o = .wrote rc → 0 < rc → rc = (bytesOf iov : Int) ∧ X ++ pend = sh.pend ++ iov
  undone : (∀ rc, o = .wrote rc → rc ≤ 0) → (X = [] ∧ pend = sh.pend) ∨ (X = sh.pend ∧ (pend = sh.pend ∨ pend = [])) ∨ (X = sh.pend ++ iov ∧ pend = [])

/-- What a flush (or the flush inside a close) that returns `o` has done. -/
structure Flushed (sp : Spec) (sh : SHandle) (o : Out) (X pend : List Msg) (base : Nat) : Prop where
  mono : sp.base ≤ base
  idle : X = [] → base = sp.base
  bound : base ≤ sp.log.length
  done : ∀ rc, o = .wrote rc → 0 < rc → rc = (bytesOf sh.pend : Int) ∧ X = sh.pend ∧ pend = []
  undone : (∀ rc, o = .wrote rc → rc ≤ 0) → (X = [] ∨ X = sh.pend) ∧ pend = sh.pend

/-- Sizes and mode are the same; `X` was put into the ring. -/
structure Grows (sp sp' : Spec) (X : List Msg) : Prop where
  cap : sp'.cap = sp.cap
  maxm : sp'.maxm = sp.maxm
  gf : sp'.gflags = sp.gflags
  log : sp'.log = sp.log ++ X

/-- A call that completes. -/
def FarmCall (sp : Spec) (op : Op) (o : Out) (sp' : Spec) : Prop :=
  let same := Grows sp sp' [] ∧ sp'.base = sp.base ∧ sp'.hs = sp.hs
  match op with
  | .writev k iov _ _ =>
    match sp.hs k with
    | .live sh =>
      if sh.flags.has SHR_WRONLY = false then o = .misuse ∧ same
      else ∃ X pend, Grows sp sp' X ∧ Wrote sp sh iov o X pend sp'.base ∧ sp'.hs = upd sp.hs k (.live { sh with pend := pend })
    | _ => o = .misuse ∧ same
  | .flush k _ _ =>
    match sp.hs k with
    | .live sh =>
      if sh.flags.has SHR_WRONLY = false then o = .misuse ∧ same
      else ∃ X pend c, Grows sp sp' X ∧ Flushed sp sh o X pend sp'.base ∧ sp'.hs = upd sp.hs k (.live { sh with pend := pend, canWait := c })
    | _ => o = .misuse ∧ same
  | .close k _ =>
    match sp.hs k with
    | .live sh => ∃ X pend w, Grows sp sp' X ∧ Flushed sp sh w X pend sp'.base ∧
        (o = .closed ∧ sp'.hs = upd sp.hs k (.gone pend) ∨ o = .blocked ∧ w = .blocked ∧ sp'.hs = sp.hs)
    | _ => o = .misuse ∧ same
  | .stat k _ _ => same ∧ (o = .misuse ↔ ∀ sh, sp.hs k ≠ .live sh)
  | .appdata k _ _ _ _ => same ∧ (o = .misuse ↔ ∀ sh, sp.hs k ≠ .live sh)
  | op => Grows sp sp' [] ∧ sp'.base = sp.base ∧ o = (sp.step op).2 ∧ sp'.hs = (sp.step op).1.hs

/-- What the dead caller of `op` can have put into the ring. -/
def leftBy (sp : Spec) (op : Op) : List (List Msg) :=
  match op, sp.hs op.handle with
  | .writev _ iov _ _, .live sh => [[], sh.pend, sh.pend ++ iov]
  | .flush _ _ _, .live sh => [[], sh.pend]
  | .close _ _, .live sh => [[], sh.pend]
  | _, _ => [[]]

/-- The caller of `op` is killed inside the call. -/
def FarmDeath (sp : Spec) (op : Op) (sp' : Spec) : Prop :=
  ∃ X ∈ leftBy sp op, Grows sp sp' X ∧ sp.base ≤ sp'.base ∧ sp'.base ≤ sp'.log.length ∧ ∃ l, sp'.hs = upd sp.hs op.handle (.gone l)

/-- What happens on a ring. -/
inductive FarmEv where
  | call (op : Op) (o : Out)
  | death (op : Op)

/-- The histories of the specification. -/
inductive FarmRun (a : InitArgs) : List FarmEv → Spec → Prop where
  | new : FarmRun a [] (Spec.init a)
  | call {evs : List FarmEv} {sp sp' : Spec} {op : Op} {o : Out} : FarmRun a evs sp → FarmCall sp op o sp' → FarmRun a (evs ++ [.call op o]) sp'
  | death {evs : List FarmEv} {sp sp' : Spec} {op : Op} : FarmRun a evs sp → FarmDeath sp op sp' → FarmRun a (evs ++ [.death op]) sp'

/-! ## What a reader has been given -/

/-- What the reads on handle `k` have returned, in order, those left out that returned no message. -/
def readsOf (k : Nat) (evs : List FarmEv) : List (List Msg) :=
  evs.filterMap fun
    | .call (.readv j _ _ _) o => if j = k ∧ o.msgs ≠ [] then some o.msgs else none
    | _ => none

/-- `rs` are pieces of the list `L`, one after another, from position `p` on, ending before position `q`; `miss` messages between `p` and `q` are in none of
them. -/
def Pieces (L : List Msg) : Nat → List (List Msg) → Nat → Nat → Prop
  | p, [], q, miss => p + miss = q
  | p, r :: rs, q, miss => ∃ g ≤ miss, r = (L.drop (p + g)).take r.length ∧ Pieces L (p + g + r.length) rs q (miss - g)

/-- No call has set the count of missed messages of handle `k` to zero. -/
def NoReset (k : Nat) (evs : List FarmEv) : Prop := ∀ o, FarmEv.call (.farmStat k true) o ∉ evs

/-- `m` was in a vector passed to `shr_writev`. -/
def Offered (evs : List FarmEv) (m : Msg) : Prop :=
  ∃ k iov e1 e2, m ∈ iov ∧ ((∃ o, FarmEv.call (.writev k iov e1 e2) o ∈ evs) ∨ FarmEv.death (.writev k iov e1 e2) ∈ evs)

end Shr
