import Verif.Proof.Demo
/-!
# Conformance of the model with the repository's tests

GENERATED by tools/gen_conform.py.  Each example replays one test program of /repo/tests on the model:
the sequence of API calls its processes make, in the order that the test's event table imposes, and what the program
printed, from its `.ans` file (or requires with `assert`).  These are tests of the model, not proofs of
properties; nothing depends on them.  Not replayed: tests whose rings are too large for evaluation in the kernel (3,
23, 24, 30-35, 37-41, 43, 44, 52-59, 63-65), and those about file creation or select only (1, 2, 22, 60, 61).
-/
namespace Shr

/-- What a test program reports about one call. -/
inductive Expect where
  | any
  | flushed                            -- a waiting flush, whose result is not printed: it may be waiting still
  | blocked                            -- the call waits (the program prints nothing more for now)
  | opened
  | closed
  | wrote (n : Int)                    -- result of a write or flush
  | more (n : Int)                     -- result of a write or flush is greater than n
  | count (n : Int)                    -- result of a read
  | read (data : List Byte)            -- a message, printed with its length
  | text (n : Nat) (data : List Byte)  -- a message of n bytes, printed as a C string
  | stat (v : List Nat)                -- bw br mw mr md bd bn bu mu
  | cache (v : List Nat)               -- bn bu mu cn cb cm
  | cacheOnly (v : List Nat)           -- cn cb cm
  | drops (n : Nat)
  | app (v : List Byte)                -- app data obtained
  | appNone
  | appText (v : List Byte)            -- app data obtained, printed as a C string

def Expect.ok : Expect → Out → Bool
  | .any, .misuse => false
  | .any, .blocked => false
  | .any, _ => true
  | .blocked, .blocked => true
  | .flushed, .blocked => true
  | .flushed, .wrote rc => decide (0 ≤ rc)
  | .opened, .opened b => b
  | .closed, .closed => true
  | .wrote n, .wrote rc => rc == n
  | .more n, .wrote rc => decide (n < rc)
  | .count n, .read rc _ _ => rc == n
  | .read d, .read rc _ buf => rc == (d.length : Int) && buf.take d.length == d
  | .text n d, .read rc _ buf => rc == (n : Int) && buf.takeWhile (· != 0) == d
  | .stat v, .stat 0 (some st) => [st.bw, st.br, st.mw, st.mr, st.md, st.bd, st.bn, st.bu, st.mu] == v
  | .cache v, .stat 0 (some st) => [st.bn, st.bu, st.mu, st.cn, st.cb, st.cm] == v
  | .cacheOnly v, .stat 0 (some st) => [st.cn, st.cb, st.cm] == v
  | .drops n, .farm m => n == m
  | .app v, .app o => o.rc == 0 && o.got == some v && o.sz == v.length
  | .appNone, .app o => o.rc == 0
  | .appText v, .app o => o.rc == 0 && (o.got.map fun b => b.takeWhile (· != 0)) == some v
  | _, _ => false

def allOk : List Expect → List Out → Bool
  | [], [] => true
  | e :: es, o :: os => e.ok o && allOk es os
  | _, _ => false

/-- The calls succeed on the model with the reported results. -/
def conforms (a : InitArgs) (l : List (Op × Expect)) : Bool :=
  match (Sys.init a).run (l.map Prod.fst) with
  | .ok (_, outs) => allOk (l.map Prod.snd) outs
  | .error _ => false

