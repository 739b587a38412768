import Verif.Proof.Demo
/-!
# Conformance of the model with the repository's tests

GENERATED by tools/gen_conform.py.  Each example replays one test program of /repo/tests on the model:
the sequence of API calls its processes make, in the order that the test's event table imposes, and what the program
printed, from its `.ans` file (or requires with `assert`).  These are tests of the model, not proofs of
properties; nothing depends on them.  Not replayed: tests whose rings are too large for evaluation in the kernel (3,
23, 24, 30-35, 37-41, 43, 44, 52-59, 63-65), and those about file creation or select only (1, 2, 22, 60, 61).
-/
namespace Shr

/-- What a test program reports about one call. -/
inductive Expect where
  | any
  | flushed                            -- a waiting flush, whose result is not printed: it may be waiting still
  | blocked                            -- the call waits (the program prints nothing more for now)
  | opened
  | closed
  | wrote (n : Int)                    -- result of a write or flush
  | more (n : Int)                     -- result of a write or flush is greater than n
  | count (n : Int)                    -- result of a read
  | read (data : List Byte)            -- a message, printed with its length
  | text (n : Nat) (data : List Byte)  -- a message of n bytes, printed as a C string
  | stat (v : List Nat)                -- bw br mw mr md bd bn bu mu
  | cache (v : List Nat)               -- bn bu mu cn cb cm
  | cacheOnly (v : List Nat)           -- cn cb cm
  | drops (n : Nat)
  | app (v : List Byte)                -- app data obtained
  | appNone
  | appText (v : List Byte)            -- app data obtained, printed as a C string

def Expect.ok : Expect → Out → Bool
  | .any, .misuse => false
  | .any, .blocked => false
  | .any, _ => true
  | .blocked, .blocked => true
  | .flushed, .blocked => true
  | .flushed, .wrote rc => decide (0 ≤ rc)
  | .opened, .opened b => b
  | .closed, .closed => true
  | .wrote n, .wrote rc => rc == n
  | .more n, .wrote rc => decide (n < rc)
  | .count n, .read rc _ _ => rc == n
  | .read d, .read rc _ buf => rc == (d.length : Int) && buf.take d.length == d
  | .text n d, .read rc _ buf => rc == (n : Int) && buf.takeWhile (· != 0) == d
  | .stat v, .stat 0 (some st) => [st.bw, st.br, st.mw, st.mr, st.md, st.bd, st.bn, st.bu, st.mu] == v
  | .cache v, .stat 0 (some st) => [st.bn, st.bu, st.mu, st.cn, st.cb, st.cm] == v
  | .cacheOnly v, .stat 0 (some st) => [st.cn, st.cb, st.cm] == v
  | .drops n, .farm m => n == m
  | .app v, .app o => o.rc == 0 && o.got == some v && o.sz == v.length
  | .appNone, .app o => o.rc == 0
  | .appText v, .app o => o.rc == 0 && (o.got.map fun b => b.takeWhile (· != 0)) == some v
  | _, _ => false

def allOk : List Expect → List Out → Bool
  | [], [] => true
  | e :: es, o :: os => e.ok o && allOk es os
  | _, _ => false

/-- The calls succeed on the model with the reported results. -/
def conforms (a : InitArgs) (l : List (Op × Expect)) : Bool :=
  match (Sys.init a).run (l.map Prod.fst) with
  | .ok (_, outs) => allOk (l.map Prod.snd) outs
  | .error _ => false


/-- tests/test4.c, tests/test4.ans. -/
example : conforms { dataSz := 14, flags := (0#32) } [
  (opn 1 (SHR_RDONLY), .opened),
  (opn 0 (SHR_WRONLY), .opened),
  (wr 0 [[97, 98, 99]], .more (-1)),
  (rd 1 10 1, .read [97, 98, 99]),
  (.close 1 {}, .closed),
  (.close 0 {}, .closed)] = true := by decide +kernel

/-- tests/test5.c, tests/test5.ans. -/
example : conforms { dataSz := 14, flags := (0#32) } [
  (opn 1 (SHR_RDONLY ||| SHR_NONBLOCK), .opened),
  (opn 0 (SHR_WRONLY), .opened),
  (wr 0 [[97, 98, 99]], .more (-1)),
  (rd 1 10 1, .read [97, 98, 99]),
  (rd 1 10 1, .count 0),
  (.close 1 {}, .closed),
  (.close 0 {}, .closed)] = true := by decide +kernel

/-- tests/test6.c, tests/test6.ans. -/
example : conforms { dataSz := 14, flags := (0#32) } [
  (opn 1 (SHR_RDONLY), .opened),
  (opn 0 (SHR_WRONLY), .opened),
  (wr 0 [[97, 98, 99]], .more (-1)),
  (rd 1 10 1, .read [97, 98, 99]),
  (wr 0 [[100, 101, 102]], .more (-1)),
  (rd 1 10 1, .read [100, 101, 102]),
  (.close 1 {}, .closed),
  (.close 0 {}, .closed)] = true := by decide +kernel

/-- tests/test7.c, tests/test7.ans. -/
example : conforms { dataSz := 11, flags := (0#32) } [
  (opn 1 (SHR_RDONLY), .opened),
  (opn 0 (SHR_WRONLY), .opened),
  (wr 0 [[97, 98, 99]], .more (-1)),
  (rd 1 10 1, .read [97, 98, 99]),
  (wr 0 [[100, 101, 102]], .more (-1)),
  (rd 1 10 1, .read [100, 101, 102]),
  (wr 0 [[103, 104, 105]], .more (-1)),
  (rd 1 10 1, .read [103, 104, 105]),
  (.close 1 {}, .closed),
  (.close 0 {}, .closed)] = true := by decide +kernel

/-- tests/test8.c, tests/test8.ans. -/
example : conforms { dataSz := 6, flags := (0#32) } [
  (opn 1 (SHR_RDONLY ||| SHR_NONBLOCK), .opened),
  (opn 0 (SHR_WRONLY), .opened),
  (wr 0 [[97, 98, 99]], .more (-1)),
  (wr 0 [[100, 101, 102]], .more (-1)),
  (rd 1 10 1, .read [97, 98, 99]),
  (rd 1 10 1, .read [100, 101, 102]),
  (.close 1 {}, .closed),
  (.close 0 {}, .closed)] = true := by decide +kernel

/-- tests/test9.c, tests/test9.ans. -/
example : conforms { dataSz := 8, flags := (SHR_APPDATA_1), app := [0, 0, 0, 0] } [
  (opn 1 (SHR_RDONLY), .opened),
  (.appdata 1 (.into 4) (some [1, 0, 0, 0]) 4 {}, .app [0, 0, 0, 0]),
  (.appdata 1 (.into 4) (some [2, 0, 0, 0]) 4 {}, .app [1, 0, 0, 0]),
  (.close 1 {}, .closed)] = true := by decide +kernel

/-- tests/test10.c, tests/test10.ans. -/
example : conforms { dataSz := 370, flags := (SHR_FARM) } [
  (opn 0 (SHR_WRONLY), .opened),
  (opn 1 (SHR_RDONLY), .opened),
  (opn 2 (SHR_RDONLY), .opened),
  (wr 0 [[48, 0, 0, 0, 0, 0, 0, 0, 0, 0, 0, 0, 0, 0, 0, 0, 0, 0, 0, 0, 0, 0, 0, 0, 0, 0, 0, 0, 0, 0, 0, 0, 0, 0, 0, 0, 0]], .any),
  (wr 0 [[49, 0, 0, 0, 0, 0, 0, 0, 0, 0, 0, 0, 0, 0, 0, 0, 0, 0, 0, 0, 0, 0, 0, 0, 0, 0, 0, 0, 0, 0, 0, 0, 0, 0, 0, 0, 0]], .any),
  (wr 0 [[50, 0, 0, 0, 0, 0, 0, 0, 0, 0, 0, 0, 0, 0, 0, 0, 0, 0, 0, 0, 0, 0, 0, 0, 0, 0, 0, 0, 0, 0, 0, 0, 0, 0, 0, 0, 0]], .any),
  (wr 0 [[51, 0, 0, 0, 0, 0, 0, 0, 0, 0, 0, 0, 0, 0, 0, 0, 0, 0, 0, 0, 0, 0, 0, 0, 0, 0, 0, 0, 0, 0, 0, 0, 0, 0, 0, 0, 0]], .any),
  (wr 0 [[52, 0, 0, 0, 0, 0, 0, 0, 0, 0, 0, 0, 0, 0, 0, 0, 0, 0, 0, 0, 0, 0, 0, 0, 0, 0, 0, 0, 0, 0, 0, 0, 0, 0, 0, 0, 0]], .any),
  (wr 0 [[53, 0, 0, 0, 0, 0, 0, 0, 0, 0, 0, 0, 0, 0, 0, 0, 0, 0, 0, 0, 0, 0, 0, 0, 0, 0, 0, 0, 0, 0, 0, 0, 0, 0, 0, 0, 0]], .any),
  (wr 0 [[54, 0, 0, 0, 0, 0, 0, 0, 0, 0, 0, 0, 0, 0, 0, 0, 0, 0, 0, 0, 0, 0, 0, 0, 0, 0, 0, 0, 0, 0, 0, 0, 0, 0, 0, 0, 0]], .any),
  (wr 0 [[55, 0, 0, 0, 0, 0, 0, 0, 0, 0, 0, 0, 0, 0, 0, 0, 0, 0, 0, 0, 0, 0, 0, 0, 0, 0, 0, 0, 0, 0, 0, 0, 0, 0, 0, 0, 0]], .any),
  (wr 0 [[56, 0, 0, 0, 0, 0, 0, 0, 0, 0, 0, 0, 0, 0, 0, 0, 0, 0, 0, 0, 0, 0, 0, 0, 0, 0, 0, 0, 0, 0, 0, 0, 0, 0, 0, 0, 0]], .any),
  (wr 0 [[57, 0, 0, 0, 0, 0, 0, 0, 0, 0, 0, 0, 0, 0, 0, 0, 0, 0, 0, 0, 0, 0, 0, 0, 0, 0, 0, 0, 0, 0, 0, 0, 0, 0, 0, 0, 0]], .any),
  (rd 1 37 1, .text 37 [48]),
  (rd 2 37 1, .text 37 [48]),
  (rd 2 37 1, .text 37 [49]),
  (rd 2 37 1, .text 37 [50]),
  (rd 2 37 1, .text 37 [51]),
  (rd 2 37 1, .text 37 [52]),
  (wr 0 [[49, 48, 0, 0, 0, 0, 0, 0, 0, 0, 0, 0, 0, 0, 0, 0, 0, 0, 0, 0, 0, 0, 0, 0, 0, 0, 0, 0, 0, 0, 0, 0, 0, 0, 0, 0, 0]], .any),
  (wr 0 [[49, 49, 0, 0, 0, 0, 0, 0, 0, 0, 0, 0, 0, 0, 0, 0, 0, 0, 0, 0, 0, 0, 0, 0, 0, 0, 0, 0, 0, 0, 0, 0, 0, 0, 0, 0, 0]], .any),
  (wr 0 [[49, 50, 0, 0, 0, 0, 0, 0, 0, 0, 0, 0, 0, 0, 0, 0, 0, 0, 0, 0, 0, 0, 0, 0, 0, 0, 0, 0, 0, 0, 0, 0, 0, 0, 0, 0, 0]], .any),
  (wr 0 [[49, 51, 0, 0, 0, 0, 0, 0, 0, 0, 0, 0, 0, 0, 0, 0, 0, 0, 0, 0, 0, 0, 0, 0, 0, 0, 0, 0, 0, 0, 0, 0, 0, 0, 0, 0, 0]], .any),
  (wr 0 [[49, 52, 0, 0, 0, 0, 0, 0, 0, 0, 0, 0, 0, 0, 0, 0, 0, 0, 0, 0, 0, 0, 0, 0, 0, 0, 0, 0, 0, 0, 0, 0, 0, 0, 0, 0, 0]], .any),
  (wr 0 [[49, 53, 0, 0, 0, 0, 0, 0, 0, 0, 0, 0, 0, 0, 0, 0, 0, 0, 0, 0, 0, 0, 0, 0, 0, 0, 0, 0, 0, 0, 0, 0, 0, 0, 0, 0, 0]], .any),
  (wr 0 [[49, 54, 0, 0, 0, 0, 0, 0, 0, 0, 0, 0, 0, 0, 0, 0, 0, 0, 0, 0, 0, 0, 0, 0, 0, 0, 0, 0, 0, 0, 0, 0, 0, 0, 0, 0, 0]], .any),
  (wr 0 [[49, 55, 0, 0, 0, 0, 0, 0, 0, 0, 0, 0, 0, 0, 0, 0, 0, 0, 0, 0, 0, 0, 0, 0, 0, 0, 0, 0, 0, 0, 0, 0, 0, 0, 0, 0, 0]], .any),
  (wr 0 [[49, 56, 0, 0, 0, 0, 0, 0, 0, 0, 0, 0, 0, 0, 0, 0, 0, 0, 0, 0, 0, 0, 0, 0, 0, 0, 0, 0, 0, 0, 0, 0, 0, 0, 0, 0, 0]], .any),
  (wr 0 [[49, 57, 0, 0, 0, 0, 0, 0, 0, 0, 0, 0, 0, 0, 0, 0, 0, 0, 0, 0, 0, 0, 0, 0, 0, 0, 0, 0, 0, 0, 0, 0, 0, 0, 0, 0, 0]], .any),
  (rd 1 37 1, .text 37 [49, 48]),
  (rd 2 37 1, .text 37 [49, 48]),
  (.farmStat 1 false, .drops 9),
  (.farmStat 2 false, .drops 5),
  (.close 0 {}, .closed),
  (.close 1 {}, .closed),
  (.close 2 {}, .closed)] = true := by decide +kernel

/-- tests/test11.c, tests/test11.ans. -/
example : conforms { dataSz := 370, flags := (SHR_FARM) } [
  (opn 0 (SHR_WRONLY), .opened),
  (opn 1 (SHR_RDONLY), .opened),
  (opn 2 (SHR_RDONLY), .opened),
  (wr 0 [[48, 0, 0, 0, 0, 0, 0, 0, 0, 0, 0, 0, 0, 0, 0, 0, 0, 0, 0, 0, 0, 0, 0, 0, 0, 0, 0, 0, 0, 0, 0, 0, 0, 0, 0, 0, 0]], .any),
  (wr 0 [[49, 0, 0, 0, 0, 0, 0, 0, 0, 0, 0, 0, 0, 0, 0, 0, 0, 0, 0, 0, 0, 0, 0, 0, 0, 0, 0, 0, 0, 0, 0, 0, 0, 0, 0, 0, 0]], .any),
  (wr 0 [[50, 0, 0, 0, 0, 0, 0, 0, 0, 0, 0, 0, 0, 0, 0, 0, 0, 0, 0, 0, 0, 0, 0, 0, 0, 0, 0, 0, 0, 0, 0, 0, 0, 0, 0, 0, 0]], .any),
  (wr 0 [[51, 0, 0, 0, 0, 0, 0, 0, 0, 0, 0, 0, 0, 0, 0, 0, 0, 0, 0, 0, 0, 0, 0, 0, 0, 0, 0, 0, 0, 0, 0, 0, 0, 0, 0, 0, 0]], .any),
  (wr 0 [[52, 0, 0, 0, 0, 0, 0, 0, 0, 0, 0, 0, 0, 0, 0, 0, 0, 0, 0, 0, 0, 0, 0, 0, 0, 0, 0, 0, 0, 0, 0, 0, 0, 0, 0, 0, 0]], .any),
  (wr 0 [[53, 0, 0, 0, 0, 0, 0, 0, 0, 0, 0, 0, 0, 0, 0, 0, 0, 0, 0, 0, 0, 0, 0, 0, 0, 0, 0, 0, 0, 0, 0, 0, 0, 0, 0, 0, 0]], .any),
  (wr 0 [[54, 0, 0, 0, 0, 0, 0, 0, 0, 0, 0, 0, 0, 0, 0, 0, 0, 0, 0, 0, 0, 0, 0, 0, 0, 0, 0, 0, 0, 0, 0, 0, 0, 0, 0, 0, 0]], .any),
  (wr 0 [[55, 0, 0, 0, 0, 0, 0, 0, 0, 0, 0, 0, 0, 0, 0, 0, 0, 0, 0, 0, 0, 0, 0, 0, 0, 0, 0, 0, 0, 0, 0, 0, 0, 0, 0, 0, 0]], .any),
  (wr 0 [[56, 0, 0, 0, 0, 0, 0, 0, 0, 0, 0, 0, 0, 0, 0, 0, 0, 0, 0, 0, 0, 0, 0, 0, 0, 0, 0, 0, 0, 0, 0, 0, 0, 0, 0, 0, 0]], .any),
  (wr 0 [[57, 0, 0, 0, 0, 0, 0, 0, 0, 0, 0, 0, 0, 0, 0, 0, 0, 0, 0, 0, 0, 0, 0, 0, 0, 0, 0, 0, 0, 0, 0, 0, 0, 0, 0, 0, 0]], .any),
  (rd 1 37 1, .text 37 [48]),
  (rd 2 37 1, .text 37 [48]),
  (rd 2 37 1, .text 37 [49]),
  (rd 2 37 1, .text 37 [50]),
  (rd 2 37 1, .text 37 [51]),
  (rd 2 37 1, .text 37 [52]),
  (wr 0 [[49, 48, 0, 0, 0, 0, 0, 0, 0, 0, 0, 0, 0, 0, 0, 0, 0, 0, 0, 0, 0, 0, 0, 0, 0, 0, 0, 0, 0, 0, 0, 0, 0, 0, 0, 0, 0]], .any),
  (wr 0 [[49, 49, 0, 0, 0, 0, 0, 0, 0, 0, 0, 0, 0, 0, 0, 0, 0, 0, 0, 0, 0, 0, 0, 0, 0, 0, 0, 0, 0, 0, 0, 0, 0, 0, 0, 0, 0]], .any),
  (wr 0 [[49, 50, 0, 0, 0, 0, 0, 0, 0, 0, 0, 0, 0, 0, 0, 0, 0, 0, 0, 0, 0, 0, 0, 0, 0, 0, 0, 0, 0, 0, 0, 0, 0, 0, 0, 0, 0]], .any),
  (wr 0 [[49, 51, 0, 0, 0, 0, 0, 0, 0, 0, 0, 0, 0, 0, 0, 0, 0, 0, 0, 0, 0, 0, 0, 0, 0, 0, 0, 0, 0, 0, 0, 0, 0, 0, 0, 0, 0]], .any),
  (wr 0 [[49, 52, 0, 0, 0, 0, 0, 0, 0, 0, 0, 0, 0, 0, 0, 0, 0, 0, 0, 0, 0, 0, 0, 0, 0, 0, 0, 0, 0, 0, 0, 0, 0, 0, 0, 0, 0]], .any),
  (wr 0 [[49, 53, 0, 0, 0, 0, 0, 0, 0, 0, 0, 0, 0, 0, 0, 0, 0, 0, 0, 0, 0, 0, 0, 0, 0, 0, 0, 0, 0, 0, 0, 0, 0, 0, 0, 0, 0]], .any),
  (wr 0 [[49, 54, 0, 0, 0, 0, 0, 0, 0, 0, 0, 0, 0, 0, 0, 0, 0, 0, 0, 0, 0, 0, 0, 0, 0, 0, 0, 0, 0, 0, 0, 0, 0, 0, 0, 0, 0]], .any),
  (wr 0 [[49, 55, 0, 0, 0, 0, 0, 0, 0, 0, 0, 0, 0, 0, 0, 0, 0, 0, 0, 0, 0, 0, 0, 0, 0, 0, 0, 0, 0, 0, 0, 0, 0, 0, 0, 0, 0]], .any),
  (wr 0 [[49, 56, 0, 0, 0, 0, 0, 0, 0, 0, 0, 0, 0, 0, 0, 0, 0, 0, 0, 0, 0, 0, 0, 0, 0, 0, 0, 0, 0, 0, 0, 0, 0, 0, 0, 0, 0]], .any),
  (wr 0 [[49, 57, 0, 0, 0, 0, 0, 0, 0, 0, 0, 0, 0, 0, 0, 0, 0, 0, 0, 0, 0, 0, 0, 0, 0, 0, 0, 0, 0, 0, 0, 0, 0, 0, 0, 0, 0]], .any),
  (.farmStat 1 true, .drops 0),
  (.farmStat 2 true, .drops 0),
  (rd 1 37 1, .text 37 [49, 48]),
  (rd 2 37 1, .text 37 [49, 48]),
  (.farmStat 1 true, .drops 9),
  (.farmStat 2 true, .drops 5),
  (.farmStat 1 true, .drops 0),
  (.farmStat 2 true, .drops 0),
  (.close 0 {}, .closed),
  (.close 1 {}, .closed),
  (.close 2 {}, .closed)] = true := by decide +kernel

/-- tests/test12.c, tests/test12.ans. -/
example : conforms { dataSz := 8, flags := (SHR_APPDATA_1), app := [0, 0, 0, 0] } [
  (opn 1 (SHR_RDONLY), .opened),
  (.appdata 1 .null (some [10, 0, 0, 0]) 4 {}, .appNone),
  (.appdata 1 (.into 4) none 4 {}, .app [10, 0, 0, 0]),
  (.appdata 1 (.into 4) (some [20, 0, 0, 0]) 4 {}, .app [10, 0, 0, 0]),
  (.appdata 1 .alloc none 0 {}, .app [20, 0, 0, 0]),
  (.close 1 {}, .closed)] = true := by decide +kernel

/-- tests/test13.c, tests/test13.ans. -/
example : conforms { dataSz := 13, flags := (0#32) } [
  (opn 0 (SHR_WRONLY ||| SHR_BUFFERED), .opened),
  (wr 0 [[104, 101, 108, 108, 111]], .more (-1)),
  (.stat 0 none {}, .cacheOnly [13, 5, 1]),
  (.close 0 {}, .closed)] = true := by decide +kernel

/-- tests/test14.c, tests/test14.ans. -/
example : conforms { dataSz := 5, flags := (0#32) } [
  (opn 0 (SHR_WRONLY ||| SHR_BUFFERED), .opened),
  (wr 0 [[104, 101, 108, 108, 111]], .more (-1)),
  (.stat 0 none {}, .cache [5, 0, 0, 5, 5, 1]),
  (.close 0 {}, .closed),
  (opn 1 (SHR_WRONLY ||| SHR_BUFFERED), .opened),
  (.stat 1 none {}, .cache [5, 5, 1, 5, 0, 0]),
  (.close 1 {}, .closed)] = true := by decide +kernel

/-- tests/test15.c, tests/test15.ans. -/
example : conforms { dataSz := 5, flags := (SHR_DROP) } [
  (opn 0 (SHR_WRONLY ||| SHR_BUFFERED), .opened),
  (wr 0 [[104, 101, 108, 108, 111]], .more (-1)),
  (.stat 0 none {}, .cache [5, 0, 0, 5, 5, 1]),
  (wr 0 [[119, 111, 114, 108, 100]], .more (-1)),
  (.stat 0 none {}, .cache [5, 5, 1, 5, 5, 1]),
  (.close 0 {}, .closed)] = true := by decide +kernel

/-- tests/test16.c, tests/test16.ans. -/
example : conforms { dataSz := 5, flags := (0#32) } [
  (opn 0 (SHR_WRONLY ||| SHR_BUFFERED ||| SHR_NONBLOCK), .opened),
  (wr 0 [[104, 101, 108, 108, 111]], .more (-1)),
  (.stat 0 none {}, .cache [5, 0, 0, 5, 5, 1]),
  (wr 0 [[119, 111, 114, 108, 100]], .more (-1)),
  (.stat 0 none {}, .cache [5, 5, 1, 5, 5, 1]),
  (wr 0 [[116, 104, 101, 114, 101]], .wrote 0),
  (.stat 0 none {}, .cache [5, 5, 1, 5, 5, 1]),
  (.flush 0 false {}, .wrote 0),
  (.close 0 {}, .closed)] = true := by decide +kernel

/-- tests/test17.c, tests/test17.ans. -/
example : conforms { dataSz := 5, flags := (0#32) } [
  (opn 0 (SHR_WRONLY ||| SHR_BUFFERED ||| SHR_NONBLOCK), .opened),
  (wr 0 [[104, 101, 108, 108, 111]], .more (-1)),
  (.stat 0 none {}, .cache [5, 0, 0, 5, 5, 1]),
  (wr 0 [[119, 111, 114, 108, 100]], .more (-1)),
  (.stat 0 none {}, .cache [5, 5, 1, 5, 5, 1]),
  (wr 0 [[116, 104, 101, 114, 101]], .wrote 0),
  (.stat 0 none {}, .cache [5, 5, 1, 5, 5, 1]),
  (opn 1 (SHR_RDONLY), .opened),
  (rd 1 5 1, .count 5),
  (.flush 0 false {}, .wrote 5),
  (.close 0 {}, .closed),
  (.close 1 {}, .closed)] = true := by decide +kernel

/-- tests/test18.c, tests/test18.ans. -/
example : conforms { dataSz := 37, flags := (0#32) } [
  (opn 0 (SHR_WRONLY ||| SHR_BUFFERED ||| SHR_NONBLOCK), .opened),
  (opn 1 (SHR_RDONLY), .opened),
  (opn 2 (SHR_RDONLY), .opened),
  (wr 0 [[48, 0, 0, 0, 0, 0, 0, 0, 0, 0, 0, 0, 0, 0, 0, 0, 0, 0, 0, 0, 0, 0, 0, 0, 0, 0, 0, 0, 0, 0, 0, 0, 0, 0, 0, 0, 0]], .wrote 37),
  (.stat 0 none {}, .cache [37, 0, 0, 37, 37, 1]),
  (.close 0 {}, .closed),
  (.stat 2 none {}, .cache [37, 37, 1, 0, 0, 0]),
  (rd 2 37 1, .text 37 [48]),
  (.close 1 {}, .closed),
  (.close 2 {}, .closed)] = true := by decide +kernel

/-- tests/test19.c, tests/test19.ans. -/
example : conforms { dataSz := 37, flags := (0#32) } [
  (opn 0 (SHR_WRONLY ||| SHR_BUFFERED ||| SHR_NONBLOCK), .opened),
  (opn 1 (SHR_RDONLY), .opened),
  (opn 2 (SHR_RDONLY), .opened),
  (wr 0 [[48, 0, 0, 0, 0, 0, 0, 0, 0, 0, 0, 0, 0, 0, 0, 0, 0, 0, 0, 0, 0, 0, 0, 0, 0, 0, 0, 0, 0, 0, 0, 0, 0, 0, 0, 0, 0]], .wrote 37),
  (.stat 0 none {}, .cache [37, 0, 0, 37, 37, 1]),
  (wr 0 [[49, 0, 0, 0, 0, 0, 0, 0, 0, 0, 0, 0, 0, 0, 0, 0, 0, 0, 0, 0, 0, 0, 0, 0, 0, 0, 0, 0, 0, 0, 0, 0, 0, 0, 0, 0, 0]], .wrote 37),
  (.close 0 {}, .closed),
  (.stat 2 none {}, .cache [37, 37, 1, 0, 0, 0]),
  (rd 2 37 1, .text 37 [48]),
  (.close 1 {}, .closed),
  (.close 2 {}, .closed)] = true := by decide +kernel

/-- tests/test20.c, tests/test20.ans. -/
example : conforms { dataSz := 37, flags := (0#32) } [
  (opn 0 (SHR_WRONLY ||| SHR_BUFFERED ||| SHR_NONBLOCK), .opened),
  (opn 1 (SHR_RDONLY ||| SHR_NONBLOCK), .opened),
  (opn 2 (SHR_RDONLY ||| SHR_NONBLOCK), .opened),
  (wr 0 [[48, 0, 0, 0, 0, 0, 0, 0, 0, 0, 0, 0, 0, 0, 0, 0, 0, 0, 0, 0, 0, 0, 0, 0, 0, 0, 0, 0, 0, 0, 0, 0, 0, 0, 0, 0, 0]], .wrote 37),
  (wr 0 [[49, 0, 0, 0, 0, 0, 0, 0, 0, 0, 0, 0, 0, 0, 0, 0, 0, 0, 0, 0, 0, 0, 0, 0, 0, 0, 0, 0, 0, 0, 0, 0, 0, 0, 0, 0, 0]], .wrote 37),
  (.stat 0 none {}, .cache [37, 37, 1, 37, 37, 1]),
  (.flush 0 true {}, .flushed),
  (rd 2 37 1, .text 37 [48]),
  (.flush 0 true {}, .flushed),
  (rd 2 37 1, .text 37 [49]),
  (.flush 0 true {}, .flushed),
  (.close 0 {}, .closed),
  (.close 1 {}, .closed),
  (.close 2 {}, .closed)] = true := by decide +kernel

/-- tests/test21.c, tests/test21.ans. -/
example : conforms { dataSz := 37, flags := (0#32) } [
  (opn 0 (SHR_WRONLY ||| SHR_BUFFERED ||| SHR_NONBLOCK), .opened),
  (opn 1 (SHR_RDONLY ||| SHR_NONBLOCK), .opened),
  (opn 2 (SHR_RDONLY ||| SHR_NONBLOCK), .opened),
  (wr 0 [[48, 0, 0, 0, 0, 0, 0, 0, 0, 0, 0, 0, 0, 0, 0, 0, 0, 0, 0, 0, 0, 0, 0, 0, 0, 0, 0, 0, 0, 0, 0, 0, 0, 0, 0, 0, 0]], .wrote 37),
  (wr 0 [[49, 0, 0, 0, 0, 0, 0, 0, 0, 0, 0, 0, 0, 0, 0, 0, 0, 0, 0, 0, 0, 0, 0, 0, 0, 0, 0, 0, 0, 0, 0, 0, 0, 0, 0, 0, 0]], .wrote 37),
  (.stat 0 none {}, .cache [37, 37, 1, 37, 37, 1]),
  (.flush 0 false {}, .wrote 0),
  (rd 2 37 1, .text 37 [48]),
  (.flush 0 false {}, .more 0),
  (rd 2 37 1, .text 37 [49]),
  (.stat 0 none {}, .cache [37, 0, 0, 37, 0, 0]),
  (.flush 0 true {}, .flushed),
  (.stat 0 none {}, .cache [37, 0, 0, 37, 0, 0]),
  (.close 0 {}, .closed),
  (.close 1 {}, .closed),
  (.close 2 {}, .closed)] = true := by decide +kernel

/-- tests/test25.c, tests/test25.ans. -/
example : conforms { dataSz := 370, flags := (SHR_FARM) } [
  (opn 0 (SHR_WRONLY), .opened),
  (wr 0 [[48, 0, 0, 0, 0, 0, 0, 0, 0, 0, 0, 0, 0, 0, 0, 0, 0, 0, 0, 0, 0, 0, 0, 0, 0, 0, 0, 0, 0, 0, 0, 0, 0, 0, 0, 0, 0]], .any),
  (wr 0 [[49, 0, 0, 0, 0, 0, 0, 0, 0, 0, 0, 0, 0, 0, 0, 0, 0, 0, 0, 0, 0, 0, 0, 0, 0, 0, 0, 0, 0, 0, 0, 0, 0, 0, 0, 0, 0]], .any),
  (wr 0 [[50, 0, 0, 0, 0, 0, 0, 0, 0, 0, 0, 0, 0, 0, 0, 0, 0, 0, 0, 0, 0, 0, 0, 0, 0, 0, 0, 0, 0, 0, 0, 0, 0, 0, 0, 0, 0]], .any),
  (wr 0 [[51, 0, 0, 0, 0, 0, 0, 0, 0, 0, 0, 0, 0, 0, 0, 0, 0, 0, 0, 0, 0, 0, 0, 0, 0, 0, 0, 0, 0, 0, 0, 0, 0, 0, 0, 0, 0]], .any),
  (wr 0 [[52, 0, 0, 0, 0, 0, 0, 0, 0, 0, 0, 0, 0, 0, 0, 0, 0, 0, 0, 0, 0, 0, 0, 0, 0, 0, 0, 0, 0, 0, 0, 0, 0, 0, 0, 0, 0]], .any),
  (wr 0 [[53, 0, 0, 0, 0, 0, 0, 0, 0, 0, 0, 0, 0, 0, 0, 0, 0, 0, 0, 0, 0, 0, 0, 0, 0, 0, 0, 0, 0, 0, 0, 0, 0, 0, 0, 0, 0]], .any),
  (wr 0 [[54, 0, 0, 0, 0, 0, 0, 0, 0, 0, 0, 0, 0, 0, 0, 0, 0, 0, 0, 0, 0, 0, 0, 0, 0, 0, 0, 0, 0, 0, 0, 0, 0, 0, 0, 0, 0]], .any),
  (wr 0 [[55, 0, 0, 0, 0, 0, 0, 0, 0, 0, 0, 0, 0, 0, 0, 0, 0, 0, 0, 0, 0, 0, 0, 0, 0, 0, 0, 0, 0, 0, 0, 0, 0, 0, 0, 0, 0]], .any),
  (wr 0 [[56, 0, 0, 0, 0, 0, 0, 0, 0, 0, 0, 0, 0, 0, 0, 0, 0, 0, 0, 0, 0, 0, 0, 0, 0, 0, 0, 0, 0, 0, 0, 0, 0, 0, 0, 0, 0]], .any),
  (wr 0 [[57, 0, 0, 0, 0, 0, 0, 0, 0, 0, 0, 0, 0, 0, 0, 0, 0, 0, 0, 0, 0, 0, 0, 0, 0, 0, 0, 0, 0, 0, 0, 0, 0, 0, 0, 0, 0]], .any),
  (wr 0 [[49, 48, 0, 0, 0, 0, 0, 0, 0, 0, 0, 0, 0, 0, 0, 0, 0, 0, 0, 0, 0, 0, 0, 0, 0, 0, 0, 0, 0, 0, 0, 0, 0, 0, 0, 0, 0]], .any),
  (wr 0 [[49, 49, 0, 0, 0, 0, 0, 0, 0, 0, 0, 0, 0, 0, 0, 0, 0, 0, 0, 0, 0, 0, 0, 0, 0, 0, 0, 0, 0, 0, 0, 0, 0, 0, 0, 0, 0]], .any),
  (wr 0 [[49, 50, 0, 0, 0, 0, 0, 0, 0, 0, 0, 0, 0, 0, 0, 0, 0, 0, 0, 0, 0, 0, 0, 0, 0, 0, 0, 0, 0, 0, 0, 0, 0, 0, 0, 0, 0]], .any),
  (wr 0 [[49, 51, 0, 0, 0, 0, 0, 0, 0, 0, 0, 0, 0, 0, 0, 0, 0, 0, 0, 0, 0, 0, 0, 0, 0, 0, 0, 0, 0, 0, 0, 0, 0, 0, 0, 0, 0]], .any),
  (wr 0 [[49, 52, 0, 0, 0, 0, 0, 0, 0, 0, 0, 0, 0, 0, 0, 0, 0, 0, 0, 0, 0, 0, 0, 0, 0, 0, 0, 0, 0, 0, 0, 0, 0, 0, 0, 0, 0]], .any),
  (wr 0 [[49, 53, 0, 0, 0, 0, 0, 0, 0, 0, 0, 0, 0, 0, 0, 0, 0, 0, 0, 0, 0, 0, 0, 0, 0, 0, 0, 0, 0, 0, 0, 0, 0, 0, 0, 0, 0]], .any),
  (wr 0 [[49, 54, 0, 0, 0, 0, 0, 0, 0, 0, 0, 0, 0, 0, 0, 0, 0, 0, 0, 0, 0, 0, 0, 0, 0, 0, 0, 0, 0, 0, 0, 0, 0, 0, 0, 0, 0]], .any),
  (wr 0 [[49, 55, 0, 0, 0, 0, 0, 0, 0, 0, 0, 0, 0, 0, 0, 0, 0, 0, 0, 0, 0, 0, 0, 0, 0, 0, 0, 0, 0, 0, 0, 0, 0, 0, 0, 0, 0]], .any),
  (wr 0 [[49, 56, 0, 0, 0, 0, 0, 0, 0, 0, 0, 0, 0, 0, 0, 0, 0, 0, 0, 0, 0, 0, 0, 0, 0, 0, 0, 0, 0, 0, 0, 0, 0, 0, 0, 0, 0]], .any),
  (wr 0 [[49, 57, 0, 0, 0, 0, 0, 0, 0, 0, 0, 0, 0, 0, 0, 0, 0, 0, 0, 0, 0, 0, 0, 0, 0, 0, 0, 0, 0, 0, 0, 0, 0, 0, 0, 0, 0]], .any),
  (opn 1 (SHR_RDONLY), .opened),
  (rd 1 37 1, .text 37 [49, 48]),
  (.close 0 {}, .closed),
  (.close 1 {}, .closed)] = true := by decide +kernel

/-- tests/test26.c, tests/test26.ans. -/
example : conforms { dataSz := 370, flags := (SHR_FARM) } [
  (opn 0 (SHR_WRONLY), .opened),
  (wr 0 [[48, 0, 0, 0, 0, 0, 0, 0, 0, 0, 0, 0, 0, 0, 0, 0, 0, 0, 0, 0, 0, 0, 0, 0, 0, 0, 0, 0, 0, 0, 0, 0, 0, 0, 0, 0, 0]], .any),
  (wr 0 [[49, 0, 0, 0, 0, 0, 0, 0, 0, 0, 0, 0, 0, 0, 0, 0, 0, 0, 0, 0, 0, 0, 0, 0, 0, 0, 0, 0, 0, 0, 0, 0, 0, 0, 0, 0, 0]], .any),
  (wr 0 [[50, 0, 0, 0, 0, 0, 0, 0, 0, 0, 0, 0, 0, 0, 0, 0, 0, 0, 0, 0, 0, 0, 0, 0, 0, 0, 0, 0, 0, 0, 0, 0, 0, 0, 0, 0, 0]], .any),
  (wr 0 [[51, 0, 0, 0, 0, 0, 0, 0, 0, 0, 0, 0, 0, 0, 0, 0, 0, 0, 0, 0, 0, 0, 0, 0, 0, 0, 0, 0, 0, 0, 0, 0, 0, 0, 0, 0, 0]], .any),
  (wr 0 [[52, 0, 0, 0, 0, 0, 0, 0, 0, 0, 0, 0, 0, 0, 0, 0, 0, 0, 0, 0, 0, 0, 0, 0, 0, 0, 0, 0, 0, 0, 0, 0, 0, 0, 0, 0, 0]], .any),
  (wr 0 [[53, 0, 0, 0, 0, 0, 0, 0, 0, 0, 0, 0, 0, 0, 0, 0, 0, 0, 0, 0, 0, 0, 0, 0, 0, 0, 0, 0, 0, 0, 0, 0, 0, 0, 0, 0, 0]], .any),
  (wr 0 [[54, 0, 0, 0, 0, 0, 0, 0, 0, 0, 0, 0, 0, 0, 0, 0, 0, 0, 0, 0, 0, 0, 0, 0, 0, 0, 0, 0, 0, 0, 0, 0, 0, 0, 0, 0, 0]], .any),
  (wr 0 [[55, 0, 0, 0, 0, 0, 0, 0, 0, 0, 0, 0, 0, 0, 0, 0, 0, 0, 0, 0, 0, 0, 0, 0, 0, 0, 0, 0, 0, 0, 0, 0, 0, 0, 0, 0, 0]], .any),
  (wr 0 [[56, 0, 0, 0, 0, 0, 0, 0, 0, 0, 0, 0, 0, 0, 0, 0, 0, 0, 0, 0, 0, 0, 0, 0, 0, 0, 0, 0, 0, 0, 0, 0, 0, 0, 0, 0, 0]], .any),
  (wr 0 [[57, 0, 0, 0, 0, 0, 0, 0, 0, 0, 0, 0, 0, 0, 0, 0, 0, 0, 0, 0, 0, 0, 0, 0, 0, 0, 0, 0, 0, 0, 0, 0, 0, 0, 0, 0, 0]], .any),
  (wr 0 [[49, 48, 0, 0, 0, 0, 0, 0, 0, 0, 0, 0, 0, 0, 0, 0, 0, 0, 0, 0, 0, 0, 0, 0, 0, 0, 0, 0, 0, 0, 0, 0, 0, 0, 0, 0, 0]], .any),
  (wr 0 [[49, 49, 0, 0, 0, 0, 0, 0, 0, 0, 0, 0, 0, 0, 0, 0, 0, 0, 0, 0, 0, 0, 0, 0, 0, 0, 0, 0, 0, 0, 0, 0, 0, 0, 0, 0, 0]], .any),
  (wr 0 [[49, 50, 0, 0, 0, 0, 0, 0, 0, 0, 0, 0, 0, 0, 0, 0, 0, 0, 0, 0, 0, 0, 0, 0, 0, 0, 0, 0, 0, 0, 0, 0, 0, 0, 0, 0, 0]], .any),
  (wr 0 [[49, 51, 0, 0, 0, 0, 0, 0, 0, 0, 0, 0, 0, 0, 0, 0, 0, 0, 0, 0, 0, 0, 0, 0, 0, 0, 0, 0, 0, 0, 0, 0, 0, 0, 0, 0, 0]], .any),
  (wr 0 [[49, 52, 0, 0, 0, 0, 0, 0, 0, 0, 0, 0, 0, 0, 0, 0, 0, 0, 0, 0, 0, 0, 0, 0, 0, 0, 0, 0, 0, 0, 0, 0, 0, 0, 0, 0, 0]], .any),
  (wr 0 [[49, 53, 0, 0, 0, 0, 0, 0, 0, 0, 0, 0, 0, 0, 0, 0, 0, 0, 0, 0, 0, 0, 0, 0, 0, 0, 0, 0, 0, 0, 0, 0, 0, 0, 0, 0, 0]], .any),
  (wr 0 [[49, 54, 0, 0, 0, 0, 0, 0, 0, 0, 0, 0, 0, 0, 0, 0, 0, 0, 0, 0, 0, 0, 0, 0, 0, 0, 0, 0, 0, 0, 0, 0, 0, 0, 0, 0, 0]], .any),
  (wr 0 [[49, 55, 0, 0, 0, 0, 0, 0, 0, 0, 0, 0, 0, 0, 0, 0, 0, 0, 0, 0, 0, 0, 0, 0, 0, 0, 0, 0, 0, 0, 0, 0, 0, 0, 0, 0, 0]], .any),
  (wr 0 [[49, 56, 0, 0, 0, 0, 0, 0, 0, 0, 0, 0, 0, 0, 0, 0, 0, 0, 0, 0, 0, 0, 0, 0, 0, 0, 0, 0, 0, 0, 0, 0, 0, 0, 0, 0, 0]], .any),
  (wr 0 [[49, 57, 0, 0, 0, 0, 0, 0, 0, 0, 0, 0, 0, 0, 0, 0, 0, 0, 0, 0, 0, 0, 0, 0, 0, 0, 0, 0, 0, 0, 0, 0, 0, 0, 0, 0, 0]], .any),
  (opn 1 (SHR_RDONLY), .opened),
  (rd 1 37 1, .text 37 [49, 48]),
  (.close 0 {}, .closed),
  (.close 1 {}, .closed)] = true := by decide +kernel

/-- tests/test27.c, tests/test27.ans. -/
example : conforms { dataSz := 370, flags := (SHR_FARM) } [
  (opn 0 (SHR_WRONLY), .opened),
  (opn 1 (SHR_RDONLY), .opened),
  (wr 0 [[48, 0, 0, 0, 0, 0, 0, 0, 0, 0, 0, 0, 0, 0, 0, 0, 0, 0, 0, 0, 0, 0, 0, 0, 0, 0, 0, 0, 0, 0, 0, 0, 0, 0, 0, 0, 0]], .any),
  (wr 0 [[49, 0, 0, 0, 0, 0, 0, 0, 0, 0, 0, 0, 0, 0, 0, 0, 0, 0, 0, 0, 0, 0, 0, 0, 0, 0, 0, 0, 0, 0, 0, 0, 0, 0, 0, 0, 0]], .any),
  (wr 0 [[50, 0, 0, 0, 0, 0, 0, 0, 0, 0, 0, 0, 0, 0, 0, 0, 0, 0, 0, 0, 0, 0, 0, 0, 0, 0, 0, 0, 0, 0, 0, 0, 0, 0, 0, 0, 0]], .any),
  (wr 0 [[51, 0, 0, 0, 0, 0, 0, 0, 0, 0, 0, 0, 0, 0, 0, 0, 0, 0, 0, 0, 0, 0, 0, 0, 0, 0, 0, 0, 0, 0, 0, 0, 0, 0, 0, 0, 0]], .any),
  (wr 0 [[52, 0, 0, 0, 0, 0, 0, 0, 0, 0, 0, 0, 0, 0, 0, 0, 0, 0, 0, 0, 0, 0, 0, 0, 0, 0, 0, 0, 0, 0, 0, 0, 0, 0, 0, 0, 0]], .any),
  (wr 0 [[53, 0, 0, 0, 0, 0, 0, 0, 0, 0, 0, 0, 0, 0, 0, 0, 0, 0, 0, 0, 0, 0, 0, 0, 0, 0, 0, 0, 0, 0, 0, 0, 0, 0, 0, 0, 0]], .any),
  (wr 0 [[54, 0, 0, 0, 0, 0, 0, 0, 0, 0, 0, 0, 0, 0, 0, 0, 0, 0, 0, 0, 0, 0, 0, 0, 0, 0, 0, 0, 0, 0, 0, 0, 0, 0, 0, 0, 0]], .any),
  (wr 0 [[55, 0, 0, 0, 0, 0, 0, 0, 0, 0, 0, 0, 0, 0, 0, 0, 0, 0, 0, 0, 0, 0, 0, 0, 0, 0, 0, 0, 0, 0, 0, 0, 0, 0, 0, 0, 0]], .any),
  (wr 0 [[56, 0, 0, 0, 0, 0, 0, 0, 0, 0, 0, 0, 0, 0, 0, 0, 0, 0, 0, 0, 0, 0, 0, 0, 0, 0, 0, 0, 0, 0, 0, 0, 0, 0, 0, 0, 0]], .any),
  (wr 0 [[57, 0, 0, 0, 0, 0, 0, 0, 0, 0, 0, 0, 0, 0, 0, 0, 0, 0, 0, 0, 0, 0, 0, 0, 0, 0, 0, 0, 0, 0, 0, 0, 0, 0, 0, 0, 0]], .any),
  (rd 1 37 1, .text 37 [48]),
  (wr 0 [[49, 48, 0, 0, 0, 0, 0, 0, 0, 0, 0, 0, 0, 0, 0, 0, 0, 0, 0, 0, 0, 0, 0, 0, 0, 0, 0, 0, 0, 0, 0, 0, 0, 0, 0, 0, 0]], .any),
  (wr 0 [[49, 49, 0, 0, 0, 0, 0, 0, 0, 0, 0, 0, 0, 0, 0, 0, 0, 0, 0, 0, 0, 0, 0, 0, 0, 0, 0, 0, 0, 0, 0, 0, 0, 0, 0, 0, 0]], .any),
  (wr 0 [[49, 50, 0, 0, 0, 0, 0, 0, 0, 0, 0, 0, 0, 0, 0, 0, 0, 0, 0, 0, 0, 0, 0, 0, 0, 0, 0, 0, 0, 0, 0, 0, 0, 0, 0, 0, 0]], .any),
  (wr 0 [[49, 51, 0, 0, 0, 0, 0, 0, 0, 0, 0, 0, 0, 0, 0, 0, 0, 0, 0, 0, 0, 0, 0, 0, 0, 0, 0, 0, 0, 0, 0, 0, 0, 0, 0, 0, 0]], .any),
  (wr 0 [[49, 52, 0, 0, 0, 0, 0, 0, 0, 0, 0, 0, 0, 0, 0, 0, 0, 0, 0, 0, 0, 0, 0, 0, 0, 0, 0, 0, 0, 0, 0, 0, 0, 0, 0, 0, 0]], .any),
  (wr 0 [[49, 53, 0, 0, 0, 0, 0, 0, 0, 0, 0, 0, 0, 0, 0, 0, 0, 0, 0, 0, 0, 0, 0, 0, 0, 0, 0, 0, 0, 0, 0, 0, 0, 0, 0, 0, 0]], .any),
  (wr 0 [[49, 54, 0, 0, 0, 0, 0, 0, 0, 0, 0, 0, 0, 0, 0, 0, 0, 0, 0, 0, 0, 0, 0, 0, 0, 0, 0, 0, 0, 0, 0, 0, 0, 0, 0, 0, 0]], .any),
  (wr 0 [[49, 55, 0, 0, 0, 0, 0, 0, 0, 0, 0, 0, 0, 0, 0, 0, 0, 0, 0, 0, 0, 0, 0, 0, 0, 0, 0, 0, 0, 0, 0, 0, 0, 0, 0, 0, 0]], .any),
  (wr 0 [[49, 56, 0, 0, 0, 0, 0, 0, 0, 0, 0, 0, 0, 0, 0, 0, 0, 0, 0, 0, 0, 0, 0, 0, 0, 0, 0, 0, 0, 0, 0, 0, 0, 0, 0, 0, 0]], .any),
  (wr 0 [[49, 57, 0, 0, 0, 0, 0, 0, 0, 0, 0, 0, 0, 0, 0, 0, 0, 0, 0, 0, 0, 0, 0, 0, 0, 0, 0, 0, 0, 0, 0, 0, 0, 0, 0, 0, 0]], .any),
  (rd 1 37 1, .text 37 [49, 48]),
  (rd 1 37 1, .text 37 [49, 49]),
  (opn 2 (SHR_RDONLY), .opened),
  (rd 2 37 1, .text 37 [49, 48]),
  (rd 2 37 1, .text 37 [49, 49]),
  (.close 0 {}, .closed),
  (.close 1 {}, .closed),
  (.close 2 {}, .closed)] = true := by decide +kernel

/-- tests/test28.c, tests/test28.ans. -/
example : conforms { dataSz := 1024, flags := (0#32) } [
  (opn 1 (SHR_RDONLY), .opened),
  (.readv 1 (List.replicate 100 0) 1 { waitRc := some .pollfd }, .count (-3)),
  (.close 1 {}, .closed)] = true := by decide +kernel

/-- tests/test29.c, tests/test29.ans. -/
example : conforms { dataSz := 100, flags := (0#32) } [
  (opn 0 (SHR_WRONLY), .opened),
  (wr 0 [List.replicate 100 0], .wrote 100),
  (.writev 0 [List.replicate 100 0] {} { waitRc := some .pollfd }, .wrote (-3)),
  (.close 0 {}, .closed)] = true := by decide +kernel

/-- tests/test36.c, tests/test36.ans. -/
example : conforms { dataSz := 34, flags := (SHR_DROP ||| SHR_MAXMSGS_2), maxMsgs := 100 } [
  (opn 0 (SHR_WRONLY), .opened),
  (opn 1 (SHR_RDONLY ||| SHR_NONBLOCK), .opened),
  (wr 0 [[97, 97, 97]], .any),
  (wr 0 [[98]], .any),
  (wr 0 [[99, 99, 99]], .any),
  (wr 0 [[100, 100, 100, 100]], .any),
  (wr 0 [[101, 101, 101, 101]], .any),
  (wr 0 [[102, 102, 102, 102]], .any),
  (wr 0 [[103, 103, 103, 103]], .any),
  (wr 0 [[104, 104, 104, 104]], .any),
  (wr 0 [[105, 105, 105, 105]], .any),
  (wr 0 [[106, 106]], .any),
  (.stat 1 none {}, .stat [33, 0, 10, 0, 0, 0, 34, 33, 10]),
  (wr 0 [[107, 107, 107, 107]], .any),
  (.stat 1 none {}, .stat [37, 0, 11, 0, 1, 3, 34, 34, 10]),
  (rd 1 37 1, .read [98]),
  (rd 1 37 1, .read [99, 99, 99]),
  (.close 0 {}, .closed),
  (.close 1 {}, .closed)] = true := by decide +kernel

/-- tests/test42.c, tests/test42.ans. -/
example : conforms { dataSz := 6, flags := (0#32) } [
  (opn 0 (SHR_WRONLY ||| SHR_NONBLOCK), .opened),
  (wr 0 [[97, 98, 99], [97, 98, 99]], .more 0),
  (wr 0 [[97, 98, 99]], .wrote 0),
  (.close 0 {}, .closed)] = true := by decide +kernel

/-- tests/test45.c, tests/test45.ans. -/
example : conforms { dataSz := 34, flags := (SHR_FARM ||| SHR_MAXMSGS_2), maxMsgs := 100 } [
  (opn 0 (SHR_WRONLY), .opened),
  (opn 1 (SHR_RDONLY ||| SHR_NONBLOCK), .opened),
  (wr 0 [[97, 97, 97]], .any),
  (wr 0 [[98]], .any),
  (wr 0 [[99, 99, 99]], .any),
  (wr 0 [[100, 100, 100, 100]], .any),
  (wr 0 [[101, 101, 101, 101]], .any),
  (wr 0 [[102, 102, 102, 102]], .any),
  (wr 0 [[103, 103, 103, 103]], .any),
  (wr 0 [[104, 104, 104, 104]], .any),
  (wr 0 [[105, 105, 105, 105]], .any),
  (wr 0 [[106, 106]], .any),
  (.stat 1 none {}, .stat [33, 0, 10, 0, 0, 0, 34, 33, 10]),
  (wr 0 [[107, 107, 107, 107]], .any),
  (.stat 1 none {}, .stat [37, 0, 11, 0, 1, 3, 34, 34, 10]),
  (rd 1 37 1, .read [98]),
  (rd 1 37 1, .read [99, 99, 99]),
  (opn 2 (SHR_RDONLY ||| SHR_NONBLOCK), .opened),
  (rd 2 37 1, .read [98]),
  (rd 2 37 1, .read [99, 99, 99]),
  (wr 0 [[108, 108, 108, 108]], .any),
  (wr 0 [[109, 109, 109, 109]], .any),
  (wr 0 [[110, 110, 110, 110]], .any),
  (wr 0 [[111, 111, 111, 111]], .any),
  (wr 0 [[112, 112, 112, 112]], .any),
  (wr 0 [[113, 113, 113, 113]], .any),
  (wr 0 [[114, 114, 114, 114]], .any),
  (wr 0 [[115, 115, 115, 115]], .any),
  (wr 0 [[116, 116, 116, 116]], .any),
  (wr 0 [[117, 117, 117, 117]], .any),
  (rd 1 37 1, .read [110, 110, 110, 110]),
  (rd 2 37 1, .read [110, 110, 110, 110]),
  (rd 2 37 1, .read [111, 111, 111, 111]),
  (rd 2 37 1, .read [112, 112, 112, 112]),
  (rd 2 37 1, .read [113, 113, 113, 113]),
  (rd 2 37 1, .read [114, 114, 114, 114]),
  (rd 2 37 1, .read [115, 115, 115, 115]),
  (rd 2 37 1, .read [116, 116, 116, 116]),
  (rd 2 37 1, .read [117, 117, 117, 117]),
  (rd 2 37 1, .count 0),
  (.close 0 {}, .closed),
  (.close 2 {}, .closed),
  (.close 1 {}, .closed)] = true := by decide +kernel

/-- tests/test46.c, tests/test46.ans. -/
example : conforms { dataSz := 20, flags := (SHR_DROP ||| SHR_MAXMSGS_2), maxMsgs := 100 } [
  (opn 0 (SHR_WRONLY), .opened),
  (opn 1 (SHR_RDONLY ||| SHR_NONBLOCK), .opened),
  (wr 0 [[97, 97, 97, 97, 97]], .any),
  (wr 0 [[98, 98, 98]], .any),
  (wr 0 [[99]], .any),
  (wr 0 [[100, 100, 100]], .any),
  (wr 0 [[101]], .any),
  (wr 0 [[102, 102, 102, 102, 102]], .any),
  (wr 0 [[103]], .any),
  (wr 0 [[104]], .any),
  (.stat 1 none {}, .stat [20, 0, 8, 0, 0, 0, 20, 20, 8]),
  (rd 1 37 1, .read [97, 97, 97, 97, 97]),
  (wr 0 [[105, 105, 105, 105, 105]], .any),
  (rd 1 37 1, .read [98, 98, 98]),
  (rd 1 37 1, .read [99]),
  (opn 2 (SHR_RDONLY ||| SHR_NONBLOCK), .opened),
  (.stat 2 none {}, .stat [25, 9, 9, 3, 0, 0, 20, 16, 6]),
  (rd 2 37 1, .read [100, 100, 100]),
  (rd 2 37 1, .read [101]),
  (wr 0 [[106, 106, 106, 106, 106]], .any),
  (rd 1 37 1, .read [102, 102, 102, 102, 102]),
  (rd 2 37 1, .read [103]),
  (.close 0 {}, .closed),
  (.close 2 {}, .closed),
  (.close 1 {}, .closed)] = true := by decide +kernel

/-- tests/test47.c, tests/test47.ans. -/
example : conforms { dataSz := 20, flags := (SHR_FARM ||| SHR_MAXMSGS_2), maxMsgs := 100 } [
  (opn 0 (SHR_WRONLY), .opened),
  (opn 1 (SHR_RDONLY ||| SHR_NONBLOCK), .opened),
  (wr 0 [[97, 97, 97, 97, 97]], .any),
  (wr 0 [[98, 98, 98]], .any),
  (wr 0 [[99]], .any),
  (wr 0 [[100, 100, 100]], .any),
  (wr 0 [[101]], .any),
  (wr 0 [[102, 102, 102, 102, 102]], .any),
  (wr 0 [[103]], .any),
  (wr 0 [[104]], .any),
  (.stat 1 none {}, .stat [20, 0, 8, 0, 0, 0, 20, 20, 8]),
  (rd 1 37 1, .read [97, 97, 97, 97, 97]),
  (wr 0 [[105, 105, 105, 105, 105]], .any),
  (rd 1 37 1, .read [98, 98, 98]),
  (rd 1 37 1, .read [99]),
  (opn 2 (SHR_RDONLY ||| SHR_NONBLOCK), .opened),
  (.stat 2 none {}, .stat [25, 9, 9, 3, 1, 5, 20, 20, 8]),
  (rd 2 37 1, .read [98, 98, 98]),
  (rd 2 37 1, .read [99]),
  (wr 0 [[106, 106, 106, 106, 106]], .any),
  (rd 1 37 1, .read [101]),
  (rd 2 37 1, .read [101]),
  (rd 1 37 1, .read [102, 102, 102, 102, 102]),
  (wr 0 [[107, 107, 107, 107, 107]], .any),
  (rd 1 37 1, .read [103]),
  (rd 2 37 1, .read [103]),
  (rd 1 37 1, .read [104]),
  (rd 1 37 1, .read [105, 105, 105, 105, 105]),
  (rd 1 37 1, .read [106, 106, 106, 106, 106]),
  (wr 0 [[108, 108, 108, 108, 108]], .any),
  (rd 1 37 1, .read [107, 107, 107, 107, 107]),
  (rd 2 37 1, .read [105, 105, 105, 105, 105]),
  (.close 0 {}, .closed),
  (.close 2 {}, .closed),
  (.close 1 {}, .closed)] = true := by decide +kernel

/-- tests/test48.c, tests/test48.ans. -/
example : conforms { dataSz := 20, flags := (SHR_FARM ||| SHR_MAXMSGS_2), maxMsgs := 1 } [
  (opn 0 (SHR_WRONLY), .opened),
  (opn 1 (SHR_RDONLY ||| SHR_NONBLOCK), .opened),
  (wr 0 [[97, 97, 97, 97, 97]], .any),
  (wr 0 [[98, 98, 98]], .any),
  (wr 0 [[99]], .any),
  (wr 0 [[100, 100, 100]], .any),
  (wr 0 [[101]], .any),
  (wr 0 [[102, 102, 102, 102, 102]], .any),
  (wr 0 [[103]], .any),
  (wr 0 [[104]], .any),
  (.stat 1 none {}, .stat [20, 0, 8, 0, 7, 19, 20, 1, 1]),
  (rd 1 37 1, .read [104]),
  (wr 0 [[105, 105, 105, 105, 105]], .any),
  (rd 1 37 1, .read [105, 105, 105, 105, 105]),
  (rd 1 37 1, .count 0),
  (opn 2 (SHR_RDONLY ||| SHR_NONBLOCK), .opened),
  (.stat 2 none {}, .stat [25, 6, 9, 2, 8, 20, 20, 5, 1]),
  (rd 2 37 1, .read [105, 105, 105, 105, 105]),
  (rd 2 37 1, .count 0),
  (wr 0 [[106, 106, 106, 106, 106]], .any),
  (rd 1 37 1, .read [106, 106, 106, 106, 106]),
  (rd 2 37 1, .read [106, 106, 106, 106, 106]),
  (wr 0 [[107, 107, 107]], .any),
  (rd 1 37 1, .read [107, 107, 107]),
  (rd 2 37 1, .read [107, 107, 107]),
  (wr 0 [[108, 108]], .any),
  (wr 0 [[109]], .any),
  (rd 1 37 1, .read [109]),
  (rd 2 37 1, .read [109]),
  (.close 0 {}, .closed),
  (.close 2 {}, .closed),
  (.close 1 {}, .closed)] = true := by decide +kernel

/-- tests/test49.c, tests/test49.ans. -/
example : conforms { dataSz := 20, flags := (SHR_FARM ||| SHR_MAXMSGS_2), maxMsgs := 2 } [
  (opn 0 (SHR_WRONLY), .opened),
  (opn 1 (SHR_RDONLY ||| SHR_NONBLOCK), .opened),
  (wr 0 [[97, 97, 97, 97, 97]], .any),
  (wr 0 [[98, 98, 98]], .any),
  (wr 0 [[99]], .any),
  (wr 0 [[100, 100, 100]], .any),
  (wr 0 [[101]], .any),
  (wr 0 [[102, 102, 102, 102, 102]], .any),
  (wr 0 [[103]], .any),
  (wr 0 [[104]], .any),
  (.stat 1 none {}, .stat [20, 0, 8, 0, 6, 18, 20, 2, 2]),
  (rd 1 37 1, .read [103]),
  (wr 0 [[105, 105, 105, 105, 105]], .any),
  (rd 1 37 1, .read [104]),
  (rd 1 37 1, .read [105, 105, 105, 105, 105]),
  (opn 2 (SHR_RDONLY ||| SHR_NONBLOCK), .opened),
  (.stat 2 none {}, .stat [25, 7, 9, 3, 7, 19, 20, 6, 2]),
  (rd 2 37 1, .read [104]),
  (rd 2 37 1, .read [105, 105, 105, 105, 105]),
  (wr 0 [[106, 106, 106, 106, 106]], .any),
  (rd 1 37 1, .read [106, 106, 106, 106, 106]),
  (rd 2 37 1, .read [106, 106, 106, 106, 106]),
  (wr 0 [[107, 107, 107]], .any),
  (rd 1 37 1, .read [107, 107, 107]),
  (rd 2 37 1, .read [107, 107, 107]),
  (wr 0 [[108, 108]], .any),
  (wr 0 [[109]], .any),
  (rd 1 37 1, .read [108, 108]),
  (rd 2 37 1, .read [108, 108]),
  (rd 1 37 1, .read [109]),
  (rd 2 37 1, .read [109]),
  (.close 2 {}, .closed),
  (opn 3 (SHR_RDONLY ||| SHR_NONBLOCK), .opened),
  (rd 3 37 1, .read [108, 108]),
  (rd 1 37 1, .count 0),
  (wr 0 [[110, 110]], .any),
  (rd 3 37 1, .read [109]),
  (rd 1 37 1, .read [110, 110]),
  (rd 3 37 1, .read [110, 110]),
  (rd 1 37 1, .count 0),
  (rd 3 37 1, .count 0),
  (.close 0 {}, .closed),
  (.close 3 {}, .closed),
  (.close 1 {}, .closed)] = true := by decide +kernel

/-- tests/test50.c, tests/test50.ans. -/
example : conforms { dataSz := 20, flags := (SHR_FARM ||| SHR_MAXMSGS_2), maxMsgs := 3 } [
  (opn 0 (SHR_WRONLY), .opened),
  (opn 1 (SHR_RDONLY ||| SHR_NONBLOCK), .opened),
  (wr 0 [[97, 97, 97, 97, 97]], .any),
  (wr 0 [[98, 98, 98]], .any),
  (wr 0 [[99]], .any),
  (wr 0 [[100, 100, 100]], .any),
  (wr 0 [[101]], .any),
  (wr 0 [[102, 102, 102, 102, 102]], .any),
  (wr 0 [[103]], .any),
  (wr 0 [[104]], .any),
  (.stat 1 none {}, .stat [20, 0, 8, 0, 5, 13, 20, 7, 3]),
  (rd 1 37 1, .read [102, 102, 102, 102, 102]),
  (wr 0 [[105, 105, 105, 105, 105]], .any),
  (rd 1 37 1, .read [103]),
  (rd 1 37 1, .read [104]),
  (opn 2 (SHR_RDONLY ||| SHR_NONBLOCK), .opened),
  (.stat 2 none {}, .stat [25, 7, 9, 3, 6, 18, 20, 7, 3]),
  (rd 2 37 1, .read [103]),
  (rd 2 37 1, .read [104]),
  (rd 2 37 1, .read [105, 105, 105, 105, 105]),
  (wr 0 [[106, 106, 106, 106, 106]], .any),
  (rd 1 37 1, .read [105, 105, 105, 105, 105]),
  (rd 2 37 1, .read [106, 106, 106, 106, 106]),
  (wr 0 [[107, 107, 107]], .any),
  (rd 1 37 1, .read [106, 106, 106, 106, 106]),
  (rd 2 37 1, .read [107, 107, 107]),
  (wr 0 [[108, 108]], .any),
  (wr 0 [[109]], .any),
  (rd 1 37 1, .read [107, 107, 107]),
  (rd 2 37 1, .read [108, 108]),
  (rd 1 37 1, .read [108, 108]),
  (rd 2 37 1, .read [109]),
  (.close 2 {}, .closed),
  (opn 3 (SHR_RDONLY ||| SHR_NONBLOCK), .opened),
  (rd 3 37 1, .read [107, 107, 107]),
  (rd 1 37 1, .read [109]),
  (wr 0 [[110, 110]], .any),
  (rd 3 37 1, .read [108, 108]),
  (rd 1 37 1, .read [110, 110]),
  (rd 3 37 1, .read [109]),
  (rd 1 37 1, .count 0),
  (rd 3 37 1, .read [110, 110]),
  (.close 0 {}, .closed),
  (.close 3 {}, .closed),
  (.close 1 {}, .closed)] = true := by decide +kernel

/-- tests/test51.c, tests/test51.ans. -/
example : conforms { dataSz := 20, flags := (SHR_DROP ||| SHR_MAXMSGS_2), maxMsgs := 3 } [
  (opn 0 (SHR_WRONLY), .opened),
  (opn 1 (SHR_RDONLY ||| SHR_NONBLOCK), .opened),
  (opn 2 (SHR_RDONLY ||| SHR_NONBLOCK), .opened),
  (wr 0 [[97, 98, 99, 100, 101, 102, 103, 104, 105, 106, 107, 108, 109, 110, 111, 112, 113, 114, 115, 116]], .wrote 20),
  (wr 0 [[98, 99, 100, 101, 102, 103, 104, 105, 106, 107, 108, 109, 110, 111, 112, 113, 114, 115, 116, 117]], .wrote 20),
  (wr 0 [[99, 100, 101, 102, 103, 104, 105, 106, 107, 108, 109, 110, 111, 112, 113, 114, 115, 116, 117, 118]], .wrote 20),
  (.stat 0 none {}, .stat [60, 0, 3, 0, 2, 40, 20, 20, 1]),
  (rd 1 37 1, .read [99, 100, 101, 102, 103, 104, 105, 106, 107, 108, 109, 110, 111, 112, 113, 114, 115, 116, 117, 118]),
  (wr 0 [[100, 101, 102, 103, 104, 105, 106, 107, 108, 109, 110, 111, 112, 113, 114, 115, 116, 117, 118, 119]], .wrote 20),
  (wr 0 [[101]], .any),
  (.stat 0 none {}, .stat [81, 20, 5, 1, 3, 60, 20, 1, 1]),
  (rd 1 37 1, .read [101]),
  (wr 0 [[102, 103, 104, 105, 106, 107, 108, 109, 110, 111, 112, 113, 114, 115, 116, 117, 118, 119, 120, 121]], .wrote 20),
  (rd 1 37 1, .read [102, 103, 104, 105, 106, 107, 108, 109, 110, 111, 112, 113, 114, 115, 116, 117, 118, 119, 120, 121]),
  (wr 0 [[103]], .any),
  (rd 1 37 1, .read [103]),
  (.close 0 {}, .closed),
  (.close 2 {}, .closed),
  (.close 1 {}, .closed)] = true := by decide +kernel

/-- tests/test62.c, tests/test62.ans. -/
example : conforms { dataSz := 8, flags := (SHR_APPDATA_1), app := [97, 98, 99, 100, 101, 102, 103, 104, 105, 106, 107, 108, 109, 110, 111, 112, 113, 114, 115, 116, 117, 118, 119, 120, 121, 122, 0] } [
  (opn 1 (SHR_RDONLY), .opened),
  (.appdata 1 .alloc none 0 {}, .appText [97, 98, 99, 100, 101, 102, 103, 104, 105, 106, 107, 108, 109, 110, 111, 112, 113, 114, 115, 116, 117, 118, 119, 120, 121, 122]),
  (.close 1 {}, .closed)] = true := by decide +kernel

/-- tests/test66.c, tests/test66.ans. -/
example : conforms { dataSz := 370, flags := (SHR_FARM ||| SHR_MAXMSGS_2), maxMsgs := 10 } [
  (opn 0 (SHR_RDONLY), .opened),
  (opn 1 (SHR_WRONLY), .opened),
  (wr 1 [[48, 0, 0, 0, 0, 0, 0, 0, 0, 0, 0, 0, 0, 0, 0, 0, 0, 0, 0, 0, 0, 0, 0, 0, 0, 0, 0, 0, 0, 0, 0, 0, 0, 0, 0, 0, 0]], .any),
  (wr 1 [[49, 0, 0, 0, 0, 0, 0, 0, 0, 0, 0, 0, 0, 0, 0, 0, 0, 0, 0, 0, 0, 0, 0, 0, 0, 0, 0, 0, 0, 0, 0, 0, 0, 0, 0, 0, 0]], .any),
  (wr 1 [[50, 0, 0, 0, 0, 0, 0, 0, 0, 0, 0, 0, 0, 0, 0, 0, 0, 0, 0, 0, 0, 0, 0, 0, 0, 0, 0, 0, 0, 0, 0, 0, 0, 0, 0, 0, 0]], .any),
  (wr 1 [[51, 0, 0, 0, 0, 0, 0, 0, 0, 0, 0, 0, 0, 0, 0, 0, 0, 0, 0, 0, 0, 0, 0, 0, 0, 0, 0, 0, 0, 0, 0, 0, 0, 0, 0, 0, 0]], .any),
  (wr 1 [[52, 0, 0, 0, 0, 0, 0, 0, 0, 0, 0, 0, 0, 0, 0, 0, 0, 0, 0, 0, 0, 0, 0, 0, 0, 0, 0, 0, 0, 0, 0, 0, 0, 0, 0, 0, 0]], .any),
  (wr 1 [[53, 0, 0, 0, 0, 0, 0, 0, 0, 0, 0, 0, 0, 0, 0, 0, 0, 0, 0, 0, 0, 0, 0, 0, 0, 0, 0, 0, 0, 0, 0, 0, 0, 0, 0, 0, 0]], .any),
  (wr 1 [[54, 0, 0, 0, 0, 0, 0, 0, 0, 0, 0, 0, 0, 0, 0, 0, 0, 0, 0, 0, 0, 0, 0, 0, 0, 0, 0, 0, 0, 0, 0, 0, 0, 0, 0, 0, 0]], .any),
  (wr 1 [[55, 0, 0, 0, 0, 0, 0, 0, 0, 0, 0, 0, 0, 0, 0, 0, 0, 0, 0, 0, 0, 0, 0, 0, 0, 0, 0, 0, 0, 0, 0, 0, 0, 0, 0, 0, 0]], .any),
  (wr 1 [[56, 0, 0, 0, 0, 0, 0, 0, 0, 0, 0, 0, 0, 0, 0, 0, 0, 0, 0, 0, 0, 0, 0, 0, 0, 0, 0, 0, 0, 0, 0, 0, 0, 0, 0, 0, 0]], .any),
  (wr 1 [[57, 0, 0, 0, 0, 0, 0, 0, 0, 0, 0, 0, 0, 0, 0, 0, 0, 0, 0, 0, 0, 0, 0, 0, 0, 0, 0, 0, 0, 0, 0, 0, 0, 0, 0, 0, 0]], .any),
  (rd 0 37 1, .text 37 [48]),
  (rd 0 37 1, .text 37 [49]),
  (rd 0 37 1, .text 37 [50]),
  (rd 0 37 1, .text 37 [51]),
  (rd 0 37 1, .text 37 [52]),
  (wr 1 [[49, 48, 0, 0, 0, 0, 0, 0, 0, 0, 0, 0, 0, 0, 0, 0, 0, 0, 0, 0, 0, 0, 0, 0, 0, 0, 0, 0, 0, 0, 0, 0, 0, 0, 0, 0, 0]], .any),
  (wr 1 [[49, 49, 0, 0, 0, 0, 0, 0, 0, 0, 0, 0, 0, 0, 0, 0, 0, 0, 0, 0, 0, 0, 0, 0, 0, 0, 0, 0, 0, 0, 0, 0, 0, 0, 0, 0, 0]], .any),
  (wr 1 [[49, 50, 0, 0, 0, 0, 0, 0, 0, 0, 0, 0, 0, 0, 0, 0, 0, 0, 0, 0, 0, 0, 0, 0, 0, 0, 0, 0, 0, 0, 0, 0, 0, 0, 0, 0, 0]], .any),
  (wr 1 [[49, 51, 0, 0, 0, 0, 0, 0, 0, 0, 0, 0, 0, 0, 0, 0, 0, 0, 0, 0, 0, 0, 0, 0, 0, 0, 0, 0, 0, 0, 0, 0, 0, 0, 0, 0, 0]], .any),
  (wr 1 [[49, 52, 0, 0, 0, 0, 0, 0, 0, 0, 0, 0, 0, 0, 0, 0, 0, 0, 0, 0, 0, 0, 0, 0, 0, 0, 0, 0, 0, 0, 0, 0, 0, 0, 0, 0, 0]], .any),
  (wr 1 [[49, 53, 0, 0, 0, 0, 0, 0, 0, 0, 0, 0, 0, 0, 0, 0, 0, 0, 0, 0, 0, 0, 0, 0, 0, 0, 0, 0, 0, 0, 0, 0, 0, 0, 0, 0, 0]], .any),
  (wr 1 [[49, 54, 0, 0, 0, 0, 0, 0, 0, 0, 0, 0, 0, 0, 0, 0, 0, 0, 0, 0, 0, 0, 0, 0, 0, 0, 0, 0, 0, 0, 0, 0, 0, 0, 0, 0, 0]], .any),
  (wr 1 [[49, 55, 0, 0, 0, 0, 0, 0, 0, 0, 0, 0, 0, 0, 0, 0, 0, 0, 0, 0, 0, 0, 0, 0, 0, 0, 0, 0, 0, 0, 0, 0, 0, 0, 0, 0, 0]], .any),
  (wr 1 [[49, 56, 0, 0, 0, 0, 0, 0, 0, 0, 0, 0, 0, 0, 0, 0, 0, 0, 0, 0, 0, 0, 0, 0, 0, 0, 0, 0, 0, 0, 0, 0, 0, 0, 0, 0, 0]], .any),
  (wr 1 [[49, 57, 0, 0, 0, 0, 0, 0, 0, 0, 0, 0, 0, 0, 0, 0, 0, 0, 0, 0, 0, 0, 0, 0, 0, 0, 0, 0, 0, 0, 0, 0, 0, 0, 0, 0, 0]], .any),
  (rd 0 37 1, .text 37 [49, 48]),
  (rd 0 37 1, .text 37 [49, 49]),
  (rd 0 37 1, .text 37 [49, 50]),
  (rd 0 37 1, .text 37 [49, 51]),
  (rd 0 37 1, .text 37 [49, 52]),
  (.close 1 {}, .closed),
  (.close 0 {}, .closed)] = true := by decide +kernel

/-- tests/test67.c, tests/test67.ans. -/
example : conforms { dataSz := 370, flags := (SHR_FARM ||| SHR_MAXMSGS_2), maxMsgs := 10 } [
  (opn 0 (SHR_RDONLY), .opened),
  (opn 1 (SHR_WRONLY), .opened),
  (wr 1 [[48, 0, 0, 0, 0, 0, 0, 0, 0, 0, 0, 0, 0, 0, 0, 0, 0, 0, 0, 0, 0, 0, 0, 0, 0, 0, 0, 0, 0, 0, 0, 0, 0, 0, 0, 0, 0]], .any),
  (wr 1 [[49, 0, 0, 0, 0, 0, 0, 0, 0, 0, 0, 0, 0, 0, 0, 0, 0, 0, 0, 0, 0, 0, 0, 0, 0, 0, 0, 0, 0, 0, 0, 0, 0, 0, 0, 0, 0]], .any),
  (wr 1 [[50, 0, 0, 0, 0, 0, 0, 0, 0, 0, 0, 0, 0, 0, 0, 0, 0, 0, 0, 0, 0, 0, 0, 0, 0, 0, 0, 0, 0, 0, 0, 0, 0, 0, 0, 0, 0]], .any),
  (wr 1 [[51, 0, 0, 0, 0, 0, 0, 0, 0, 0, 0, 0, 0, 0, 0, 0, 0, 0, 0, 0, 0, 0, 0, 0, 0, 0, 0, 0, 0, 0, 0, 0, 0, 0, 0, 0, 0]], .any),
  (wr 1 [[52, 0, 0, 0, 0, 0, 0, 0, 0, 0, 0, 0, 0, 0, 0, 0, 0, 0, 0, 0, 0, 0, 0, 0, 0, 0, 0, 0, 0, 0, 0, 0, 0, 0, 0, 0, 0]], .any),
  (wr 1 [[53, 0, 0, 0, 0, 0, 0, 0, 0, 0, 0, 0, 0, 0, 0, 0, 0, 0, 0, 0, 0, 0, 0, 0, 0, 0, 0, 0, 0, 0, 0, 0, 0, 0, 0, 0, 0]], .any),
  (wr 1 [[54, 0, 0, 0, 0, 0, 0, 0, 0, 0, 0, 0, 0, 0, 0, 0, 0, 0, 0, 0, 0, 0, 0, 0, 0, 0, 0, 0, 0, 0, 0, 0, 0, 0, 0, 0, 0]], .any),
  (wr 1 [[55, 0, 0, 0, 0, 0, 0, 0, 0, 0, 0, 0, 0, 0, 0, 0, 0, 0, 0, 0, 0, 0, 0, 0, 0, 0, 0, 0, 0, 0, 0, 0, 0, 0, 0, 0, 0]], .any),
  (wr 1 [[56, 0, 0, 0, 0, 0, 0, 0, 0, 0, 0, 0, 0, 0, 0, 0, 0, 0, 0, 0, 0, 0, 0, 0, 0, 0, 0, 0, 0, 0, 0, 0, 0, 0, 0, 0, 0]], .any),
  (wr 1 [[57, 0, 0, 0, 0, 0, 0, 0, 0, 0, 0, 0, 0, 0, 0, 0, 0, 0, 0, 0, 0, 0, 0, 0, 0, 0, 0, 0, 0, 0, 0, 0, 0, 0, 0, 0, 0]], .any),
  (rd 0 37 1, .text 37 [48]),
  (rd 0 37 1, .text 37 [49]),
  (rd 0 37 1, .text 37 [50]),
  (rd 0 37 1, .text 37 [51]),
  (rd 0 37 1, .text 37 [52]),
  (wr 1 [[49, 48, 0, 0, 0, 0, 0, 0, 0, 0, 0, 0, 0, 0, 0, 0, 0, 0, 0, 0, 0, 0, 0, 0, 0, 0, 0, 0, 0, 0, 0, 0, 0, 0, 0, 0, 0]], .any),
  (wr 1 [[49, 49, 0, 0, 0, 0, 0, 0, 0, 0, 0, 0, 0, 0, 0, 0, 0, 0, 0, 0, 0, 0, 0, 0, 0, 0, 0, 0, 0, 0, 0, 0, 0, 0, 0, 0, 0]], .any),
  (wr 1 [[49, 50, 0, 0, 0, 0, 0, 0, 0, 0, 0, 0, 0, 0, 0, 0, 0, 0, 0, 0, 0, 0, 0, 0, 0, 0, 0, 0, 0, 0, 0, 0, 0, 0, 0, 0, 0]], .any),
  (wr 1 [[49, 51, 0, 0, 0, 0, 0, 0, 0, 0, 0, 0, 0, 0, 0, 0, 0, 0, 0, 0, 0, 0, 0, 0, 0, 0, 0, 0, 0, 0, 0, 0, 0, 0, 0, 0, 0]], .any),
  (wr 1 [[49, 52, 0, 0, 0, 0, 0, 0, 0, 0, 0, 0, 0, 0, 0, 0, 0, 0, 0, 0, 0, 0, 0, 0, 0, 0, 0, 0, 0, 0, 0, 0, 0, 0, 0, 0, 0]], .any),
  (wr 1 [[49, 53, 0, 0, 0, 0, 0, 0, 0, 0, 0, 0, 0, 0, 0, 0, 0, 0, 0, 0, 0, 0, 0, 0, 0, 0, 0, 0, 0, 0, 0, 0, 0, 0, 0, 0, 0]], .any),
  (wr 1 [[49, 54, 0, 0, 0, 0, 0, 0, 0, 0, 0, 0, 0, 0, 0, 0, 0, 0, 0, 0, 0, 0, 0, 0, 0, 0, 0, 0, 0, 0, 0, 0, 0, 0, 0, 0, 0]], .any),
  (wr 1 [[49, 55, 0, 0, 0, 0, 0, 0, 0, 0, 0, 0, 0, 0, 0, 0, 0, 0, 0, 0, 0, 0, 0, 0, 0, 0, 0, 0, 0, 0, 0, 0, 0, 0, 0, 0, 0]], .any),
  (wr 1 [[49, 56, 0, 0, 0, 0, 0, 0, 0, 0, 0, 0, 0, 0, 0, 0, 0, 0, 0, 0, 0, 0, 0, 0, 0, 0, 0, 0, 0, 0, 0, 0, 0, 0, 0, 0, 0]], .any),
  (wr 1 [[49, 57, 0, 0, 0, 0, 0, 0, 0, 0, 0, 0, 0, 0, 0, 0, 0, 0, 0, 0, 0, 0, 0, 0, 0, 0, 0, 0, 0, 0, 0, 0, 0, 0, 0, 0, 0]], .any),
  (rd 0 37 1, .text 37 [49, 48]),
  (rd 0 37 1, .text 37 [49, 49]),
  (rd 0 37 1, .text 37 [49, 50]),
  (rd 0 37 1, .text 37 [49, 51]),
  (rd 0 37 1, .text 37 [49, 52]),
  (rd 0 37 1, .text 37 [49, 53]),
  (rd 0 37 1, .text 37 [49, 54]),
  (rd 0 37 1, .text 37 [49, 55]),
  (rd 0 37 1, .text 37 [49, 56]),
  (rd 0 37 1, .text 37 [49, 57]),
  (.close 1 {}, .closed),
  (.close 0 {}, .closed)] = true := by decide +kernel

/-- tests/test68.c, tests/test68.ans. -/
example : conforms { dataSz := 370, flags := (SHR_FARM ||| SHR_MAXMSGS_2), maxMsgs := 10 } [
  (opn 0 (SHR_RDONLY), .opened),
  (opn 1 (SHR_WRONLY), .opened),
  (wr 1 [[48, 0, 0, 0, 0, 0, 0, 0, 0, 0, 0, 0, 0, 0, 0, 0, 0, 0, 0, 0, 0, 0, 0, 0, 0, 0, 0, 0, 0, 0, 0, 0, 0, 0, 0, 0, 0]], .any),
  (wr 1 [[49, 0, 0, 0, 0, 0, 0, 0, 0, 0, 0, 0, 0, 0, 0, 0, 0, 0, 0, 0, 0, 0, 0, 0, 0, 0, 0, 0, 0, 0, 0, 0, 0, 0, 0, 0, 0]], .any),
  (wr 1 [[50, 0, 0, 0, 0, 0, 0, 0, 0, 0, 0, 0, 0, 0, 0, 0, 0, 0, 0, 0, 0, 0, 0, 0, 0, 0, 0, 0, 0, 0, 0, 0, 0, 0, 0, 0, 0]], .any),
  (wr 1 [[51, 0, 0, 0, 0, 0, 0, 0, 0, 0, 0, 0, 0, 0, 0, 0, 0, 0, 0, 0, 0, 0, 0, 0, 0, 0, 0, 0, 0, 0, 0, 0, 0, 0, 0, 0, 0]], .any),
  (wr 1 [[52, 0, 0, 0, 0, 0, 0, 0, 0, 0, 0, 0, 0, 0, 0, 0, 0, 0, 0, 0, 0, 0, 0, 0, 0, 0, 0, 0, 0, 0, 0, 0, 0, 0, 0, 0, 0]], .any),
  (wr 1 [[53, 0, 0, 0, 0, 0, 0, 0, 0, 0, 0, 0, 0, 0, 0, 0, 0, 0, 0, 0, 0, 0, 0, 0, 0, 0, 0, 0, 0, 0, 0, 0, 0, 0, 0, 0, 0]], .any),
  (wr 1 [[54, 0, 0, 0, 0, 0, 0, 0, 0, 0, 0, 0, 0, 0, 0, 0, 0, 0, 0, 0, 0, 0, 0, 0, 0, 0, 0, 0, 0, 0, 0, 0, 0, 0, 0, 0, 0]], .any),
  (wr 1 [[55, 0, 0, 0, 0, 0, 0, 0, 0, 0, 0, 0, 0, 0, 0, 0, 0, 0, 0, 0, 0, 0, 0, 0, 0, 0, 0, 0, 0, 0, 0, 0, 0, 0, 0, 0, 0]], .any),
  (wr 1 [[56, 0, 0, 0, 0, 0, 0, 0, 0, 0, 0, 0, 0, 0, 0, 0, 0, 0, 0, 0, 0, 0, 0, 0, 0, 0, 0, 0, 0, 0, 0, 0, 0, 0, 0, 0, 0]], .any),
  (wr 1 [[57, 0, 0, 0, 0, 0, 0, 0, 0, 0, 0, 0, 0, 0, 0, 0, 0, 0, 0, 0, 0, 0, 0, 0, 0, 0, 0, 0, 0, 0, 0, 0, 0, 0, 0, 0, 0]], .any),
  (rd 0 37 1, .text 37 [48]),
  (rd 0 37 1, .text 37 [49]),
  (rd 0 37 1, .text 37 [50]),
  (rd 0 37 1, .text 37 [51]),
  (rd 0 37 1, .text 37 [52]),
  (wr 1 [[49, 48, 0, 0, 0, 0, 0, 0, 0, 0, 0, 0, 0, 0, 0, 0, 0, 0, 0, 0, 0, 0, 0, 0, 0, 0, 0, 0, 0, 0, 0, 0, 0, 0, 0, 0, 0]], .any),
  (wr 1 [[49, 49, 0, 0, 0, 0, 0, 0, 0, 0, 0, 0, 0, 0, 0, 0, 0, 0, 0, 0, 0, 0, 0, 0, 0, 0, 0, 0, 0, 0, 0, 0, 0, 0, 0, 0, 0]], .any),
  (wr 1 [[49, 50, 0, 0, 0, 0, 0, 0, 0, 0, 0, 0, 0, 0, 0, 0, 0, 0, 0, 0, 0, 0, 0, 0, 0, 0, 0, 0, 0, 0, 0, 0, 0, 0, 0, 0, 0]], .any),
  (wr 1 [[49, 51, 0, 0, 0, 0, 0, 0, 0, 0, 0, 0, 0, 0, 0, 0, 0, 0, 0, 0, 0, 0, 0, 0, 0, 0, 0, 0, 0, 0, 0, 0, 0, 0, 0, 0, 0]], .any),
  (wr 1 [[49, 52, 0, 0, 0, 0, 0, 0, 0, 0, 0, 0, 0, 0, 0, 0, 0, 0, 0, 0, 0, 0, 0, 0, 0, 0, 0, 0, 0, 0, 0, 0, 0, 0, 0, 0, 0]], .any),
  (wr 1 [[49, 53, 0, 0, 0, 0, 0, 0, 0, 0, 0, 0, 0, 0, 0, 0, 0, 0, 0, 0, 0, 0, 0, 0, 0, 0, 0, 0, 0, 0, 0, 0, 0, 0, 0, 0, 0]], .any),
  (wr 1 [[49, 54, 0, 0, 0, 0, 0, 0, 0, 0, 0, 0, 0, 0, 0, 0, 0, 0, 0, 0, 0, 0, 0, 0, 0, 0, 0, 0, 0, 0, 0, 0, 0, 0, 0, 0, 0]], .any),
  (wr 1 [[49, 55, 0, 0, 0, 0, 0, 0, 0, 0, 0, 0, 0, 0, 0, 0, 0, 0, 0, 0, 0, 0, 0, 0, 0, 0, 0, 0, 0, 0, 0, 0, 0, 0, 0, 0, 0]], .any),
  (wr 1 [[49, 56, 0, 0, 0, 0, 0, 0, 0, 0, 0, 0, 0, 0, 0, 0, 0, 0, 0, 0, 0, 0, 0, 0, 0, 0, 0, 0, 0, 0, 0, 0, 0, 0, 0, 0, 0]], .any),
  (wr 1 [[49, 57, 0, 0, 0, 0, 0, 0, 0, 0, 0, 0, 0, 0, 0, 0, 0, 0, 0, 0, 0, 0, 0, 0, 0, 0, 0, 0, 0, 0, 0, 0, 0, 0, 0, 0, 0]], .any),
  (rd 0 37 1, .text 37 [49, 48]),
  (rd 0 37 1, .text 37 [49, 49]),
  (rd 0 37 1, .text 37 [49, 50]),
  (rd 0 37 1, .text 37 [49, 51]),
  (rd 0 37 1, .text 37 [49, 52]),
  (rd 0 37 1, .text 37 [49, 53]),
  (rd 0 37 1, .text 37 [49, 54]),
  (rd 0 37 1, .text 37 [49, 55]),
  (rd 0 37 1, .text 37 [49, 56]),
  (rd 0 37 1, .text 37 [49, 57]),
  (.close 0 {}, .closed),
  (opn 2 (SHR_RDONLY), .opened),
  (rd 2 37 1, .text 37 [49, 48]),
  (rd 2 37 1, .text 37 [49, 49]),
  (rd 2 37 1, .text 37 [49, 50]),
  (rd 2 37 1, .text 37 [49, 51]),
  (rd 2 37 1, .text 37 [49, 52]),
  (rd 2 37 1, .text 37 [49, 53]),
  (rd 2 37 1, .text 37 [49, 54]),
  (rd 2 37 1, .text 37 [49, 55]),
  (rd 2 37 1, .text 37 [49, 56]),
  (rd 2 37 1, .text 37 [49, 57]),
  (.close 2 {}, .closed),
  (.close 1 {}, .closed)] = true := by decide +kernel

/-- tests/test69.c, tests/test69.ans. -/
example : conforms { dataSz := 370, flags := (SHR_DROP ||| SHR_MAXMSGS_2), maxMsgs := 10 } [
  (opn 0 (SHR_RDONLY ||| SHR_NONBLOCK), .opened),
  (opn 1 (SHR_WRONLY), .opened),
  (wr 1 [[48, 0, 0, 0, 0, 0, 0, 0, 0, 0, 0, 0, 0, 0, 0, 0, 0, 0, 0, 0, 0, 0, 0, 0, 0, 0, 0, 0, 0, 0, 0, 0, 0, 0, 0, 0, 0]], .any),
  (wr 1 [[49, 0, 0, 0, 0, 0, 0, 0, 0, 0, 0, 0, 0, 0, 0, 0, 0, 0, 0, 0, 0, 0, 0, 0, 0, 0, 0, 0, 0, 0, 0, 0, 0, 0, 0, 0, 0]], .any),
  (wr 1 [[50, 0, 0, 0, 0, 0, 0, 0, 0, 0, 0, 0, 0, 0, 0, 0, 0, 0, 0, 0, 0, 0, 0, 0, 0, 0, 0, 0, 0, 0, 0, 0, 0, 0, 0, 0, 0]], .any),
  (wr 1 [[51, 0, 0, 0, 0, 0, 0, 0, 0, 0, 0, 0, 0, 0, 0, 0, 0, 0, 0, 0, 0, 0, 0, 0, 0, 0, 0, 0, 0, 0, 0, 0, 0, 0, 0, 0, 0]], .any),
  (wr 1 [[52, 0, 0, 0, 0, 0, 0, 0, 0, 0, 0, 0, 0, 0, 0, 0, 0, 0, 0, 0, 0, 0, 0, 0, 0, 0, 0, 0, 0, 0, 0, 0, 0, 0, 0, 0, 0]], .any),
  (wr 1 [[53, 0, 0, 0, 0, 0, 0, 0, 0, 0, 0, 0, 0, 0, 0, 0, 0, 0, 0, 0, 0, 0, 0, 0, 0, 0, 0, 0, 0, 0, 0, 0, 0, 0, 0, 0, 0]], .any),
  (wr 1 [[54, 0, 0, 0, 0, 0, 0, 0, 0, 0, 0, 0, 0, 0, 0, 0, 0, 0, 0, 0, 0, 0, 0, 0, 0, 0, 0, 0, 0, 0, 0, 0, 0, 0, 0, 0, 0]], .any),
  (wr 1 [[55, 0, 0, 0, 0, 0, 0, 0, 0, 0, 0, 0, 0, 0, 0, 0, 0, 0, 0, 0, 0, 0, 0, 0, 0, 0, 0, 0, 0, 0, 0, 0, 0, 0, 0, 0, 0]], .any),
  (wr 1 [[56, 0, 0, 0, 0, 0, 0, 0, 0, 0, 0, 0, 0, 0, 0, 0, 0, 0, 0, 0, 0, 0, 0, 0, 0, 0, 0, 0, 0, 0, 0, 0, 0, 0, 0, 0, 0]], .any),
  (wr 1 [[57, 0, 0, 0, 0, 0, 0, 0, 0, 0, 0, 0, 0, 0, 0, 0, 0, 0, 0, 0, 0, 0, 0, 0, 0, 0, 0, 0, 0, 0, 0, 0, 0, 0, 0, 0, 0]], .any),
  (rd 0 37 1, .text 37 [48]),
  (rd 0 37 1, .text 37 [49]),
  (rd 0 37 1, .text 37 [50]),
  (rd 0 37 1, .text 37 [51]),
  (rd 0 37 1, .text 37 [52]),
  (wr 1 [[49, 48, 0, 0, 0, 0, 0, 0, 0, 0, 0, 0, 0, 0, 0, 0, 0, 0, 0, 0, 0, 0, 0, 0, 0, 0, 0, 0, 0, 0, 0, 0, 0, 0, 0, 0, 0]], .any),
  (wr 1 [[49, 49, 0, 0, 0, 0, 0, 0, 0, 0, 0, 0, 0, 0, 0, 0, 0, 0, 0, 0, 0, 0, 0, 0, 0, 0, 0, 0, 0, 0, 0, 0, 0, 0, 0, 0, 0]], .any),
  (wr 1 [[49, 50, 0, 0, 0, 0, 0, 0, 0, 0, 0, 0, 0, 0, 0, 0, 0, 0, 0, 0, 0, 0, 0, 0, 0, 0, 0, 0, 0, 0, 0, 0, 0, 0, 0, 0, 0]], .any),
  (wr 1 [[49, 51, 0, 0, 0, 0, 0, 0, 0, 0, 0, 0, 0, 0, 0, 0, 0, 0, 0, 0, 0, 0, 0, 0, 0, 0, 0, 0, 0, 0, 0, 0, 0, 0, 0, 0, 0]], .any),
  (wr 1 [[49, 52, 0, 0, 0, 0, 0, 0, 0, 0, 0, 0, 0, 0, 0, 0, 0, 0, 0, 0, 0, 0, 0, 0, 0, 0, 0, 0, 0, 0, 0, 0, 0, 0, 0, 0, 0]], .any),
  (wr 1 [[49, 53, 0, 0, 0, 0, 0, 0, 0, 0, 0, 0, 0, 0, 0, 0, 0, 0, 0, 0, 0, 0, 0, 0, 0, 0, 0, 0, 0, 0, 0, 0, 0, 0, 0, 0, 0]], .any),
  (wr 1 [[49, 54, 0, 0, 0, 0, 0, 0, 0, 0, 0, 0, 0, 0, 0, 0, 0, 0, 0, 0, 0, 0, 0, 0, 0, 0, 0, 0, 0, 0, 0, 0, 0, 0, 0, 0, 0]], .any),
  (wr 1 [[49, 55, 0, 0, 0, 0, 0, 0, 0, 0, 0, 0, 0, 0, 0, 0, 0, 0, 0, 0, 0, 0, 0, 0, 0, 0, 0, 0, 0, 0, 0, 0, 0, 0, 0, 0, 0]], .any),
  (wr 1 [[49, 56, 0, 0, 0, 0, 0, 0, 0, 0, 0, 0, 0, 0, 0, 0, 0, 0, 0, 0, 0, 0, 0, 0, 0, 0, 0, 0, 0, 0, 0, 0, 0, 0, 0, 0, 0]], .any),
  (wr 1 [[49, 57, 0, 0, 0, 0, 0, 0, 0, 0, 0, 0, 0, 0, 0, 0, 0, 0, 0, 0, 0, 0, 0, 0, 0, 0, 0, 0, 0, 0, 0, 0, 0, 0, 0, 0, 0]], .any),
  (rd 0 37 1, .text 37 [49, 48]),
  (rd 0 37 1, .text 37 [49, 49]),
  (rd 0 37 1, .text 37 [49, 50]),
  (rd 0 37 1, .text 37 [49, 51]),
  (rd 0 37 1, .text 37 [49, 52]),
  (rd 0 37 1, .text 37 [49, 53]),
  (rd 0 37 1, .text 37 [49, 54]),
  (rd 0 37 1, .text 37 [49, 55]),
  (rd 0 37 1, .text 37 [49, 56]),
  (rd 0 37 1, .text 37 [49, 57]),
  (.close 0 {}, .closed),
  (opn 2 (SHR_RDONLY ||| SHR_NONBLOCK), .opened),
  (rd 2 37 1, .count 0),
  (rd 2 37 1, .count 0),
  (.close 2 {}, .closed),
  (.close 1 {}, .closed)] = true := by decide +kernel

/-- tests/test70.c, tests/test70.ans. -/
example : conforms { dataSz := 370, flags := (SHR_FARM ||| SHR_MAXMSGS_2), maxMsgs := 10 } [
  (opn 0 (SHR_WRONLY), .opened),
  (opn 1 (SHR_RDONLY), .opened),
  (opn 2 (SHR_RDONLY), .opened),
  (wr 0 [[48, 0, 0, 0, 0, 0, 0, 0, 0, 0, 0, 0, 0, 0, 0, 0, 0, 0, 0, 0, 0, 0, 0, 0, 0, 0, 0, 0, 0, 0, 0, 0, 0, 0, 0, 0, 0]], .any),
  (wr 0 [[49, 0, 0, 0, 0, 0, 0, 0, 0, 0, 0, 0, 0, 0, 0, 0, 0, 0, 0, 0, 0, 0, 0, 0, 0, 0, 0, 0, 0, 0, 0, 0, 0, 0, 0, 0, 0]], .any),
  (wr 0 [[50, 0, 0, 0, 0, 0, 0, 0, 0, 0, 0, 0, 0, 0, 0, 0, 0, 0, 0, 0, 0, 0, 0, 0, 0, 0, 0, 0, 0, 0, 0, 0, 0, 0, 0, 0, 0]], .any),
  (wr 0 [[51, 0, 0, 0, 0, 0, 0, 0, 0, 0, 0, 0, 0, 0, 0, 0, 0, 0, 0, 0, 0, 0, 0, 0, 0, 0, 0, 0, 0, 0, 0, 0, 0, 0, 0, 0, 0]], .any),
  (wr 0 [[52, 0, 0, 0, 0, 0, 0, 0, 0, 0, 0, 0, 0, 0, 0, 0, 0, 0, 0, 0, 0, 0, 0, 0, 0, 0, 0, 0, 0, 0, 0, 0, 0, 0, 0, 0, 0]], .any),
  (wr 0 [[53, 0, 0, 0, 0, 0, 0, 0, 0, 0, 0, 0, 0, 0, 0, 0, 0, 0, 0, 0, 0, 0, 0, 0, 0, 0, 0, 0, 0, 0, 0, 0, 0, 0, 0, 0, 0]], .any),
  (wr 0 [[54, 0, 0, 0, 0, 0, 0, 0, 0, 0, 0, 0, 0, 0, 0, 0, 0, 0, 0, 0, 0, 0, 0, 0, 0, 0, 0, 0, 0, 0, 0, 0, 0, 0, 0, 0, 0]], .any),
  (wr 0 [[55, 0, 0, 0, 0, 0, 0, 0, 0, 0, 0, 0, 0, 0, 0, 0, 0, 0, 0, 0, 0, 0, 0, 0, 0, 0, 0, 0, 0, 0, 0, 0, 0, 0, 0, 0, 0]], .any),
  (wr 0 [[56, 0, 0, 0, 0, 0, 0, 0, 0, 0, 0, 0, 0, 0, 0, 0, 0, 0, 0, 0, 0, 0, 0, 0, 0, 0, 0, 0, 0, 0, 0, 0, 0, 0, 0, 0, 0]], .any),
  (wr 0 [[57, 0, 0, 0, 0, 0, 0, 0, 0, 0, 0, 0, 0, 0, 0, 0, 0, 0, 0, 0, 0, 0, 0, 0, 0, 0, 0, 0, 0, 0, 0, 0, 0, 0, 0, 0, 0]], .any),
  (wr 0 [[49, 48, 0, 0, 0, 0, 0, 0, 0, 0, 0, 0, 0, 0, 0, 0, 0, 0, 0, 0, 0, 0, 0, 0, 0, 0, 0, 0, 0, 0, 0, 0, 0, 0, 0, 0, 0]], .any),
  (wr 0 [[49, 49, 0, 0, 0, 0, 0, 0, 0, 0, 0, 0, 0, 0, 0, 0, 0, 0, 0, 0, 0, 0, 0, 0, 0, 0, 0, 0, 0, 0, 0, 0, 0, 0, 0, 0, 0]], .any),
  (wr 0 [[49, 50, 0, 0, 0, 0, 0, 0, 0, 0, 0, 0, 0, 0, 0, 0, 0, 0, 0, 0, 0, 0, 0, 0, 0, 0, 0, 0, 0, 0, 0, 0, 0, 0, 0, 0, 0]], .any),
  (wr 0 [[49, 51, 0, 0, 0, 0, 0, 0, 0, 0, 0, 0, 0, 0, 0, 0, 0, 0, 0, 0, 0, 0, 0, 0, 0, 0, 0, 0, 0, 0, 0, 0, 0, 0, 0, 0, 0]], .any),
  (wr 0 [[49, 52, 0, 0, 0, 0, 0, 0, 0, 0, 0, 0, 0, 0, 0, 0, 0, 0, 0, 0, 0, 0, 0, 0, 0, 0, 0, 0, 0, 0, 0, 0, 0, 0, 0, 0, 0]], .any),
  (wr 0 [[49, 53, 0, 0, 0, 0, 0, 0, 0, 0, 0, 0, 0, 0, 0, 0, 0, 0, 0, 0, 0, 0, 0, 0, 0, 0, 0, 0, 0, 0, 0, 0, 0, 0, 0, 0, 0]], .any),
  (wr 0 [[49, 54, 0, 0, 0, 0, 0, 0, 0, 0, 0, 0, 0, 0, 0, 0, 0, 0, 0, 0, 0, 0, 0, 0, 0, 0, 0, 0, 0, 0, 0, 0, 0, 0, 0, 0, 0]], .any),
  (wr 0 [[49, 55, 0, 0, 0, 0, 0, 0, 0, 0, 0, 0, 0, 0, 0, 0, 0, 0, 0, 0, 0, 0, 0, 0, 0, 0, 0, 0, 0, 0, 0, 0, 0, 0, 0, 0, 0]], .any),
  (wr 0 [[49, 56, 0, 0, 0, 0, 0, 0, 0, 0, 0, 0, 0, 0, 0, 0, 0, 0, 0, 0, 0, 0, 0, 0, 0, 0, 0, 0, 0, 0, 0, 0, 0, 0, 0, 0, 0]], .any),
  (wr 0 [[49, 57, 0, 0, 0, 0, 0, 0, 0, 0, 0, 0, 0, 0, 0, 0, 0, 0, 0, 0, 0, 0, 0, 0, 0, 0, 0, 0, 0, 0, 0, 0, 0, 0, 0, 0, 0]], .any),
  (rd 1 37 1, .text 37 [49, 48]),
  (rd 1 37 1, .text 37 [49, 49]),
  (rd 1 37 1, .text 37 [49, 50]),
  (rd 1 37 1, .text 37 [49, 51]),
  (rd 1 37 1, .text 37 [49, 52]),
  (rd 2 37 1, .text 37 [49, 48]),
  (rd 2 37 1, .text 37 [49, 49]),
  (rd 2 37 1, .text 37 [49, 50]),
  (rd 2 37 1, .text 37 [49, 51]),
  (rd 2 37 1, .text 37 [49, 52]),
  (wr 0 [[50, 48, 0, 0, 0, 0, 0, 0, 0, 0, 0, 0, 0, 0, 0, 0, 0, 0, 0, 0, 0, 0, 0, 0, 0, 0, 0, 0, 0, 0, 0, 0, 0, 0, 0, 0, 0]], .any),
  (wr 0 [[50, 49, 0, 0, 0, 0, 0, 0, 0, 0, 0, 0, 0, 0, 0, 0, 0, 0, 0, 0, 0, 0, 0, 0, 0, 0, 0, 0, 0, 0, 0, 0, 0, 0, 0, 0, 0]], .any),
  (wr 0 [[50, 50, 0, 0, 0, 0, 0, 0, 0, 0, 0, 0, 0, 0, 0, 0, 0, 0, 0, 0, 0, 0, 0, 0, 0, 0, 0, 0, 0, 0, 0, 0, 0, 0, 0, 0, 0]], .any),
  (wr 0 [[50, 51, 0, 0, 0, 0, 0, 0, 0, 0, 0, 0, 0, 0, 0, 0, 0, 0, 0, 0, 0, 0, 0, 0, 0, 0, 0, 0, 0, 0, 0, 0, 0, 0, 0, 0, 0]], .any),
  (wr 0 [[50, 52, 0, 0, 0, 0, 0, 0, 0, 0, 0, 0, 0, 0, 0, 0, 0, 0, 0, 0, 0, 0, 0, 0, 0, 0, 0, 0, 0, 0, 0, 0, 0, 0, 0, 0, 0]], .any),
  (wr 0 [[50, 53, 0, 0, 0, 0, 0, 0, 0, 0, 0, 0, 0, 0, 0, 0, 0, 0, 0, 0, 0, 0, 0, 0, 0, 0, 0, 0, 0, 0, 0, 0, 0, 0, 0, 0, 0]], .any),
  (wr 0 [[50, 54, 0, 0, 0, 0, 0, 0, 0, 0, 0, 0, 0, 0, 0, 0, 0, 0, 0, 0, 0, 0, 0, 0, 0, 0, 0, 0, 0, 0, 0, 0, 0, 0, 0, 0, 0]], .any),
  (wr 0 [[50, 55, 0, 0, 0, 0, 0, 0, 0, 0, 0, 0, 0, 0, 0, 0, 0, 0, 0, 0, 0, 0, 0, 0, 0, 0, 0, 0, 0, 0, 0, 0, 0, 0, 0, 0, 0]], .any),
  (wr 0 [[50, 56, 0, 0, 0, 0, 0, 0, 0, 0, 0, 0, 0, 0, 0, 0, 0, 0, 0, 0, 0, 0, 0, 0, 0, 0, 0, 0, 0, 0, 0, 0, 0, 0, 0, 0, 0]], .any),
  (wr 0 [[50, 57, 0, 0, 0, 0, 0, 0, 0, 0, 0, 0, 0, 0, 0, 0, 0, 0, 0, 0, 0, 0, 0, 0, 0, 0, 0, 0, 0, 0, 0, 0, 0, 0, 0, 0, 0]], .any),
  (rd 1 37 1, .text 37 [50, 48]),
  (rd 1 37 1, .text 37 [50, 49]),
  (rd 1 37 1, .text 37 [50, 50]),
  (rd 1 37 1, .text 37 [50, 51]),
  (rd 1 37 1, .text 37 [50, 52]),
  (rd 2 37 1, .text 37 [50, 48]),
  (rd 2 37 1, .text 37 [50, 49]),
  (rd 2 37 1, .text 37 [50, 50]),
  (rd 2 37 1, .text 37 [50, 51]),
  (rd 2 37 1, .text 37 [50, 52]),
  (.close 0 {}, .closed),
  (.close 1 {}, .closed),
  (.close 2 {}, .closed)] = true := by decide +kernel

/-- tests/test71.c, tests/test71.ans. -/
example : conforms { dataSz := 370, flags := (SHR_FARM ||| SHR_MAXMSGS_2), maxMsgs := 10 } [
  (opn 0 (SHR_WRONLY), .opened),
  (opn 1 (SHR_RDONLY), .opened),
  (opn 2 (SHR_RDONLY), .opened),
  (wr 0 [[48, 0, 0, 0, 0, 0, 0, 0, 0, 0, 0, 0, 0, 0, 0, 0, 0, 0, 0, 0, 0, 0, 0, 0, 0, 0, 0, 0, 0, 0, 0, 0, 0, 0, 0, 0, 0]], .any),
  (wr 0 [[49, 0, 0, 0, 0, 0, 0, 0, 0, 0, 0, 0, 0, 0, 0, 0, 0, 0, 0, 0, 0, 0, 0, 0, 0, 0, 0, 0, 0, 0, 0, 0, 0, 0, 0, 0, 0]], .any),
  (wr 0 [[50, 0, 0, 0, 0, 0, 0, 0, 0, 0, 0, 0, 0, 0, 0, 0, 0, 0, 0, 0, 0, 0, 0, 0, 0, 0, 0, 0, 0, 0, 0, 0, 0, 0, 0, 0, 0]], .any),
  (wr 0 [[51, 0, 0, 0, 0, 0, 0, 0, 0, 0, 0, 0, 0, 0, 0, 0, 0, 0, 0, 0, 0, 0, 0, 0, 0, 0, 0, 0, 0, 0, 0, 0, 0, 0, 0, 0, 0]], .any),
  (wr 0 [[52, 0, 0, 0, 0, 0, 0, 0, 0, 0, 0, 0, 0, 0, 0, 0, 0, 0, 0, 0, 0, 0, 0, 0, 0, 0, 0, 0, 0, 0, 0, 0, 0, 0, 0, 0, 0]], .any),
  (wr 0 [[53, 0, 0, 0, 0, 0, 0, 0, 0, 0, 0, 0, 0, 0, 0, 0, 0, 0, 0, 0, 0, 0, 0, 0, 0, 0, 0, 0, 0, 0, 0, 0, 0, 0, 0, 0, 0]], .any),
  (wr 0 [[54, 0, 0, 0, 0, 0, 0, 0, 0, 0, 0, 0, 0, 0, 0, 0, 0, 0, 0, 0, 0, 0, 0, 0, 0, 0, 0, 0, 0, 0, 0, 0, 0, 0, 0, 0, 0]], .any),
  (wr 0 [[55, 0, 0, 0, 0, 0, 0, 0, 0, 0, 0, 0, 0, 0, 0, 0, 0, 0, 0, 0, 0, 0, 0, 0, 0, 0, 0, 0, 0, 0, 0, 0, 0, 0, 0, 0, 0]], .any),
  (wr 0 [[56, 0, 0, 0, 0, 0, 0, 0, 0, 0, 0, 0, 0, 0, 0, 0, 0, 0, 0, 0, 0, 0, 0, 0, 0, 0, 0, 0, 0, 0, 0, 0, 0, 0, 0, 0, 0]], .any),
  (wr 0 [[57, 0, 0, 0, 0, 0, 0, 0, 0, 0, 0, 0, 0, 0, 0, 0, 0, 0, 0, 0, 0, 0, 0, 0, 0, 0, 0, 0, 0, 0, 0, 0, 0, 0, 0, 0, 0]], .any),
  (wr 0 [[49, 48, 0, 0, 0, 0, 0, 0, 0, 0, 0, 0, 0, 0, 0, 0, 0, 0, 0, 0, 0, 0, 0, 0, 0, 0, 0, 0, 0, 0, 0, 0, 0, 0, 0, 0, 0]], .any),
  (wr 0 [[49, 49, 0, 0, 0, 0, 0, 0, 0, 0, 0, 0, 0, 0, 0, 0, 0, 0, 0, 0, 0, 0, 0, 0, 0, 0, 0, 0, 0, 0, 0, 0, 0, 0, 0, 0, 0]], .any),
  (wr 0 [[49, 50, 0, 0, 0, 0, 0, 0, 0, 0, 0, 0, 0, 0, 0, 0, 0, 0, 0, 0, 0, 0, 0, 0, 0, 0, 0, 0, 0, 0, 0, 0, 0, 0, 0, 0, 0]], .any),
  (wr 0 [[49, 51, 0, 0, 0, 0, 0, 0, 0, 0, 0, 0, 0, 0, 0, 0, 0, 0, 0, 0, 0, 0, 0, 0, 0, 0, 0, 0, 0, 0, 0, 0, 0, 0, 0, 0, 0]], .any),
  (wr 0 [[49, 52, 0, 0, 0, 0, 0, 0, 0, 0, 0, 0, 0, 0, 0, 0, 0, 0, 0, 0, 0, 0, 0, 0, 0, 0, 0, 0, 0, 0, 0, 0, 0, 0, 0, 0, 0]], .any),
  (wr 0 [[49, 53, 0, 0, 0, 0, 0, 0, 0, 0, 0, 0, 0, 0, 0, 0, 0, 0, 0, 0, 0, 0, 0, 0, 0, 0, 0, 0, 0, 0, 0, 0, 0, 0, 0, 0, 0]], .any),
  (wr 0 [[49, 54, 0, 0, 0, 0, 0, 0, 0, 0, 0, 0, 0, 0, 0, 0, 0, 0, 0, 0, 0, 0, 0, 0, 0, 0, 0, 0, 0, 0, 0, 0, 0, 0, 0, 0, 0]], .any),
  (wr 0 [[49, 55, 0, 0, 0, 0, 0, 0, 0, 0, 0, 0, 0, 0, 0, 0, 0, 0, 0, 0, 0, 0, 0, 0, 0, 0, 0, 0, 0, 0, 0, 0, 0, 0, 0, 0, 0]], .any),
  (wr 0 [[49, 56, 0, 0, 0, 0, 0, 0, 0, 0, 0, 0, 0, 0, 0, 0, 0, 0, 0, 0, 0, 0, 0, 0, 0, 0, 0, 0, 0, 0, 0, 0, 0, 0, 0, 0, 0]], .any),
  (wr 0 [[49, 57, 0, 0, 0, 0, 0, 0, 0, 0, 0, 0, 0, 0, 0, 0, 0, 0, 0, 0, 0, 0, 0, 0, 0, 0, 0, 0, 0, 0, 0, 0, 0, 0, 0, 0, 0]], .any),
  (rd 1 37 1, .text 37 [49, 48]),
  (rd 2 37 1, .text 37 [49, 48]),
  (rd 2 37 1, .text 37 [49, 49]),
  (rd 2 37 1, .text 37 [49, 50]),
  (rd 1 37 1, .text 37 [49, 49]),
  (wr 0 [[50, 48, 0, 0, 0, 0, 0, 0, 0, 0, 0, 0, 0, 0, 0, 0, 0, 0, 0, 0, 0, 0, 0, 0, 0, 0, 0, 0, 0, 0, 0, 0, 0, 0, 0, 0, 0]], .any),
  (wr 0 [[50, 49, 0, 0, 0, 0, 0, 0, 0, 0, 0, 0, 0, 0, 0, 0, 0, 0, 0, 0, 0, 0, 0, 0, 0, 0, 0, 0, 0, 0, 0, 0, 0, 0, 0, 0, 0]], .any),
  (wr 0 [[50, 50, 0, 0, 0, 0, 0, 0, 0, 0, 0, 0, 0, 0, 0, 0, 0, 0, 0, 0, 0, 0, 0, 0, 0, 0, 0, 0, 0, 0, 0, 0, 0, 0, 0, 0, 0]], .any),
  (wr 0 [[50, 51, 0, 0, 0, 0, 0, 0, 0, 0, 0, 0, 0, 0, 0, 0, 0, 0, 0, 0, 0, 0, 0, 0, 0, 0, 0, 0, 0, 0, 0, 0, 0, 0, 0, 0, 0]], .any),
  (wr 0 [[50, 52, 0, 0, 0, 0, 0, 0, 0, 0, 0, 0, 0, 0, 0, 0, 0, 0, 0, 0, 0, 0, 0, 0, 0, 0, 0, 0, 0, 0, 0, 0, 0, 0, 0, 0, 0]], .any),
  (wr 0 [[50, 53, 0, 0, 0, 0, 0, 0, 0, 0, 0, 0, 0, 0, 0, 0, 0, 0, 0, 0, 0, 0, 0, 0, 0, 0, 0, 0, 0, 0, 0, 0, 0, 0, 0, 0, 0]], .any),
  (wr 0 [[50, 54, 0, 0, 0, 0, 0, 0, 0, 0, 0, 0, 0, 0, 0, 0, 0, 0, 0, 0, 0, 0, 0, 0, 0, 0, 0, 0, 0, 0, 0, 0, 0, 0, 0, 0, 0]], .any),
  (wr 0 [[50, 55, 0, 0, 0, 0, 0, 0, 0, 0, 0, 0, 0, 0, 0, 0, 0, 0, 0, 0, 0, 0, 0, 0, 0, 0, 0, 0, 0, 0, 0, 0, 0, 0, 0, 0, 0]], .any),
  (wr 0 [[50, 56, 0, 0, 0, 0, 0, 0, 0, 0, 0, 0, 0, 0, 0, 0, 0, 0, 0, 0, 0, 0, 0, 0, 0, 0, 0, 0, 0, 0, 0, 0, 0, 0, 0, 0, 0]], .any),
  (wr 0 [[50, 57, 0, 0, 0, 0, 0, 0, 0, 0, 0, 0, 0, 0, 0, 0, 0, 0, 0, 0, 0, 0, 0, 0, 0, 0, 0, 0, 0, 0, 0, 0, 0, 0, 0, 0, 0]], .any),
  (rd 1 37 1, .text 37 [50, 48]),
  (rd 1 37 1, .text 37 [50, 49]),
  (rd 1 37 1, .text 37 [50, 50]),
  (rd 1 37 1, .text 37 [50, 51]),
  (rd 1 37 1, .text 37 [50, 52]),
  (rd 2 37 1, .text 37 [50, 48]),
  (rd 2 37 1, .text 37 [50, 49]),
  (rd 2 37 1, .text 37 [50, 50]),
  (rd 2 37 1, .text 37 [50, 51]),
  (rd 2 37 1, .text 37 [50, 52]),
  (.close 0 {}, .closed),
  (.close 1 {}, .closed),
  (.close 2 {}, .closed)] = true := by decide +kernel

/-- tests/test72.c, tests/test72.ans. -/
example : conforms { dataSz := 20, flags := (SHR_FARM ||| SHR_MAXMSGS_2), maxMsgs := 3 } [
  (opn 0 (SHR_WRONLY), .opened),
  (opn 1 (SHR_RDONLY ||| SHR_NONBLOCK), .opened),
  (opn 2 (SHR_RDONLY ||| SHR_NONBLOCK), .opened),
  (wr 0 [[97, 98, 99, 100, 101, 102, 103, 104, 105, 106, 107, 108, 109, 110, 111, 112, 113, 114, 115, 116]], .wrote 20),
  (wr 0 [[98, 99, 100, 101, 102, 103, 104, 105, 106, 107, 108, 109, 110, 111, 112, 113, 114, 115, 116, 117]], .wrote 20),
  (wr 0 [[99, 100, 101, 102, 103, 104, 105, 106, 107, 108, 109, 110, 111, 112, 113, 114, 115, 116, 117, 118]], .wrote 20),
  (.stat 0 none {}, .stat [60, 0, 3, 0, 2, 40, 20, 20, 1]),
  (rd 1 37 1, .read [99, 100, 101, 102, 103, 104, 105, 106, 107, 108, 109, 110, 111, 112, 113, 114, 115, 116, 117, 118]),
  (wr 0 [[100, 101, 102, 103, 104, 105, 106, 107, 108, 109, 110, 111, 112, 113, 114, 115, 116, 117, 118, 119]], .wrote 20),
  (wr 0 [[101]], .any),
  (.stat 0 none {}, .stat [81, 20, 5, 1, 4, 80, 20, 1, 1]),
  (rd 1 37 1, .read [101]),
  (wr 0 [[102, 103, 104, 105, 106, 107, 108, 109, 110, 111, 112, 113, 114, 115, 116, 117, 118, 119, 120, 121]], .wrote 20),
  (rd 1 37 1, .read [102, 103, 104, 105, 106, 107, 108, 109, 110, 111, 112, 113, 114, 115, 116, 117, 118, 119, 120, 121]),
  (wr 0 [[103]], .any),
  (rd 1 37 1, .read [103]),
  (wr 0 [[104]], .any),
  (rd 2 37 1, .read [103]),
  (wr 0 [[105, 106, 107, 108, 109, 110, 111, 112, 113, 114, 115, 116, 117, 118, 119, 120, 121, 122, 123, 124]], .wrote 20),
  (rd 2 37 1, .read [105, 106, 107, 108, 109, 110, 111, 112, 113, 114, 115, 116, 117, 118, 119, 120, 121, 122, 123, 124]),
  (.close 0 {}, .closed),
  (.close 2 {}, .closed),
  (.close 1 {}, .closed)] = true := by decide +kernel

/-- tests/test73.c, tests/test73.ans. -/
example : conforms { dataSz := 370, flags := (SHR_FARM ||| SHR_MAXMSGS_2), maxMsgs := 10 } [
  (opn 0 (SHR_WRONLY), .opened),
  (opn 1 (SHR_RDONLY), .opened),
  (opn 2 (SHR_RDONLY), .opened),
  (wr 0 [[48, 0, 0, 0, 0, 0, 0, 0, 0, 0, 0, 0, 0, 0, 0, 0, 0, 0, 0, 0, 0, 0, 0, 0, 0, 0, 0, 0, 0, 0, 0, 0, 0, 0, 0, 0, 0]], .any),
  (wr 0 [[49, 0, 0, 0, 0, 0, 0, 0, 0, 0, 0, 0, 0, 0, 0, 0, 0, 0, 0, 0, 0, 0, 0, 0, 0, 0, 0, 0, 0, 0, 0, 0, 0, 0, 0, 0, 0]], .any),
  (wr 0 [[50, 0, 0, 0, 0, 0, 0, 0, 0, 0, 0, 0, 0, 0, 0, 0, 0, 0, 0, 0, 0, 0, 0, 0, 0, 0, 0, 0, 0, 0, 0, 0, 0, 0, 0, 0, 0]], .any),
  (wr 0 [[51, 0, 0, 0, 0, 0, 0, 0, 0, 0, 0, 0, 0, 0, 0, 0, 0, 0, 0, 0, 0, 0, 0, 0, 0, 0, 0, 0, 0, 0, 0, 0, 0, 0, 0, 0, 0]], .any),
  (wr 0 [[52, 0, 0, 0, 0, 0, 0, 0, 0, 0, 0, 0, 0, 0, 0, 0, 0, 0, 0, 0, 0, 0, 0, 0, 0, 0, 0, 0, 0, 0, 0, 0, 0, 0, 0, 0, 0]], .any),
  (wr 0 [[53, 0, 0, 0, 0, 0, 0, 0, 0, 0, 0, 0, 0, 0, 0, 0, 0, 0, 0, 0, 0, 0, 0, 0, 0, 0, 0, 0, 0, 0, 0, 0, 0, 0, 0, 0, 0]], .any),
  (wr 0 [[54, 0, 0, 0, 0, 0, 0, 0, 0, 0, 0, 0, 0, 0, 0, 0, 0, 0, 0, 0, 0, 0, 0, 0, 0, 0, 0, 0, 0, 0, 0, 0, 0, 0, 0, 0, 0]], .any),
  (wr 0 [[55, 0, 0, 0, 0, 0, 0, 0, 0, 0, 0, 0, 0, 0, 0, 0, 0, 0, 0, 0, 0, 0, 0, 0, 0, 0, 0, 0, 0, 0, 0, 0, 0, 0, 0, 0, 0]], .any),
  (wr 0 [[56, 0, 0, 0, 0, 0, 0, 0, 0, 0, 0, 0, 0, 0, 0, 0, 0, 0, 0, 0, 0, 0, 0, 0, 0, 0, 0, 0, 0, 0, 0, 0, 0, 0, 0, 0, 0]], .any),
  (wr 0 [[57, 0, 0, 0, 0, 0, 0, 0, 0, 0, 0, 0, 0, 0, 0, 0, 0, 0, 0, 0, 0, 0, 0, 0, 0, 0, 0, 0, 0, 0, 0, 0, 0, 0, 0, 0, 0]], .any),
  (rd 1 37 1, .text 37 [48]),
  (rd 1 37 1, .text 37 [49]),
  (rd 1 37 1, .text 37 [50]),
  (rd 1 37 1, .text 37 [51]),
  (rd 1 37 1, .text 37 [52]),
  (rd 1 37 1, .text 37 [53]),
  (rd 1 37 1, .text 37 [54]),
  (rd 1 37 1, .text 37 [55]),
  (rd 1 37 1, .text 37 [56]),
  (rd 1 37 1, .text 37 [57]),
  (rd 1 37 1, .blocked),
  (wr 0 [[49, 48, 0, 0, 0, 0, 0, 0, 0, 0, 0, 0, 0, 0, 0, 0, 0, 0, 0, 0, 0, 0, 0, 0, 0, 0, 0, 0, 0, 0, 0, 0, 0, 0, 0, 0, 0]], .any),
  (wr 0 [[49, 49, 0, 0, 0, 0, 0, 0, 0, 0, 0, 0, 0, 0, 0, 0, 0, 0, 0, 0, 0, 0, 0, 0, 0, 0, 0, 0, 0, 0, 0, 0, 0, 0, 0, 0, 0]], .any),
  (wr 0 [[49, 50, 0, 0, 0, 0, 0, 0, 0, 0, 0, 0, 0, 0, 0, 0, 0, 0, 0, 0, 0, 0, 0, 0, 0, 0, 0, 0, 0, 0, 0, 0, 0, 0, 0, 0, 0]], .any),
  (wr 0 [[49, 51, 0, 0, 0, 0, 0, 0, 0, 0, 0, 0, 0, 0, 0, 0, 0, 0, 0, 0, 0, 0, 0, 0, 0, 0, 0, 0, 0, 0, 0, 0, 0, 0, 0, 0, 0]], .any),
  (wr 0 [[49, 52, 0, 0, 0, 0, 0, 0, 0, 0, 0, 0, 0, 0, 0, 0, 0, 0, 0, 0, 0, 0, 0, 0, 0, 0, 0, 0, 0, 0, 0, 0, 0, 0, 0, 0, 0]], .any),
  (wr 0 [[49, 53, 0, 0, 0, 0, 0, 0, 0, 0, 0, 0, 0, 0, 0, 0, 0, 0, 0, 0, 0, 0, 0, 0, 0, 0, 0, 0, 0, 0, 0, 0, 0, 0, 0, 0, 0]], .any),
  (wr 0 [[49, 54, 0, 0, 0, 0, 0, 0, 0, 0, 0, 0, 0, 0, 0, 0, 0, 0, 0, 0, 0, 0, 0, 0, 0, 0, 0, 0, 0, 0, 0, 0, 0, 0, 0, 0, 0]], .any),
  (wr 0 [[49, 55, 0, 0, 0, 0, 0, 0, 0, 0, 0, 0, 0, 0, 0, 0, 0, 0, 0, 0, 0, 0, 0, 0, 0, 0, 0, 0, 0, 0, 0, 0, 0, 0, 0, 0, 0]], .any),
  (wr 0 [[49, 56, 0, 0, 0, 0, 0, 0, 0, 0, 0, 0, 0, 0, 0, 0, 0, 0, 0, 0, 0, 0, 0, 0, 0, 0, 0, 0, 0, 0, 0, 0, 0, 0, 0, 0, 0]], .any),
  (wr 0 [[49, 57, 0, 0, 0, 0, 0, 0, 0, 0, 0, 0, 0, 0, 0, 0, 0, 0, 0, 0, 0, 0, 0, 0, 0, 0, 0, 0, 0, 0, 0, 0, 0, 0, 0, 0, 0]], .any),
  (rd 1 37 1, .text 37 [49, 48]),
  (rd 1 37 1, .text 37 [49, 49]),
  (rd 1 37 1, .text 37 [49, 50]),
  (rd 1 37 1, .text 37 [49, 51]),
  (rd 1 37 1, .text 37 [49, 52]),
  (.close 0 {}, .closed),
  (.close 1 {}, .closed),
  (.close 2 {}, .closed)] = true := by decide +kernel

/-- tests/test74.c, tests/test74.ans. -/
example : conforms { dataSz := 370, flags := (SHR_FARM ||| SHR_MAXMSGS_2), maxMsgs := 10 } [
  (opn 0 (SHR_WRONLY), .opened),
  (opn 1 (SHR_RDONLY), .opened),
  (opn 2 (SHR_RDONLY), .opened),
  (rd 1 37 1, .blocked),
  (rd 2 37 1, .blocked),
  (wr 0 [[48, 0, 0, 0, 0, 0, 0, 0, 0, 0, 0, 0, 0, 0, 0, 0, 0, 0, 0, 0, 0, 0, 0, 0, 0, 0, 0, 0, 0, 0, 0, 0, 0, 0, 0, 0, 0]], .any),
  (wr 0 [[49, 0, 0, 0, 0, 0, 0, 0, 0, 0, 0, 0, 0, 0, 0, 0, 0, 0, 0, 0, 0, 0, 0, 0, 0, 0, 0, 0, 0, 0, 0, 0, 0, 0, 0, 0, 0]], .any),
  (wr 0 [[50, 0, 0, 0, 0, 0, 0, 0, 0, 0, 0, 0, 0, 0, 0, 0, 0, 0, 0, 0, 0, 0, 0, 0, 0, 0, 0, 0, 0, 0, 0, 0, 0, 0, 0, 0, 0]], .any),
  (wr 0 [[51, 0, 0, 0, 0, 0, 0, 0, 0, 0, 0, 0, 0, 0, 0, 0, 0, 0, 0, 0, 0, 0, 0, 0, 0, 0, 0, 0, 0, 0, 0, 0, 0, 0, 0, 0, 0]], .any),
  (wr 0 [[52, 0, 0, 0, 0, 0, 0, 0, 0, 0, 0, 0, 0, 0, 0, 0, 0, 0, 0, 0, 0, 0, 0, 0, 0, 0, 0, 0, 0, 0, 0, 0, 0, 0, 0, 0, 0]], .any),
  (wr 0 [[53, 0, 0, 0, 0, 0, 0, 0, 0, 0, 0, 0, 0, 0, 0, 0, 0, 0, 0, 0, 0, 0, 0, 0, 0, 0, 0, 0, 0, 0, 0, 0, 0, 0, 0, 0, 0]], .any),
  (wr 0 [[54, 0, 0, 0, 0, 0, 0, 0, 0, 0, 0, 0, 0, 0, 0, 0, 0, 0, 0, 0, 0, 0, 0, 0, 0, 0, 0, 0, 0, 0, 0, 0, 0, 0, 0, 0, 0]], .any),
  (wr 0 [[55, 0, 0, 0, 0, 0, 0, 0, 0, 0, 0, 0, 0, 0, 0, 0, 0, 0, 0, 0, 0, 0, 0, 0, 0, 0, 0, 0, 0, 0, 0, 0, 0, 0, 0, 0, 0]], .any),
  (wr 0 [[56, 0, 0, 0, 0, 0, 0, 0, 0, 0, 0, 0, 0, 0, 0, 0, 0, 0, 0, 0, 0, 0, 0, 0, 0, 0, 0, 0, 0, 0, 0, 0, 0, 0, 0, 0, 0]], .any),
  (wr 0 [[57, 0, 0, 0, 0, 0, 0, 0, 0, 0, 0, 0, 0, 0, 0, 0, 0, 0, 0, 0, 0, 0, 0, 0, 0, 0, 0, 0, 0, 0, 0, 0, 0, 0, 0, 0, 0]], .any),
  (rd 1 37 1, .text 37 [48]),
  (rd 2 37 1, .text 37 [48]),
  (.close 0 {}, .closed),
  (.close 1 {}, .closed),
  (.close 2 {}, .closed)] = true := by decide +kernel

/-- tests/test75.c, tests/test75.ans. -/
example : conforms { dataSz := 370, flags := (SHR_FARM ||| SHR_MAXMSGS_2), maxMsgs := 10 } [
  (opn 0 (SHR_WRONLY), .opened),
  (opn 1 (SHR_RDONLY ||| SHR_NONBLOCK), .opened),
  (wr 0 [[48, 0, 0, 0, 0, 0, 0, 0, 0, 0, 0, 0, 0, 0, 0, 0, 0, 0, 0, 0, 0, 0, 0, 0, 0, 0, 0, 0, 0, 0, 0, 0, 0, 0, 0, 0, 0]], .any),
  (wr 0 [[49, 0, 0, 0, 0, 0, 0, 0, 0, 0, 0, 0, 0, 0, 0, 0, 0, 0, 0, 0, 0, 0, 0, 0, 0, 0, 0, 0, 0, 0, 0, 0, 0, 0, 0, 0, 0]], .any),
  (wr 0 [[50, 0, 0, 0, 0, 0, 0, 0, 0, 0, 0, 0, 0, 0, 0, 0, 0, 0, 0, 0, 0, 0, 0, 0, 0, 0, 0, 0, 0, 0, 0, 0, 0, 0, 0, 0, 0]], .any),
  (wr 0 [[51, 0, 0, 0, 0, 0, 0, 0, 0, 0, 0, 0, 0, 0, 0, 0, 0, 0, 0, 0, 0, 0, 0, 0, 0, 0, 0, 0, 0, 0, 0, 0, 0, 0, 0, 0, 0]], .any),
  (wr 0 [[52, 0, 0, 0, 0, 0, 0, 0, 0, 0, 0, 0, 0, 0, 0, 0, 0, 0, 0, 0, 0, 0, 0, 0, 0, 0, 0, 0, 0, 0, 0, 0, 0, 0, 0, 0, 0]], .any),
  (wr 0 [[53, 0, 0, 0, 0, 0, 0, 0, 0, 0, 0, 0, 0, 0, 0, 0, 0, 0, 0, 0, 0, 0, 0, 0, 0, 0, 0, 0, 0, 0, 0, 0, 0, 0, 0, 0, 0]], .any),
  (wr 0 [[54, 0, 0, 0, 0, 0, 0, 0, 0, 0, 0, 0, 0, 0, 0, 0, 0, 0, 0, 0, 0, 0, 0, 0, 0, 0, 0, 0, 0, 0, 0, 0, 0, 0, 0, 0, 0]], .any),
  (wr 0 [[55, 0, 0, 0, 0, 0, 0, 0, 0, 0, 0, 0, 0, 0, 0, 0, 0, 0, 0, 0, 0, 0, 0, 0, 0, 0, 0, 0, 0, 0, 0, 0, 0, 0, 0, 0, 0]], .any),
  (wr 0 [[56, 0, 0, 0, 0, 0, 0, 0, 0, 0, 0, 0, 0, 0, 0, 0, 0, 0, 0, 0, 0, 0, 0, 0, 0, 0, 0, 0, 0, 0, 0, 0, 0, 0, 0, 0, 0]], .any),
  (wr 0 [[57, 0, 0, 0, 0, 0, 0, 0, 0, 0, 0, 0, 0, 0, 0, 0, 0, 0, 0, 0, 0, 0, 0, 0, 0, 0, 0, 0, 0, 0, 0, 0, 0, 0, 0, 0, 0]], .any),
  (wr 0 [[49, 48, 0, 0, 0, 0, 0, 0, 0, 0, 0, 0, 0, 0, 0, 0, 0, 0, 0, 0, 0, 0, 0, 0, 0, 0, 0, 0, 0, 0, 0, 0, 0, 0, 0, 0, 0]], .any),
  (wr 0 [[49, 49, 0, 0, 0, 0, 0, 0, 0, 0, 0, 0, 0, 0, 0, 0, 0, 0, 0, 0, 0, 0, 0, 0, 0, 0, 0, 0, 0, 0, 0, 0, 0, 0, 0, 0, 0]], .any),
  (wr 0 [[49, 50, 0, 0, 0, 0, 0, 0, 0, 0, 0, 0, 0, 0, 0, 0, 0, 0, 0, 0, 0, 0, 0, 0, 0, 0, 0, 0, 0, 0, 0, 0, 0, 0, 0, 0, 0]], .any),
  (wr 0 [[49, 51, 0, 0, 0, 0, 0, 0, 0, 0, 0, 0, 0, 0, 0, 0, 0, 0, 0, 0, 0, 0, 0, 0, 0, 0, 0, 0, 0, 0, 0, 0, 0, 0, 0, 0, 0]], .any),
  (opn 2 (SHR_RDONLY ||| SHR_NONBLOCK), .opened),
  (rd 2 37 1, .text 37 [52]),
  (rd 1 37 1, .text 37 [52]),
  (.farmStat 2 false, .drops 0),
  (.farmStat 1 false, .drops 4),
  (rd 2 37 1, .text 37 [53]),
  (rd 2 37 1, .text 37 [54]),
  (rd 2 37 1, .text 37 [55]),
  (rd 2 37 1, .text 37 [56]),
  (rd 2 37 1, .text 37 [57]),
  (rd 1 37 1, .text 37 [53]),
  (rd 1 37 1, .text 37 [54]),
  (rd 1 37 1, .text 37 [55]),
  (rd 1 37 1, .text 37 [56]),
  (rd 1 37 1, .text 37 [57]),
  (rd 2 37 1, .text 37 [49, 48]),
  (rd 2 37 1, .text 37 [49, 49]),
  (rd 2 37 1, .text 37 [49, 50]),
  (rd 2 37 1, .text 37 [49, 51]),
  (rd 2 37 1, .count 0),
  (rd 1 37 1, .text 37 [49, 48]),
  (rd 1 37 1, .text 37 [49, 49]),
  (rd 1 37 1, .text 37 [49, 50]),
  (rd 1 37 1, .text 37 [49, 51]),
  (rd 1 37 1, .count 0),
  (.close 0 {}, .closed),
  (.close 2 {}, .closed),
  (.close 1 {}, .closed)] = true := by decide +kernel

/-- tests/test76.c, tests/test76.ans. -/
example : conforms { dataSz := 370, flags := (SHR_MAXMSGS_2), maxMsgs := 10 } [
  (opn 0 (SHR_WRONLY), .opened),
  (opn 1 (SHR_RDONLY ||| SHR_NONBLOCK), .opened),
  (wr 0 [[97]], .any),
  (wr 0 [[98, 98]], .any),
  (wr 0 [[99, 99, 99]], .any),
  (wr 0 [[100, 100, 100, 100]], .any),
  (.stat 1 none {}, .stat [10, 0, 4, 0, 0, 0, 370, 10, 4]),
  (rd 1 37 1, .read [97]),
  (.stat 1 none {}, .stat [10, 1, 4, 1, 0, 0, 370, 9, 3]),
  (rd 1 37 1, .read [98, 98]),
  (rd 1 37 1, .read [99, 99, 99]),
  (rd 1 37 1, .read [100, 100, 100, 100]),
  (rd 1 37 1, .count 0),
  (.stat 1 none {}, .stat [10, 10, 4, 4, 0, 0, 370, 0, 0]),
  (.close 0 {}, .closed),
  (.close 1 {}, .closed)] = true := by decide +kernel

/-- tests/test77.c, tests/test77.ans. -/
example : conforms { dataSz := 370, flags := (SHR_FARM ||| SHR_MAXMSGS_2), maxMsgs := 10 } [
  (opn 0 (SHR_WRONLY), .opened),
  (opn 1 (SHR_RDONLY ||| SHR_NONBLOCK), .opened),
  (wr 0 [[97]], .any),
  (wr 0 [[98, 98]], .any),
  (wr 0 [[99, 99, 99]], .any),
  (wr 0 [[100, 100, 100, 100]], .any),
  (.stat 1 none {}, .stat [10, 0, 4, 0, 0, 0, 370, 10, 4]),
  (rd 1 37 1, .read [97]),
  (.stat 1 none {}, .stat [10, 1, 4, 1, 0, 0, 370, 10, 4]),
  (rd 1 37 1, .read [98, 98]),
  (rd 1 37 1, .read [99, 99, 99]),
  (rd 1 37 1, .read [100, 100, 100, 100]),
  (rd 1 37 1, .count 0),
  (.close 0 {}, .closed),
  (.close 1 {}, .closed)] = true := by decide +kernel

/-- tests/test78.c, tests/test78.ans. -/
example : conforms { dataSz := 370, flags := (SHR_DROP ||| SHR_MAXMSGS_2), maxMsgs := 10 } [
  (opn 0 (SHR_WRONLY), .opened),
  (opn 1 (SHR_RDONLY ||| SHR_NONBLOCK), .opened),
  (wr 0 [[97]], .any),
  (wr 0 [[98, 98]], .any),
  (wr 0 [[99, 99, 99]], .any),
  (wr 0 [[100, 100, 100, 100]], .any),
  (.stat 1 none {}, .stat [10, 0, 4, 0, 0, 0, 370, 10, 4]),
  (rd 1 37 1, .read [97]),
  (.stat 1 none {}, .stat [10, 1, 4, 1, 0, 0, 370, 9, 3]),
  (rd 1 37 1, .read [98, 98]),
  (rd 1 37 1, .read [99, 99, 99]),
  (rd 1 37 1, .read [100, 100, 100, 100]),
  (rd 1 37 1, .count 0),
  (.stat 1 none {}, .stat [10, 10, 4, 4, 0, 0, 370, 0, 0]),
  (.close 0 {}, .closed),
  (.close 1 {}, .closed)] = true := by decide +kernel

/-- tests/test79.c, tests/test79.ans. -/
example : conforms { dataSz := 370, flags := (SHR_DROP ||| SHR_MAXMSGS_2), maxMsgs := 10 } [
  (opn 0 (SHR_WRONLY), .opened),
  (opn 1 (SHR_RDONLY ||| SHR_NONBLOCK), .opened),
  (wr 0 [[97, 97, 97, 97]], .any),
  (wr 0 [[98]], .any),
  (wr 0 [[99, 99, 99]], .any),
  (wr 0 [[100, 100, 100, 100]], .any),
  (wr 0 [[101, 101, 101, 101]], .any),
  (wr 0 [[102, 102, 102, 102]], .any),
  (wr 0 [[103, 103, 103, 103]], .any),
  (wr 0 [[104, 104, 104, 104]], .any),
  (wr 0 [[105, 105, 105, 105]], .any),
  (wr 0 [[106, 106]], .any),
  (.stat 1 none {}, .stat [34, 0, 10, 0, 0, 0, 370, 34, 10]),
  (wr 0 [[107, 107, 107, 107]], .any),
  (.stat 1 none {}, .stat [38, 0, 11, 0, 1, 4, 370, 34, 10]),
  (rd 1 37 1, .read [98]),
  (.close 0 {}, .closed),
  (.close 1 {}, .closed)] = true := by decide +kernel

/-- tests/test80.c, tests/test80.ans. -/
example : conforms { dataSz := 34, flags := (SHR_DROP ||| SHR_MAXMSGS_2), maxMsgs := 10 } [
  (opn 0 (SHR_WRONLY), .opened),
  (opn 1 (SHR_RDONLY ||| SHR_NONBLOCK), .opened),
  (wr 0 [[97, 97, 97, 97]], .any),
  (wr 0 [[98]], .any),
  (wr 0 [[99, 99, 99]], .any),
  (wr 0 [[100, 100, 100, 100]], .any),
  (wr 0 [[101, 101, 101, 101]], .any),
  (wr 0 [[102, 102, 102, 102]], .any),
  (wr 0 [[103, 103, 103, 103]], .any),
  (wr 0 [[104, 104, 104, 104]], .any),
  (wr 0 [[105, 105, 105, 105]], .any),
  (wr 0 [[106, 106]], .any),
  (.stat 1 none {}, .stat [34, 0, 10, 0, 0, 0, 34, 34, 10]),
  (wr 0 [[107, 107, 107, 107]], .any),
  (.stat 1 none {}, .stat [38, 0, 11, 0, 1, 4, 34, 34, 10]),
  (rd 1 37 1, .read [98]),
  (.close 0 {}, .closed),
  (.close 1 {}, .closed)] = true := by decide +kernel

/-- tests/test81.c, tests/test81.ans. -/
example : conforms { dataSz := 34, flags := (SHR_DROP ||| SHR_MAXMSGS_2), maxMsgs := 100 } [
  (opn 0 (SHR_WRONLY), .opened),
  (opn 1 (SHR_RDONLY ||| SHR_NONBLOCK), .opened),
  (wr 0 [[97, 97, 97]], .any),
  (wr 0 [[98]], .any),
  (wr 0 [[99, 99, 99]], .any),
  (wr 0 [[100, 100, 100, 100]], .any),
  (wr 0 [[101, 101, 101, 101]], .any),
  (wr 0 [[102, 102, 102, 102]], .any),
  (wr 0 [[103, 103, 103, 103]], .any),
  (wr 0 [[104, 104, 104, 104]], .any),
  (wr 0 [[105, 105, 105, 105]], .any),
  (wr 0 [[106, 106]], .any),
  (wr 0 [[107]], .any),
  (.stat 1 none {}, .stat [34, 0, 11, 0, 0, 0, 34, 34, 11]),
  (wr 0 [[108, 108, 108, 108]], .any),
  (.stat 1 none {}, .stat [38, 0, 12, 0, 2, 4, 34, 34, 10]),
  (rd 1 37 1, .read [99, 99, 99]),
  (.close 0 {}, .closed),
  (.close 1 {}, .closed)] = true := by decide +kernel

/-- tests/test82.c, tests/test82.ans. -/
example : conforms { dataSz := 6, flags := (SHR_DROP ||| SHR_MAXMSGS_2), maxMsgs := 100 } [
  (opn 0 (SHR_WRONLY), .opened),
  (wr 0 [[97]], .wrote 1),
  (wr 0 [[98]], .wrote 1),
  (wr 0 [[99, 99, 99, 99]], .wrote 4),
  (.stat 0 none {}, .stat [6, 0, 3, 0, 0, 0, 6, 6, 3]),
  (wr 0 [[100, 100, 100, 100]], .wrote 4),
  (.stat 0 none {}, .stat [10, 0, 4, 0, 3, 6, 6, 4, 1]),
  (.close 0 {}, .closed)] = true := by decide +kernel

/-- tests/test83.c, tests/test83.ans. -/
example : conforms { dataSz := 7, flags := (SHR_DROP ||| SHR_MAXMSGS_2), maxMsgs := 100 } [
  (opn 0 (SHR_WRONLY), .opened),
  (wr 0 [[97]], .wrote 1),
  (wr 0 [[98]], .wrote 1),
  (wr 0 [[99, 99, 99, 99]], .wrote 4),
  (.stat 0 none {}, .stat [6, 0, 3, 0, 0, 0, 7, 6, 3]),
  (wr 0 [[100, 100, 100, 100]], .wrote 4),
  (.stat 0 none {}, .stat [10, 0, 4, 0, 3, 6, 7, 4, 1]),
  (.close 0 {}, .closed)] = true := by decide +kernel

/-- tests/test84.c, tests/test84.ans. -/
example : conforms { dataSz := 6, flags := (SHR_DROP ||| SHR_MAXMSGS_2), maxMsgs := 100 } [
  (opn 0 (SHR_WRONLY), .opened),
  (opn 1 (SHR_RDONLY), .opened),
  (wr 0 [[97]], .wrote 1),
  (wr 0 [[98]], .wrote 1),
  (wr 0 [[99, 99, 99, 99]], .wrote 4),
  (.stat 0 none {}, .stat [6, 0, 3, 0, 0, 0, 6, 6, 3]),
  (rd 1 4 1, .read [97]),
  (wr 0 [[100]], .wrote 1),
  (.stat 0 none {}, .stat [7, 1, 4, 1, 0, 0, 6, 6, 3]),
  (wr 0 [[101]], .wrote 1),
  (.stat 0 none {}, .stat [8, 1, 5, 1, 1, 1, 6, 6, 3]),
  (.close 0 {}, .closed),
  (.close 1 {}, .closed)] = true := by decide +kernel

/-- tests/test85.c, tests/test85.ans. -/
example : conforms { dataSz := 6, flags := (SHR_DROP ||| SHR_MAXMSGS_2), maxMsgs := 100 } [
  (opn 0 (SHR_WRONLY), .opened),
  (opn 1 (SHR_RDONLY), .opened),
  (wr 0 [[97]], .wrote 1),
  (wr 0 [[98]], .wrote 1),
  (wr 0 [[99, 99, 99, 99]], .wrote 4),
  (.stat 0 none {}, .stat [6, 0, 3, 0, 0, 0, 6, 6, 3]),
  (rd 1 4 1, .read [97]),
  (wr 0 [[100]], .wrote 1),
  (.stat 0 none {}, .stat [7, 1, 4, 1, 0, 0, 6, 6, 3]),
  (wr 0 [[101, 101]], .wrote 2),
  (.stat 0 none {}, .stat [9, 1, 5, 1, 2, 5, 6, 3, 2]),
  (.close 0 {}, .closed),
  (.close 1 {}, .closed)] = true := by decide +kernel

/-- tests/test86.c, tests/test86.ans. -/
example : conforms { dataSz := 6, flags := (SHR_DROP ||| SHR_MAXMSGS_2), maxMsgs := 100 } [
  (opn 0 (SHR_WRONLY), .opened),
  (opn 1 (SHR_RDONLY), .opened),
  (wr 0 [[97]], .wrote 1),
  (wr 0 [[98]], .wrote 1),
  (wr 0 [[99, 99, 99, 99]], .wrote 4),
  (.stat 0 none {}, .stat [6, 0, 3, 0, 0, 0, 6, 6, 3]),
  (rd 1 4 1, .read [97]),
  (wr 0 [[100, 100]], .wrote 2),
  (.stat 0 none {}, .stat [8, 1, 4, 1, 1, 1, 6, 6, 2]),
  (.close 0 {}, .closed),
  (.close 1 {}, .closed)] = true := by decide +kernel

/-- tests/test87.c, tests/test87.ans. -/
example : conforms { dataSz := 6, flags := (SHR_DROP ||| SHR_MAXMSGS_2), maxMsgs := 100 } [
  (opn 0 (SHR_WRONLY), .opened),
  (opn 1 (SHR_RDONLY), .opened),
  (wr 0 [[97]], .wrote 1),
  (wr 0 [[98]], .wrote 1),
  (wr 0 [[99, 99, 99, 99]], .wrote 4),
  (.stat 0 none {}, .stat [6, 0, 3, 0, 0, 0, 6, 6, 3]),
  (rd 1 4 1, .read [97]),
  (wr 0 [[100]], .wrote 1),
  (.stat 0 none {}, .stat [7, 1, 4, 1, 0, 0, 6, 6, 3]),
  (wr 0 [[101, 101]], .wrote 2),
  (.stat 0 none {}, .stat [9, 1, 5, 1, 2, 5, 6, 3, 2]),
  (rd 1 4 1, .read [100]),
  (.close 0 {}, .closed),
  (.close 1 {}, .closed)] = true := by decide +kernel

/-- tests/test88.c, tests/test88.ans. -/
example : conforms { dataSz := 7, flags := (SHR_DROP ||| SHR_MAXMSGS_2), maxMsgs := 100 } [
  (opn 0 (SHR_WRONLY), .opened),
  (opn 1 (SHR_RDONLY), .opened),
  (wr 0 [[97]], .wrote 1),
  (wr 0 [[98]], .wrote 1),
  (wr 0 [[99, 99, 99, 99]], .wrote 4),
  (.stat 0 none {}, .stat [6, 0, 3, 0, 0, 0, 7, 6, 3]),
  (rd 1 4 1, .read [97]),
  (wr 0 [[100]], .wrote 1),
  (.stat 0 none {}, .stat [7, 1, 4, 1, 0, 0, 7, 6, 3]),
  (wr 0 [[101]], .wrote 1),
  (.stat 0 none {}, .stat [8, 1, 5, 1, 0, 0, 7, 7, 4]),
  (.close 0 {}, .closed),
  (.close 1 {}, .closed)] = true := by decide +kernel

/-- tests/test89.c, tests/test89.ans. -/
example : conforms { dataSz := 7, flags := (SHR_DROP ||| SHR_MAXMSGS_2), maxMsgs := 100 } [
  (opn 0 (SHR_WRONLY), .opened),
  (opn 1 (SHR_RDONLY), .opened),
  (wr 0 [[97]], .wrote 1),
  (wr 0 [[98]], .wrote 1),
  (wr 0 [[99, 99, 99, 99]], .wrote 4),
  (.stat 0 none {}, .stat [6, 0, 3, 0, 0, 0, 7, 6, 3]),
  (rd 1 4 1, .read [97]),
  (wr 0 [[100]], .wrote 1),
  (.stat 0 none {}, .stat [7, 1, 4, 1, 0, 0, 7, 6, 3]),
  (wr 0 [[101, 101]], .wrote 2),
  (.stat 0 none {}, .stat [9, 1, 5, 1, 1, 1, 7, 7, 3]),
  (.close 0 {}, .closed),
  (.close 1 {}, .closed)] = true := by decide +kernel

/-- tests/test90.c, tests/test90.ans. -/
example : conforms { dataSz := 7, flags := (SHR_DROP ||| SHR_MAXMSGS_2), maxMsgs := 100 } [
  (opn 0 (SHR_WRONLY), .opened),
  (opn 1 (SHR_RDONLY), .opened),
  (wr 0 [[97]], .wrote 1),
  (wr 0 [[98]], .wrote 1),
  (wr 0 [[99, 99, 99, 99]], .wrote 4),
  (.stat 0 none {}, .stat [6, 0, 3, 0, 0, 0, 7, 6, 3]),
  (rd 1 4 1, .read [97]),
  (wr 0 [[100, 100]], .wrote 2),
  (.stat 0 none {}, .stat [8, 1, 4, 1, 0, 0, 7, 7, 3]),
  (.close 0 {}, .closed),
  (.close 1 {}, .closed)] = true := by decide +kernel

/-- tests/test91.c, tests/test91.ans. -/
example : conforms { dataSz := 7, flags := (SHR_DROP ||| SHR_MAXMSGS_2), maxMsgs := 100 } [
  (opn 0 (SHR_WRONLY), .opened),
  (opn 1 (SHR_RDONLY), .opened),
  (wr 0 [[97]], .wrote 1),
  (wr 0 [[98]], .wrote 1),
  (wr 0 [[99, 99, 99, 99]], .wrote 4),
  (.stat 0 none {}, .stat [6, 0, 3, 0, 0, 0, 7, 6, 3]),
  (rd 1 4 1, .read [97]),
  (wr 0 [[100, 100, 100]], .wrote 3),
  (.stat 0 none {}, .stat [9, 1, 4, 1, 1, 1, 7, 7, 2]),
  (rd 1 4 1, .read [99, 99, 99, 99]),
  (.close 0 {}, .closed),
  (.close 1 {}, .closed)] = true := by decide +kernel

/-- tests/test92.c, tests/test92.ans. -/
example : conforms { dataSz := 7, flags := (SHR_DROP ||| SHR_MAXMSGS_2), maxMsgs := 100 } [
  (opn 0 (SHR_WRONLY), .opened),
  (opn 1 (SHR_RDONLY), .opened),
  (wr 0 [[97]], .wrote 1),
  (wr 0 [[98]], .wrote 1),
  (wr 0 [[99, 99, 99, 99]], .wrote 4),
  (.stat 0 none {}, .stat [6, 0, 3, 0, 0, 0, 7, 6, 3]),
  (rd 1 4 1, .read [97]),
  (wr 0 [[100, 100, 100, 100]], .wrote 4),
  (.stat 0 none {}, .stat [10, 1, 4, 1, 2, 5, 7, 4, 1]),
  (rd 1 4 1, .read [100, 100, 100, 100]),
  (.close 0 {}, .closed),
  (.close 1 {}, .closed)] = true := by decide +kernel

/-- tests/test93.c, tests/test93.ans. -/
example : conforms { dataSz := 7, flags := (SHR_DROP ||| SHR_MAXMSGS_2), maxMsgs := 100 } [
  (opn 0 (SHR_WRONLY), .opened),
  (opn 1 (SHR_RDONLY), .opened),
  (wr 0 [[97]], .wrote 1),
  (wr 0 [[98]], .wrote 1),
  (wr 0 [[99, 99, 99, 99]], .wrote 4),
  (.stat 0 none {}, .stat [6, 0, 3, 0, 0, 0, 7, 6, 3]),
  (rd 1 7 1, .read [97]),
  (wr 0 [[100, 100, 100, 100]], .wrote 4),
  (.stat 0 none {}, .stat [10, 1, 4, 1, 2, 5, 7, 4, 1]),
  (rd 1 7 1, .read [100, 100, 100, 100]),
  (wr 0 [[101, 101, 101, 101, 101, 101, 101]], .wrote 7),
  (.stat 0 none {}, .stat [17, 5, 5, 2, 2, 5, 7, 7, 1]),
  (rd 1 7 1, .read [101, 101, 101, 101, 101, 101, 101]),
  (.stat 0 none {}, .stat [17, 12, 5, 3, 2, 5, 7, 0, 0]),
  (.close 0 {}, .closed),
  (.close 1 {}, .closed)] = true := by decide +kernel

/-- tests/test94.c, tests/test94.ans. -/
example : conforms { dataSz := 8, flags := (SHR_DROP ||| SHR_MAXMSGS_2), maxMsgs := 100 } [
  (opn 0 (SHR_WRONLY), .opened),
  (opn 1 (SHR_RDONLY), .opened),
  (wr 0 [[97]], .wrote 1),
  (wr 0 [[98]], .wrote 1),
  (wr 0 [[99, 99, 99, 99]], .wrote 4),
  (.stat 0 none {}, .stat [6, 0, 3, 0, 0, 0, 8, 6, 3]),
  (rd 1 4 1, .read [97]),
  (wr 0 [[100, 100, 100, 100]], .wrote 4),
  (.stat 0 none {}, .stat [10, 1, 4, 1, 1, 1, 8, 8, 2]),
  (rd 1 4 1, .read [99, 99, 99, 99]),
  (.close 0 {}, .closed),
  (.close 1 {}, .closed)] = true := by decide +kernel

/-- tests/test95.c, tests/test95.ans. -/
example : conforms { dataSz := 8, flags := (SHR_DROP ||| SHR_MAXMSGS_2), maxMsgs := 100 } [
  (opn 0 (SHR_WRONLY), .opened),
  (opn 1 (SHR_RDONLY), .opened),
  (wr 0 [[97]], .wrote 1),
  (wr 0 [[98]], .wrote 1),
  (wr 0 [[99, 99, 99, 99]], .wrote 4),
  (.stat 0 none {}, .stat [6, 0, 3, 0, 0, 0, 8, 6, 3]),
  (rd 1 5 1, .read [97]),
  (wr 0 [[100, 100, 100, 100, 100]], .wrote 5),
  (.stat 0 none {}, .stat [11, 1, 4, 1, 2, 5, 8, 5, 1]),
  (rd 1 5 1, .read [100, 100, 100, 100, 100]),
  (.close 0 {}, .closed),
  (.close 1 {}, .closed)] = true := by decide +kernel

/-- tests/test96.c, tests/test96.ans. -/
example : conforms { dataSz := 8, flags := (SHR_DROP ||| SHR_MAXMSGS_2), maxMsgs := 100 } [
  (opn 0 (SHR_WRONLY), .opened),
  (opn 1 (SHR_RDONLY), .opened),
  (wr 0 [[97]], .wrote 1),
  (wr 0 [[98]], .wrote 1),
  (wr 0 [[99, 99, 99, 99]], .wrote 4),
  (.stat 0 none {}, .stat [6, 0, 3, 0, 0, 0, 8, 6, 3]),
  (rd 1 5 1, .read [97]),
  (wr 0 [[100, 100, 100, 100, 100]], .wrote 5),
  (.stat 0 none {}, .stat [11, 1, 4, 1, 2, 5, 8, 5, 1]),
  (rd 1 5 1, .read [100, 100, 100, 100, 100]),
  (wr 0 [[101, 101, 101, 101, 101]], .wrote 5),
  (.stat 0 none {}, .stat [16, 6, 5, 2, 2, 5, 8, 5, 1]),
  (wr 0 [[102, 102]], .wrote 2),
  (.stat 0 none {}, .stat [18, 6, 6, 2, 2, 5, 8, 7, 2]),
  (.close 0 {}, .closed),
  (.close 1 {}, .closed)] = true := by decide +kernel

/-- tests/test97.c, tests/test97.ans. -/
example : conforms { dataSz := 8, flags := (SHR_DROP ||| SHR_MAXMSGS_2), maxMsgs := 100 } [
  (opn 0 (SHR_WRONLY), .opened),
  (opn 1 (SHR_RDONLY), .opened),
  (wr 0 [[97]], .wrote 1),
  (wr 0 [[98]], .wrote 1),
  (wr 0 [[99, 99, 99, 99]], .wrote 4),
  (.stat 0 none {}, .stat [6, 0, 3, 0, 0, 0, 8, 6, 3]),
  (rd 1 5 1, .read [97]),
  (wr 0 [[100, 100, 100, 100, 100]], .wrote 5),
  (.stat 0 none {}, .stat [11, 1, 4, 1, 2, 5, 8, 5, 1]),
  (rd 1 5 1, .read [100, 100, 100, 100, 100]),
  (wr 0 [[101, 101, 101, 101, 101]], .wrote 5),
  (.stat 0 none {}, .stat [16, 6, 5, 2, 2, 5, 8, 5, 1]),
  (wr 0 [[102, 102]], .wrote 2),
  (.stat 0 none {}, .stat [18, 6, 6, 2, 2, 5, 8, 7, 2]),
  (wr 0 [[103]], .wrote 1),
  (.stat 0 none {}, .stat [19, 6, 7, 2, 2, 5, 8, 8, 3]),
  (rd 1 5 1, .read [101, 101, 101, 101, 101]),
  (rd 1 5 1, .read [102, 102]),
  (rd 1 5 1, .read [103]),
  (.close 0 {}, .closed),
  (.close 1 {}, .closed)] = true := by decide +kernel

/-- tests/test98.c, tests/test98.ans. -/
example : conforms { dataSz := 7, flags := (SHR_DROP ||| SHR_MAXMSGS_2), maxMsgs := 100 } [
  (opn 0 (SHR_WRONLY), .opened),
  (opn 1 (SHR_RDONLY), .opened),
  (wr 0 [[97]], .wrote 1),
  (wr 0 [[98]], .wrote 1),
  (wr 0 [[99, 99, 99, 99]], .wrote 4),
  (.stat 0 none {}, .stat [6, 0, 3, 0, 0, 0, 7, 6, 3]),
  (rd 1 5 1, .read [97]),
  (wr 0 [[100, 100, 100, 100, 100]], .wrote 5),
  (.stat 0 none {}, .stat [11, 1, 4, 1, 2, 5, 7, 5, 1]),
  (rd 1 5 1, .read [100, 100, 100, 100, 100]),
  (wr 0 [[101, 101, 101, 101, 101]], .wrote 5),
  (.stat 0 none {}, .stat [16, 6, 5, 2, 2, 5, 7, 5, 1]),
  (wr 0 [[102, 102]], .wrote 2),
  (.stat 0 none {}, .stat [18, 6, 6, 2, 2, 5, 7, 7, 2]),
  (wr 0 [[103]], .wrote 1),
  (.stat 0 none {}, .stat [19, 6, 7, 2, 3, 10, 7, 3, 2]),
  (rd 1 5 1, .read [102, 102]),
  (rd 1 5 1, .read [103]),
  (.close 0 {}, .closed),
  (.close 1 {}, .closed)] = true := by decide +kernel

/-- tests/test99.c, tests/test99.ans. -/
example : conforms { dataSz := 6, flags := (SHR_DROP ||| SHR_MAXMSGS_2), maxMsgs := 100 } [
  (opn 0 (SHR_WRONLY), .opened),
  (opn 1 (SHR_RDONLY), .opened),
  (wr 0 [[97]], .wrote 1),
  (wr 0 [[98]], .wrote 1),
  (wr 0 [[99]], .wrote 1),
  (wr 0 [[100]], .wrote 1),
  (wr 0 [[101]], .wrote 1),
  (wr 0 [[102]], .wrote 1),
  (.stat 0 none {}, .stat [6, 0, 6, 0, 0, 0, 6, 6, 6]),
  (wr 0 [[103]], .wrote 1),
  (wr 0 [[104]], .wrote 1),
  (wr 0 [[105]], .wrote 1),
  (wr 0 [[106]], .wrote 1),
  (wr 0 [[107]], .wrote 1),
  (wr 0 [[108]], .wrote 1),
  (.stat 0 none {}, .stat [12, 0, 12, 0, 6, 6, 6, 6, 6]),
  (rd 1 5 1, .read [103]),
  (rd 1 5 1, .read [104]),
  (rd 1 5 1, .read [105]),
  (rd 1 5 1, .read [106]),
  (rd 1 5 1, .read [107]),
  (rd 1 5 1, .read [108]),
  (.close 0 {}, .closed),
  (.close 1 {}, .closed)] = true := by decide +kernel

/-- tests/test100.c, tests/test100.ans. -/
example : conforms { dataSz := 6, flags := (SHR_DROP ||| SHR_MAXMSGS_2), maxMsgs := 100 } [
  (opn 0 (SHR_WRONLY), .opened),
  (opn 1 (SHR_RDONLY), .opened),
  (wr 0 [[97, 97]], .wrote 2),
  (wr 0 [[98, 98]], .wrote 2),
  (wr 0 [[99, 99]], .wrote 2),
  (.stat 0 none {}, .stat [6, 0, 3, 0, 0, 0, 6, 6, 3]),
  (wr 0 [[103, 103]], .wrote 2),
  (wr 0 [[104, 104]], .wrote 2),
  (wr 0 [[105, 105]], .wrote 2),
  (.stat 0 none {}, .stat [12, 0, 6, 0, 3, 6, 6, 6, 3]),
  (rd 1 5 1, .read [103, 103]),
  (rd 1 5 1, .read [104, 104]),
  (rd 1 5 1, .read [105, 105]),
  (.close 0 {}, .closed),
  (.close 1 {}, .closed)] = true := by decide +kernel

/-- tests/test101.c, tests/test101.ans. -/
example : conforms { dataSz := 7, flags := (SHR_DROP ||| SHR_MAXMSGS_2), maxMsgs := 100 } [
  (opn 0 (SHR_WRONLY), .opened),
  (opn 1 (SHR_RDONLY), .opened),
  (wr 0 [[97, 97]], .wrote 2),
  (wr 0 [[98, 98]], .wrote 2),
  (wr 0 [[99, 99]], .wrote 2),
  (.stat 0 none {}, .stat [6, 0, 3, 0, 0, 0, 7, 6, 3]),
  (wr 0 [[100, 100]], .wrote 2),
  (wr 0 [[101, 101]], .wrote 2),
  (wr 0 [[102, 102]], .wrote 2),
  (.stat 0 none {}, .stat [12, 0, 6, 0, 3, 6, 7, 6, 3]),
  (rd 1 5 1, .read [100, 100]),
  (rd 1 5 1, .read [101, 101]),
  (rd 1 5 1, .read [102, 102]),
  (.close 0 {}, .closed),
  (.close 1 {}, .closed)] = true := by decide +kernel

/-- tests/test102.c, tests/test102.ans. -/
example : conforms { dataSz := 7, flags := (SHR_DROP ||| SHR_MAXMSGS_2), maxMsgs := 100 } [
  (opn 0 (SHR_WRONLY), .opened),
  (opn 1 (SHR_RDONLY), .opened),
  (wr 0 [[97, 97]], .wrote 2),
  (wr 0 [[98, 98]], .wrote 2),
  (wr 0 [[99, 99, 99]], .wrote 3),
  (.stat 0 none {}, .stat [7, 0, 3, 0, 0, 0, 7, 7, 3]),
  (wr 0 [[100, 100]], .wrote 2),
  (wr 0 [[101, 101]], .wrote 2),
  (wr 0 [[102, 102]], .wrote 2),
  (.stat 0 none {}, .stat [13, 0, 6, 0, 3, 7, 7, 6, 3]),
  (rd 1 5 1, .read [100, 100]),
  (rd 1 5 1, .read [101, 101]),
  (rd 1 5 1, .read [102, 102]),
  (.close 0 {}, .closed),
  (.close 1 {}, .closed)] = true := by decide +kernel

/-- tests/test103.c, tests/test103.ans. -/
example : conforms { dataSz := 7, flags := (SHR_DROP ||| SHR_MAXMSGS_2), maxMsgs := 100 } [
  (opn 0 (SHR_WRONLY), .opened),
  (opn 1 (SHR_RDONLY), .opened),
  (wr 0 [[97, 97]], .wrote 2),
  (wr 0 [[98, 98]], .wrote 2),
  (wr 0 [[99, 99, 99]], .wrote 3),
  (.stat 0 none {}, .stat [7, 0, 3, 0, 0, 0, 7, 7, 3]),
  (wr 0 [[100, 100]], .wrote 2),
  (wr 0 [[101, 101]], .wrote 2),
  (wr 0 [[102, 102]], .wrote 2),
  (wr 0 [[103]], .wrote 1),
  (.stat 0 none {}, .stat [14, 0, 7, 0, 3, 7, 7, 7, 4]),
  (rd 1 5 1, .read [100, 100]),
  (rd 1 5 1, .read [101, 101]),
  (rd 1 5 1, .read [102, 102]),
  (rd 1 5 1, .read [103]),
  (.close 0 {}, .closed),
  (.close 1 {}, .closed)] = true := by decide +kernel

/-- tests/test104.c, tests/test104.ans. -/
example : conforms { dataSz := 7, flags := (SHR_DROP ||| SHR_MAXMSGS_2), maxMsgs := 100 } [
  (opn 0 (SHR_WRONLY), .opened),
  (opn 1 (SHR_RDONLY), .opened),
  (wr 0 [[97, 97]], .wrote 2),
  (wr 0 [[98, 98]], .wrote 2),
  (wr 0 [[99, 99, 99]], .wrote 3),
  (.stat 0 none {}, .stat [7, 0, 3, 0, 0, 0, 7, 7, 3]),
  (wr 0 [[100, 100]], .wrote 2),
  (wr 0 [[101, 101]], .wrote 2),
  (wr 0 [[102, 102]], .wrote 2),
  (wr 0 [[103, 103]], .wrote 2),
  (.stat 0 none {}, .stat [15, 0, 7, 0, 4, 9, 7, 6, 3]),
  (rd 1 5 1, .read [101, 101]),
  (rd 1 5 1, .read [102, 102]),
  (rd 1 5 1, .read [103, 103]),
  (.close 0 {}, .closed),
  (.close 1 {}, .closed)] = true := by decide +kernel

end Shr
