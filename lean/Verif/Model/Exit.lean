import Verif.Model.Main
import Verif.Model.File
/-!
# util/shr-tool.c: the commands as a whole, and the exit status

Library calls and system calls are given by their results, except for `shr_init` in `create`, which works on the model of the file system.
What is printed is not modelled here (see
`Model/Main.lean`).
-/
namespace Shr

/-- `cfg.mode`, util/shr-tool.c:48-58. -/
inductive Mode where
  | status | create | mount | write | writeHex | writeFile | read | readHex | pub | sub | tee
  deriving DecidableEq, Repr

/-- The commands, util/shr-tool.c:920-939; `none`: it may be a delegate. -/
def modeOf (cmd : List Byte) : Option Mode :=
  if cmd = asc "status" then some .status
  else if cmd = asc "create" then some .create
  else if cmd = asc "mount" then some .mount
  else if cmd = asc "read" then some .read
  else if cmd = asc "readhex" then some .readHex
  else if cmd = asc "write" then some .write
  else if cmd = asc "writefile" then some .writeFile
  else if cmd = asc "writehex" then some .writeHex
  else if cmd = asc "pub" then some .pub
  else if cmd = asc "sub" then some .sub
  else if cmd = asc "tee" then some .tee
  else none

/-- How the program ends: with an exit status, by replacing itself with a delegate, or in a failed assertion. -/
inductive Exit where
  | status (n : Nat) | exec | abort
  deriving DecidableEq, Repr

/-- `return rc` from `main` and `exit(rc)`: the low 8 bits. -/
def exitOf (rc : Int) : Exit := .status (rc % 256).toNat

/-- `usage`, util/shr-tool.c:109-167. -/
def usageExit : Exit := exitOf (-1)

/-- Does the command take an argument before its options, util/shr-tool.c:944-963? -/
def Mode.takesArg : Mode → Bool
  | .writeHex | .writeFile | .pub | .sub => true
  | _ => false

/-- What `main` knows after the options: the mode, the argument before the options, the options and the operands. -/
structure Invocation where
  mode : Mode
  arg : List Byte := []
  cfg : Cfg := {}
  operands : List (List Byte) := []
  deriving DecidableEq, Repr

/-- The option letters, util/shr-tool.c:965, "vbs:m:A:N:t:uqdH:P": `some true`: it takes an argument; `none`: no option. -/
def optKind (c : Byte) : Option Bool :=
  if c = 118 ∨ c = 98 ∨ c = 117 ∨ c = 113 ∨ c = 100 ∨ c = 80 then some false
  else if c = 115 ∨ c = 109 ∨ c = 65 ∨ c = 78 ∨ c = 116 ∨ c = 72 then some true
  else none

/-- The letters of one argument that begins with '-', as glibc's `getopt` takes them: the options, and the last letter if its argument is the next
word.  `none`: not an option (`getopt` returns '?'). -/
def optLetters : List Byte → Option (List (Byte × List Byte) × Option Byte)
  | [] => some ([], none)
  | c :: cs =>
    match optKind c with
    | none => none
    | some false => (optLetters cs).map fun x => ((c, []) :: x.1, x.2)
    | some true => if cs = [] then some ([], some c) else some ([(c, cs)], none)

/-- The calls of `getopt` in the option loop, util/shr-tool.c:965, as glibc has it (POSIXLY_CORRECT is not set, so operands and options may
be mixed): the options and the operands.  `none`: `getopt` returns '?' (and `main` calls usage()). -/
def getopt : List (List Byte) → Option (List (Byte × List Byte) × List (List Byte))
  | [] => some ([], [])
  | w :: rest =>
    if w = [45, 45] then some ([], rest)
    else if w.head? = some 45 ∧ w ≠ [45] then
      match optLetters (w.drop 1) with
      | none => none
      | some (os, none) => (getopt rest).map fun x => (os ++ x.1, x.2)
      | some (os, some c) =>
        match rest with
        | [] => none
        | arg :: rest' => (getopt rest').map fun x => (os ++ (c, arg) :: x.1, x.2)
    else (getopt rest).map fun x => (x.1, w :: x.2)

/-- `main` up to the switch on the mode, util/shr-tool.c:908-1011: `argv` without `argv[0]`.  `delegate`: does `try_delegate` replace the
program? -/
def mainArgs (argv : List (List Byte)) (delegate : Bool) : Except Exit Invocation :=
  match argv with
  | [] => .error usageExit
  | cmd :: rest =>
    match modeOf cmd with
    | none => .error (if delegate then .exec else usageExit)
    | some mode =>
      if mode.takesArg ∧ rest.length < 2 then .error usageExit
      else
        let arg := if mode.takesArg then rest.headD [] else []
        match getopt (if mode.takesArg then rest.drop 1 else rest) with
        | none => .error usageExit
        | some (opts, operands) =>
          match parseOpts opts { wfile := if mode = .writeFile then some arg else none } with
          | none => .error usageExit
          | some cfg => if operands = [] then .error usageExit else .ok ⟨mode, arg, cfg, operands⟩

/-! ## create -/

/-- The files of the machine: what each name refers to.  (Each name is a world of its own: no hard links, no name is a directory
of another.) -/
abbrev Disk := List Byte → FS

/-- What one name refers to changes. -/
def Disk.set (d : Disk) (name : List Byte) (fs : FS) : Disk := fun n => if n = name then fs else d n

/-- The loop over the operands in `create`, util/shr-tool.c:1084-1095, one environment for each call of `shr_init`; the
exit status, util/shr-tool.c:1226-1229 and 1319. -/
inductive Creates (a : InitArgs) : Disk → List (List Byte × InitEnv) → Disk → Exit → Prop where
  | done {d} : Creates a d [] d (exitOf 0)
  | ok {d d' name env fs rest e} : (shr_init a env (d name)).res = .ok 0 fs →
      Creates a (d.set name fs) rest d' e → Creates a d ((name, env) :: rest) d' e
  | fail {d name env fs rest rc} : (shr_init a env (d name)).res = .ok rc fs → rc < 0 →
      Creates a d ((name, env) :: rest) (d.set name fs) (exitOf rc)

/-- `case mode_create` as a whole, util/shr-tool.c:1078-1096 and the end of `main`: `file` is the content of the file given with -A. -/
def CreateRun (c : Cfg) (file : Option (List Byte)) (d : Disk) (ops : List (List Byte × InitEnv)) (d' : Disk) (e : Exit) : Prop :=
  match createCmd c file with
  | .usage => d' = d ∧ e = usageExit
  | .nofile => d' = d ∧ e = exitOf (-1)
  | .inits a => Creates a d ops d' e

/-! ## status -/

/-- `case mode_status`, util/shr-tool.c:1098-1147, and the end of `main`: `openOk`: `shr_open`; `statRc`, `appRc`: what `shr_stat` and
`shr_appdata` return; then, with -A: `fileOk`: `open` of the file, `nr`: what `write` returns. -/
def statusExit (openOk : Bool) (statRc appRc : Int) (wfile : Bool) (fileOk : Bool) (nr : Int) : Exit :=
  if openOk = false then exitOf (-1)
  else if statRc < 0 then exitOf statRc
  else if appRc = 0 ∧ wfile ∧ fileOk ∧ nr < 0 then exitOf appRc
  else exitOf 0

/-! ## write, writehex, writefile -/

/-- `case mode_write`, util/shr-tool.c:1161-1173: the messages given to `shr_write` and the exit status. -/
def writeCmd (openOk : Bool) (write : Nat → Msg → Int) (input : List Byte) : List Msg × Exit :=
  if openOk = false then ([], exitOf (-1))
  else ((writeLoop write 0 input).1, if (writeLoop write 0 input).2 then exitOf 0 else exitOf (-1))

/-- `case mode_write_hex`, util/shr-tool.c:1175-1185. -/
def writeHexCmd (lax openOk : Bool) (write : Msg → Int) (text : List Byte) : List Msg × Exit :=
  if openOk = false then ([], exitOf (-1))
  else match unhex lax text with
    | .abort => ([], .abort)
    | .reject => ([], exitOf (-1))
    | .ok m => if m = [] then ([], exitOf (-1)) else ([m], if write m < 0 then exitOf (-1) else exitOf 0)

/-- `case mode_write_file`, util/shr-tool.c:1187-1197; `content`: of the file, if it can be opened and mapped. -/
def writeFileCmd (openOk : Bool) (write : Msg → Int) (content : Option (List Byte)) : List Msg × Exit :=
  if openOk = false then ([], exitOf (-1))
  else match mapFile content with
    | none => ([], exitOf (-1))
    | some m => ([m], if write m < 0 then exitOf (-1) else exitOf 0)

/-! ## The event loop -/

/-- What one iteration of the event loop meets: `epoll_wait` fails, or the function called for the event returns this. -/
inductive LoopEv where
  | fails | handled (rc : Int)
  deriving DecidableEq, Repr

/-- The event loop in the modes read, readhex, pub, sub and tee, util/shr-tool.c:1290-1302 and 1319 (`rc` is still -1, util/shr-tool.c:909);
`none`: the program still runs. -/
def loopExit : List LoopEv → Option Exit
  | [] => none
  | .fails :: _ => some (exitOf 0)
  | .handled rc :: evs => if rc < 0 then some (exitOf (-1)) else loopExit evs

/-- `handle_io` in the modes read and readhex returns -1 at the end, and 0 else. -/
def readEv (hex block : Bool) (maxMsgs nread : Nat) (r : Except Int Msg) : LoopEv :=
  match (readStep hex block maxMsgs nread r).2 with
  | .done => .handled (-1)
  | .run _ => .handled 0

/-- The loop of `read` and `readhex` on the results of `shr_read`: what is printed, and the exit status. -/
def readExit (hex block : Bool) (maxMsgs : Nat) (rs : List (Except Int Msg)) : List ToolOut × Option Exit :=
  (readRun hex block maxMsgs 0 rs, loopExit (readEvs 0 rs))
where
  /-- The events that belong to them. -/
  readEvs : Nat → List (Except Int Msg) → List LoopEv
    | _, [] => []
    | nread, r :: rs =>
      match (readStep hex block maxMsgs nread r).2 with
      | .done => [readEv hex block maxMsgs nread r]
      | .run n => readEv hex block maxMsgs nread r :: readEvs n rs

/-! ## mount -/

/-- What the system says about the directory: `stat` (is it a directory, its device), `stat` of its parent (the device), `statfs` (the type of
the file system). -/
structure DirInfo where
  self : Option (Bool × Nat) := some (true, 0)
  parent : Option Nat := some 0
  fsType : Option Nat := some 0
  deriving DecidableEq, Repr

def TMPFS_MAGIC : Nat := 0x01021994
def RAMFS_MAGIC : Nat := 0x858458F6
def HUGEFS_MAGIC : Nat := 0x958458F6

/-- `suitable_mountpoint`, util/shr-tool.c:318-363 (for the buffer see `parentPath`). -/
def suitable (dir : List Byte) (i : DirInfo) : Int :=
  if dir.length + 4 > PATH_MAX then -1
  else match i.self with
    | none => -1
    | some (isDir, dev) =>
      if isDir = false then -1
      else match i.parent with
        | none => -1
        | some pdev =>
          match i.fsType with
          | none => -1
          | some t => if pdev ≠ dev ∧ (t = TMPFS_MAGIC ∨ t = RAMFS_MAGIC ∨ t = HUGEFS_MAGIC) then -2 else 0

/-- What `mount` does to the system; `mkdir` is relative to the directory entered last. -/
inductive SysEff where
  | mount (dir : List Byte) (fsType : List Byte) (size : Option Nat)
  | enter (dir : List Byte)
  | mkdir (name : List Byte)
  | hugepages (n : Int)
  | umount (dir : List Byte)
  deriving DecidableEq, Repr

/-- Outcomes of the system calls in `mount`. -/
structure MountEnv where
  info : DirInfo := {}
  mountOk : Bool := true
  chdirOk : Bool := true
  mkdirOk : List Byte → Bool := fun _ => true
  hugeOpenOk : Bool := true
  hugeWriteOk : Bool := true
  umountOk : Bool := true

/-- The loop that makes the subdirectories, util/shr-tool.c:1037-1044: those made, and whether all were. -/
def mkdirs (ok : List Byte → Bool) : List (List Byte) → List SysEff × Bool
  | [] => ([], true)
  | s :: rest => if ok s = false then ([], false) else (.mkdir s :: (mkdirs ok rest).1, (mkdirs ok rest).2)

/-- `case mode_mount`, util/shr-tool.c:1015-1076: what it changes, in order, and the exit status. -/
def mountCmd (c : Cfg) (dir : List Byte) (subs : List (List Byte)) (e : MountEnv) : List SysEff × Exit :=
  match c.mountMode with
  | .unmount => if e.umountOk = false then ([], exitOf (-1)) else ([.umount dir], exitOf 0)
  | .query => ([], exitOf 0)
  | m =>
    if suitable dir e.info = -2 then ([], exitOf (-1))
    else if e.mountOk = false then ([], exitOf (-1))
    else
      let m1 : SysEff := .mount dir c.fsType (if c.size = 0 then none else some c.size)
      if e.chdirOk = false then ([m1], exitOf (-1))
      else
        let (ds, ok) := if m = .makeSubdirs then mkdirs e.mkdirOk subs else ([], true)
        if ok = false then (m1 :: .enter dir :: ds, exitOf (-1))
        else if c.nrHuge = 0 then (m1 :: .enter dir :: ds, exitOf 0)
        else if e.hugeOpenOk = false ∨ e.hugeWriteOk = false then (m1 :: .enter dir :: ds, exitOf (-1))
        else (m1 :: .enter dir :: ds ++ [.hugepages c.nrHuge], exitOf 0)

end Shr
