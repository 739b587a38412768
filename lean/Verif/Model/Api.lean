import Verif.Model.Ring
/-!
# The public API on an open handle: `shr_open`, `shr_writev` with its cache, `shr_flush`, `shr_close`,
`shr_stat`, `shr_farm_stat`, `shr_appdata`, `shr_get_selectable_fd`, `shr_ctl`

A call that has to wait returns the outcome `wait`/`blocked`: it has released the lock and sleeps in
`bw_wait_ul`.  When it is woken it starts over at the head of its loop; since its handle is not used
by anybody else meanwhile, this is the same as issuing the call again, which is how histories
represent it.  (Simplification: while it sleeps inside a flush, C keeps `SHR_BUFFERED`, and in a
waiting `shr_flush` also `SHR_NONBLOCK`, cleared in `s->flags`; the model puts them back and the
re-issued call clears them again.)
-/
namespace Shr
open M

/-- Clearing and setting bits of a flag word (`flags &= ~b`, `flags |= b`). -/
def Flags.clear (f b : Flags) : Flags := f &&& ~~~b
def Flags.set (f b : Flags) : Flags := f ||| b

/-! ## The write cache -/

/-- One iteration of the caching loop, src/shr.c:904-910: bounds-checked copy into the cache buffer
and iov array. -/
def cacheOne (c : Cache) (b : Msg) : Except Fault Cache := do
  let buf ← memWrite c.buf c.n b
  if c.vm < c.iov.length then
    .ok { c with buf := buf, iov := c.iov.set c.vm (c.n, b.length), n := wadd c.n b.length,
                 vm := wadd c.vm 1 }
  else .error .ub

/-- The caching loop, src/shr.c:904-910. -/
def cacheAll : Cache → List Msg → Except Fault Cache
  | c, [] => .ok c
  | c, b :: bs => do
    let c' ← cacheOne c b
    cacheAll c' bs

/-- The messages `s->c.iov[0 .. vm-1]` as `shr_writev` will read them. -/
def cacheRead (buf : List Byte) : List (Nat × Nat) → Except Fault (List Msg)
  | [] => .ok []
  | (o, l) :: t => do
    let b ← memRead buf o l
    let bs ← cacheRead buf t
    .ok (b :: bs)

/-- Flushing the cache: `shr_writev(s, s->c.iov, s->c.vm)` with SHR_BUFFERED cleared, which does not
enter the cache loop again; src/shr.c:917-919 and 1130-1132. -/
def flushCache (h : Handle) (env : Env) : M Ring WrOut := do
  let msgs ← lift (cacheRead h.c.buf (h.c.iov.take h.c.vm))
  writevDirect (h.flags.clear SHR_BUFFERED) h.n h.mm msgs env

/-- The loop `while (s->flags & SHR_BUFFERED)` of `shr_writev`, src/shr.c:897-923.  Result: the
handle and either the value returned from inside the loop or `none` if the loop is left.  `envF` is
the environment of the nested call. -/
def cacheLoop (iov : List Msg) (len : Nat) (envF : Env) : Nat → Handle → M Ring (Handle × Option WrOut)
  | 0, _ => lift (.error .hang)
  | fuel + 1, h =>
    if h.flags.has SHR_BUFFERED = false then pure (h, none)
    else if len ≤ wsub h.c.sz h.c.n ∧ iov.length ≤ wsub h.c.vt h.c.vm then do
      let c ← lift (cacheAll h.c iov)
      pure ({ h with c := c }, some (.ret (len : Int) false))
    else if h.c.n = 0 then pure (h, none)
    else do
      let out ← flushCache h envF
      match out with
      | .wait => pure (h, some .wait)
      | .ret rc wake =>
        if rc ≤ 0 then pure (h, some (.ret rc wake))
        else cacheLoop iov len envF fuel { h with c := { h.c with n := 0, vm := 0 } }

/-- `shr_writev`, src/shr.c:877-1014.  `envF` is the environment of a nested flush. -/
def shr_writev (h : Handle) (iov : List Msg) (envF env : Env) : M Ring (Handle × WrOut) := do
  assert (h.flags.has SHR_WRONLY)
  match lenCheck h.n h.mm (iov.map List.length) with
  | none => pure (h, .ret (-1) false)
  | some len => do
    let x ← cacheLoop iov len envF 2 h
    match x.2 with
    | some out => pure (x.1, out)
    | none => do
      let out ← writevAttempt x.1.flags x.1.mm iov len env
      pure (x.1, out)

/-- `shr_write`, src/shr.c:685-688. -/
def shr_write (h : Handle) (buf : Msg) (envF env : Env) : M Ring (Handle × WrOut) :=
  shr_writev h [buf] envF env

/-- `shr_readv`, src/shr.c:784-858. -/
def shr_readv (h : Handle) (buf : List Byte) (len niov : Nat) (env : Env) :
    M Ring (Handle × RdOut) := do
  let x ← readvAttempt h.flags h.cur buf len niov env
  pure ({ h with cur := x.1 }, x.2)

/-- `shr_read`, src/shr.c:704-708. -/
def shr_read (h : Handle) (buf : List Byte) (len : Nat) (env : Env) : M Ring (Handle × RdOut) :=
  shr_readv h buf len 1 env

/-- `shr_flush`, src/shr.c:1104-1142. -/
def shr_flush (h : Handle) (wait : Bool) (env : Env) : M Ring (Handle × WrOut) := do
  assert (h.flags.has SHR_WRONLY)
  if h.c.n = 0 then pure (h, .ret 0 false)
  else
    let toggled := h.flags.has SHR_NONBLOCK && wait
    let h1 : Handle := if toggled then { h with flags := h.flags.clear SHR_NONBLOCK } else h
    -- opening the r2w handle for a blocking flush
    if toggled ∧ h1.hasR2w = false ∧ (env.lockOk = false ∨ env.bwOpenOk = false) then
      pure ({ h1 with flags := h1.flags.set SHR_NONBLOCK }, .ret (-1) false)
    else do
      let h2 : Handle := if toggled then { h1 with hasR2w := true } else h1
      let out ← flushCache h2 env
      let h3 : Handle := { h2 with flags := (h2.flags.clear SHR_BUFFERED).set SHR_BUFFERED }
      let h4 : Handle := match out with
        | .ret rc _ => if rc > 0 then { h3 with c := { h3.c with n := 0, vm := 0 } } else h3
        | .wait => h3
      pure (if toggled then { h4 with flags := h4.flags.set SHR_NONBLOCK } else h4, out)

/-- `shr_close`, src/shr.c:1156-1177, up to releasing the descriptors: the final flush; `wait` means
that it is still waiting inside that flush.  (Releasing waiter slots is in `Model/Bw.lean`.) -/
def shr_close (h : Handle) (env : Env) : M Ring WrOut := do
  if h.c.n ≠ 0 then do
    let x ← shr_flush h false env
    pure x.2
  else pure (.ret 0 false)

/-! ## Opening -/

/-- `validate_flags`, src/shr.c:476-485 (`true` = accepted). -/
def validate_flags (flags : Flags) : Bool :=
  if ((flags &&& SHR_RDONLY) ^^^ (flags &&& SHR_WRONLY)) == 0#32 then false
  else if flags.has (SHR_OPEN_FENCE - 1#32) then false
  else true

/-- Size of the malloc'd cache, src/shr.c:502-505. -/
def cacheSize (n : Nat) : Nat :=
  let a := n / 10
  let b := if a > 1024 * 1024 * 1024 then 1024 * 1024 * 1024 else a
  if b < 1024 then n else b

/-- `init_cache`, src/shr.c:495-529.  (Simplification: `malloc` yields zero bytes.) -/
def init_cache (r : Ring) (flags : Flags) (env : Env) : Option Cache :=
  if flags.has SHR_WRONLY = false then some {}
  else if flags.has SHR_BUFFERED = false then some {}
  else if env.mallocOk = false then none
  else
    let vt := min 10000 r.mm
    some { buf := List.replicate (cacheSize r.n) 0, sz := cacheSize r.n, n := 0,
           iov := List.replicate vt (0, 0), vt := vt, vm := 0 }

/-- `shr_open` on a mapped ring that passes `validate_ring` (see `Model/File.lean` for the file part
and the validation): the rest of the part under the lock, src/shr.c:591 and 598-612.  `none` is a NULL result.
No ring field is changed. -/
def openLocked (r : Ring) (flags : Flags) (env : Env) : Option Handle :=
  if env.lockOk = false then none
  else if r.gflags.has SHR_MLOCK ∧ env.mlockOk = false then none
  else if env.bwOpenOk = false then none
  else match init_cache r flags env with
    | none => none
    | some c =>
      if r.gflags.has SHR_SYNC ∧ env.syncOk = false then none
      else
        -- open_blockwake, src/shr.c:444-474
        let needR2w := flags.has SHR_NONBLOCK = false ∧ r.gflags.has SHR_DROP = false
        some { flags := flags, cur := ⟨r.q, 0⟩, c := c, n := r.n, mm := r.mm,
               hasR2w := flags.has SHR_RDONLY || (flags.has SHR_WRONLY && decide needR2w) }

/-! ## Status calls and app data -/

/-- `shr_stat`, src/shr.c:315-349: return code and the filled-in struct (if the lock was obtained). -/
def shr_stat (h : Handle) (reset : Option Timeval) (env : Env) : M Ring (Int × Option Stat) := do
  if env.lockOk = false then pure (-1, none)
  else do
    let r ← M.get
    let st : Stat := { r.stat with
      bn := r.n, bu := r.u, mu := r.m, mm := r.mm,
      cn := h.c.sz, cm := h.c.vm, cb := h.c.n, flags := r.gflags }
    match reset with
    | some t => do
      store fun r => { r with stat := {} }
      store fun r => { r with stat := { r.stat with start := t } }
    | none => pure ()
    if r.gflags.has SHR_SYNC ∧ env.syncOk = false then pure (-1, some st)
    else pure (0, some st)

/-- `shr_farm_stat`, src/shr.c:362-371. -/
def shr_farm_stat (h : Handle) (reset : Bool) : M Ring (Handle × Nat) := do
  assert (h.flags.has SHR_RDONLY)
  pure (if reset then { h with cur := { h.cur with md := 0 } } else h, h.cur.md)

/-- Result of `shr_appdata`: return code, the bytes in `*get` afterwards (`none`: not filled in), and
`*sz` afterwards. -/
structure AppOut where
  rc : Int
  got : Option (List Byte)
  sz : Nat
  deriving DecidableEq, Repr

/-- The `get` argument of `shr_appdata`. -/
inductive GetArg where
  | null                     -- get == NULL
  | alloc                    -- *get == NULL
  | into (cap : Nat)         -- *get points to cap bytes
  deriving DecidableEq, Repr

/-- `memcpy` out of the app-data region. -/
def appRead (r : Ring) (sz : Nat) : Except Fault (List Byte) := memRead r.app 0 sz

/-- `shr_appdata`, src/shr.c:1041-1084.  `set` is the caller's buffer (`none` = NULL). -/
def shr_appdata (get : GetArg) (set : Option (List Byte)) (sz : Nat) (env : Env) : M Ring AppOut := do
  if env.lockOk = false then pure ⟨-1, none, sz⟩
  else do
    let r ← M.get
    if r.app_len = 0 then pure ⟨-1, none, sz⟩
    else
      let fin (got : Option (List Byte)) (sz' : Nat) : M Ring AppOut :=
        if r.gflags.has SHR_SYNC ∧ env.syncOk = false then pure ⟨-1, got, sz'⟩
        else pure ⟨0, got, sz'⟩
      match get, set with
      | .alloc, none =>
        if env.mallocOk = false then pure ⟨-1, none, r.app_len⟩
        else do
          let b ← lift (appRead r r.app_len)
          fin (some b) r.app_len
      | .into cap, none =>
        if sz < r.app_len then pure ⟨-1, none, sz⟩
        else do
          let b ← lift (appRead r sz)
          if sz ≤ cap then pure () else lift (.error .ub)
          fin (some b) r.app_len
      | .null, some s =>
        if sz ≠ r.app_len then pure ⟨-1, none, sz⟩
        else do
          let b ← lift (memRead s 0 sz)
          memcpyShared Ring.app (fun a r => { r with app := a }) 0 b
          fin none sz
      | .into cap, some s =>
        if sz ≠ r.app_len then pure ⟨-1, none, sz⟩
        else do
          let old ← lift (appRead r sz)
          if sz ≤ cap then pure () else lift (.error .ub)
          let b ← lift (memRead s 0 sz)
          memcpyShared Ring.app (fun a r => { r with app := a }) 0 b
          fin (some old) sz
      | .null, none => fin none sz
      | .alloc, some _ => fin none sz

/-- `shr_get_selectable_fd`, src/shr.c:420-424; `waitFd` is `s->wait_fd`. -/
def shr_get_selectable_fd (h : Handle) (waitFd : Int) : Int :=
  if h.flags.has SHR_RDONLY ∧ h.flags.has SHR_NONBLOCK then waitFd else -1

/-- `shr_ctl`, src/shr.c:1194-1226: return code and which block/wake handle gets the descriptor
(`some true` = r2w, `some false` = w2r).  `ctlOk`: `bw_ctl` succeeded.  (If both modes are set the last
assignment wins.) -/
def shr_ctl (h : Handle) (flag : Flags) (ctlOk : Bool) : Int :=
  if flag = SHR_POLLFD then
    let used := (h.flags.has SHR_WRONLY && h.hasR2w) || h.flags.has SHR_RDONLY
    if used && !ctlOk then -1 else 0
  else -1

end Shr
