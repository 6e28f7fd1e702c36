import Verif.CStr

/-!
# The condition store (src/cond.c, src/cond-w.c)

Conditions are files below `/run/finit/cond/`: a regular file holds the generation at
which it was last asserted, a one-shot condition is a symlink to the special file
`reconf`, which holds the current generation.

Simplified: the file system is otherwise reliable (no EIO, ENOSPC, EROFS, or symlinks made
by others); names are assumed to be canonical relative paths (no empty, `.` or `..`
components); empty directories are not tracked.
-/

namespace Verif

/-- `enum cond_state`, src/cond.h:21-25. -/
inductive CState
  | off | flux | on
  deriving DecidableEq, Repr, Inhabited

/-- The numeric value used by `min()` in `cond_get_agg`, src/cond.h:22-24. -/
def CState.toNat : CState → Nat
  | .off => 0 | .flux => 1 | .on => 2

/-- `min(a, b)` on `enum cond_state`. -/
def CState.min (a b : CState) : CState := if a.toNat ≤ b.toNat then a else b

/-- A file in the condition directory: regular with a generation, or a symlink to
    `reconf` (src/cond-w.c:148 and :334). -/
inductive CFile
  | gen (g : Nat)
  | link
  deriving DecidableEq, Repr

/-- The condition directory.  `rgen = 0` stands for a missing or empty `reconf`. -/
structure CondStore where
  rgen  : Nat
  files : List (CStr × CFile)
  deriving DecidableEq, Repr

/-- `unsigned int` modulus. -/
def U32 : Nat := 4294967296

/-- `cond_path`, src/cond.c:47-55.  `snprintf` into `tmp[64]` after the 20 byte prefix
    "/var/run/finit/cond/" leaves room for 43 bytes of the name. -/
def condPath (name : CStr) : CStr := name.take 43

/-- Path lookup in the condition directory. -/
def CondStore.lookup (st : CondStore) (p : CStr) : Option CFile :=
  (st.files.find? (fun e => decide (e.1 = p))).map (·.2)

/-- `cond_get_gen`, src/cond.c:57-75 (0 when the file cannot be read). -/
def CondStore.getGen (st : CondStore) (p : CStr) : Nat :=
  match st.lookup p with
  | none => 0
  | some (.gen g) => g
  | some .link => st.rgen

/-- `cond_get_path`, src/cond.c:77-90. -/
def CondStore.getPath (st : CondStore) (p : CStr) : CState :=
  let cgen := st.getGen p
  if cgen = 0 then .off
  else if st.rgen = 0 then .off
  else if cgen = st.rgen then .on else .flux

/-- `cond_get`, src/cond.c:92-95. -/
def CondStore.get (st : CondStore) (name : CStr) : CState := st.getPath (condPath name)

/-- The loop of `cond_get_agg`, src/cond.c:106-107 (`s && cond`: stops at COND_OFF). -/
def CondStore.aggLoop (st : CondStore) : CState → List CStr → CState
  | s, [] => s
  | s, n :: ns => if s = .off then s else st.aggLoop (s.min (st.get n)) ns

/-- `cond_get_agg` on an already split list, src/cond.c:97-111. -/
def CondStore.agg (st : CondStore) (names : List CStr) : CState := st.aggLoop .on names

/-- The separator of condition lists. -/
def isComma (c : Char) : Bool := c == ','

/-- `cond_get_agg`, src/cond.c:97-111, on the string stored in the service. -/
def CondStore.aggStr (st : CondStore) (s : CStr) : CState := st.agg (tokens isComma s)

/-- `cond_affects`, src/cond.c:113-128; the list is copied to `conds[MAX_COND_LEN]` with
    MAX_COND_LEN = 192 (src/svc.h:102). -/
def condAffects (name names : CStr) : Bool :=
  (tokens isComma (strlcpy 192 names)).any (fun c => decide (c = name))

/-- Directory name with exactly one trailing slash added if there is none. -/
def dirSlash (p : CStr) : CStr := if p.getLast? = some '/' then p else p ++ ['/']

/-- `q` lies below directory `p`. -/
def under (p q : CStr) : Bool := (dirSlash p).isPrefixOf q

/-- `cond_checkpath`, src/cond-w.c:182-199: creating the parent directories fails when an
    existing file is in the way. -/
def CondStore.checkFails (st : CondStore) (p : CStr) : Bool :=
  st.files.any (fun e => under e.1 p)

/-- Is the path an existing (non-empty) directory? -/
def CondStore.isDir (st : CondStore) (p : CStr) : Bool :=
  st.files.any (fun e => under p e.1)

/-- Replace or add a file. -/
def CondStore.write (st : CondStore) (p : CStr) (f : CFile) : CondStore :=
  if (st.lookup p).isSome then
    { st with files := st.files.map (fun e => if e.1 = p then (p, f) else e) }
  else { st with files := st.files ++ [(p, f)] }

/-- `cond_set_path(path, COND_ON)`, src/cond-w.c:244-262,285 with `cond_set_gen` :148-165.
    Writing through a symlink rewrites `reconf` with the value it already has.  The boolean
    is the C return value (-1 and 1 are both true). -/
def CondStore.setOn (st : CondStore) (p : CStr) : CondStore × Bool :=
  let prev := st.getPath p
  if st.checkFails p then (st, false)
  else if st.rgen = 0 then (st, true)
  else
    let st' := match st.lookup p with
      | some .link => st
      | some (.gen _) => st.write p (.gen st.rgen)
      | none => if st.isDir p then st else st.write p (.gen st.rgen)
    (st', decide (prev ≠ .on))

/-- The names below directory `p`, deepest first order is directory order
    (`cond_delpath`/`do_delete`, src/cond-w.c:201-242). -/
def CondStore.below (st : CondStore) (p : CStr) : List CStr :=
  (st.files.filter (fun e => under p e.1)).map (·.1)

/-- Remove one path. -/
def CondStore.unlink (st : CondStore) (p : CStr) : CondStore :=
  { st with files := st.files.filter (fun e => !decide (e.1 = p)) }

/-- `cond_set_path(path, COND_OFF)`, src/cond-w.c:264-280, without the updates triggered by
    `do_delete` (those are in the supervisor model): the file, or everything below the
    directory, is removed. -/
def CondStore.setOff (st : CondStore) (p : CStr) : CondStore × Bool :=
  let prev := st.getPath p
  ({ st with files := st.files.filter (fun e => !(decide (e.1 = p) || under p e.1)) },
   decide (prev ≠ .off))

/-- The special name ignored by all writers, src/cond-w.c:316,338,367. -/
def nopName : CStr := ['n','o','p']

/-- `cond_set_noupdate`, src/cond-w.c:313-323; true = changed (C returns 0). -/
def CondStore.set (st : CondStore) (name : CStr) : CondStore × Bool :=
  if name = nopName then (st, false) else st.setOn (condPath name)

/-- `cond_set_oneshot_noupdate`, src/cond-w.c:334-353; `symlink()` leaves an existing
    entry alone (EEXIST).  True = success. -/
def CondStore.oneshot (st : CondStore) (name : CStr) : CondStore × Bool :=
  if name = nopName then (st, false)
  else
    let p := condPath name
    if st.checkFails p then (st, false)
    else if (st.lookup p).isSome || st.isDir p then (st, true)
    else (st.write p .link, true)

/-- `cond_clear_noupdate`, src/cond-w.c:364-374. -/
def CondStore.clear (st : CondStore) (name : CStr) : CondStore × Bool :=
  if name = nopName then (st, false) else st.setOff (condPath name)

/-- `cond_reload` = `cond_bump_reconf`, src/cond-w.c:167-180,385-390 (`unsigned int`). -/
def CondStore.reload (st : CondStore) : CondStore := { st with rgen := (st.rgen + 1) % U32 }

/-- The store after `cond_init`, src/cond-w.c:458-469 (generation 0 bumped to 1), with no
    boot-strap conditions. -/
def CondStore.init : CondStore := { rgen := 1, files := [] }

end Verif
