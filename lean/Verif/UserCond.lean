import Verif.Cond
import Verif.Exec

/-!
# Conditions set by the user: `initctl cond set|clear|get` and the plugin usr

`initctl` makes and removes symlinks in the directory `usr/` of the conditions itself
(src/initctl.c); Finit is told by inotify (plugins/usr.c).

Simplified: paths are relative to the directory of the conditions and canonical (what `..`, a
doubled slash and the like in an argument of `cond get` lead to is not modelled); of the
directories only `usr/` is tracked; `erase()` of libite is `remove(3)`; symlinks to other files
than `reconf` do not occur; there is room on the disk and the user may write to it; the names
are read by Finit in the order of the events, none are lost.  The plugin also tells Finit of changes to files
that are not made by `initctl`, those are not modelled.
-/

namespace Verif

/-- `COND_USR`, src/cond.h:12 -/
def condUsr : CStr := "usr/".toList

/-- `condop_t` without COND_GET, src/initctl.c:46-50 -/
inductive CondCmd
  | set | clr
  deriving DecidableEq, Repr

/-- The conditions, and whether their directory `usr/` is there, made by `usr_init` of plugins/usr.c:83-105 -/
structure UserConds where
  st  : CondStore
  dir : Bool
  deriving DecidableEq, Repr

/-- What inotify tells of the directory: a file was made (IN_CREATE), or removed (IN_DELETE). -/
inductive UsrEvent
  | made (n : CStr)
  | gone (n : CStr)
  deriving DecidableEq, Repr

/-- The name of the file in `struct inotify_event` -/
def UsrEvent.name : UsrEvent → CStr
  | .made n => n
  | .gone n => n

/-- An argument without `usr/`, src/initctl.c:456-457 -/
def userArg (arg : CStr) : CStr := if condUsr.isPrefixOf arg then arg.drop 4 else arg

/-- The path, cut to `path[256]` with the 20 bytes of `/var/run/finit/cond/`, src/initctl.c:467-470 -/
def userPath (arg : CStr) : CStr := if '/' ∈ arg then arg.take 235 else (condUsr ++ arg).take 235

/-- `cond_read`, src/initctl.c:419-437; a symlink is read from `reconf` -/
def condRead (st : CondStore) (p : CStr) : CState :=
  match st.lookup p with
  | none => .off
  | some .link => if st.rgen = 0 then .off else .on
  | some (.gen g) => if st.rgen = 0 then .flux else if g = st.rgen then .on else .flux

/-- `symlink(_PATH_RECONF, path)` and its errors, src/initctl.c:490-493: without a name the path is that of the directory
    (EEXIST), and without the directory there is no place for it (ENOENT).  False is exit status 73. -/
def condSetOne (u : UserConds) (name : CStr) : UserConds × List UsrEvent × Bool :=
  if u.dir = false then (u, [], false)
  else if name = [] then (u, [], true)
  else
    let p := userPath name
    if (u.st.lookup p).isSome || u.st.isDir p then (u, [], true)
    else ({ u with st := u.st.write p .link }, [.made (p.drop 4)], true)

/-- `erase(path)` and its errors, src/initctl.c:494-497: without a name the path is that of the directory, which is removed
    if there are no files in it (ENOTEMPTY). -/
def condClrOne (u : UserConds) (name : CStr) : UserConds × List UsrEvent × Bool :=
  if u.dir = false then (u, [], true)
  else if name = [] then
    if u.st.isDir condUsr then (u, [], false) else ({ u with dir := false }, [], true)
  else
    let p := userPath name
    if (u.st.lookup p).isSome then ({ u with st := u.st.unlink p }, [.gone (p.drop 4)], true)
    else if u.st.isDir p then (u, [], false)
    else (u, [], true)

/-- `switch (op)`, src/initctl.c:473-498 -/
def condOne : CondCmd → UserConds → CStr → UserConds × List UsrEvent × Bool
  | .set => condSetOne
  | .clr => condClrOne

/-- The loop of `do_cond_act` over the words of an argument, src/initctl.c:452-503; the number is 0, or the exit status. -/
def condWords (op : CondCmd) : UserConds → List CStr → UserConds × List UsrEvent × Nat
  | u, [] => (u, [], 0)
  | u, w :: ws =>
    let n := userArg w
    if '/' ∈ n then (u, [], 2)
    else if '.' ∈ n then (u, [], 2)
    else
      let r := condOne op u n
      if r.2.2 = false then (r.1, r.2.1, 73)
      else
        let s := condWords op r.1 ws
        (s.1, r.2.1 ++ s.2.1, s.2.2)

/-- The loop of `cmd_parse` over the arguments, src/initctl.c:1419-1422, of `do_cond_set` and `do_cond_clr`, which end the
    program if something is wrong, src/initctl.c:449-450 -/
def condArgs (op : CondCmd) : UserConds → List CStr → UserConds × List UsrEvent × Nat
  | u, [] => (u, [], 0)
  | u, a :: as =>
    if a = [] then (u, [], 2)
    else
      let r := condWords op u (tokens isBlank a)
      if r.2.2 ≠ 0 then r
      else
        let s := condArgs op r.1 as
        (s.1, r.2.1 ++ s.2.1, s.2.2)

/-- `initctl cond set ARGS` and `initctl cond clear ARGS`: what becomes of the conditions, what inotify tells, and the exit
    status, src/initctl.c:1413-1423,449-450 -/
def condMain (op : CondCmd) (u : UserConds) (args : List CStr) : UserConds × List UsrEvent × Nat :=
  if args = [] then (u, [], 2) else condArgs op u args

/-- `do_cond_act` with COND_GET, src/initctl.c:474-488: only the first word counts. -/
def condGetOne (st : CondStore) (arg : CStr) : Nat :=
  match tokens isBlank arg with
  | [] => 0
  | w :: _ =>
    match condRead st (userPath (userArg w)) with
    | .on => 0
    | .off => 1
    | .flux => 255

/-- The loop of `cmd_parse` over the arguments with `rc |= …`, src/initctl.c:1419-1422; an empty argument ends the program,
    src/initctl.c:449-450 -/
def condGetArgs (st : CondStore) : Nat → List CStr → Nat
  | rc, [] => rc
  | rc, a :: as => if a = [] then 2 else condGetArgs st (rc ||| condGetOne st a) as

/-- The exit status of `initctl cond get ARGS` -/
def condGet (st : CondStore) (args : List CStr) : Nat := if args = [] then 2 else condGetArgs st 0 args

/-- The names with which `usr_callback` calls `cond_update`, plugins/usr.c:40-80, with `cond[MAX_COND_LEN]` -/
def usrUpdates (evs : List UsrEvent) : List CStr := evs.map fun e => strlcat 192 condUsr e.name

/-- Whether `cond_update` steps a service with these conditions for one of the events, src/cond-w.c:289-311 -/
def usrWakes (evs : List UsrEvent) (conds : CStr) : Bool := (usrUpdates evs).any fun n => condAffects n conds

end Verif
