import Verif.Syscond

/-!
# How Finit is told of PID files, plugins/pidfile.c and src/iwatch.c

Others make and remove files and directories below `/run`, Finit is told by inotify(7) and looks at a file when it is told of it.  What it
makes of the file then is in Verif.Pidwatch.  A path is the list of names from `/run` on, the last one first.  Left out: a full queue of the
kernel, directories renamed within `/run`, a lack of memory, links to directories, mounts.
-/

namespace Verif

/-- What an event tells: `IN_CREATE`; `IN_CLOSE_WRITE`, `IN_MODIFY` or `IN_ATTRIB`, which are dealt with alike, as one event; `IN_DELETE`;
    `IN_MOVED_TO`.  `IN_MOVED_FROM` is passed over by `pidfile_callback()` and left out. -/
inductive NwKind
  | made | written | deleted | came
  deriving DecidableEq, Repr

/-- An event of inotify(7) -/
structure NwEv where
  wd : Nat
  isDir : Bool
  kind : NwKind
  name : CStr
  deriving DecidableEq, Repr

/-- The directories with their numbers, the files, the watches, the events that are not read, and the calls of `pidfile_update_conds()`
    so far -/
structure NwSt where
  next : Nat
  dirs : List (ScPath × Nat)
  files : List ScPath
  watches : List ScWatch
  queue : List NwEv
  told : List (ScPath × NwKind)

/-- `pidfile_init()`, plugins/pidfile.c:293-319: `/run` is watched, the directories that are there are not looked at -/
def nwInit (ds : List ScPath) (files : List ScPath) : NwSt :=
  ⟨ds.length + 1, ([], 0) :: ds.zip (List.range' 1 ds.length), files, [⟨0, 0, []⟩], [], []⟩

/-- The number of a directory -/
def nwIno (d : ScPath) (st : NwSt) : Option Nat := (st.dirs.find? (fun x => x.1 == d)).map (·.2)

/-- The path as text -/
def nwText : ScPath → CStr
  | [] => "/run".toList
  | n :: d => nwText d ++ '/' :: n

/-- `strstr()` with `run/`: what follows it -/
def nwAfterRun : CStr → Option CStr
  | [] => none
  | c :: r => if "run/".toList.isPrefixOf (c :: r) then some ((c :: r).drop 4) else nwAfterRun r

/-- Whether a directory is too deep, plugins/pidfile.c:45-58.  The second `strchr()` starts at the slash that the first one found, so it
    finds it again. -/
def nwDeep (path : CStr) : Bool :=
  match nwAfterRun path with
  | none => false
  | some r => decide ('/' ∈ r)

/-- The kernel tells of a change in a directory, if it is watched -/
def nwPost (d : ScPath) (isDir : Bool) (kind : NwKind) (n : CStr) (st : NwSt) : NwSt :=
  match nwIno d st with
  | none => st
  | some i =>
    match st.watches.find? (fun w => w.ino == i) with
    | none => st
    | some w => { st with queue := st.queue ++ [⟨w.wd, isDir, kind, n⟩] }

/-- What `glob()` finds in a directory, plugins/pidfile.c:169-177: names that end in `.pid` and do not start with a dot, and `pid` -/
def nwGlob (d : ScPath) (st : NwSt) : List ScPath :=
  st.files.filter fun p =>
    match p with
    | [] => false
    | n :: e => e == d && ((".pid".toList.isSuffixOf n && n.head? != some '.') || n == "pid".toList)

/-- `pidfile_scandir()`, plugins/pidfile.c:162-184: `glob()` gives whole paths, and `paste()`, src/util.h:165-174, puts the directory in front
    of them again; the event that is made up is `IN_CREATE` -/
def nwScan (d : ScPath) (st : NwSt) : NwSt :=
  { st with told := st.told ++ (nwGlob d st).map fun p => (p ++ "run".toList :: d, .made) }

/-- `pidfile_handle_dir()`, plugins/pidfile.c:189-208, `pidfile_add_path()`, plugins/pidfile.c:42-63, and `iwatch_add()`,
    src/iwatch.c:88-149: with `IN_MASK_CREATE` a directory that is watched already is an error -/
def nwDir (kind : NwKind) (p : ScPath) (st : NwSt) : NwSt :=
  match st.watches.find? (fun w => w.path == p), kind with
  | none, .made =>
    if nwDeep (nwText p) then st
    else match nwIno p st with
      | none => nwScan p st
      | some i =>
        if st.watches.any (fun w => w.ino == i) then st
        else nwScan p { st with watches := ⟨st.next, i, p⟩ :: st.watches, next := st.next + 1 }
  | some w, .deleted => { st with watches := st.watches.filter (· ≠ w) }
  | _, _ => st

/-- The next event, `pidfile_callback()`, plugins/pidfile.c:227-249 -/
def nwTick (st : NwSt) : NwSt :=
  match st.queue with
  | [] => st
  | ev :: q =>
    let st := { st with queue := q }
    match st.watches.find? (fun w => w.wd == ev.wd) with
    | none => st
    | some w =>
      if ev.isDir then nwDir ev.kind (ev.name :: w.path) st
      else if ev.kind = .made then st
      else { st with told := st.told ++ [(ev.name :: w.path, ev.kind)] }

/-- What happens -/
inductive NwAct
  /-- a file of this name in the directory is written, and made if it is not there -/
  | write (d : ScPath) (n : CStr)
  /-- a file is renamed to this, from elsewhere -/
  | moveIn (d : ScPath) (n : CStr)
  | unlink (d : ScPath) (n : CStr)
  | mkdir (d : ScPath) (n : CStr)
  | rmdir (d : ScPath) (n : CStr)
  /-- a directory is renamed to this, from elsewhere -/
  | moveDir (d : ScPath) (n : CStr)
  /-- Finit reads an event -/
  | tick
  deriving DecidableEq, Repr

/-- What the kernel takes for a name -/
def nwName (n : CStr) : Bool := n != [] && !n.contains '/'

/-- A directory with nothing in it -/
def nwEmpty (p : ScPath) (st : NwSt) : Bool := st.files.all (fun f => f.tail != p) && st.dirs.all (fun x => x.1 == [] || x.1.tail != p)

/-- What others do, and what Finit does -/
def nwStep (a : NwAct) (st : NwSt) : NwSt :=
  match a with
  | .write d n =>
    if nwName n ∧ (nwIno d st).isSome ∧ nwIno (n :: d) st = none then
      nwPost d false .written n { st with files := (n :: d) :: st.files.filter (· ≠ n :: d) }
    else st
  | .moveIn d n =>
    if nwName n ∧ (nwIno d st).isSome ∧ nwIno (n :: d) st = none then
      nwPost d false .came n { st with files := (n :: d) :: st.files.filter (· ≠ n :: d) }
    else st
  | .unlink d n =>
    if nwName n ∧ (nwIno d st).isSome ∧ n :: d ∈ st.files then
      nwPost d false .deleted n { st with files := st.files.filter (· ≠ n :: d) }
    else st
  | .mkdir d n =>
    if nwName n ∧ (nwIno d st).isSome ∧ nwIno (n :: d) st = none ∧ n :: d ∉ st.files then
      nwPost d true .made n { st with dirs := st.dirs ++ [(n :: d, st.next)], next := st.next + 1 }
    else st
  | .rmdir d n =>
    if nwName n ∧ (nwIno (n :: d) st).isSome ∧ nwEmpty (n :: d) st then
      nwPost d true .deleted n { st with dirs := st.dirs.filter (fun x => x.1 ≠ n :: d) }
    else st
  | .moveDir d n =>
    if nwName n ∧ (nwIno d st).isSome ∧ nwIno (n :: d) st = none ∧ n :: d ∉ st.files then
      nwPost d true .came n { st with dirs := st.dirs ++ [(n :: d, st.next)], next := st.next + 1 }
    else st
  | .tick => nwTick st

def nwRun (acts : List NwAct) (st : NwSt) : NwSt := acts.foldl (fun s a => nwStep a s) st

end Verif
