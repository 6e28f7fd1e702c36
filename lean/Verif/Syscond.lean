import Verif.CStr

/-!
# Conditions below `sys/`, plugins/sys.c and src/iwatch.c

Others make and remove the files, Finit is told by inotify(7).  What Finit does is split in small steps, between which others act.
A path is the list of names from `sys/` on, the last one first.  Left out: paths of 256 bytes or more, a full queue of the kernel,
directories that are renamed, a lack of memory, links to directories.
-/

namespace Verif

/-- Names below `sys/`, the last one first; `[]` is `sys/` -/
abbrev ScPath := List CStr

/-- A watch, `struct iwatch_path`, src/iwatch.h, with the directory (its number) that the kernel watches for it -/
structure ScWatch where
  wd : Nat
  ino : Nat
  path : ScPath
  deriving DecidableEq, Repr

/-- An event: the watch, whether a directory was made or removed, or a file, and its name.  `IN_MODIFY`, `IN_ATTRIB`, `IN_CLOSE_WRITE`,
    `IN_MOVE` and `IN_IGNORED` are passed over by `sys_callback()`, plugins/sys.c:146-152, and left out. -/
structure ScEv where
  wd : Nat
  isDir : Bool
  made : Bool
  name : CStr
  deriving DecidableEq, Repr

/-- What is left to do for an event -/
inductive ScTodo
  /-- `sys_scandir()`, plugins/sys.c:73-91 -/
  | scan (d : ScPath)
  /-- `sys_update_conds()`, plugins/sys.c:50-70 -/
  | upd (p : ScPath)
  /-- its `unlink()`, plugins/sys.c:68-69 -/
  | unlink (p : ScPath)
  deriving DecidableEq, Repr

/-- The directories with their numbers, the files, the watches, the events that are not read, what is left to do, and for each condition
    whether its file was there when those that need it were last told -/
structure ScSt where
  next : Nat
  dirs : List (ScPath × Nat)
  files : List ScPath
  watches : List ScWatch
  queue : List ScEv
  todo : List ScTodo
  seen : ScPath → Bool

/-- After `sys_init()`, plugins/sys.c:156-177: `sys/` is watched -/
def scInit : ScSt := ⟨1, [([], 0)], [], [⟨0, 0, []⟩], [], [], fun _ => false⟩

/-- The number of a directory -/
def scIno (d : ScPath) (st : ScSt) : Option Nat := (st.dirs.find? (fun x => x.1 == d)).map (·.2)

/-- The kernel tells of a change in a directory, if it is watched -/
def scPost (d : ScPath) (isDir made : Bool) (n : CStr) (st : ScSt) : ScSt :=
  match scIno d st with
  | none => st
  | some i =>
    match st.watches.find? (fun w => w.ino == i) with
    | none => st
    | some w => { st with queue := st.queue ++ [⟨w.wd, isDir, made, n⟩] }

/-- A file is removed, by others or by Finit -/
def scRemove (p : ScPath) (st : ScSt) : ScSt :=
  match p with
  | [] => st
  | n :: d => if p ∈ st.files then scPost d false false n { st with files := st.files.filter (· ≠ p) } else st

/-- What others do -/
inductive ScAct
  | create (p : ScPath)
  | remove (p : ScPath)
  | mkdir (p : ScPath)
  | rmdir (p : ScPath)
  /-- a file is renamed to this, from elsewhere -/
  | moveIn (p : ScPath)
  /-- Finit does a step -/
  | tick
  deriving DecidableEq, Repr

/-- Whether there is something with this name, or no directory for it -/
def scTaken (p : ScPath) (st : ScSt) : Bool :=
  match p with
  | [] => true
  | _ :: d => (scIno d st).isNone || (scIno p st).isSome || decide (p ∈ st.files)

/-- `glob()` with `*` leaves out names that start with a dot -/
def scHidden (n : CStr) : Bool := n.head? == some '.'

/-- What `glob()` finds in a directory, plugins/sys.c:80-82 -/
def scGlob (d : ScPath) (st : ScSt) : List ScPath :=
  (st.files ++ st.dirs.map (·.1)).filter fun p =>
    match p with
    | [] => false
    | n :: e => e == d && !scHidden n

/-- `sys_handle_dir()`, plugins/sys.c:96-114, with `iwatch_add()` and `iwatch_del()`, src/iwatch.c:88-164 -/
def scDir (made : Bool) (p : ScPath) (st : ScSt) : ScSt :=
  match st.watches.find? (fun w => w.path == p) with
  | none =>
    if made then
      match scIno p st with
      | some i => { st with watches := ⟨st.next, i, p⟩ :: st.watches, next := st.next + 1, todo := [.scan p] }
      | none => { st with todo := [.scan p] }
    else st
  | some w => if made then st else { st with watches := st.watches.filter (· ≠ w) }

/-- A step of Finit: what is left to do for an event, else the next event, `sys_callback()`, plugins/sys.c:116-154 -/
def scTick (needs : ScPath → Bool) (st : ScSt) : ScSt :=
  match st.todo with
  | .scan d :: r => { st with todo := (scGlob d st).map .upd ++ r }
  | .upd p :: r =>
    { st with seen := fun q => if q = p then decide (p ∈ st.files) else st.seen q,
              todo := if needs p then r else .unlink p :: r }
  | .unlink p :: r => scRemove p { st with todo := r }
  | [] =>
    match st.queue with
    | [] => st
    | ev :: q =>
      match st.watches.find? (fun w => w.wd == ev.wd) with
      | none => { st with queue := q }
      | some w =>
        if ev.isDir then scDir ev.made (ev.name :: w.path) { st with queue := q }
        else { st with queue := q, todo := [.upd (ev.name :: w.path)] }

/-- One action -/
def scStep (needs : ScPath → Bool) (a : ScAct) (st : ScSt) : ScSt :=
  match a with
  | .create p =>
    match p with
    | [] => st
    | n :: d => if scTaken p st then st else scPost d false true n { st with files := p :: st.files }
  | .moveIn p => if scTaken p st then st else { st with files := p :: st.files }
  | .remove p => scRemove p st
  | .mkdir p =>
    match p with
    | [] => st
    | n :: d =>
      if scTaken p st then st
      else scPost d true true n { st with dirs := (p, st.next) :: st.dirs, next := st.next + 1 }
  | .rmdir p =>
    match p with
    | [] => st
    | n :: d =>
      if (scIno p st).isNone || (st.files ++ st.dirs.map (·.1)).any (fun q => q.drop 1 == p && q != []) then st
      else scPost d true false n { st with dirs := st.dirs.filter (fun x => x.1 ≠ p) }
  | .tick => scTick needs st

/-- Actions one after the other -/
def scRun (needs : ScPath → Bool) (acts : List ScAct) (st : ScSt) : ScSt := acts.foldl (fun s a => scStep needs a s) st

end Verif
