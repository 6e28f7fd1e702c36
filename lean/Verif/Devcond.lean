import Verif.Syscond

/-!
# Device conditions, src/devmon.c and src/iwatch.c

Directories, files, watches and the queue of the kernel are those of Verif.Syscond, with `/dev` in place of `sys/`.  The list of
conditions that are needed only grows, see C36.
-/

namespace Verif

/-- The files, the conditions that are needed (`dev_node_list`), the generation that each condition was set in, 0 if it is off, and the
    generation of the configuration -/
structure DvSt where
  fs : ScSt
  nodes : List ScPath
  cond : ScPath → Nat
  gen : Nat

/-- After `cond_init()` and `devmon_init()`, src/devmon.c:255-277, `/dev` is watched -/
def dvInit : DvSt := ⟨scInit, [], fun _ => 0, 1⟩

/-- `cond_get()`: whether the condition is on, src/cond.c:77-95; it is in flux if it is of an older generation -/
def dvOn (st : DvSt) (p : ScPath) : Bool := st.cond p != 0 && st.cond p == st.gen

/-- `devmon_update_conds()`, src/devmon.c:139-157, with `cond_set()` and `cond_clear()`, src/cond-w.c:250-290 and 325-383 -/
def dvUpdate (made : Bool) (p : ScPath) (st : DvSt) : DvSt :=
  if p ∈ st.nodes then { st with cond := fun q => if q = p then (if made then st.gen else 0) else st.cond q } else st

/-- `devmon_scandir()`, src/devmon.c:160-179: glob(3) gives whole paths, and `paste()`, src/util.h:165-174, puts the directory in front of
    them again, so that the condition for `/dev/snd/timer` is `dev/snd/dev/snd/timer` -/
def dvScan (d : ScPath) (st : DvSt) : DvSt :=
  (scGlob d st.fs).foldl (fun s p => dvUpdate true (p ++ "dev".toList :: d) s) st

/-- `devmon_handle_dir()`, src/devmon.c:184-203, and `devmon_add_path()`, src/devmon.c:116-137: directories of `/dev` are watched, not
    those in them -/
def dvDir (made : Bool) (p : ScPath) (st : DvSt) : DvSt :=
  match st.fs.watches.find? (fun w => w.path == p) with
  | none =>
    if made ∧ p.length ≤ 1 then
      match scIno p st.fs with
      | some i => dvScan p { st with fs := { st.fs with watches := ⟨st.fs.next, i, p⟩ :: st.fs.watches, next := st.fs.next + 1 } }
      | none => dvScan p st
    else st
  | some w => if made then st else { st with fs := { st.fs with watches := st.fs.watches.filter (· ≠ w) } }

/-- The next event, `devmon_cb()`, src/devmon.c:226-252 -/
def dvTick (st : DvSt) : DvSt :=
  match st.fs.queue with
  | [] => st
  | ev :: q =>
    let st := { st with fs := { st.fs with queue := q } }
    match st.fs.watches.find? (fun w => w.wd == ev.wd) with
    | none => st
    | some w => if ev.isDir then dvDir ev.made (ev.name :: w.path) st else dvUpdate ev.made (ev.name :: w.path) st

/-- What happens -/
inductive DvAct
  /-- a device, or a directory, is made or removed -/
  | create (p : ScPath)
  | remove (p : ScPath)
  | mkdir (p : ScPath)
  | rmdir (p : ScPath)
  /-- a service that needs the condition is read from the configuration, src/conf.c:747 and src/devmon.c:75-106 -/
  | need (p : ScPath)
  /-- `initctl reload`: the next generation, `cond_reload()`, src/cond-w.c:385-390; hooks that are run then deal with `net/` and `pid/` -/
  | reload
  /-- Finit reads an event -/
  | tick
  deriving DecidableEq, Repr

def dvStep (a : DvAct) (st : DvSt) : DvSt :=
  match a with
  | .create p => { st with fs := scStep (fun _ => true) (.create p) st.fs }
  | .remove p => { st with fs := scStep (fun _ => true) (.remove p) st.fs }
  | .mkdir p => { st with fs := scStep (fun _ => true) (.mkdir p) st.fs }
  | .rmdir p => { st with fs := scStep (fun _ => true) (.rmdir p) st.fs }
  | .need p => if p ∈ st.nodes then st else { st with nodes := st.nodes ++ [p] }
  | .reload => { st with gen := st.gen + 1 }
  | .tick => dvTick st

def dvRun (acts : List DvAct) (st : DvSt) : DvSt := acts.foldl (fun s a => dvStep a s) st

end Verif
