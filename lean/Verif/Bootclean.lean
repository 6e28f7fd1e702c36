import Verif.CStr

/-!
# Cleaning up at boot

`plugins/bootmisc.c:44-112`: `is_tmpfs`, `bootclean`, `clean`.  A path is the list of its names.  The file system is the list of
all entries by their real path, mounted file systems included; for a symbolic link it is given what it resolves to.
`nftw()` is modelled as the C library has it without `FTW_PHYS`: links are followed, and no directory is entered twice.
Simplified: every `remove()` is granted but that of a directory that is not empty; `/proc/mounts` can be read.
-/

namespace Verif

/-- What is at a path; for a link the real path it leads to, if there is anything -/
inductive BNode
  | file
  | dir
  | link (to : Option (List CStr))
  deriving DecidableEq, Repr

/-- All entries by their real path -/
abbrev BFs := List (List CStr × BNode)

/-- The entries of a directory, in the order they are read -/
def bKids (fs : BFs) (d : List CStr) : BFs := fs.filter (fun e => decide (e.1 ≠ [] ∧ e.1.dropLast = d))

/-- The directory that is entered for an entry, by `stat()`: links are followed. -/
def bEnter (fs : BFs) (e : List CStr × BNode) : Option (List CStr) :=
  match e.2 with
  | .file => none
  | .dir => some e.1
  | .link none => none
  | .link (some t) => if (t, BNode.dir) ∈ fs then some t else none

/-- `nftw(d, bootclean, 20, FTW_DEPTH)` for a directory not entered yet, plugins/bootmisc.c:75-84,109: what `remove()` is called
    for, in order, and the directories entered so far.  Directories come after what is in them; the first directory of all, at
    level 0, is not removed (plugins/bootmisc.c:77).  The number bounds the depth. -/
def bWalk (fs : BFs) : Nat → List CStr → List (List CStr) → List (List CStr) × List (List CStr)
  | 0, _, seen => ([], seen)
  | n + 1, d, seen =>
    (bKids fs d).foldl (fun acc e =>
      match bEnter fs e with
      | none => (acc.1 ++ [e.1], acc.2)
      | some t =>
        if t ∈ acc.2 then acc
        else
          let r := bWalk fs n t acc.2
          (acc.1 ++ (r.1 ++ [e.1]), r.2)) ([], d :: seen)

/-- `remove()`: a directory must be empty. -/
def bRemove (fs : BFs) (p : List CStr) : BFs :=
  if (p, BNode.dir) ∈ fs ∧ bKids fs p ≠ [] then fs else fs.filter (fun e => decide (e.1 ≠ p))

/-- `is_tmpfs`, plugins/bootmisc.c:44-73: the first line of `/proc/mounts` with this directory counts. -/
def isTmpfs (mounts : List (List CStr × CStr)) (d : List CStr) : Bool :=
  match mounts.find? (fun m => decide (m.1 = d)) with
  | some m => decide (m.2 = "tmpfs".toList)
  | none => false

/-- One turn of the loop in `clean`, plugins/bootmisc.c:105-110; `d` is the real path, if there is one. -/
def bCleanOne (mounts : List (List CStr × CStr)) (fs : BFs) (d : Option (List CStr)) : BFs :=
  match d with
  | none => fs
  | some d =>
    if isTmpfs mounts d then fs
    else if (d, BNode.dir) ∈ fs then (bWalk fs (fs.length + 1) d []).1.foldl bRemove fs
    else fs

/-- The directories cleaned, plugins/bootmisc.c:98-103 -/
def bDirs : List (List CStr) :=
  [["tmp".toList], ["var".toList, "run".toList], ["var".toList, "lock".toList]]

/-- `clean`, plugins/bootmisc.c:93-112; `real` is `realpath()`. -/
def bClean (mounts : List (List CStr × CStr)) (real : List CStr → Option (List CStr)) (fs : BFs) : BFs :=
  bDirs.foldl (fun fs d => bCleanOne mounts fs (real d)) fs

end Verif
