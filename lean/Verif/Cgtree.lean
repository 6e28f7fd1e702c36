import Verif.CStr

/-!
# The tree of `initctl ps` (src/cgutil.c:73-103, 376-569, mode 0)

Not modelled: the width of the terminal and of `prefix[80]`, colours, shortage of memory, and groups that go away while they are shown.
-/

namespace Verif

/-- A line of cgroup.procs, and /proc/PID/cmdline, if there is one -/
structure CtProc where
  pid : Int
  cmdline : Option (List Char)
  deriving DecidableEq, Repr

/-- A group: its name, its processes, and the groups in it as scandir(3) sorts them -/
inductive CtTree
  | node (name : CStr) (procs : List CtProc) (subs : List CtTree)

/-- `d_name` -/
def CtTree.name : CtTree → CStr
  | .node name _ _ => name

/-- What a row shows: a process with its command line, or a group -/
inductive CtItem
  | proc (pid : Int) (cmd : CStr)
  | group (name : CStr)
  deriving DecidableEq, Repr

/-- A row: for each level above whether its line goes on (`PIPE`), whether it is the last (`END` or `FORK`), and what it shows -/
structure CtRow where
  pfx : List Bool
  last : Bool
  item : CtItem
  deriving DecidableEq, Repr

/-- `pid_cmdline()`, src/cgutil.c:73-103: none for kernel threads.  What follows a NUL is shown as well, NUL is replaced. -/
def ctCmdline : Option (List Char) → Option CStr
  | none => some []
  | some [] => none
  | some text => some (text.map fun c => if c = '\x00' then ' ' else c)

/-- The loop over cgroup.procs, src/cgutil.c:440-498, `num` lines, `i` of which have been shown -/
def ctProcs (pfx : List Bool) (num : Nat) : Nat → List CtProc → List CtRow
  | _, [] => []
  | i, p :: ps =>
    if p.pid ≤ 0 then ctProcs pfx num i ps
    else
      match ctCmdline p.cmdline with
      | none => ctProcs pfx num i ps
      | some cmd => ⟨pfx, decide (i + 1 = num), .proc p.pid cmd⟩ :: ctProcs pfx num (i + 1) ps

mutual
/-- `cgroup_tree()`, src/cgutil.c:376-554: the rows after that of the group.  `rows` is `ttrows`. -/
def ctTree (rows : Nat) (pfx : List Bool) (pos : Nat) : CtTree → List CtRow
  | .node _ procs subs =>
    if pos ≥ rows then []
    else ctProcs pfx procs.length 0 procs ++ ctSubs rows pfx pos subs.length 0 subs

/-- The loop over the groups in it, src/cgutil.c:504-551, from number `i` of `n` -/
def ctSubs (rows : Nat) (pfx : List Bool) (pos n i : Nat) : List CtTree → List CtRow
  | [] => []
  | t :: ts =>
    ⟨pfx, decide (i + 1 = n), .group t.name⟩ ::
      (ctTree rows (pfx ++ [decide (i + 1 ≠ n)]) (pos + i) t ++ ctSubs rows pfx pos n (i + 1) ts)
end

/-- `show_cgps()`, src/cgutil.c:556-569: what follows the row of the group that is asked for -/
def ctShow (rows : Nat) (t : CtTree) : List CtRow := ctTree rows [] 0 t

end Verif
