import Verif.CStr

/-!
# Top-level control groups

Model of the list of top-level groups in src/cgroup.c and of the part of a reload that changes it.  Control groups
are taken to be available (`avail`), and memory allocation to succeed.  Whether `rmdir` of a group fails because it
still has processes or sub-groups is a parameter.  What `group_init` writes into the file system is left out.
-/

namespace Verif

/-- `struct cg`, src/cgroup.c:43-51 -/
structure Cg where
  name : CStr
  cfg : CStr
  prot : Bool
  active : Bool
  deriving DecidableEq

/-- `snprintf(path, 256, FINIT_CGPATH "/%s", name)` -/
def cgPath (name : CStr) : CStr := strlcpy 256 ("/sys/fs/cgroup/".toList ++ name)

/-- `cgroup_mark_all`, src/cgroup.c:327-340 -/
def cgMarkAll (l : List Cg) : List Cg := l.map fun g => if g.prot then g else { g with active := false }

/-- `cgroup_add`, src/cgroup.c:365-406 -/
def cgAdd (l : List Cg) (name cfg : CStr) (prot : Bool) : List Cg :=
  match l.findIdx? (fun g => decide (g.name = name)) with
  | none => l ++ [⟨name, cfg, prot, true⟩]
  | some i => l.modify i fun g => { g with cfg := cfg, prot := prot, active := true }

/-- `cgroup_del`, src/cgroup.c:411-443; `busy dir`: the directory cannot be removed -/
def cgDel (busy : CStr → Bool) (l : List Cg) (dir : CStr) : List Cg :=
  match l.findIdx? (fun g => decide (cgPath g.name = dir)) with
  | none => l
  | some i =>
    if (l[i]?).any (·.active) then l
    else if busy dir then l
    else l.eraseIdx i

/-- `cgroup_cleanup`, src/cgroup.c:345-360 -/
def cgCleanup (busy : CStr → Bool) (l : List Cg) : List Cg :=
  l.foldl (fun acc g => if g.active then acc else cgDel busy acc (cgPath g.name)) l

/-- `conf_parse_cgroup`, src/conf.c:883-903, for a line already split into name and settings -/
def cgParse (l : List Cg) (line : CStr × CStr) : List Cg :=
  if line.1.contains '/' ∨ ['.', '.'] <:+: line.1 then l else cgAdd l line.1 line.2 false

/-- The part of `conf_reload` that concerns control groups, src/conf.c:1264 and 1393-1409 -/
def cgReload (busy : CStr → Bool) (l : List Cg) (conf : List (CStr × CStr)) : List Cg :=
  cgCleanup busy (conf.foldl cgParse (cgMarkAll l))

/-- `cgroup_init`, src/cgroup.c:544-546 -/
def cgInit : List Cg :=
  cgAdd (cgAdd (cgAdd [] "init".toList "cpu.weight:100".toList true) "system".toList "cpu.weight:9800".toList true)
    "user".toList "cpu.weight:100".toList true

/-- What happens over time: a reload, or the kernel tells that a group has become empty (`cgroup_handle_event`,
    src/cgroup.c:216-262, which tries to remove the directory). -/
inductive CgOp
  | reload (busy : CStr → Bool) (conf : List (CStr × CStr))
  | empty (busy : CStr → Bool) (dir : CStr)

def cgStep (l : List Cg) : CgOp → List Cg
  | .reload busy conf => cgReload busy l conf
  | .empty busy dir => cgDel busy l dir

def cgRun (ops : List CgOp) : List Cg := ops.foldl cgStep cgInit

end Verif
