import Verif.CStr

/-!
# Device conditions

Model of src/devmon.c: the list of referenced `dev/` conditions.  Memory is taken to be available; `refcnt` is a
natural number (a `size_t` in C).
-/

namespace Verif

/-- `struct dev_node`, src/devmon.c:41-45 -/
structure DevNode where
  name : CStr
  refcnt : Nat
  deriving DecidableEq

/-- `find_node`, src/devmon.c:49-59 -/
def findNode (l : List DevNode) (cond : CStr) : Option Nat := l.findIdx? (fun n => decide (n.name = cond))

/-- `drop_node`, src/devmon.c:61-73 -/
def dropNode (l : List DevNode) : Option Nat → List DevNode
  | none => l
  | some i =>
    match l[i]? with
    | none => l
    | some n => if n.refcnt - 1 = 0 then l.eraseIdx i else l.modify i fun n => { n with refcnt := n.refcnt - 1 }

/-- `devmon_add_cond`, src/devmon.c:75-106 -/
def devmonAdd (l : List DevNode) (cond : CStr) : List DevNode :=
  if cond.take 4 ≠ "dev/".toList then l
  else
    match findNode l cond with
    | some i => l.modify i fun n => { n with refcnt := n.refcnt + 1 }
    | none => l ++ [⟨cond, 1⟩]

/-- `devmon_del_cond`, src/devmon.c:108-114 -/
def devmonDel (l : List DevNode) (cond : CStr) : List DevNode :=
  if cond ≠ "dev/".toList then l else dropNode l (findNode l cond)

/-- One step of a history: a service that names the condition is registered or unregistered, src/conf.c:747 and
    src/service.c:2103-2104. -/
inductive DevOp
  | add (cond : CStr)
  | del (cond : CStr)
  deriving DecidableEq

def devStep (l : List DevNode) : DevOp → List DevNode
  | .add c => devmonAdd l c
  | .del c => devmonDel l c

def devRun (ops : List DevOp) : List DevNode := ops.foldl devStep []

/-- Does an event in `/dev` for this path lead to anything?  `devmon_update_conds`, src/devmon.c:139-158 -/
def devWatched (l : List DevNode) (cond : CStr) : Bool := (findNode l cond).isSome

end Verif
