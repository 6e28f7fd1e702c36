import Verif.Sizes
import Verif.Top
import Verif.Sulogin
import Verif.Environ
import Verif.Exec

/-!
# The settings shown by `initctl cgroup` (src/cgutil.c:147-190, 347-360, 422-428, 518-526)

Not modelled: the tree drawn after the columns (see Verif/Cgtree.lean), the width of the terminal, and files with NUL in them.
-/

namespace Verif

/-- The files of a group; none if it cannot be opened -/
structure CcFiles where
  min : Option (List Char)
  max : Option (List Char)
  weight : Option (List Char)
  cpuMax : Option (List Char)
  set : Option (List Char)
  current : Option (List Char)

/-- `static struct cg cg` of `cg_conf()`, src/cgutil.c:350, all 0 at first -/
structure CcConf where
  min : CStr := []
  max : CStr := []
  weight : CStr := []
  cpuMax : CStr := []
  set : CStr := []
  vmsize : Nat := 0
  deriving DecidableEq, Repr

/-- `cgroup_val()`, src/cgutil.c:147-164: what it puts in `buf[len]`, none if it leaves it as it is -/
def ccVal (len : Nat) (file : Option (List Char)) : Option CStr :=
  match file with
  | none => none
  | some [] => none
  | some text => some ((chompLine (fgetsOne (len - 1) text).1).takeWhile fun c => !isBlank c)

/-- `cgroup_uint64()`, src/cgutil.c:166-175 -/
def ccNum (file : Option (List Char)) : Nat :=
  match ccVal 42 file with
  | some v => tpNum v
  | none => 0

/-- `cgroup_memval()`, src/cgutil.c:177-190, with `buf[len]` -/
def ccMemval (len : Nat) (file : Option (List Char)) : CStr :=
  match ccVal 42 file with
  | some v => if v = "max".toList then strlcpy len v else szMem len (tpNum v)
  | none => []

/-- `cg_conf()`, src/cgutil.c:348-360; the sizes are those of src/cgutil.h:43-52 -/
def ccConf (cg : CcConf) (f : CcFiles) : CcConf :=
  { min := (ccVal 32 f.min).getD cg.min
    max := ccMemval 32 f.max
    weight := (ccVal 32 f.weight).getD cg.weight
    cpuMax := (ccVal 32 f.cpuMax).getD cg.cpuMax
    set := (ccVal 16 f.set).getD cg.set
    vmsize := ccNum f.current }

/-- `%6.6s` -/
def ccRight (s : CStr) : CStr := List.replicate (6 - (s.take 6).length) ' ' ++ s.take 6

/-- `%-6.6s` -/
def ccLeft (s : CStr) : CStr := s.take 6 ++ List.replicate (6 - (s.take 6).length) ' '

/-- The columns, src/cgutil.c:424-427 for the group asked for, where `%6s` is used for the CPUs, and src/cgutil.c:520-524 for others -/
def ccRow (top : Bool) (cg : CcConf) : CStr :=
  '\r' :: szColumn cg.vmsize ++ " [".toList ++ ccLeft cg.min ++ ccRight cg.max ++ "] ".toList ++
    (if top then List.replicate (6 - cg.set.length) ' ' ++ cg.set else ccRight cg.set) ++
    " [".toList ++ ccLeft cg.weight ++ ccRight cg.cpuMax ++ "] ".toList

/-- The groups in the order they are shown -/
def ccRows (top : Bool) : CcConf → List CcFiles → List CStr
  | _, [] => []
  | cg, f :: fs => ccRow top (ccConf cg f) :: ccRows false (ccConf cg f) fs

/-- `show_cgroup()`, src/cgutil.c:666-683: the columns of all rows -/
def ccShow (fs : List CcFiles) : List CStr := ccRows true {} fs

end Verif
