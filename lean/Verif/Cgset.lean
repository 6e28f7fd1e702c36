import Verif.Cgroup
import Verif.Line
import Verif.Util
import Verif.Json

/-!
# Settings of control groups

`cgset`, `group_init`, `cgroup_leaf_init`, `cgroup_service` (src/cgroup.c:64-204), `cgroup_config` (445-466), `conf_parse_cgroup`
(src/conf.c:882-903) and `group_name` (src/service.c:489-508).  The result is what is created and written, in order.  Control
groups are available.  Which directories there are, and whether one can be created, is given; that the kernel may refuse
what is written is left out, and so are the watches for empty groups.
-/

namespace Verif

/-- A directory is created, or a value (with a line feed) is written to a file -/
inductive CgEff
  | mkdir (path : CStr)
  | write (path value : CStr)
  deriving DecidableEq, Repr

/-- The outside: which directories there are, which can be created, and the controllers of the kernel, each with a plus sign -/
structure CgEnv where
  isdir : CStr → Bool
  creates : CStr → Bool
  controllers : CStr

/-- `fnwrite`, src/util.c:305-334: the path has 256 bytes. -/
def fnWrite (value path : CStr) : CgEff := .write (strlcpy 256 path) value

/-- The end of `cgset`, src/cgroup.c:86-106 -/
def cgSetProp (path ctrl prop : CStr) : List CgEff :=
  if ':' ∈ prop then
    let name := prop.takeWhile (· ≠ ':')
    match unquoteWord ((prop.dropWhile (· ≠ ':')).drop 1) with
    | none => []
    | some val =>
      if ['.', '.'] <:+: ctrl ∨ ['.', '.'] <:+: name then []
      else [fnWrite val (path ++ '/' :: (ctrl ++ '.' :: name))]
  else []

/-- `cgset` without `prop`, src/cgroup.c:64-106: the name is split at its first dot. -/
def cgSet (path ctrl : CStr) : List CgEff :=
  if '.' ∈ ctrl then cgSetProp path (ctrl.takeWhile (· ≠ '.')) ((ctrl.dropWhile (· ≠ '.')).drop 1) else []

/-- One setting in the loop of `group_init`, src/cgroup.c:141-144 -/
def cgOne (path ptr : CStr) : List CgEff :=
  if ptr.take 4 = "mem.".toList then cgSetProp path "memory".toList (ptr.drop 4) else cgSet path ptr

/-- `group_init`, src/cgroup.c:113-149 -/
def groupInit (E : CgEnv) (path : CStr) (leaf : Bool) (cfg : CStr) : List CgEff :=
  if E.isdir path then (tokens isComma cfg).flatMap (cgOne path)
  else if E.creates path then
    .mkdir path :: ((if leaf then [] else [fnWrite E.controllers (path ++ "/cgroup.subtree_control".toList)]) ++
      (tokens isComma cfg).flatMap (cgOne path))
  else []

/-- `cgroup_leaf_init`, src/cgroup.c:151-172 -/
def cgLeaf (E : CgEnv) (group name : CStr) (pid : Int) (cfg : CStr) : List CgEff :=
  if pid < 0 ∨ pid = 1 then []
  else
    let path := strlcpy 256 ("/sys/fs/cgroup/".toList ++ (group ++ '/' :: name))
    groupInit E path true cfg ++ [fnWrite (intText pid) (path ++ "/cgroup.procs".toList)]

/-- `cgroup_service`, src/cgroup.c:182-204; `group` and `cfg` are those of the service -/
def cgService (E : CgEnv) (name : CStr) (pid : Int) (group cfg : CStr) : List CgEff :=
  if group = [] then cgLeaf E "system".toList name pid cfg
  else if group = "root".toList then [fnWrite (intText pid) "/sys/fs/cgroup/cgroup.procs".toList]
  else if group = "init".toList then [fnWrite (intText pid) "/sys/fs/cgroup/init/cgroup.procs".toList]
  else if E.isdir (strlcpy 256 ("/sys/fs/cgroup/".toList ++ group)) then cgLeaf E group name pid cfg
  else cgLeaf E "system".toList name pid cfg

/-- `group_name`, src/service.c:489-508, with a buffer of 80 bytes (576): the name of the file up to `.conf`, or the service's own -/
def groupName (file ident : CStr) : CStr :=
  if file = [] then strlcpy 80 ident
  else
    let base := strlcpy 80 (file.reverse.takeWhile (· ≠ '/')).reverse
    match strstr ".conf".toList base with
    | some r => r.1
    | none => base

/-- `conf_parse_cgroup`, src/conf.c:883-903: the name and the settings, none if the line is not used -/
def confCgroup (line : CStr) : Option (CStr × CStr) :=
  match tokens isBlank line with
  | [] => none
  | name :: ws => if ['.', '.'] <:+: name ∨ '/' ∈ name then none else some (name, List.intercalate [','] ws)

/-- One turn of `cgroup_config`, src/cgroup.c:452-466 -/
def cgConfig (E : CgEnv) (g : Cg) : List CgEff :=
  if g.active then groupInit E (cgPath g.name) (decide (g.name = "init".toList)) g.cfg else []

/-- The values in the files of the control groups -/
def cgApply (files : CStr → Option CStr) : List CgEff → CStr → Option CStr
  | [] => files
  | .mkdir _ :: es => cgApply files es
  | .write p v :: es => cgApply (fun x => if x = p then some v else files x) es

end Verif
