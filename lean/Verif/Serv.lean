import Verif.CStr

/-!
# Enabling and disabling configurations

Model of src/serv.c, `initctl enable`, `disable`, `create` and `delete`, on a tree of directories, files and symbolic
links.

Simplified: initctl runs as root on a file system with room, so that a call fails only for what is in the tree; whether a
directory is empty is a parameter; `create` has its text from a pipe.  Names are text without NUL.
-/

namespace Verif

/-- What is at a place in the tree -/
inductive SNode
  | dir
  | file (data : CStr)
  | link (target : CStr)
  deriving DecidableEq, Repr

/-- A place: the names on the way from the root -/
abbrev SPath := List CStr

/-- The file system -/
abbrev STree := SPath → Option SNode

/-- The parts of a path -/
def parts (s : CStr) : List CStr := tokens (fun c => decide (c = '/')) s

/-- Path resolution, path_resolution(7), where `via` resolves what is left once a link has been replaced by its text.
The last name need not exist; if it is a link it is resolved only with `follow`. -/
def walkWith (tr : STree) (via : SPath → List CStr → Option SPath) (follow : Bool) : SPath → List CStr → Option SPath
  | cwd, [] => some cwd
  | cwd, c :: rest =>
    if tr cwd ≠ some .dir then none
    else if c = ".".toList then walkWith tr via follow cwd rest
    else if c = "..".toList then walkWith tr via follow cwd.dropLast rest
    else match tr (cwd ++ [c]) with
      | some (.link t) =>
        if rest = [] ∧ follow = false then some (cwd ++ [c])
        else via (if t.head? = some '/' then [] else cwd) (parts t ++ rest)
      | _ => walkWith tr via follow (cwd ++ [c]) rest

/-- Path resolution with that many links left -/
def namei (tr : STree) (follow : Bool) : Nat → SPath → List CStr → Option SPath
  | 0 => walkWith tr (fun _ _ => none) follow
  | n + 1 => walkWith tr (namei tr follow n) follow

/-- The place a path leads to, seen from a directory; Linux follows at most 40 links -/
def place (tr : STree) (follow : Bool) (cwd : SPath) (s : CStr) : Option SPath :=
  namei tr follow 40 (if s.head? = some '/' then [] else cwd) (parts s)

/-- stat(2) -/
def statAt (tr : STree) (cwd : SPath) (s : CStr) : Option SNode :=
  (place tr true cwd s).bind tr

/-- `fexist` of libite -/
def fexistAt (tr : STree) (cwd : SPath) (s : CStr) : Bool := (statAt tr cwd s).isSome

/-- `fisdir` of libite -/
def fisdirAt (tr : STree) (cwd : SPath) (s : CStr) : Bool := decide (statAt tr cwd s = some .dir)

/-- Put something at a place, or remove what is there -/
def STree.put (tr : STree) (p : SPath) (n : Option SNode) : STree := fun q => if q = p then n else tr q

/-- symlink(2); the new tree, `none` on failure -/
def symlinkAt (tr : STree) (cwd : SPath) (target s : CStr) : Option STree :=
  match place tr false cwd s with
  | some p => if tr p = none then some (tr.put p (some (.link target))) else none
  | none => none

/-- mkdir(2): the new tree and whether it is there or was -/
def mkdirAt (tr : STree) (cwd : SPath) (s : CStr) : Option STree :=
  match place tr false cwd s with
  | some p => if tr p = none then some (tr.put p (some .dir)) else some tr
  | none => none

/-- remove(3); `empty` tells which directories can be removed -/
def removeAt (empty : SPath → Bool) (tr : STree) (cwd : SPath) (s : CStr) : Option STree :=
  match place tr false cwd s with
  | some p => match tr p with
    | none => none
    | some .dir => if empty p then some (tr.put p none) else none
    | some _ => some (tr.put p none)
  | none => none

/-- fopen(3) for writing, and the text written -/
def writeAt (tr : STree) (cwd : SPath) (s data : CStr) : Option STree :=
  match place tr true cwd s with
  | some p => match tr p with
    | some .dir => none
    | some (.link _) => none
    | _ => some (tr.put p (some (.file data)))
  | none => none

/-- chdir(2) -/
def chdirAt (tr : STree) (cwd : SPath) (s : CStr) : Option SPath :=
  match place tr true cwd s with
  | some p => if tr p = some .dir then some p else none
  | none => none

/-- How initctl is called: `finit_rcsd`, `finit_conf`, the directory it is started in, and options -/
structure ServEnv where
  rcsd : CStr
  conf : CStr
  cwd : SPath := []
  /-- option -c -/
  icreate : Bool := false
  /-- option -n -/
  noerr : Bool := false
  /-- what rmdir(2) finds empty -/
  empty : SPath → Bool := fun _ => false

/-- `".conf"` -/
def confSfx : CStr := ".conf".toList

/-- Does a text end in `".conf"` -/
def hasConf (s : CStr) : Bool := confSfx.isSuffixOf s

/-- The name made by `serv_enable`, src/serv.c:282-288 -/
def servName (arg : CStr) : CStr :=
  if arg.length < 6 ∨ hasConf arg = false then arg ++ confSfx else arg

/-- `suffix` in src/util.h:178-195, in a buffer that is large enough -/
def withConf (s : CStr) : CStr := if hasConf s then s else s ++ confSfx

/-- A text up to and with the first '@', followed by `".conf"`, src/serv.c:311-313; `none` without '@' -/
def templateOf : CStr → Option CStr
  | [] => none
  | c :: cs => if c = '@' then some ('@' :: confSfx) else (templateOf cs).map (c :: ·)

/-- `serv_enable`, src/serv.c:266-328: the tree afterwards and the exit code -/
def servEnable (e : ServEnv) (arg : CStr) (tr : STree) : STree × Int :=
  if arg = [] ∨ arg.head? = some '/' then (tr, 0)
  else
    let serv := servName arg
    match chdirAt tr e.cwd e.rcsd with
    | none => (tr, 72)
    | some cwd =>
      match (if e.icreate then mkdirAt tr cwd "enabled".toList else some tr) with
      | none => (tr, 73)
      | some tr =>
        let src := e.rcsd ++ "/available/".toList ++ serv
        let dst := e.rcsd ++ "/enabled/".toList ++ serv
        if fexistAt tr cwd dst then (tr, if e.noerr then 0 else 1)
        else
          let src := (templateOf src).getD src
          if fexistAt tr cwd src = false then (tr, 72)
          else match symlinkAt tr cwd src dst with
            | some tr => (tr, 0)
            | none => (tr, -1)

/-- `do_disable`, src/serv.c:330-364: the tree and the code; `exits` is set if initctl ends there -/
def doDisable (e : ServEnv) (arg : CStr) (check : Bool) (tr : STree) : STree × Int × Bool :=
  if arg = [] ∨ arg.head? = some '/' then (tr, 0, false)
  else
    let serv := withConf arg
    match chdirAt tr e.cwd e.rcsd with
    | none => (tr, 72, true)
    | some cwd =>
      let cwd := (chdirAt tr cwd "enabled".toList).getD cwd
      if check ∧ fexistAt tr cwd serv = false then (tr, if e.noerr then 0 else 6, true)
      -- stat(2) follows links, so it never says that something is one
      else match removeAt e.empty tr cwd serv with
        | some tr => (tr, 0, false)
        | none => (tr, 1, false)

/-- `serv_disable`, src/serv.c:366-369 -/
def servDisable (e : ServEnv) (arg : CStr) (tr : STree) : STree × Int :=
  let r := doDisable e arg true tr
  (r.1, r.2.1)

/-- `suffix` in a buffer of 256 bytes, src/util.h:178-195 -/
def suffixIn (s : CStr) : Option CStr :=
  if hasConf s then some s
  else if 256 ≤ s.length + 5 then none else some (s ++ confSfx)

/-- `paste` in a buffer of 256 bytes, src/util.h:165-174; `fisslashdir` tells of a '/' at the end -/
def pasteIn (dir name : CStr) : CStr :=
  (dir ++ (if dir.getLast? = some '/' then [] else if name.head? = some '/' then [] else ['/']) ++ name).take 255

/-- `conf` without `template`, src/serv.c:225-262: the tree, in which it may have made a directory, and the path -/
def servConf (e : ServEnv) (cwd : SPath) (name : CStr) (creat : Bool) (tr : STree) : STree × Option CStr :=
  if name = [] ∨ name = "finit".toList ∨ name = "finit.conf".toList then (tr, some (e.conf.take 255))
  else if fisdirAt tr cwd e.rcsd = false then (tr, none)
  else
    let path := pasteIn e.rcsd "available/".toList
    let made : Option STree := if fisdirAt tr cwd path then some tr else if creat then mkdirAt tr cwd path else some tr
    match made with
    | none => (tr, none)
    | some tr' =>
      let path := if fisdirAt tr cwd path then (path ++ name).take 255 else pasteIn e.rcsd name
      match suffixIn path with
      | none => (tr', none)
      | some path =>
        if creat = false ∧ fexistAt tr' cwd path = false then (tr', suffixIn (pasteIn e.rcsd name))
        else (tr', some path)

/-- `serv_creat`, src/serv.c:499-531, of something that is not built in and with text from a pipe -/
def servCreat (e : ServEnv) (arg data : CStr) (tr : STree) : STree × Int :=
  if arg = [] then (tr, 2)
  else match servConf e e.cwd arg true tr with
    | (tr, none) => (tr, 73)
    | (tr, some fn) =>
      -- the text goes to /dev/null
      if e.icreate = false ∧ fexistAt tr e.cwd fn then (tr, 0)
      else match writeAt tr e.cwd fn data with
        | some tr => (tr, 0)
        | none => (tr, 73)

/-- `serv_delete`, src/serv.c:533-560, of something that is not built in, when the answer is yes -/
def servDelete (e : ServEnv) (arg : CStr) (tr : STree) : STree × Int :=
  if arg = [] then (tr, 0)
  else match servConf e e.cwd arg false tr with
    | (tr, none) => (tr, 72)
    | (tr, some fn) =>
      match doDisable e arg false tr with
      | (tr, rc, true) => (tr, rc)
      | (tr, _, false) =>
        -- `do_disable` has left the directory changed
        let cwd := match chdirAt tr e.cwd e.rcsd with
          | some cwd => if arg.head? = some '/' then e.cwd else (chdirAt tr cwd "enabled".toList).getD cwd
          | none => e.cwd
        match removeAt e.empty tr cwd fn with
        | some tr => (tr, 0)
        | none => (tr, 1)

/-- Does finit read a directory's entry of that name, and what does it find?  glob(3) of `*.conf` leaves names that begin
with a dot, src/conf.c:1325-1328; directories and links that lead nowhere are skipped, src/conf.c:1365-1389. -/
def confRead (tr : STree) (dir : SPath) (name : CStr) : Option CStr :=
  if hasConf name ∧ name.head? ≠ some '.' ∧ tr dir = some .dir then
    match (namei tr true 40 [] (dir ++ [name])).bind tr with
    | some (.file d) => some d
    | _ => none
  else none

end Verif
