import Verif.Util

/-!
# Loading plugins, src/plugin.c

A plugin is a shared object whose constructor calls `plugin_register` when dlopen(3) loads it.  Opening an object that is
loaded already, or is being loaded, gives the same handle and runs nothing.

Not modelled: unloading (but for the handle used for it), the callbacks themselves, shortage of memory, and files with more than
one path.  Handles are the paths of the objects.
-/

namespace Verif

/-- What the constructor of a shared object gives to `plugin_register`, src/plugin.h:135-148 -/
structure PlugLib where
  /-- false if the constructor returns early, e.g. plugins/usr.c:116-118 -/
  registers : Bool := true
  /-- `.name`, or the name of the file if there is none, src/plugin.c:87-98 -/
  name : CStr
  /-- `.depends`, up to the first that is not set -/
  deps : List CStr := []
  /-- hook points with a callback -/
  hooks : List Nat := []
  deriving DecidableEq, Repr

/-- A registered plugin -/
structure Plug where
  name : CStr
  lib : PlugLib
  /-- the shared object it is in -/
  file : CStr
  /-- `plugin->handle`, none before it is set -/
  handle : Option CStr := none
  deriving DecidableEq, Repr

/-- The directories with plugins -/
structure PlugEnv where
  /-- shared objects that can be loaded, by path -/
  objs : List (CStr × PlugLib)
  /-- directories, in the order in which they are read, and what readdir(3) finds in them -/
  dirs : List (CStr × List CStr)

/-- dlopen(3): what is in the object with this path -/
def PlugEnv.obj (E : PlugEnv) (path : CStr) : Option PlugLib := (E.objs.find? (fun o => o.1 = path)).map (·.2)

structure PlugSt where
  /-- objects loaded or being loaded -/
  opened : List CStr := []
  /-- `plugins`, from head to tail -/
  plugs : List Plug := []
  /-- a name shorter than three bytes was looked at from before its beginning -/
  early : Bool := false
  /-- the model ran out of fuel -/
  oof : Bool := false
  deriving DecidableEq, Repr

/-- `trim_ext`, src/plugin.c:64-77 -/
def trimExt (name : CStr) : CStr :=
  match strstr ".so".toList name with
  | some (a, _) => a
  | none =>
    match strstr ".c".toList name with
    | some (a, _) => a
    | none => name

/-- `noext ? ".so" : ""` appended, src/plugin.c:170-173 and 355-356 -/
def soName (name : CStr) : CStr := if ".so".toList.isSuffixOf name then name else name ++ ".so".toList

/-- `plugin_find`, src/plugin.c:152-181 -/
def plugFind (dir : CStr) (name : CStr) (s : PlugSt) : Bool :=
  if s.plugs.any (fun p => decide (p.name = name)) then true
  else if name.head? = some '/' then false
  else
    let path := (dir ++ (if dir.getLast? = some '/' then [] else ['/']) ++ soName name).take 1023
    s.plugs.any (fun p => decide (p.name = path))

/-- Whether `plugin_find` reads before the name, src/plugin.c:167-170 -/
def findEarly (name : CStr) (s : PlugSt) : Bool :=
  !(s.plugs.any (fun p => decide (p.name = name))) && decide (name.head? ≠ some '/') && decide (name.length < 3)

/-- `TAILQ_LAST(&plugins)->handle = handle`, src/plugin.c:368-376 -/
def setHandle (h : CStr) : List Plug → List Plug
  | [] => []
  | [p] => [{ p with handle := some h }]
  | p :: q :: ps => p :: setHandle h (q :: ps)

/-- `check_plugin_depends`, src/plugin.c:391-404; `load` is `load_one` -/
def plugDepends (load : CStr → PlugSt → PlugSt) (dir : CStr) (deps : List CStr) (s : PlugSt) : PlugSt :=
  deps.foldl (fun s d =>
    let s' := { s with early := s.early || findEarly d s }
    if plugFind dir d s then s' else load d s') s

/-- `plugin_register`, src/plugin.c:79-116 -/
def plugRegister (load : CStr → PlugSt → PlugSt) (dir path : CStr) (lib : PlugLib) (s : PlugSt) : PlugSt :=
  let nm := trimExt lib.name
  let s' := { s with early := s.early || findEarly nm s }
  if plugFind dir nm s then s'
  else
    let s := plugDepends load dir (lib.deps.take 10) s'
    { s with plugs := s.plugs ++ [{ name := nm, lib := lib, file := path }] }

/-- `load_one`, src/plugin.c:341-379 -/
def loadOne (E : PlugEnv) (dir : CStr) : Nat → CStr → PlugSt → PlugSt
  | 0, _, s => { s with oof := true }
  | fuel + 1, name, s =>
    let s := { s with early := s.early || decide (name.length < 3) }
    let path := (dir ++ ['/'] ++ soName name).take 1023
    match E.obj path with
    | none => s
    | some lib =>
      let t :=
        if path ∈ s.opened then s
        else
          let s := { s with opened := path :: s.opened }
          if lib.registers then plugRegister (loadOne E dir fuel) dir path lib s else s
      { t with plugs := setHandle path t.plugs }

/-- `load_plugins`, src/plugin.c:406-433 -/
def loadPlugins (E : PlugEnv) (s : PlugSt) (d : CStr × List CStr) : PlugSt :=
  d.2.foldl (fun s n => if n.head? = some '.' then s else loadOne E d.1 (E.objs.length + 2) n s) s

/-- `plugin_init`, src/plugin.c:483-505 -/
def plugInit (E : PlugEnv) : PlugSt := E.dirs.foldl (loadPlugins E) {}

/-- `plugin_run_hook`, src/plugin.c:252-267: whose callbacks are called -/
def hookCalls (h : Nat) (s : PlugSt) : List CStr := (s.plugs.filter (fun p => decide (h ∈ p.lib.hooks))).map (·.name)

end Verif
