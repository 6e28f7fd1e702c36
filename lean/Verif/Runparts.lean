import Verif.Exec
import Verif.Util

/-!
# Start scripts and hook scripts

Model of src/runparts.c, of the `runparts` line of finit.conf and the task made for it in src/conf.c, and of
`plugin_script_run` and `plugin_run_hook` in src/plugin.c with plugins/hook-scripts.c.

Simplified: fork(2) and waitpid(2) work; the sum of exit codes does not overflow; names are text without NUL; there is
no locale, so alphasort(3) is strcmp(3).
-/

namespace Verif

/-! ## Directories of scripts -/

/-- What stat(2) tells of an entry: a directory, any other file and whether its owner may execute it, or failure -/
inductive PKind
  | dir
  | file (exec : Bool)
  | broken
  deriving DecidableEq, Repr

/-- An entry of a directory -/
structure PEntry where
  name : CStr
  kind : PKind
  deriving DecidableEq, Repr

/-- Insertion into a list sorted by name -/
def insertPart (e : PEntry) : List PEntry → List PEntry
  | [] => [e]
  | f :: l => if e.name ≤ f.name then e :: f :: l else f :: insertPart e l

/-- scandir(3) with alphasort(3), src/runparts.c:101 -/
def sortParts : List PEntry → List PEntry
  | [] => []
  | e :: l => insertPart e (sortParts l)

/-- `paste`, src/util.h:165-174, in a buffer of `n` bytes -/
def pasteBuf (n : Nat) (dir name : CStr) : CStr :=
  (dir ++ (if dir.getLast? = some '/' then [] else if name.head? = some '/' then [] else ['/']) ++ name).take (n - 1)

/-- The text given to `sh -c` for an entry, src/runparts.c:107-153; nothing if it is skipped -/
def partText (dir : CStr) (cmd : Option CStr) (sysv : Bool) (e : PEntry) : Option CStr :=
  let size := dir.length + e.name.length + 3 + (match cmd with
    | some c => c.length
    | none => 5)
  if e.name.getLast? = some '~' then none
  else match e.kind with
    | .broken => none
    | .dir => none
    | .file exec =>
      let path := pasteBuf size dir e.name
      if exec = false then none
      else if sysv = true ∧ e.name.head? ≠ some 'S' ∧ e.name.head? ≠ some 'K' then none
      else match cmd with
        | none =>
          if e.name.head? = some 'S' ∧ (e.name[1]?.any isDigit) = true then some (strlcat size path " start".toList)
          else if e.name.head? = some 'K' ∧ (e.name[1]?.any isDigit) = true then
            some (strlcat size path " stop".toList)
          else some path
        | some c => some (strlcat size (strlcat size path " ".toList) c)

/-- How a script ends, as told by waitpid(2) -/
inductive PEnd
  | exited (code : Nat)
  | signaled
  deriving DecidableEq, Repr

/-- src/runparts.c:165-177 -/
def endCode : PEnd → Nat
  | .exited n => n
  | .signaled => 1

/-- The loop of `run_parts`, src/runparts.c:107-182: what is given to the shell, one after the other, and the sum of
    exit codes.  `ends` tells how each script ends. -/
def partsLoop (dir : CStr) (cmd : Option CStr) (sysv : Bool) (ends : CStr → PEnd) :
    List PEntry → List CStr × Nat
  | [] => ([], 0)
  | e :: l =>
    match partText dir cmd sysv e with
    | none => partsLoop dir cmd sysv ends l
    | some t =>
      let r := partsLoop dir cmd sysv ends l
      (t :: r.1, endCode (ends t) + r.2)

/-- `run_parts`, src/runparts.c:94-189 -/
def runParts (dir : CStr) (cmd : Option CStr) (sysv : Bool) (ends : CStr → PEnd) (es : List PEntry) :
    List CStr × Nat :=
  partsLoop dir cmd sysv ends (sortParts es)

/-- The exit code of the program, src/runparts.c:233-237 -/
def runpartsExit (dir : CStr) (sysv : Bool) (ends : CStr → PEnd) (es : List PEntry) : Nat :=
  (runParts dir none sysv ends es).2 % 256

/-- Characters that mean nothing to the shell -/
def shPlain (c : Char) : Bool :=
  (decide ('a' ≤ c) && decide (c ≤ 'z')) || (decide ('A' ≤ c) && decide (c ≤ 'Z')) ||
  (decide ('0' ≤ c) && decide (c ≤ '9')) || decide (c ∈ ['/', '.', '_', '-', '+', ',', ':', '@'])

/-- What `sh -c` runs: the words of the text.  `none` if there is more to it than words. -/
def shRuns (text : CStr) : Option (List CStr) :=
  if text.all (fun c => shPlain c || isBlank c) then some (tokens isBlank text) else none

/-! ## The `runparts` line -/

/-- `MATCH_CMD`, src/private.h:32-33: the text after a word, whatever its case -/
def matchRp (word s : CStr) : Option CStr :=
  if lower (s.take word.length) = lower word then some (s.drop word.length) else none

/-- `strip_line`, src/helpers.c:122-137 -/
def stripLine (s : CStr) : CStr := (s.dropWhile isBlank).takeWhile (· ≠ '#')

/-- `runparts`, `runparts_progress` and `runparts_sysv`, src/conf.c:104-106 -/
structure RpConf where
  dir : CStr
  progress : Bool := false
  sysv : Bool := false
  deriving DecidableEq, Repr

/-- The loop for the options, src/conf.c:946-953; each round takes something away -/
def rpLoop : Nat → RpConf → RpConf
  | 0, r => r
  | n + 1, r =>
    match matchRp "progress".toList r.dir with
    | some x => rpLoop n { r with dir := x, progress := true }
    | none => match matchRp "sysv".toList r.dir with
      | some x => rpLoop n { r with dir := x, sysv := true }
      | none => r

/-- What follows `"runparts "` on a line, src/conf.c:943-956 -/
def parseRunparts (x : CStr) : RpConf :=
  let r := rpLoop (x.length + 1) { dir := x }
  { r with dir := stripLine r.dir }

/-- The options of the task, in a buffer of 10 bytes, src/conf.c:1705-1712 -/
def rpArgs (debug progress sysv : Bool) : CStr :=
  let a : CStr := []
  let a := if debug then strlcat 10 a "-d ".toList else a
  let a := if progress then strlcat 10 a "-p ".toList else a
  if sysv then strlcat 10 a "-s ".toList else a

/-! ## Hook scripts -/

/-- Hook points, src/plugin.h:68-90 -/
inductive Hook
  | banner | rootfsUp | mountError | mountPost | basefsUp | svcPlugin | networkUp | svcUp | systemUp
  | svcReconf | runlevelChange
  | networkDn | shutdown | svcDn | sysDn
  deriving DecidableEq, Repr

/-- Names of the hooks, src/plugin.h:68-90; `none` is `"nop"` -/
def Hook.name : Hook → Option CStr
  | .banner => some "hook/sys/banner".toList
  | .rootfsUp => some "hook/mount/root".toList
  | .mountError => some "hook/mount/error".toList
  | .mountPost => some "hook/mount/post".toList
  | .basefsUp => some "hook/mount/all".toList
  | .svcPlugin => some "hook/svc/plugin".toList
  | .networkUp => some "hook/net/up".toList
  | .svcUp => some "hook/svc/up".toList
  | .systemUp => some "hook/sys/up".toList
  | .svcReconf => none
  | .runlevelChange => none
  | .networkDn => some "hook/net/down".toList
  | .shutdown => some "hook/sys/shutdown".toList
  | .svcDn => some "hook/svc/down".toList
  | .sysDn => some "hook/sys/down".toList

/-- The number of a hook, src/plugin.h:68-90 -/
def Hook.no : Hook → Nat
  | .banner => 0
  | .rootfsUp => 1
  | .mountError => 2
  | .mountPost => 3
  | .basefsUp => 4
  | .svcPlugin => 5
  | .networkUp => 6
  | .svcUp => 7
  | .systemUp => 8
  | .svcReconf => 9
  | .runlevelChange => 10
  | .networkDn => 11
  | .shutdown => 12
  | .svcDn => 13
  | .sysDn => 14

/-- Hooks for which plugins/hook-scripts.c:83-93 has a callback -/
def Hook.plugged : Hook → Bool
  | .banner | .rootfsUp | .mountError | .mountPost | .basefsUp | .networkUp | .svcUp | .systemUp | .shutdown => true
  | _ => false

/-- `halt`, src/sig.c:106 -/
inductive ShutOp
  | reboot
  | halt
  | off
  deriving DecidableEq, Repr

/-- A run of the scripts in a directory: its path and what is set in the environment -/
structure HookRun where
  path : CStr
  env : List (CStr × CStr)
  deriving DecidableEq, Repr

/-- `run_env`, src/runparts.c:76-92: pairs up to the first NULL -/
def runEnv : List (Option CStr) → List (CStr × CStr)
  | some k :: some v :: l => (k, v) :: runEnv l
  | _ => []

/-- `plugin_script_run`, src/plugin.c:209-238, for hooks that have a name; `root` is `PLUGIN_HOOK_SCRIPTS_PATH`, and
    a buffer of 256 bytes is enough -/
def scriptRun (root : CStr) (op : ShutOp) (h : Hook) : List HookRun :=
  match h.name with
  | none => []
  | some n =>
    let env : List (Option CStr) := [some "FINIT_HOOK_NAME".toList, some n]
    let env := if Hook.shutdown.no ≤ h.no then
        env ++ [some "FINIT_SHUTDOWN".toList, some (match op with
          | .off => "poweroff".toList
          | .halt => "halt".toList
          | .reboot => "reboot".toList)]
      else env ++ [none, none]
    [⟨root ++ n.drop 4, runEnv env⟩]

/-- How finit is: `plugloaded`, whether the plugin for hook scripts is registered, and whether there are conditions.
    `ext` is whether finit is built with a path for external plugins. -/
structure HookState where
  ext : Bool
  loaded : Bool := false
  plugin : Bool := false
  conds : Bool := false
  deriving DecidableEq, Repr

/-- `plugin_run_hook`, src/plugin.c:247-273: the scripts that are run -/
def runHook (root : CStr) (op : ShutOp) (s : HookState) (h : Hook) : List HookRun :=
  (if s.conds = false ∧ s.loaded = false then scriptRun root op h else []) ++
  (if s.plugin = true ∧ h.plugged = true then scriptRun root op h else [])

/-- Steps in the life of finit that matter for hooks -/
inductive HookStep
  /-- `plugin_init`, src/plugin.c:487-510: `plugloaded` is set only with a path for external plugins -/
  | init
  /-- `cond_init`, src/finit.c:700 -/
  | conds
  /-- `plugin_run_hooks` -/
  | hook (h : Hook)
  /-- `do_shutdown`, src/sig.c:320-335, and src/sig.c:385: plugins and conditions go, then the scripts that are left -/
  | down
  deriving DecidableEq, Repr

/-- One step: what is run, and what comes of it -/
def hookStep (root : CStr) (op : ShutOp) (s : HookState) : HookStep → List HookRun × HookState
  | .init => ([], { s with plugin := true, loaded := s.ext })
  | .conds => ([], { s with conds := true })
  | .hook h => (runHook root op s h, s)
  | .down => (scriptRun root op .svcDn ++ scriptRun root op .sysDn,
      { s with plugin := false, loaded := false, conds := false })

/-- Everything that is run -/
def hookRuns (root : CStr) (op : ShutOp) : HookState → List HookStep → List HookRun
  | _, [] => []
  | s, x :: l => (hookStep root op s x).1 ++ hookRuns root op (hookStep root op s x).2 l

end Verif
