import Verif.Conf
import Verif.Line
import Verif.Getty

/-!
# Environment variables: those of the configuration and those of a service

`set` lines of the configuration change the environment of Finit itself, which is what its children inherit (src/conf.c).
A child of Finit then reads the file given with `env:` (src/service.c).

Simplified: there is memory; `wordexp()` is given and changes no variables itself; lines of the configuration are
those that `parse_static` and `parse_dynamic` leave for `parse_env`, with tabs and templates replaced.  `chomp()` of
libite takes the line feed off.  Variables that Finit sets for itself while it runs (`FSTAB_FILE`, `TZ`) are not
looked at.
-/

namespace Verif

/-- The variables -/
abbrev VarEnv := CStr → Option CStr

/-- `setenv(key, val, 1)`: an empty name is refused (EINVAL); names with `=` do not come up. -/
def varSet (k v : CStr) (e : VarEnv) : VarEnv := if k = [] then e else fun x => if x = k then some v else e x

/-- `unsetenv(key)` -/
def varUnset (k : CStr) (e : VarEnv) : VarEnv := if k = [] then e else fun x => if x = k then none else e x

/-- `_PATH_STDPATH` of `<paths.h>` -/
def stdPath : CStr := "/usr/bin:/bin:/usr/sbin:/sbin".toList

/-- `_PATH_DEFPATH` of `<paths.h>` -/
def defPath : CStr := "/usr/bin:/bin".toList

/-- `_PATH_BSHELL` of `<paths.h>` -/
def binSh : CStr := "/bin/sh".toList

/-- The environment of Finit with `env_list`, src/conf.c:75-79 -/
structure VarSt where
  env : VarEnv
  tracked : List CStr

/-- `conf_reset_env()`, src/conf.c:391-414; `base` is the environment at the time of `conf_init()`, src/conf.c:377-378 -/
def varReset (base : VarEnv) (s : VarSt) : VarSt :=
  let e := s.tracked.foldl (fun e k => varUnset k e) s.env
  let e := varSet "PATH".toList ((base "PATH".toList).getD stdPath) e
  let e := varSet "SHELL".toList ((base "SHELL".toList).getD binSh) e
  let e := varSet "LOGNAME".toList "root".toList e
  { env := varSet "USER".toList "root".toList e, tracked := [] }

/-- `parse_env()`, src/conf.c:590-615 -/
def varParse (s : VarSt) (line : CStr) : VarSt :=
  match confParseEnv line with
  | none => s
  | some (k, v) => { env := varSet k v s.env, tracked := k :: s.tracked }

/-- A line, src/conf.c:958-961,1211-1216: at bootstrap the keyword `set` is known to `parse_static`. -/
def varLine (boot : Bool) (s : VarSt) (line : CStr) : VarSt :=
  if boot then
    match matchCmd "set " line with
    | some x => varParse s x
    | none => varParse s line
  else varParse s line

/-- What `conf_reload()` does to the environment, src/conf.c:1250-1380 -/
def varLoad (base : VarEnv) (s : VarSt) (conf : Bool × List CStr) : VarSt := conf.2.foldl (varLine conf.1) (varReset base s)

/-- The environment after the configuration has been read some times; whether it was at bootstrap, and the lines -/
def varRun (base : VarEnv) (confs : List (Bool × List CStr)) : VarSt := confs.foldl (varLoad base) { env := base, tracked := [] }

/-! ## A service -/

/-- `chomp()` for a line from `fgets()` -/
def chompLine (l : List Char) : CStr := if l.getLast? = some '\n' then l.dropLast else l

/-- The value with its words expanded and joined, src/service.c:464-473; `none` is an error of `wordexp()` -/
def joinVal (raw : CStr) (words : Option (List CStr)) : CStr :=
  match words with
  | none => raw
  | some [] => []
  | some (w :: ws) => (ws.flatMap fun x => [" ".toList, x]).foldl (strlcat 1024) (strlcat 1024 [] w)

/-- A line of the file, src/service.c:446-475; `expand` is `wordexp()` -/
def sourceLine (expand : VarEnv → CStr → Option (List CStr)) (e : VarEnv) (l : List Char) : VarEnv :=
  let key := (chompLine l).dropWhile isSpace
  if key.head? = some '#' ∨ key.head? = some ';' then e
  else match confParseEnv key with
    | none => e
    | some (k, v) => varSet k (joinVal v (expand e v)) e

/-- `source_env()`, src/service.c:422-478; `LINE_SIZE` is 1024; none if there is no file -/
def sourceEnv (expand : VarEnv → CStr → Option (List CStr)) (file : Option (List Char)) (e : VarEnv) : VarEnv :=
  match file with
  | none => e
  | some f => (fgetsPieces 1023 [] f).foldl (sourceLine expand) e

/-- The variables of the child in `service_fork()`, src/service.c:529-573: `uid` and `home` are what `getuser()` gives, none if
    there is no such user -/
def childEnv (expand : VarEnv → CStr → Option (List CStr)) (uid : Option Nat) (home : Option CStr) (file : Option (List Char))
    (e : VarEnv) : VarEnv :=
  let e := match uid with
    | none => e
    | some n =>
      let e := if 0 < n then varSet "PATH".toList defPath e else e
      match home with
      | some h => varSet "HOME".toList h e
      | none => e
  sourceEnv expand file e

end Verif
