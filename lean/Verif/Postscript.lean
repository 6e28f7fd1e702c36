import Verif.Util

/-!
# The scripts of a service: src/service.c:2272-2465

What `sh` does with the text it is given is modelled for commands separated by `;` only: no quotes, no `&&`, no `|`.
-/

namespace Verif

/-- The environment of a process -/
abbrev PtEnv := CStr → Option CStr

/-- `setenv(key, val, 1)` -/
def ptSet (key : String) (val : CStr) (env : PtEnv) : PtEnv := fun v => if v = key.toList then some val else env v

/-- What the scripts are told of a service, src/svc.h:146-260: `svc_typestr()`, the name, the ID, `svc_ident()`, `env:`, the wait status
    that was kept, and `SVC_BLOCK_CRASHING` -/
structure PtSvc where
  typ : CStr := "service".toList
  name : CStr
  id : CStr
  ident : CStr
  env : CStr := []
  status : Nat := 0
  crashing : Bool := false

/-- `WIFEXITED`, `WEXITSTATUS`, `WTERMSIG` and `WIFSIGNALED` of <sys/wait.h> -/
def ptExited (status : Nat) : Bool := status % 128 = 0
def ptExitStatus (status : Nat) : Nat := status / 256 % 256
def ptTermSig (status : Nat) : Nat := status % 128
def ptSignaled (status : Nat) : Bool := 0 < status % 128 && status % 128 < 127

/-- `set_pre_post_envs()`, src/service.c:2275-2293, without `FINIT_SYSCONFIG` -/
def ptCommon (s : PtSvc) (typ : String) (env : PtEnv) : PtEnv :=
  let env := ptSet "SERVICE_TYPE" s.typ env
  let env := ptSet "SERVICE_NAME" s.name env
  let env := if s.id ≠ [] then ptSet "SERVICE_ID" s.id env else env
  let env := ptSet "SERVICE_IDENT" s.ident env
  let env := ptSet "SERVICE_SCRIPT_TYPE" typ.toList env
  ptSet "SERVICE_CONF_DIR" "/etc/default:/etc/conf.d".toList env

/-- What a post script gets beyond that, src/service.c:2350-2374; `val` has 4 bytes -/
def ptPost (s : PtSvc) (env : PtEnv) : PtEnv :=
  let env :=
    if ptExited s.status then
      ptSet "EXIT_STATUS" (strlcpy 4 (Nat.toDigits 10 (ptExitStatus s.status % 256))) (ptSet "EXIT_CODE" "exited".toList env)
    else if ptSignaled s.status then
      ptSet "EXIT_STATUS" (sig2str (ptTermSig s.status)) (ptSet "EXIT_CODE" "signal".toList env)
    else env
  if s.crashing then ptSet "EXIT_CODE" "crashed".toList env else env

/-- `svc_getenv()`, src/svc.h:506-517 -/
def ptGetenv (s : PtSvc) : Option CStr :=
  match s.env with
  | [] => none
  | '-' :: r => some r
  | e => some e

/-- The text for `sh -ac`, src/service.c:2317-2321 and 2354-2358; `buf` has `CMD_SIZE`, 1024, bytes -/
def ptText (fexist : CStr → Bool) (s : PtSvc) (script : CStr) : CStr :=
  match ptGetenv s with
  | some f => if fexist f then strlcpy 1024 (". ".toList ++ f ++ "; exec ".toList ++ script) else strlcpy 1024 script
  | none => strlcpy 1024 script

/-- The commands of a text: what is between its `;` -/
def ptSplit : CStr → CStr → List CStr
  | acc, [] => [acc.reverse]
  | acc, ';' :: r => acc.reverse :: ptSplit [] r
  | acc, c :: r => ptSplit (c :: acc) r

/-- Without the blanks before it -/
def ptTrim (s : CStr) : CStr := s.dropWhile (· == ' ')

/-- What `sh -a` does with these commands: the commands run, each with its environment.  `source f` is what the assignments in file `f`
    do; with `-a` they are exported.  After `exec` the shell is not there any more. -/
def ptShell (source : CStr → PtEnv → PtEnv) : List CStr → PtEnv → List (CStr × PtEnv)
  | [], _ => []
  | c :: r, env =>
    match ptTrim c with
    | [] => ptShell source r env
    | '.' :: ' ' :: f => ptShell source r (source f env)
    | 'e' :: 'x' :: 'e' :: 'c' :: ' ' :: p => [(p, env)]
    | p => (p, env) :: ptShell source r env

/-- `service_post_script()`, src/service.c:2332-2381, in the child; `env` is what `source_env()` left in `service_fork()` -/
def ptRunPost (fexist : CStr → Bool) (source : CStr → PtEnv → PtEnv) (s : PtSvc) (script : CStr) (env : PtEnv) : List (CStr × PtEnv) :=
  ptShell source (ptSplit [] (ptText fexist s script)) (ptPost s (ptCommon s "post" env))

/-- Something of the service ended, and in which state it was: `service_monitor()`, src/service.c:2127-2156 -/
inductive PtAct
  /-- the pre script, in the state SETUP -/
  | pre (status : Nat)
  /-- the process, or the pre script after it was told to stop -/
  | main (status : Nat)
  /-- the post script, in the state TEARDOWN, or the cleanup script, in the state CLEANUP -/
  | script (status : Nat)
  deriving DecidableEq, Repr

def ptKeep (a : PtAct) (s : PtSvc) : PtSvc :=
  match a with
  | .pre st | .main st => { s with status := st }
  | .script _ => s

def ptRun (acts : List PtAct) (s : PtSvc) : PtSvc := acts.foldl (fun s a => ptKeep a s) s

end Verif
