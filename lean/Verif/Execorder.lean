import Verif.Postscript

/-!
# The order in which things are started at bootstrap (src/conf.c, src/service.c)

`conf_save_exec_order()` writes /run/finit/exec.order.  It is called by `service_start()` before a process is made, with the
result -1, and after it, with the result; for a `run` the latter is left to `service_monitor()`.
-/

namespace Verif

/-- src/svc.h:338-360 -/
inductive XeType
  | service | task | run | tty | sysv
  deriving DecidableEq, Repr

/-- `svc_typestr()`, src/svc.h:338-360 -/
def xeTypeStr : XeType → CStr
  | .service => "service".toList
  | .task => "task".toList
  | .run => "run".toList
  | .tty => "tty".toList
  | .sysv => "sysv".toList

/-- What is started: its command and the arguments after it, `svc->args[1]` on -/
structure XeSvc where
  type : XeType
  cmd : CStr
  args : List CStr
  desc : CStr
  deriving DecidableEq, Repr

/-- `compose_cmdline()`, src/service.c:510-522, into `cmdline[CMD_SIZE]`, src/finit.h:69: the loop over the arguments, which
    ends at the first empty one, src/svc.h:105 -/
def xeArgs : Nat → CStr → List CStr → CStr
  | 0, buf, _ => buf
  | _ + 1, buf, [] => buf
  | n + 1, buf, a :: r => if a = [] then buf else xeArgs n (strlcat 1024 (strlcat 1024 buf [' ']) a) r

def xeCmdline (s : XeSvc) : CStr := xeArgs 63 (strlcpy 1024 s.cmd) s.args

/-- `%-Ns` of printf(3) -/
def xePad (n : Nat) (s : CStr) : CStr := s ++ List.replicate (n - s.length) ' '

/-- `%s` of a null pointer with glibc and musl -/
def xeOr : Option CStr → CStr
  | some s => s
  | none => "(null)".toList

/-- `%-7s  %-64s (%s)`, src/conf.c:466,472,482 -/
def xeRest (s : XeSvc) (cmdline : Option CStr) : CStr :=
  xePad 7 (xeTypeStr s.type) ++ "  ".toList ++ xePad 64 (xeOr cmdline) ++ " (".toList ++ s.desc ++ ")".toList

/-- src/conf.c:445 -/
def xeMark (result : Int) : CStr := if result = 0 then "[ OK ]".toList else "[FAIL]".toList

/-- src/conf.c:456-457 -/
def xeHead : List CStr :=
  ["# Execution order of run/task/services at bootstrap".toList, "# ST    TYPE     COMMAND LINE (DESC)".toList]

/-- `bootstrap`, src/finit.c; `run_block_pid`, src/service.c:67, 0 if there is none; `prepared`, src/conf.c:446; the lines of the
    file, if there is one -/
structure XeSt where
  boot : Bool
  block : Nat
  prepared : Option CStr
  file : Option (List CStr)
  deriving DecidableEq, Repr

/-- At the start of bootstrap: /run is new. -/
def xeInit : XeSt := { boot := true, block := 0, prepared := none, file := none }

/-- `conf_save_exec_order()`, src/conf.c:442-487.  It is assumed that the file can be opened and that there is memory. -/
def xeSave (st : XeSt) (s : XeSvc) (cmdline : Option CStr) (result : Int) : XeSt :=
  let lines := st.file.getD xeHead
  if result = -1 then
    { st with file := some lines, prepared := some (List.replicate 8 ' ' ++ xeRest s cmdline) }
  else match st.prepared with
    | some p => { st with file := some (lines ++ [xeMark result ++ p.drop 6]), prepared := none }
    | none => { st with file := some (lines ++ [xeMark result ++ "  ".toList ++ xeRest s cmdline]) }

/-- How starting something goes: it is refused (the program, its environment or its terminal is missing, or Finit is
    stopped), the pipe or socket for its notifications cannot be made, fork(2) fails, or there is a process; `watched`: its
    notifications, if any, can be waited for -/
inductive XeHow
  | refused
  | noChannel
  | noFork
  | started (pid : Nat) (watched : Bool)
  deriving DecidableEq, Repr

/-- src/service.c:639-641 -/
def xePrepare (st : XeSt) (s : XeSvc) : XeSt :=
  if st.boot then xeSave st s (some (xeCmdline s)) (-1) else st

/-- src/service.c:903-908 -/
def xeFinish (st : XeSt) (s : XeSvc) (result : Int) : XeSt :=
  if st.boot && st.block == 0 then xeSave st s none result else st

/-- `service_start()`, src/service.c:593-911, without what concerns the process: 612-613 and the reasons to refuse,
    615-637, then 639-641, 646-666, 699-731 and 892-908 -/
def xeStart (st : XeSt) (s : XeSvc) (how : XeHow) : XeSt :=
  if st.block ≠ 0 then st
  else match how with
    | .refused => st
    | .noChannel => xePrepare st s
    | .noFork => xeFinish (xePrepare st s) s (-1)
    | .started pid watched =>
      let st := xePrepare st s
      let st := if s.type = .run then { st with block := pid } else st
      xeFinish st s (if watched then 0 else -1)

/-- `service_monitor()`, src/service.c:2109-2204: 2116-2117 and 2184-2193, for the process `pid` of `s` -/
def xeEnds (st : XeSt) (s : XeSvc) (pid w : Nat) : XeSt :=
  if pid ≤ 1 then st
  else if pid = st.block then
    let st := { st with block := 0 }
    if st.boot then xeSave st s none (if ptExited w then (ptExitStatus w : Nat) else 1) else st
  else st

/-- What happens: something is to be started, a process ends, bootstrap ends (src/sm.c:241) -/
inductive XeEv
  | start (s : XeSvc) (how : XeHow)
  | ends (s : XeSvc) (pid w : Nat)
  | up
  deriving DecidableEq, Repr

def xeStep (st : XeSt) : XeEv → XeSt
  | .start s how => xeStart st s how
  | .ends s pid w => xeEnds st s pid w
  | .up => { st with boot := false }

def xeRun (evs : List XeEv) : XeSt := evs.foldl xeStep xeInit

end Verif
