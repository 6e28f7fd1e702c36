import Verif.Json
import Verif.Util
import Verif.Postscript

/-!
# The status of a service as `initctl status` shows it (src/initctl.c, src/svc.h, src/util.c)
-/

namespace Verif

/-- `svc_block_t`, src/svc.h:73-81 -/
inductive IqBlock
  | none | missing | crashing | user | busy | restarting | conflict
  deriving DecidableEq, Repr

/-- `svc_state_t`, src/svc.h:59-71, with what else matters to the word for it -/
inductive IqState
  | halted (block : IqBlock)
  | done (started : Bool)
  | stopping (runtask : Bool)
  | teardown | setup | cleanup | paused | waiting | starting | running | dead
  deriving DecidableEq, Repr

/-- `svc_status`, src/svc.h:363-437 -/
def iqWord : IqState → CStr
  | .halted .none => "halted".toList
  | .halted .missing => "missing".toList
  | .halted .crashing => "crashed".toList
  | .halted .user => "stopped".toList
  | .halted .busy => "busy".toList
  | .halted .restarting => "restart".toList
  | .halted .conflict => "conflict".toList
  | .done true => "done".toList
  | .done false => "failed".toList
  | .stopping true => "active".toList
  | .stopping false => "stopping".toList
  | .teardown => "teardown".toList
  | .setup => "setup".toList
  | .cleanup => "cleanup".toList
  | .paused => "paused".toList
  | .waiting => "waiting".toList
  | .starting => "starting".toList
  | .running => "running".toList
  | .dead => "dead".toList

/-- `exitcodes`, src/util.c:112-144 -/
def iqCodes : List CStr :=
  ["SUCCESS", "FAILURE", "INVALIDARGUMENT", "NOTIMPLEMENTED", "NOPERMISSION", "NOTINSTALLED", "NOTCONFIGURED",
    "NOTRUNNING"].map String.toList ++ List.replicate 56 [] ++
  ["USAGE", "DATAERR", "NOINPUT", "NOUSER", "NOHOST", "UNAVAILABLE", "SOFTWARE", "OSERR", "OSFILE", "CANTCREAT", "IOERR",
    "TEMPFAIL", "PROTOCOL", "NOPERM", "CONFIG"].map String.toList

/-- `code2str`, src/util.c:444-450 -/
def code2str (code : Nat) : CStr := iqCodes.getD code []

/-- The number with the name for it, if there is one -/
def iqNamed (n : Nat) (name : CStr) : CStr := intText n ++ (if name = [] then [] else ['/']) ++ name

/-- `exit_status`, src/initctl.c:883-902, into `ok[48]`, which is empty at first -/
def iqExit (manual : Bool) (w : Nat) : CStr :=
  if ptExited w then
    (" (code=exited, status=".toList ++ iqNamed (ptExitStatus w) (code2str (ptExitStatus w)) ++
      (if manual then ", manual=yes".toList else []) ++ [')']).take 47
  else if ptSignaled w then
    (" (code=signal, status=".toList ++ iqNamed (ptTermSig w) (sig2str (ptTermSig w)) ++ [')']).take 47
  else []

/-- The colour, src/initctl.c:912-940; only used for the full status -/
def iqColour (s : IqState) (w : Nat) : CStr :=
  match s with
  | .halted _ => "\x1b[1m".toList
  | .running => "\x1b[1;32m".toList
  | .done _ =>
    if ptExited w then (if ptExitStatus w ≠ 0 then "\x1b[1;31m".toList else "\x1b[1;32m".toList)
    else if ptSignaled w then "\x1b[1;31m".toList else "\x1b[1;33m".toList
  | _ => "\x1b[1;33m".toList

/-- `status(svc, 1)`, src/initctl.c:904-955, into `buf[96]`; `w` is the status of waitpid(2) -/
def iqStatus (plain manual : Bool) (s : IqState) (w : Nat) : CStr :=
  let ok := if s = .running then [] else iqExit manual w
  ((if plain then [] else iqColour s w) ++ iqWord s ++ ok ++ (if plain then [] else "\x1b[0m".toList)).take 95

/-- `status(svc, 0)`, for the list of all: `%-8.8s` -/
def iqBrief (s : IqState) : CStr := (iqWord s).take 8 ++ List.replicate (8 - (iqWord s).length) ' '

end Verif
