import Verif.Api

/-!
# The commands of `initctl` on services

Model of what `initctl start`, `stop`, `restart`, `reload`, `signal`, `status` and `ident` of src/initctl.c do with
their arguments: which requests they send to the supervisor, and the exit status they end with.  The requests are
served by `apiRequest` of `Verif.Api`, the model of the other end of the socket.

Simplified: the services do not change between the requests of one call of the program, and the runlevel stays
the same.  The socket can be opened, and reading from and writing to it do not fail.  What is printed is given as
the services that are shown, not as text.  The options are given: `noerr` is `-n`, `quiet` is `-q`.
-/

namespace Verif

/-- How a command function ends: it returns to `cmd_parse`, or the program exits (`ERRX`, src/initctl.h:46) -/
inductive CliEnd
  | rc (n : Nat)
  | exit (n : Nat)
  deriving DecidableEq

/-- `strlcpy(rq.data, arg, sizeof(rq.data))` into a request that is all zero, src/initctl.c:248-249 and 284 -/
def cliData (arg : CStr) : List Char := strlcpy 368 arg ++ List.replicate (368 - (strlcpy 368 arg).length) '\x00'

/-- `client_send`, src/client.c:76-127: 0 if there is an answer and it is no `INIT_CMD_NACK`; when the connection
    is closed the read comes short, and when there is no answer the wait times out -/
def cliRc : Reply → Nat
  | .ack _ _ => 0
  | _ => 255

/-- `do_startstop`, src/initctl.c:274-290, and `do_svc`, src/initctl.c:241-253 -/
def cliStartStop (E : ApiEnv) (st : ApiSt) (p : Int) (noerr : Bool) (cmd : Int) : Option CStr → List Call × CliEnd
  | none => ([], .exit 2)
  | some arg =>
    if arg = [] then ([], .exit 2)
    else
      let q := apiRequest E st p { cmd := 130, data := cliData arg }
      if cliRc q.2 ≠ 0 then (q.1, .exit (if noerr then 0 else 69))
      else
        let r := apiRequest E st p { cmd := cmd, data := cliData arg }
        (q.1 ++ r.1, .rc (cliRc r.2))

/-- `do_start`, `do_stop`, `do_reload` and `do_restart`, src/initctl.c:292-309 -/
def cliOne (E : ApiEnv) (st : ApiSt) (p : Int) (noerr : Bool) (a : SvcAct) (arg : Option CStr) : List Call × CliEnd :=
  match a with
  | .start => cliStartStop E st p noerr 10 arg
  | .stop => cliStartStop E st p noerr 11 arg
  | .reload =>
    if arg.getD [] = [] then
      let r := apiRequest E st p { cmd := 9 }
      (r.1, .rc (cliRc r.2))
    else cliStartStop E st p noerr 12 arg
  | .restart =>
    match cliStartStop E st p noerr 13 arg with
    | (cs, .exit n) => (cs, .exit n)
    | (cs, .rc n) => if n ≠ 0 then (cs, .exit (if noerr then 0 else 7)) else (cs, .rc 0)

/-- The loop over the arguments in `cmd_parse`, src/initctl.c:1410-1413, and what `main` returns; the second part
    is the exit status -/
def cliLoop (f : CStr → List Call × CliEnd) : Nat → List CStr → List Call × Nat
  | rc, [] => ([], rc)
  | rc, arg :: args =>
    match f arg with
    | (cs, .exit n) => (cs, n)
    | (cs, .rc n) => (cs ++ (cliLoop f (rc ||| n) args).1, (cliLoop f (rc ||| n) args).2)

/-- `cmd_parse`, src/initctl.c:1404-1416, for a command with a function of one argument -/
def cliArgs (f : Option CStr → List Call × CliEnd) (args : List CStr) : List Call × Nat :=
  match args with
  | [] => match f none with
    | (cs, .exit n) => (cs, n)
    | (cs, .rc n) => (cs, n)
  | _ => cliLoop (fun a => f (some a)) 0 args

/-- `initctl start|stop|restart|reload ARG…` -/
def cliJobs (E : ApiEnv) (st : ApiSt) (p : Int) (noerr : Bool) (a : SvcAct) (args : List CStr) : List Call × Nat :=
  cliArgs (cliOne E st p noerr a) args

/-- `do_signal`, src/initctl.c:321-353; `signo` is what `str2sig` and then `strtonum` make of the second argument,
    `none` if it is no signal (see `Verif.Util`) -/
def cliSignal (E : ApiEnv) (st : ApiSt) (p : Int) (noerr : Bool) (signo : CStr → Option Int) (args : List CStr) :
    List Call × Nat :=
  match args with
  | [arg, sig] =>
    let q := apiRequest E st p { cmd := 130, data := cliData arg }
    if cliRc q.2 ≠ 0 then (q.1, if noerr then 0 else 69)
    else match signo sig with
      | none => (q.1, 65)
      | some n =>
        let r := apiRequest E st p { cmd := 133, runlevel := n, data := cliData arg }
        (q.1 ++ r.1, cliRc r.2)
  | _ => ([], 2)

/-! ## The commands that show services -/

/-- What `show_status` needs to know of a service beside `Ent`: `svc_is_runtask`, `svc->started`, and whether its
    state is SVC_RUNNING_STATE -/
structure CliSvc where
  runtask : Bool
  started : Bool
  running : Bool
  deriving DecidableEq

/-- `svc_compare`, src/initctl.c:970-990 -/
def svcCompare (e : Ent) (arg : CStr) : Bool :=
  let ident := svcIdent e
  decide ((if arg.contains ':' then ident else ident.takeWhile fun c => decide (c ≠ ':')) = arg)

/-- What `initctl status` shows: one service in full, a table of services, or nothing. -/
inductive CliShows
  | nothing
  | detail (i : Nat)
  | table (is : List Nat)
  deriving DecidableEq

/-- The service that comes with the answer to a look-up, `client_svc_find`, src/client.c -/
def sentIn : List Call → Option Nat
  | [] => none
  | .send o :: _ => o
  | _ :: cs => sentIn cs

/-- `show_status`, src/initctl.c:1067-1211, for an argument.  `svc i` is the service at position `i`. -/
def cliStatusArg (E : ApiEnv) (st : ApiSt) (p : Int) (svc : Nat → CliSvc) (noerr quiet : Bool) (arg : CStr) :
    CliShows × CliEnd :=
  if 1 < (positions (fun e => svcCompare e arg) E.list).length then
    (.table (positions (fun e => svcCompare e arg) E.list), .rc 0)
  else match sentIn (apiRequest E st p { cmd := 131, data := cliData arg }).1 with
    | none => (.nothing, .exit (if noerr then 0 else 69))
    | some i =>
      if quiet then
        if (svc i).runtask then (.nothing, .rc (if (svc i).started then 0 else 1))
        else (.nothing, .rc (if (svc i).running then 0 else 1))
      else (.detail i, .rc 0)

/-- `show_ident`, src/initctl.c:1220-1242: the services whose identity is printed; `strncasecmp` compares as many
    characters as there are before the colon of the identity -/
def cliIdent (l : List Ent) (arg : Option CStr) : List Nat :=
  positions (fun e =>
    let nm := (svcIdent e).takeWhile fun c => decide (c ≠ ':')
    decide (arg.getD [] = []) || caseEq nm ((arg.getD []).take nm.length)) l

end Verif
