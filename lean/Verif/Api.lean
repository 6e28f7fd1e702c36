import Verif.Registry

/-!
# The control socket

Model of `api_cb` in src/api.c: what each request that arrives on the control socket makes the supervisor do,
and what is answered.

Simplified: the effects of the functions called are not modelled here, the calls are listed (the supervisor
model has them as events, `Verif.Sup.Ev`).  The registry does not change while one request is served.  Which
services run, what `kill` and `suspend` answer and what the look-ups by process and condition find are
parameters.  Of a request that never ends (see C26) the calls made before are not listed.  Reading from and writing to the socket do not fail.
-/

namespace Verif

/-- `struct init_request`, src/finit.h:111-117; `data` has 368 bytes -/
structure Req where
  magic : Int := 0x03091969
  cmd : Int
  runlevel : Int := 0
  sleeptime : Int := 0
  data : List Char := List.replicate 368 '\x00'
  deriving DecidableEq

/-- The state the requests depend on; `wdog` is the position of the watchdog service, and whether it is the
    built-in one (`protect`). -/
structure ApiSt where
  runlevel : Int
  debug : Bool := false
  wdog : Option (Nat × Bool) := none
  deriving DecidableEq

/-- What the environment answers. -/
structure ApiEnv where
  list : List Ent
  running : Nat → Bool
  killFails : Nat → Bool
  suspendFails : Bool
  byPid : Int → Option Nat
  byCond : CStr → Option Nat
  iter : Option Nat

/-- Requests on one service, src/api.c:61-128 -/
inductive SvcAct
  | start | stop | restart | reload
  deriving DecidableEq

/-- `halt`, src/finit.c -/
inductive HaltTo
  | reboot | halt | off
  deriving DecidableEq

/-- What is called when a request is served. -/
inductive Call
  /-- `rq.data`, with these bytes, is handed to a function that takes a string -/
  | read (buf : List Char)
  /-- `start`, `stop`, `restart`, `reload` -/
  | act (a : SvcAct) (i : Nat)
  /-- `kill(svc->pid, signo)` -/
  | kill (i : Nat) (signo : Int)
  /-- `halt = …` -/
  | setHalt (h : HaltTo)
  /-- `cfglevel = …` -/
  | setCfg (l : Int)
  /-- `sm_runlevel` -/
  | smRunlevel (l : Int)
  /-- `sm_reload` -/
  | smReload
  /-- `schedule_work(&emergency)` after so many milliseconds -/
  | emergency (ms : Int)
  /-- `suspend` -/
  | suspend
  /-- `log_debug` -/
  | debug
  /-- `plugin_list` and `plugin_deps` fill in the answer -/
  | plugins
  /-- `wdog = svc` -/
  | setWdog (i : Nat)
  /-- `svc_del(wdog)` -/
  | del (i : Nat)
  /-- `send_svc` -/
  | send (o : Option Nat)
  deriving DecidableEq

/-- How the request ends for the client: closed without an answer, an answer `INIT_CMD_ACK` or `INIT_CMD_NACK`
    (with the fields `runlevel` and `sleeptime`), a service and then closed, or never. -/
inductive Reply
  | closed | ack (runlevel sleeptime : Int) | nack | svc | hang
  deriving DecidableEq

/-- `strterm(rq.data, sizeof(rq.data))`, src/util.h:158-162 -/
def strterm (buf : List Char) : List Char := buf.set (buf.length - 1) '\x00'

/-- `IS_RESERVED_RUNLEVEL`, src/private.h:35 -/
def isReserved (l : Int) : Bool := l = 0 ∨ l = 6 ∨ l = 10

/-- The commands in the first `switch`, src/api.c:393-401 -/
def gatedCmd (c : Int) : Bool := c = 9 ∨ c = 10 ∨ c = 13 ∨ c = 11 ∨ c = 12 ∨ c = 20 ∨ c = 21 ∨ c = 22 ∨ c = 23

/-- `dbg("… %s", rq.data)`: formatted only when debugging is on, src/log.c:183-222 -/
def dbgData (st : ApiSt) (buf : List Char) : List Call := if st.debug then [.read buf] else []

/-- The functions `start`, `stop`, `restart` and `reload` as they are called for each match, src/api.c:61-128 -/
def actFound (a : SvcAct) (s : List Call) : Option Nat → List Call × Nat
  | none => (s, 1)
  | some i => (s ++ [.act a i], 0)

/-- `do_start`, `do_stop`, `do_restart` and `do_reload`, src/api.c:55-142 -/
def doJobs (E : ApiEnv) (a : SvcAct) (buf : List Char) : Option (List Call × Nat) :=
  jobRequest E.list (actFound a) [.read buf] buf

/-- `do_signal` and `do_signal_svc`, src/api.c:144-165; `sig2str` is in `Verif.Util` -/
def doSignal (E : ApiEnv) (buf : List Char) (sig : Int) : Option (List Call × Nat) :=
  if sig2str sig = [] then some ([], 1)
  else jobRequest E.list (fun (s : List Call) o => match o with
    | none => (s, 1)
    | some i => if !E.running i then (s, 1) else (s ++ [.kill i sig], if E.killFails i then 1 else 0)) [.read buf] buf

/-- The C string in a buffer -/
def cstrOf (buf : List Char) : CStr := buf.takeWhile fun c => decide (c ≠ '\x00')

/-- `sanitize(buf, len)`, src/util.c:559-577: NULL unless the bytes hold a NUL -/
def sanitizeBuf (buf : List Char) : Option CStr :=
  if buf.contains '\x00' && sanitize (cstrOf buf) then some (cstrOf buf) else none

/-- `do_find`, src/api.c:183-219 -/
def doFind (E : ApiEnv) (buf : List Char) : Option Nat :=
  match sanitizeBuf buf with
  | none => none
  | some s =>
    let input := (splitIdent s).1
    let id := (splitIdent s).2
    let hasId := s.contains ':'
    if (input.head?).any isDigit then
      let v := digits (input.takeWhile isDigit)
      if v > longMax then none
      else if hasId then svcFindByJobid E.list (toInt32 v) id
      else E.list.findIdx? fun e => decide ((e.job : Int) = toInt32 v)
    else if hasId then svcFind E.list input id
    else E.list.findIdx? fun e => decide (e.name = input)

/-- `do_find_byc`, src/api.c:221-232 -/
def doFindByCond (E : ApiEnv) (buf : List Char) : Option Nat := (sanitizeBuf buf).bind E.byCond

/-- `do_reboot`, src/api.c:246-311, for the four commands it is called for.  `rc` starts as 1 and is set by
    `suspend` only. -/
def doReboot (E : ApiEnv) (cmd timeout : Int) : List Call × Nat :=
  let tmo := if timeout > 0 then [.emergency (timeout * 1000)] else []
  if cmd = 20 then ([.setHalt .reboot] ++ tmo ++ [.setHalt .reboot, .smRunlevel 6], 1)
  else if cmd = 21 then ([.setHalt .halt] ++ tmo ++ [.setHalt .halt, .smRunlevel 0], 1)
  else if cmd = 22 then ([.setHalt .off] ++ tmo ++ [.setHalt .off, .smRunlevel 0], 1)
  else (tmo ++ [.suspend], if E.suspendFails then 1 else 0)

/-- INIT_CMD_RUNLVL, src/api.c:413-446 -/
def doRunlevel (st : ApiSt) (l : Int) : List Call :=
  if isReserved st.runlevel ∧ st.runlevel ≠ 10 then []
  else
    let l := if l = 115 ∨ l = 83 then 49 else l
    if 48 ≤ l ∧ l ≤ 57 then
      let lvl := l - 48
      (if lvl = 0 then [.setHalt .off] else []) ++ (if lvl = 6 then [.setHalt .reboot] else []) ++
        (if st.runlevel = 10 then [.setCfg lvl] else [.smRunlevel lvl])
    else []

/-- INIT_CMD_WDOG_HELLO, src/api.c:505-534 -/
def doWdog (E : ApiEnv) (st : ApiSt) (pid : Int) : List Call × Nat :=
  if pid ≤ 0 then ([], 1)
  else match E.byPid pid with
    | none => ([], 0)
    | some i =>
      let old := match st.wdog with
        | some (j, protect) => if j ≠ i ∧ protect then [.act .stop j, .del j] else []
        | none => []
      (old ++ [.setWdog i], 0)

/-- The end of the loop body, src/api.c:571-578 -/
def answer (rq : Req) (result : Nat) : Reply := if result ≠ 0 then .nack else .ack rq.runlevel rq.sleeptime

/-- One request that asks for jobs -/
def answerJobs (rq : Req) : Option (List Call × Nat) → List Call × Reply
  | none => ([], .hang)
  | some (cs, n) => (cs, answer rq n)

/-- One turn of the loop of `api_cb`, src/api.c:372-578, for a request read in full -/
def apiRequest (E : ApiEnv) (st : ApiSt) (prevlevel : Int) (rq : Req) : List Call × Reply :=
  if rq.magic ≠ 0x03091969 then ([], .closed)
  else if gatedCmd rq.cmd && isReserved st.runlevel then ([.read (strterm rq.data)], .closed)
  else
    let dbg := dbgData st rq.data
    let buf := strterm rq.data
    let jobs (r : Option (List Call × Nat)) : List Call × Reply := (dbg ++ (answerJobs rq r).1, (answerJobs rq r).2)
    if rq.cmd = 1 then (doRunlevel st rq.runlevel, answer rq 0)
    else if rq.cmd = 8 then ([.debug], answer rq 0)
    else if rq.cmd = 9 then ([.smReload], answer rq 0)
    else if rq.cmd = 10 then jobs (doJobs E .start buf)
    else if rq.cmd = 13 then jobs (doJobs E .restart buf)
    else if rq.cmd = 11 then jobs (doJobs E .stop buf)
    else if rq.cmd = 12 then jobs (doJobs E .reload buf)
    else if rq.cmd = 14 then ([.plugins], answer rq 0)
    else if rq.cmd = 15 then ([.read rq.data, .plugins], answer rq 0)
    else if rq.cmd = 16 then ([], .ack st.runlevel prevlevel)
    else if rq.cmd = 20 ∨ rq.cmd = 21 ∨ rq.cmd = 22 ∨ rq.cmd = 23 then
      ((doReboot E rq.cmd rq.sleeptime).1, answer rq (doReboot E rq.cmd rq.sleeptime).2)
    else if rq.cmd = 255 then ([], .closed)
    else if rq.cmd = 128 then ((doWdog E st rq.runlevel).1, answer rq (doWdog E st rq.runlevel).2)
    else if rq.cmd = 129 then ([.send E.iter], .svc)
    else if rq.cmd = 130 then jobs ((queryRequest E.list buf).map fun n => ([.read buf], n))
    else if rq.cmd = 131 then (dbg ++ [.read buf, .send (doFind E buf)], .svc)
    else if rq.cmd = 132 then (dbg ++ [.read buf, .send (doFindByCond E buf)], .svc)
    else if rq.cmd = 133 then jobs (doSignal E buf rq.runlevel)
    else ([], answer rq 0)

/-- The whole connection, src/api.c:372-578: requests are served until one of them closes it.  Each comes with
    the state at the time it is read, as serving one may change it. -/
def apiServe (E : ApiEnv) : List (ApiSt × Int × Req) → List (List Call × Reply)
  | [] => []
  | (st, p, rq) :: rs =>
    let r := apiRequest E st p rq
    match r.2 with
    | .ack _ _ | .nack => r :: apiServe E rs
    | _ => [r]

end Verif
