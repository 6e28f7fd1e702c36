import Verif.CStr

/-!
# Terminals that come and go (plugins/tty.c)

The model has the terminals of the configuration, the device nodes below /dev, and the inotify queue of the plugin.  What is done to a
terminal by `service_step` (src/service.c:2647-2972) is taken together until nothing changes, for a terminal that is enabled in the
runlevel, has no conditions and no scripts; the supervisor itself is modelled in Verif/Sup.  Devices have the names they have below /dev,
of at most 26 characters (`svc->dev` has 32 bytes).  The queue does not overflow.
-/

namespace Verif

/-- Why a terminal is not to be started, src/svc.h:70-80; the others do not occur for long for terminals, which are always respawned
    (src/service.c:1855-1856) -/
inductive HpBlock
  | none
  | user
  | missing
  deriving DecidableEq, Repr

/-- The getty: not there, running, or told to end -/
inductive HpProc
  | off
  | up
  | dying
  deriving DecidableEq, Repr

structure HpSvc where
  dev : CStr
  block : HpBlock := .none
  proc : HpProc := .off
  deriving DecidableEq, Repr

structure HpSt where
  svcs : List HpSvc
  /-- The device nodes there are -/
  devs : CStr → Bool
  /-- Events not yet read, with whether a node was made -/
  queue : List (CStr × Bool)

/-- `service_step` for a terminal: if it is enabled it is started, unless there is no device (src/service.c:629-637,2818-2829), else it is stopped
    (2836-2839) -/
def hpStep (devs : CStr → Bool) (s : HpSvc) : HpSvc :=
  match s.block, s.proc with
  | .none, .off => if devs s.dev then { s with proc := .up } else { s with block := .missing }
  | .none, _ => s
  | _, .up => { s with proc := .dying }
  | _, _ => s

/-- `do_tty` for the terminal found, plugins/tty.c:68-77 -/
def hpDo (creat : Bool) (s : HpSvc) : HpSvc :=
  if s.block ≠ .none ∧ creat = true then { s with block := .none }
  else if s.proc ≠ .off then { s with block := .missing }
  else s

/-- `f` for the first terminal on a device, `svc_find_by_tty`, src/svc.c:502-519 -/
def hpFind (f : HpSvc → HpSvc) (d : CStr) : List HpSvc → List HpSvc
  | [] => []
  | s :: ss => if s.dev = d then f s :: ss else s :: hpFind f d ss

inductive HpEv
  /-- The kernel makes a device node -/
  | appear (d : CStr)
  /-- The kernel removes a device node -/
  | vanish (d : CStr)
  /-- init reads the next event -/
  | read
  /-- A getty ends -/
  | exit (d : CStr)
  /-- `initctl stop` -/
  | stop (d : CStr)
  /-- `initctl start` -/
  | start (d : CStr)
  /-- `initctl reload` -/
  | reload
  deriving DecidableEq, Repr

/-- A change of the nodes; only /dev itself is watched (plugins/tty.c:55). -/
def hpNode (s : HpSt) (d : CStr) (on : Bool) : HpSt :=
  if s.devs d = on then s
  else
    { s with
      devs := fun x => if x = d then on else s.devs x
      queue := if '/' ∈ d then s.queue else s.queue ++ [(d, on)] }

/-- What happens, step by step -/
def hpEvent (s : HpSt) : HpEv → HpSt
  | .appear d => hpNode s d true
  | .vanish d => hpNode s d false
  -- tty_watcher and do_tty, plugins/tty.c:60-110; terminals are stepped only if one was found, otherwise there is nothing to do
  | .read =>
    match s.queue with
    | [] => s
    | (d, creat) :: q => { s with svcs := (hpFind (hpDo creat) d s.svcs).map (hpStep s.devs), queue := q }
  -- service_monitor, src/service.c:2109-2200, and 2841-2860
  | .exit d => { s with svcs := hpFind (fun x => if x.proc = .off then x else hpStep s.devs { x with proc := .off }) d s.svcs }
  -- stop and start, src/api.c:60-90
  | .stop d => { s with svcs := (hpFind (fun x => { x with block := .user }) d s.svcs).map (hpStep s.devs) }
  | .start d => { s with svcs := (hpFind (fun x => { x with block := .none }) d s.svcs).map (hpStep s.devs) }
  -- all terminals of the configuration are registered again, src/service.c:1904-1906
  | .reload => { s with svcs := (s.svcs.map fun x => { x with block := .none }).map (hpStep s.devs) }

def hpRun (s : HpSt) (es : List HpEv) : HpSt := es.foldl hpEvent s

end Verif
