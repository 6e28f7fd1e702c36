import Verif.PidFile

/-!
# The watchdog daemon that Finit knows of: `wdog`, src/api.c, src/conf.c, src/sig.c

What the daemon itself does is Verif.Watchdog.
-/

namespace Verif

/-- A service, src/svc.h:146-260: its process, or 0; whether it is built in; and whether its memory was given back, which is done later
    than it is taken off the list, `svc_gc()`, src/svc.c:83-105 -/
structure WhSvc where
  pid : Int
  protect : Bool := false
  freed : Bool := false
  deriving DecidableEq, Repr

/-- The services that are listed, in their order, all objects, and the pointer `wdog`, src/finit.c:64.  `ub` is set when memory that was
    given back is read. -/
structure WhSt where
  order : List Nat
  svc : Nat → WhSvc
  wdog : Option Nat
  ub : Bool := false

/-- After the configuration is read for the first time, src/conf.c:1414-1415; `builtin` is the service watchdog:finit, if there is one -/
def whBoot (order : List Nat) (svc : Nat → WhSvc) (builtin : Option Nat) : WhSt := ⟨order, svc, builtin, false⟩

/-- `INIT_CMD_WDOG_HELLO`, src/api.c:509-537; `svc_del()`, src/svc.c:174-183, takes the service
    off the list -/
def whHello (pid : Int) (st : WhSt) : WhSt :=
  if pid ≤ 0 then st
  else match st.order.find? (fun k => (st.svc k).pid == pid) with
    | none => st
    | some k =>
      match st.wdog with
      | none => { st with wdog := some k }
      | some v =>
        if v = k then { st with wdog := some k }
        else if (st.svc v).freed then { st with ub := true }
        else if (st.svc v).protect then { st with order := st.order.filter (· ≠ v), wdog := some k }
        else { st with wdog := some k }

/-- What happens -/
inductive WhAct
  /-- the process with this number says hello -/
  | hello (pid : Int)
  /-- a service is started, or its process has ended: 0, src/service.c:1020-1042 and 2180-2260 -/
  | proc (k : Nat) (pid : Int)
  /-- a service is read -/
  | add (k : Nat) (s : WhSvc)
  /-- a service is no longer in the configuration, or its object is given back -/
  | remove (k : Nat)
  | free (k : Nat)
  deriving DecidableEq, Repr

def whStep (a : WhAct) (st : WhSt) : WhSt :=
  match a with
  | .hello p => whHello p st
  | .proc k p => { st with svc := fun j => if j = k then { st.svc j with pid := p } else st.svc j }
  | .add k s => { st with order := st.order ++ [k], svc := fun j => if j = k then s else st.svc j }
  | .remove k => { st with order := st.order.filter (· ≠ k) }
  | .free k => { st with svc := fun j => if j = k then { st.svc j with freed := true } else st.svc j }

def whRun (acts : List WhAct) (st : WhSt) : WhSt := acts.foldl (fun s a => whStep a s) st

/-- A call of kill(2), or memory is read that was given back -/
inductive WhDown
  | kill (pid : Int) (signo : Int)
  | ub
  deriving DecidableEq, Repr

/-- The signals to the daemon in `do_shutdown()`, SIGPWR when the services have stopped, src/sig.c:356-359, and SIGTERM last if the system
    is to be started again, src/sig.c:402-411 -/
def whDown (reboot : Bool) (st : WhSt) : List WhDown :=
  match st.wdog with
  | none => []
  | some k =>
    if (st.svc k).freed then [.ub]
    else .kill (st.svc k).pid 30 :: (if reboot ∧ 1 < (st.svc k).pid then [.kill (st.svc k).pid 15] else [])

end Verif
