import Verif.Cond

/-!
# Supervisor model: data types

State of PID 1 as far as services are concerned: the `svc_t` objects (src/svc.h:119-236), the
lists they live on (src/svc.c:51-52), the condition directory, the finit state machine
(src/sm.c:54-60), the `run_block_pid` gate (src/service.c:67), the association list of ready
scripts (src/service.c:146-153), and the kernel's view of our unreaped children.

Ghost fields (not in the C code, used only to state properties) are marked *ghost*.
-/

namespace Verif.Sup

/-- Identity of an `svc_t` object (its address). -/
abbrev Key := Nat

/-- src/svc.h:45-52 -/
inductive SType | service | task | run | tty | sysv
  deriving DecidableEq, Repr

/-- `SVC_TYPE_DAEMON`, src/svc.h:55, `svc_is_daemon` :275 -/
def SType.isDaemon : SType → Bool
  | .service | .sysv => true
  | _ => false

/-- `SVC_TYPE_RUNTASK`, src/svc.h:57, `svc_is_runtask` :278 -/
def SType.isRuntask : SType → Bool
  | .task | .run => true
  | _ => false

/-- `SVC_TYPE_RESPAWN`, src/svc.h:56 -/
def SType.isRespawn : SType → Bool
  | .service | .sysv | .tty => true
  | _ => false

/-- src/svc.h:59-71 -/
inductive SState
  | halted | done | dead | cleanup | teardown | stopping
  | setup | paused | waiting | starting | running
  deriving DecidableEq, Repr

/-- The numeric order of the enumeration, src/svc.h:59-71 -/
def SState.toNat : SState → Nat
  | .halted => 0 | .done => 1 | .dead => 2 | .cleanup => 3 | .teardown => 4 | .stopping => 5
  | .setup => 6 | .paused => 7 | .waiting => 8 | .starting => 9 | .running => 10

/-- src/svc.h:73-81 -/
inductive Block | none | missing | crashing | user | busy | restarting | conflict
  deriving DecidableEq, Repr

/-- src/svc.h:83-87 -/
inductive OnCrash | ignore | reboot | script
  deriving DecidableEq, Repr

/-- src/svc.h:90-95 -/
inductive Notify | none | pid | systemd | s6
  deriving DecidableEq, Repr

/-- A `waitpid()` status: exited with a code, or killed by a signal. -/
inductive WStatus | exited (rc : Nat) | signaled (sig : Nat)
  deriving DecidableEq, Repr

/-- `WIFEXITED` -/
def WStatus.ok : WStatus → Bool
  | .exited _ => true
  | .signaled _ => false

/-- `WEXITSTATUS` (0 for a process killed by a signal) -/
def WStatus.rc : WStatus → Nat
  | .exited r => r
  | .signaled _ => 0

/-- The possible values of `svc->timer_cb`. -/
inductive Cb | kill | retry | killScript | scriptKill
  deriving DecidableEq, Repr

/-- What a child process was forked for. -/
inductive Role | main | pre | post | cleanup | ready | stopScript | reloadScript | sysvStop
  deriving DecidableEq, Repr

/-- Why a signal is sent. -/
inductive Why
  | halt          -- service_stop, src/service.c:1117
  | escalate      -- service_kill, src/service.c:943
  | readyTimeout  -- service_script_kill, src/service.c:163
  | scriptTimeout -- service_kill_script, src/service.c:2269
  | group         -- process group clean up, src/service.c:199,2154,2176
  | pause         -- src/service.c:2862
  | cont          -- src/service.c:2896,2910,2927
  | hup           -- src/service.c:1219
  | api           -- initctl signal, src/api.c:142
  deriving DecidableEq, Repr

/-- A parsed configuration stanza as `service_register()` sees it once the option loop
    (src/service.c:1717-1796) is done.  `static` = registered without a file name. -/
structure Stanza where
  name : CStr
  id : CStr := []
  type : SType := .service
  levels : Nat := 0
  cond : Option CStr := none
  manual : Bool := false
  forking : Bool := false
  respawn : Bool := false
  restartMax : Int := 10
  restartTmo : Int := 0
  oncrash : OnCrash := .ignore
  sighalt : Option Nat := none
  killdelay : Int := 3000
  pre : Option Int := none
  post : Option Int := none
  ready : Option Int := none
  cleanup : Option Int := none
  reloadScript : Bool := false
  stopScript : Bool := false
  notify : Notify := .pid
  conflict : CStr := []
  ifstmt : CStr := []
  dev : CStr := []
  static : Bool := false
  deriving DecidableEq, Repr

/-- *ghost*: see `Svc.odd` -/
def Stanza.odd (z : Stanza) : Bool :=
  z.forking || z.stopScript || decide (z.type = .sysv) || decide (z.notify = .systemd) ||
  decide (z.notify = .s6)

/-- `svc_t`, src/svc.h:119-236, reduced to what the state machine reads. -/
structure Svc where
  name : CStr := []
  id : CStr := []
  type : SType := .service
  state : SState := .halted
  block : Block := .none
  pid : Int := 0
  status : WStatus := .exited 0
  started : Bool := false
  starting : Bool := false
  dirty : Bool := false
  argsDirty : Bool := false
  removed : Bool := false
  protect : Bool := false
  manual : Bool := false
  levels : Nat := 0
  sighup : Bool := false
  forking : Bool := false
  respawn : Bool := false
  cond : CStr := []
  conflict : CStr := []
  ifstmt : CStr := []
  dev : CStr := []
  once : Nat := 0
  restartCnt : Int := 0
  restartTot : Nat := 0
  restartMax : Int := 10
  restartSaved : Int := 0
  restartTmo : Int := 0
  oncrash : OnCrash := .ignore
  sighalt : Nat := 15
  killdelay : Int := 3000
  pre : Bool := false
  post : Bool := false
  ready : Bool := false
  cleanup : Bool := false
  reloadScript : Bool := false
  stopScript : Bool := false
  preTmo : Int := 0
  postTmo : Int := 0
  readyTmo : Int := 0
  cleanupTmo : Int := 0
  notify : Notify := .none
  watch : Bool := false
  timer : Option Cb := none
  armed : Bool := false
  /-- *ghost*: some stanza applied to this object made it more than a plain service: forking,
      sysv, with stop:script, or with systemd/s6 notification -/
  odd : Bool := false
  /-- *ghost*: the stanzas this object has been registered with, latest first -/
  zs : List Stanza := []
  deriving DecidableEq, Repr

/-- src/sm.c:42-52 -/
inductive SmSt
  | bootstrap | bootstrapWait | running | rlChange | rlWait | rlClean
  | reloadChange | reloadWait | reloadClean
  deriving DecidableEq, Repr

/-- *ghost*: a call of `svc_set_state` in progress.  It exists only in the model, to say which
    condition files are left over from before and which one has been made. -/
structure Mid where
  key : Key
  /-- the service before -/
  was : Svc
  /-- condition files of before that are still there -/
  left : List CStr
  /-- the file made since -/
  made : Option CStr
  /-- nothing has been taken away yet -/
  fresh : Bool

/-- The state before. -/
abbrev Mid.old (m : Mid) : SState := m.was.state

/-- Everything except the effect trace. -/
structure Core where
  svc : Key → Svc
  /-- `svc_list` -/
  order : List Key
  /-- `gc_list` -/
  gc : List Key
  /-- objects given back to free() -/
  freed : List Key
  nextKey : Key
  /-- `svc_assoc_list`: running ready scripts -/
  assoc : List (Int × Key)
  conds : CondStore
  /-- `run_block_pid` -/
  runBlock : Int
  /-- kernel: our unreaped children -/
  live : List Int
  /-- *ghost*: unreaped children forked as the command of service `k` -/
  main : Key → List Int
  sm : SmSt
  newlevel : Int
  reload : Bool
  inReload : Bool
  runlevel : Nat
  prevlevel : Nat
  cfglevel : Nat
  cmdlevel : Nat
  bootstrap : Bool
  /-- the static `timeout` of `sm_check_bootstrap` -/
  bootTmo : Int
  /-- the `sm_check_bootstrap` work item is pending -/
  bootWork : Bool
  nologin : Bool
  /-- `conf_any_change()` -/
  confChanged : Bool
  /-- the service worker is scheduled -/
  work : Bool
  /-- position in the oracle stream -/
  tick : Nat
  /-- *ghost*: services being stepped, or having their state set, right now, innermost first -/
  stack : List Key
  /-- *ghost*: the calls of `svc_set_state` in progress, innermost first -/
  mids : List Mid
  /-- *ghost*: the state of a service was set while its state was being set -/
  twice : Bool
  /-- *ghost*: `sm_step` is on the call stack -/
  inSm : Bool
  /-- *ghost*: a service was stepped while already being stepped (or `sm_step` re-entered) -/
  reent : Bool
  /-- *ghost*: model ran out of fuel -/
  oof : Bool
  /-- *ghost*: memory that was given back to free() has been used -/
  ub : Bool
  /-- a shutdown time limit (`emergency`, src/api.c:233-242) is pending -/
  emerg : Bool
  /-- `do_shutdown()` has been called -/
  down : Bool
  booted : Bool

/-- Observable actions. -/
inductive Eff
  /-- fork: process `p` for service `k` -/
  | spawn (p : Int) (k : Key) (role : Role)
  /-- kill(tgt, sig) on behalf of service `k` -/
  | kill (tgt : Int) (sig : Nat) (why : Why) (k : Key)
  /-- process `p` collected by waitpid(), with its status (not given for scripts that are waited
      for on the spot) -/
  | reap (p : Int) (st : Option WStatus)
  /-- service `k` changes state -/
  | trans (k : Key) (a b : SState)
  /-- `kill(1, SIGTERM)`: oncrash:reboot, src/service.c:2511 -/
  | rebootSelf (k : Key)
  /-- `do_shutdown()` -/
  | shutdown
  /-- the system runlevel changes -/
  | runlevel (a b : Nat)
  /-- service object `k` is created -/
  | new (k : Key)
  /-- the configuration of the existing service object `k` is registered again -/
  | reg (k : Key)
  /-- service object `k` is taken off the service list -/
  | del (k : Key)
  /-- the crash handler lets service `k` start again, src/service.c:2518 -/
  | retry (k : Key)
  /-- the crash handler gives up on service `k`, src/service.c:2502 -/
  | giveUp (k : Key)
  /-- the instability index of service `k` is decremented, src/service.c:3179 -/
  | age (k : Key)
  /-- the instability index of service `k` is incremented without a restart: a failed attempt to
      start it, or a paused process that is gone, src/service.c:2826,2917 -/
  | bump (k : Key)
  /-- the crash timer of service `k` expires although `k` is not waiting for a restart: it is put
      to RUNNING, src/service.c:2490-2496 -/
  | forced (k : Key)
  /-- a crashed service waiting for its restart delay is let go because its conditions are gone,
      src/cond-w.c:300-304 -/
  | lifted (k : Key)
  /-- the user asks for service `k` to be started, stopped, restarted or reloaded -/
  | asked (k : Key)
  /-- the configuration is read: the reading at tick `t` of the environment, src/conf.c:1253 -/
  | conf (t : Nat)
  /-- the configuration has been read, src/conf.c:1403 -/
  | confEnd
  /-- every service told to stop has stopped: `svc_stop_completed` says so, src/sm.c:313,389 -/
  | stopped
  /-- every service is about to be given its turn, under the new rules: the walk over all services
      in src/sm.c:299,372 -/
  | sweep
  deriving DecidableEq, Repr

/-- The supervisor state with the trace of effects, most recent first.  Each effect is stored
    with the state just before it. -/
structure World extends Core where
  trace : List (Core × Eff)

/-- The tick at which the configuration was read last. -/
def lastConf : List (Core × Eff) → Option Nat
  | [] => none
  | (_, .conf t) :: _ => some t
  | _ :: l => lastConf l

/-- Effects that go with a change of what services are allowed to do. -/
def Eff.rules : Eff → Bool
  | .conf _ | .confEnd | .new _ | .reg _ | .runlevel _ _ => true
  | _ => false

/-- An effect `x` has occurred since the runlevel changed, or the configuration was read, last. -/
def lately (x : Eff) : List (Core × Eff) → Bool
  | [] => false
  | (_, e) :: l => if e = x then true else if e.rules then false else lately x l

/-- All stopping services have been seen stopped since the runlevel changed, or the configuration
    was read, last. -/
abbrev stopsSeen (l : List (Core × Eff)) : Bool := lately .stopped l

/-- Every service has been given its turn since the runlevel changed, or the configuration was
    read, last. -/
abbrev swept (l : List (Core × Eff)) : Bool := lately .sweep l

/-- The entries made since the configuration was read last. -/
def sinceConf : List (Core × Eff) → List (Core × Eff)
  | [] => []
  | (_, .conf _) :: _ => []
  | x :: l => x :: sinceConf l

/-- The environment: an arbitrary stream of answers to system calls, and the contents of the
    configuration files each time they are read. -/
structure Env where
  ask : Nat → Int
  /-- pids given out by fork -/
  pid : Nat → Int
  conf : Nat → List Stanza
  /-- conditions (re)asserted by plugin hook callbacks -/
  hook : Nat → List CStr

/-- Point-wise update. -/
def upd {α : Type} (f : Key → α) (k : Key) (v : α) : Key → α := fun i => if i = k then v else f i

@[simp] theorem upd_same {α : Type} (f : Key → α) (k : Key) (v : α) : upd f k v k = v := by
  simp [upd]

theorem upd_other {α : Type} (f : Key → α) (k i : Key) (v : α) (h : i ≠ k) : upd f k v i = f i := by
  simp [upd, h]

end Verif.Sup
