import Verif.Sup.Types

/-!
# Supervisor model: functions

One Lean function per C function of src/service.c, src/svc.c, src/sm.c, src/cond-w.c
(`cond_update` and friends), src/api.c and plugins/pidfile.c that takes part in driving
services.  The C functions are mutually recursive (changing the state of a service changes
conditions, which steps other services); the recursion is tied by fuel in `mkRec`.

Logging, progress output, utmp, cgroups, pid file contents and the child side of `fork()` are
not modelled.
-/

namespace Verif.Sup

open Verif (CStr CondStore)

/-! ## Basic operations -/

/-- Assign fields of `svc_t` object `k`. -/
def mod (k : Key) (f : Svc → Svc) (w : World) : World := { w with svc := upd w.svc k (f (w.svc k)) }

/-- Record an effect together with the state it happens in. -/
def emit (e : Eff) (w : World) : World := { w with trace := (w.toCore, e) :: w.trace }

/-- One answer from the environment. -/
def ask (E : Env) (w : World) : Int × World := (E.ask w.tick, { w with tick := w.tick + 1 })

/-- One yes/no answer from the environment. -/
def askB (E : Env) (w : World) : Bool × World := (decide (E.ask w.tick ≠ 0), { w with tick := w.tick + 1 })

/-- Process `p` now exists as our child. -/
def spawned (p : Int) (k : Key) (role : Role) (w : World) : World :=
  let w := emit (.spawn p k role) w
  { w with live := p :: w.live,
           main := if role = .main then upd w.main k (p :: w.main k) else w.main }

/-- `service_fork` / fork(2) in the parent: a fresh pid above 1 (not one of our unreaped
    children), or -1.  src/service.c:462-505 -/
def fork (E : Env) (k : Key) (role : Role) (w : World) : Int × World :=
  let p := E.pid w.tick
  let w := { w with tick := w.tick + 1 }
  if 1 < p ∧ p ∉ w.live then (p, spawned p k role w) else (-1, w)

/-- A child is collected by waitpid(): it no longer exists. -/
def reap (p : Int) (st : Option WStatus) (w : World) : World :=
  let w := emit (.reap p st) w
  { w with live := w.live.filter (· ≠ p), main := fun k => (w.main k).filter (· ≠ p) }

/-- kill(2).  True if it fails with ESRCH: never for an unreaped child, otherwise up to the
    environment. -/
def kill (E : Env) (tgt : Int) (sig : Nat) (why : Why) (k : Key) (w : World) : Bool × World :=
  let w := emit (.kill tgt sig why k) w
  let b := decide (E.ask w.tick ≠ 0)
  let w := { w with tick := w.tick + 1 }
  (b && !decide (tgt ∈ w.live), w)

/-- `/proc/<pid>/status` exists: always for an unreaped child (`pid_get_name`, `pid_alive`,
    src/pid.c:50-101). -/
def procExists (E : Env) (p : Int) (w : World) : Bool × World :=
  let b := decide (E.ask w.tick ≠ 0)
  (decide (p ∈ w.live) || b, { w with tick := w.tick + 1 })

/-- `service_timeout_after`, src/service.c:112-122.  libuev refuses a negative timeout. -/
def timerAfter (k : Key) (tmo : Int) (cb : Cb) (w : World) : World :=
  if tmo = 0 then w
  else if (w.svc k).timer.isSome then w
  else mod k (fun s => { s with timer := some cb, armed := decide (0 < tmo) }) w

/-- `service_timeout_cancel`, src/service.c:133-144 -/
def timerCancel (k : Key) (w : World) : World :=
  if (w.svc k).timer.isSome then mod k (fun s => { s with timer := none, armed := false }) w else w

/-- `schedule_work(&work)` of src/service.c:69, src/schedule.c:48-61 -/
def schedule (w : World) : World := { w with work := true }

/-- signed char arithmetic -/
def schar (x : Int) : Int := (x + 128) % 256 - 128

/-! ## Names -/

/-- `svc_ident`, src/svc.h:458-477 -/
def Svc.ident (s : Svc) : CStr := if s.id = [] then s.name else s.name ++ ':' :: s.id

/-- `mkcond`, src/cond-w.c:139-146 -/
def Svc.pidCond (s : Svc) : CStr := "pid/".toList ++ s.ident

/-- "service/%s/", src/service.c:2586 -/
def Svc.svcDir (s : Svc) : CStr := "service/".toList ++ s.ident ++ "/".toList

/-- "service/%s/ready", src/service.c:2632 -/
def Svc.readyCond (s : Svc) : CStr := "service/".toList ++ s.ident ++ "/ready".toList

/-- `svc_typestr`, src/svc.h:338-361 -/
def SType.str : SType → CStr
  | .service => "service".toList
  | .task => "task".toList
  | .run => "run".toList
  | .tty => "tty".toList
  | .sysv => "sysv".toList

/-- "%s/%s/success", src/service.c:2565 -/
def Svc.successCond (s : Svc) : CStr := s.type.str ++ '/' :: s.ident ++ "/success".toList

/-- "%s/%s/failure", src/service.c:2566 -/
def Svc.failureCond (s : Svc) : CStr := s.type.str ++ '/' :: s.ident ++ "/failure".toList

/-- `svc_status` in the two states in which it names a condition, src/svc.h:363-420 -/
def Svc.statusStr (s : Svc) : CStr :=
  match s.state with
  | .halted =>
    match s.block with
    | .none => "halted".toList
    | .missing => "missing".toList
    | .crashing => "crashed".toList
    | .user => "stopped".toList
    | .busy => "busy".toList
    | .restarting => "restart".toList
    | .conflict => "conflict".toList
  | .running => "running".toList
  | _ => "unknown".toList

/-! ## Looking up services -/

/-- `svc_find`, src/svc.c:397-410 -/
def find (c : Core) (name id : CStr) : Option Key :=
  c.order.find? (fun k => decide ((c.svc k).name = name) && decide ((c.svc k).id = id))

/-- `svc_find_by_str`, src/svc.c:421-436: split at the first colon -/
def findByStr (c : Core) (str : CStr) : Option Key :=
  let name := str.takeWhile (· ≠ ':')
  let id := (str.dropWhile (· ≠ ':')).drop 1
  find c name id

/-- `svc_find_by_pid`, src/svc.c:445-455 -/
def findByPid (c : Core) (p : Int) : Option Key := c.order.find? (fun k => decide ((c.svc k).pid = p))

/-- `svc_find_by_tty`, src/svc.c:502-519 -/
def findByTty (c : Core) (dev : CStr) : Option Key :=
  if dev = [] then none
  else c.order.find? (fun k => decide ((c.svc k).type = .tty) && decide ((c.svc k).dev = dev))

/-- `svc_conflicts`, src/svc.c:710-738: the first *registered* name in the list decides. -/
def conflictsLoop (c : Core) : List CStr → Bool
  | [] => false
  | nm :: rest =>
    match findByStr c nm with
    | some j => decide (SState.stopping.toNat ≤ ((c.svc j).state).toNat)
    | none => conflictsLoop c rest

def conflicts (c : Core) (k : Key) : Bool :=
  if (c.svc k).conflict = [] then false else conflictsLoop c (tokens isComma (c.svc k).conflict)

/-- `svc_ifthen(0, ...)`, src/svc.c:750-790: the `if:<cond>` form, evaluated at run time. -/
def ifthenRun (st : CondStore) (stmt : CStr) : Bool :=
  match stmt with
  | '<' :: rest =>
    let body := (rest.takeWhile (· ≠ '>')).take 129
    (tokens isComma body).all fun t =>
      match t with
      | '!' :: c => decide (st.get c ≠ .on)
      | c => decide (st.get c ≠ .off)
  | _ => true

/-- `svc_ifthen(1, ...)`, src/svc.c:750-812: the `if:[!]ident` form, evaluated on load. -/
def ifthenConf (c : Core) (stmt : CStr) : Bool :=
  match stmt with
  | [] => true
  | '<' :: _ => true
  | _ =>
    (tokens isComma (stmt.take 129)).all fun t =>
      match t with
      | '!' :: n => (findByStr c n).isNone
      | n => (findByStr c n).isSome

/-- `svc_enabled`, src/svc.c:670-703 -/
def enabled (c : Core) (k : Key) : Bool :=
  let s := c.svc k
  if !s.levels.testBit c.runlevel then false
  else if s.removed || decide (s.block ≠ .none) then false
  else if decide (s.block = .missing) then false
  else if !ifthenRun c.conds s.ifstmt then false
  else if decide (s.type = .tty) && c.bootstrap then false
  else true

/-- `svc_is_noreload`, src/svc.h:281 -/
def Svc.noreload (s : Svc) : Bool := !s.sighup && !s.reloadScript

/-- `cond_get_agg(svc->cond)` -/
def aggCond (c : Core) (k : Key) : CState := c.conds.aggStr (c.svc k).cond

/-! ## Recursion interface -/

/-- The mutually recursive functions at a smaller fuel. -/
structure Rec where
  fuel : Nat
  /-- `service_step` -/
  step : Key → World → World
  /-- the `goto restart` loop inside `service_step` -/
  loop : Key → World → World
  /-- `sm_step` -/
  sm : World → World
  /-- the `goto restart` loop inside `sm_step` -/
  smLoop : World → World

/-- `TAILQ_NEXT` on whichever list `k` is on. -/
def nextOf (c : Core) (k : Key) : Option Key :=
  if k ∈ c.order then (c.order.dropWhile (· ≠ k)).drop 1 |>.head?
  else if k ∈ c.gc then (c.gc.dropWhile (· ≠ k)).drop 1 |>.head?
  else none

/-- `svc_iterator` loop, src/svc.c:226-244: the successor is fetched before the body runs. -/
def iter (f : Key → World → World) : Nat → Option Key → World → World
  | _, none, w => w
  | 0, some _, w => { w with oof := true }
  | n + 1, some k, w =>
    let nx := nextOf w.toCore k
    iter f n nx (f k w)

def forAll (R : Rec) (f : Key → World → World) (w : World) : World := iter f R.fuel w.order.head? w

/-- `svc_foreach_type(types, service_step)`, src/svc.c:317-329, src/service.c:2974-2977 -/
def stepAll (R : Rec) (p : SType → Bool) (w : World) : World :=
  forAll R (fun k w => if p (w.svc k).type then R.step k w else w) w

def tyAny : SType → Bool := fun _ => true

/-- *ghost*: note that service `k` is about to be changed from outside its own step. -/
def touch (k : Key) (w : World) : World := if k ∈ w.stack then { w with reent := true } else w

/-! ## Conditions -/

/-- Conditions owned by others (plugins, the user), not by the service machinery. -/
def extName (n : CStr) : Bool :=
  ["usr/".toList, "sys/".toList, "net/".toList, "dev/".toList, "boot/".toList].any
    (fun p => p.isPrefixOf n)

/-- `svc_has_cond`, src/svc.h:318-336 -/
def Svc.hasCond (s : Svc) : Bool := decide (s.cond ≠ [])

/-- Body of the loop in `cond_update`, src/cond-w.c:294-308 -/
def condUpdateOne (R : Rec) (name : CStr) (k : Key) (w : World) : World :=
  let s := w.svc k
  if s.hasCond && condAffects name s.cond then
    let w := touch k w
    let w :=
      if decide (s.block = .restarting) && decide (aggCond w.toCore k = .off) then
        mod k (fun s => { s with block := .none }) (timerCancel k (emit (.lifted k) w))
      else w
    R.step k w
  else w

/-- `cond_update`, src/cond-w.c:289-311 -/
def condUpdate (R : Rec) (name : CStr) (w : World) : World := forAll R (condUpdateOne R name) w

/-- `cond_set`, src/cond-w.c:325-332 -/
def condSet (R : Rec) (name : CStr) (w : World) : World :=
  let r := w.conds.set name
  let w := { w with conds := r.1 }
  if r.2 then condUpdate R name w else w

/-- `cond_set_oneshot`, src/cond-w.c:355-362 -/
def condOneshot (R : Rec) (name : CStr) (w : World) : World :=
  let r := w.conds.oneshot name
  let w := { w with conds := r.1 }
  if r.2 then condUpdate R name w else w

/-- `cond_clear_noupdate`, src/cond-w.c:364-374 -/
def condClearNoupdate (name : CStr) (w : World) : World := { w with conds := (w.conds.clear name).1 }

/-- `cond_delpath` with `do_delete`, src/cond-w.c:201-242: every condition below a directory is
    removed and, unless a reload is in progress, its dependents are stepped. -/
def condDelBelow (R : Rec) : List CStr → World → World
  | [], w => w
  | n :: ns, w =>
    let w := { w with conds := w.conds.unlink n }
    let w := if w.inReload then w else condUpdate R n w
    condDelBelow R ns w

/-- `cond_clear`, src/cond-w.c:376-383, on a condition or (trailing slash) a directory of
    conditions -/
def condClear (R : Rec) (name : CStr) (w : World) : World :=
  if name = nopName then w
  else
    let p := condPath name
    let prev := w.conds.getPath p
    let w :=
      if (w.conds.lookup p).isSome then { w with conds := w.conds.unlink p }
      else condDelBelow R (w.conds.below p) w
    if prev = .off then w else condUpdate R name w

/-! ## Service state changes -/

/-- *ghost*: change the note about the innermost `svc_set_state` in progress. -/
def midHead (f : Mid → Mid) (w : World) : World :=
  { w with mids := match w.mids with
    | [] => []
    | m :: ms => f m :: ms }

/-- *ghost*: condition files are gone. -/
def Mid.drop (g : CStr → Bool) (m : Mid) : Mid :=
  { m with left := m.left.filter (fun q => !g q), fresh := false }

/-- *ghost*: a condition file has been made. -/
def Mid.make (p : CStr) (m : Mid) : Mid := { m with made := some p }

/-- `condOneshot`, noted in `mids` -/
def condOneshotMid (R : Rec) (name : CStr) (w : World) : World :=
  let r := w.conds.oneshot name
  let w := midHead (Mid.make (condPath name)) { w with conds := r.1 }
  if r.2 then condUpdate R name w else w

/-- `condClearNoupdate`, noted in `mids` -/
def condClearNoupdateMid (name : CStr) (w : World) : World :=
  midHead (Mid.drop (fun q => decide (q = condPath name) || under (condPath name) q))
    (condClearNoupdate name w)

/-- `condDelBelow`, noted in `mids` -/
def condDelBelowMid (R : Rec) : List CStr → World → World
  | [], w => w
  | n :: ns, w =>
    let w := midHead (Mid.drop (fun q => decide (q = n))) { w with conds := w.conds.unlink n }
    let w := if w.inReload then w else condUpdate R n w
    condDelBelowMid R ns w

/-- `condClear`, noted in `mids`.  A path with a slash at its end never names a file (unlink()
    fails). -/
def condClearMid (R : Rec) (name : CStr) (w : World) : World :=
  if name = nopName then w
  else
    let p := condPath name
    let prev := w.conds.getPath p
    let w :=
      if (w.conds.lookup p).isSome ∧ p.getLast? ≠ some '/' then
        midHead (Mid.drop (fun q => decide (q = p))) { w with conds := w.conds.unlink p }
      else condDelBelowMid R (w.conds.below p) (midHead (Mid.drop (fun q => decide (q = p))) w)
    if prev = .off then w else condUpdate R name w

/-- The assignment `*state = new_state` of `svc_set_state` (src/service.c:2561) with the kill
    timer set just before it (:2551-2556); no conditions yet.  (`mids`, `twice`: ghost.) -/
def setStateRaw (k : Key) (new : SState) (w : World) : World :=
  let s := w.svc k
  let w :=
    if new = .stopping then timerAfter k (w.svc k).killdelay .kill (timerCancel k w) else w
  if (w.svc k).state = new then w
  else
    let m : Mid := ⟨k, s, w.conds.files.map (·.1), none, true⟩
    let tw := w.twice || decide (k ∈ w.mids.map (·.key))
    { mod k (fun s => { s with state := new }) (emit (.trans k (w.svc k).state new) w) with
      mids := m :: w.mids, twice := tw }

/-- The condition updates of `svc_set_state`, src/service.c:2563-2606. -/
def publish (R : Rec) (k : Key) (old new : SState) (w : World) : World :=
  let s := w.svc k
  let w :=
    if s.type.isRuntask then
      let w :=
        if new = .done then
          if s.started && decide (s.status.rc = 0) then condOneshotMid R s.successCond w
          else condOneshotMid R s.failureCond w
        else w
      if new = .halted then condClearMid R s.failureCond (condClearMid R s.successCond w) else w
    else w
  if (w.svc k).type.isDaemon then
    let s := w.svc k
    let w :=
      if (old = .running ∧ new = .paused) ∨ (old = .paused ∧ new = .running) then w
      else if w.inReload then condClearNoupdateMid s.svcDir w
      else condClearMid R s.svcDir w
    if new = .halted ∨ new = .running then
      condOneshotMid R (s.svcDir ++ (w.svc k).statusStr) w
    else w
  else w

/-- The condition updates of `svc_set_state`, run only if the state changed, with the ghost
    notes. -/
def setStateConds (R : Rec) (k : Key) (old new : SState) (w : World) : World :=
  let st := w.stack
  let w := publish R k old new { w with stack := k :: st }
  { w with stack := st, mids := w.mids.tail }

/-- `svc_set_state`, src/service.c:2545-2607 -/
def setState (R : Rec) (k : Key) (new : SState) (w : World) : World :=
  let old := (w.svc k).state
  let w := setStateRaw k new w
  if old = new then w else setStateConds R k old new w

/-- `service_cleanup`, src/service.c:1022-1043 (the pid file is removed: not modelled) -/
def serviceCleanup (k : Key) (w : World) : World :=
  mod k (fun s => { s with watch := false, starting := false, pid := 0 }) (timerCancel k w)

/-- `service_run_script`, src/service.c:958-1004: fork, run, wait.  Returns the exit code. -/
def runScript (E : Env) (k : Key) (role : Role) (w : World) : Int × World :=
  let f := fork E k role w
  if f.1 < 0 then (1, f.2) else ask E (reap f.1 none f.2)

/-- The part of `service_stop` that asks the process to end, src/service.c:1103-1163.  True:
    `rc == 1`. -/
def stopAct (E : Env) (k : Key) (w : World) : Bool × World :=
  if (w.svc k).stopScript then
    let r := runScript E k .stopScript w
    (decide (r.1 = 1), r.2)
  else if (w.svc k).type ≠ .sysv then kill E (w.svc k).pid (w.svc k).sighalt .halt k w
  else
    let r := fork E k .sysvStop w
    (decide (r.1 < 0), r.2)

/-- `service_stop`, src/service.c:1055-1177 -/
def serviceStop (E : Env) (R : Rec) (k : Key) (w : World) : World :=
  if (w.svc k).state.toNat ≤ SState.stopping.toNat then w
  else
    let w := timerCancel k w
    let plain := !(w.svc k).stopScript && decide ((w.svc k).type ≠ .sysv)
    if plain && decide ((w.svc k).pid ≤ 1) then w
    else
      let r := procExists E (w.svc k).pid w
      let w := r.2
      if plain && !r.1 then setState R k .halted (serviceCleanup k w)
      else
        let w := mod k (fun s => { s with starting := false }) w
        let r := procExists E (w.svc k).pid w
        let w := r.2
        if decide (1 < (w.svc k).pid) && !r.1 then mod k (fun s => { s with pid := 0 }) w
        else
          let r := stopAct E k w
          let w := r.2
          if r.1 then setState R k .halted (serviceCleanup k w)
          else setState R k .stopping w

/-- `service_script_del`, src/service.c:189-207; false if `p` is not on the list -/
def scriptDel (E : Env) (p : Int) (w : World) : World :=
  match w.assoc.find? (fun a => decide (a.1 = p)) with
  | none => w
  | some a =>
    let w := if a.2 ∈ w.freed then { w with ub := true } else w
    let w := timerCancel a.2 w
    let w := (kill E (-p) 9 .group a.2 w).2
    { w with assoc := w.assoc.eraseP (fun a => decide (a.1 = p)) }

/-- `service_script_kill`, src/service.c:155-168 -/
def scriptKill (E : Env) (k : Key) (w : World) : World :=
  let rec go : List (Int × Key) → World → World
    | [], w => w
    | a :: rest, w =>
      if a.2 ≠ k ∨ a.1 ≤ 1 then go rest w
      else
        let w := (kill E a.1 9 .readyTimeout k w).2
        go rest { w with assoc := w.assoc.erase a }
  go w.assoc w

/-- `svc_del`, src/svc.c:174-183 -/
def svcDel (k : Key) (w : World) : World :=
  let w := emit (.del k) w
  { w with order := w.order.filter (· ≠ k), gc := w.gc ++ [k] }

/-- `svc_clean_bootstrap`, src/svc.c:633-643 -/
def cleanBootstrap (k : Key) (w : World) : World :=
  if (w.svc k).levels &&& (2 ^ 32 - 1 - 2 ^ 10) = 0 then
    svcDel k (mod k (fun s => { s with pid := 0 }) w)
  else w

/-- Tail of `service_monitor` from label `cont:`, src/service.c:2182-2202 -/
def monitorTail (R : Rec) (k : Key) (lost : Int) (w : World) : World :=
  let w :=
    if lost = w.runBlock then
      { mod k (fun s => { s with dirty := false, argsDirty := false }) w with runBlock := 0 }
    else w
  let w := R.step k w
  let w := cleanBootstrap k w
  R.sm w

/-- `service_monitor` up to label `cont:`, src/service.c:2126-2186, for the service `k` that
    tracks the process: kill the process group (except for the start script of a forking
    service) and update the books. -/
def monitorHead (E : Env) (k : Key) (status : WStatus) (w : World) : World :=
  let st := (w.svc k).state
  if st = .setup ∨ st = .teardown ∨ st = .cleanup then
    let w := (kill E (-(w.svc k).pid) 9 .group k w).2
    mod k (fun s => { s with status := if st = .setup then status else s.status, pid := 0 })
      (timerCancel k w)
  else if (w.svc k).forking && (w.svc k).starting then
    mod k (fun s => { s with status := status, pid := 0 }) w
  else
    let w := (kill E (-(w.svc k).pid) 9 .group k w).2
    if (w.svc k).type.isDaemon || decide ((w.svc k).type = .tty) then
      mod k (fun s => { s with pid := 0 }) (serviceCleanup k (mod k (fun s => { s with status := status }) w))
    else mod k (fun s => { s with status := status, started := status.ok, pid := 0 }) w

/-- `service_monitor`, src/service.c:2109-2202.  `live` has already been updated by the
    caller (waitpid). -/
def monitor (E : Env) (R : Rec) (lost : Int) (status : WStatus) (w : World) : World :=
  if lost ≤ 1 then w
  else
    let w := if w.stack ≠ [] then { w with reent := true } else w
    match findByPid w.toCore lost with
    | none => scriptDel E lost w
    | some k => monitorTail R k lost (monitorHead E k status w)

/-- `service_reload`, src/service.c:1190-1246 -/
def serviceReload (E : Env) (R : Rec) (k : Key) (w : World) : World :=
  let r := askB E w
  let noresp := r.1
  let w := r.2
  if noresp then w
  else
    let s := w.svc k
    if s.reloadScript then
      let r := runScript E k .reloadScript w
      let rc := r.1
      let w := r.2
      if rc = 0 then mod k (fun s => { s with starting := true }) w else w
    else if s.sighup then
      if s.pid ≤ 1 then mod k (fun s => { s with pid := 0 }) w
      else
        let r := kill E s.pid 1 .hup k w
        let esrch := r.1
        let w := r.2
        if esrch then monitor E R s.pid (.exited 0) w
        else mod k (fun s => { s with starting := true }) w
    else w

/-- `service_pre_script`, `service_post_script`, `service_cleanup_script`,
    src/service.c:2293-2389,2432-2468: all three store the fork result in `svc->pid`. -/
def scriptFork (E : Env) (k : Key) (role : Role) (tmo : Svc → Int) (w : World) : World :=
  let r := fork E k role w
  let p := r.1
  let w := r.2
  let w := mod k (fun s => { s with pid := p }) w
  if p < 0 then w else timerAfter k (tmo (w.svc k)) .killScript w

/-- `service_ready_script` with `service_script_add`, src/service.c:170-187,2391-2430 -/
def readyScript (E : Env) (k : Key) (w : World) : World :=
  let r := askB E w
  let noexec := r.1
  let w := r.2
  if noexec then w
  else
    let r := fork E k .ready w
    let p := r.1
    let w := r.2
    if p < 0 then w
    else
      let w := { w with assoc := w.assoc ++ [(p, k)] }
      timerAfter k (w.svc k).readyTmo .scriptKill w

/-- `service_ready`, src/service.c:2625-2641 -/
def serviceReady (E : Env) (R : Rec) (k : Key) (on : Bool) (w : World) : World :=
  if !(w.svc k).type.isDaemon then w
  else if on then
    let w := condSet R (w.svc k).readyCond w
    if (w.svc k).ready then readyScript E k w else w
  else condClear R (w.svc k).readyCond w

/-- The parent's books after the fork in `service_start`, src/service.c:698-733,888-892. -/
def startParent (k : Key) (p : Int) (watch : Bool) (w : World) : World :=
  let w := mod k (fun s => { s with pid := p, watch := s.watch || watch }) w
  if (w.svc k).type = .run then { w with runBlock := p } else w

/-- `service_start`, src/service.c:593-911 (parent side).  True: success.  Whether setting up
    the notify socket fails after the fork is decided by `bad`. -/
def serviceStart (E : Env) (k : Key) (w : World) : Bool × World :=
  let r := askB E w
  let w := r.2
  if r.1 then (false, w)
  else if w.runBlock ≠ 0 then (false, w)
  else
    let r := askB E w
    let w := r.2
    if r.1 then (false, mod k (fun s => { s with block := .missing }) w)
    else
      let r := askB E w
      let w := r.2
      let wants := decide ((w.svc k).notify = .systemd) || decide ((w.svc k).notify = .s6)
      let bad := wants && r.1
      let w := mod k (fun s =>
        { s with starting := true,
                 restartTot := if s.type.isDaemon && (decide (s.restartCnt ≠ 0) || decide (s.restartTot ≠ 0))
                               then s.restartTot + 1 else s.restartTot }) w
      let f := fork E k .main w
      if f.1 < 0 then (false, f.2)
      else (!bad, startParent k f.1 (wants && !bad) f.2)

/-! ## `service_step`, one case per state -/

/-- SVC_HALTED_STATE, src/service.c:2668-2685 -/
def stepHalted (R : Rec) (k : Key) (en : Bool) (w : World) : World :=
  if en then setState R k .waiting w
  else if (w.svc k).removed then setState R k .dead w
  else if (w.svc k).block = .conflict then
    if !conflicts w.toCore k then mod k (fun s => { s with block := .none }) w else w
  else w

/-- SVC_TEARDOWN_STATE, src/service.c:2687-2698 -/
def stepTeardown (E : Env) (R : Rec) (k : Key) (w : World) : World :=
  if (w.svc k).pid = 0 then
    let w := timerCancel k w
    if (w.svc k).removed && (w.svc k).cleanup then
      let w := setState R k .cleanup w
      scriptFork E k .cleanup (·.cleanupTmo) w
    else setState R k .halted w
  else w

/-- SVC_CLEANUP_STATE, src/service.c:2700-2705 -/
def stepCleanup (R : Rec) (k : Key) (w : World) : World :=
  if (w.svc k).pid = 0 then setState R k .halted w else w

/-- SVC_DONE_STATE, src/service.c:2711-2716 -/
def stepDone (R : Rec) (k : Key) (en : Bool) (w : World) : World :=
  let w := if (w.svc k).dirty then setState R k .halted w else w
  if (w.svc k).type.isRuntask && (w.svc k).manual && en then setState R k .waiting w else w

/-- SVC_STOPPING_STATE, src/service.c:2718-2754 -/
def stepStopping (E : Env) (R : Rec) (k : Key) (w : World) : World :=
  if (w.svc k).pid = 0 then
    let w := mod k (fun s => { s with watch := false }) w
    let w := timerCancel k w
    let w := condClear R (w.svc k).pidCond w
    if (w.svc k).type.isRuntask then
      let w := if (w.svc k).manual then mod k (fun s => { s with block := .user }) w else w
      setState R k .done w
    else if (w.svc k).post then
      let w := setState R k .teardown w
      scriptFork E k .post (·.postTmo) w
    else if (w.svc k).removed && (w.svc k).cleanup then
      let w := setState R k .cleanup w
      scriptFork E k .cleanup (·.cleanupTmo) w
    else setState R k .halted w
  else w

/-- SVC_SETUP_STATE, src/service.c:2756-2783 -/
def stepSetup (E : Env) (R : Rec) (k : Key) (en : Bool) (w : World) : World :=
  if !en then serviceStop E R k w
  else if (w.svc k).pid = 0 then
    if !(w.svc k).status.ok || decide ((w.svc k).status.rc ≠ 0) then
      let w := setState R k .stopping w
      mod k (fun s => { s with block := .crashing }) w
    else setState R k .starting w
  else w

/-- SVC_WAITING_STATE, src/service.c:2785-2813 -/
def stepWaiting (E : Env) (R : Rec) (k : Key) (en : Bool) (w : World) : World :=
  if !en then setState R k .halted w
  else if aggCond w.toCore k = .on then
    if w.inReload then w
    else
      let r := askB E w
      let noresp := r.1
      let w := r.2
      if noresp then w
      else if conflicts w.toCore k then
        setState R k .halted (mod k (fun s => { s with block := .conflict }) w)
      else if (w.svc k).pre then
        let w := setState R k .setup w
        scriptFork E k .pre (·.preTmo) w
      else setState R k .starting w
  else w

/-- SVC_STARTING_STATE, src/service.c:2815-2838 -/
def stepStarting (E : Env) (R : Rec) (k : Key) (en : Bool) (w : World) : World :=
  if !en then setState R k .halted w
  else
    let r := serviceStart E k w
    let ok := r.1
    let w := r.2
    if !ok then
      if w.runBlock ≠ 0 then w
      else if (w.svc k).block = .missing then setState R k .halted w
      else mod k (fun s => { s with restartCnt := schar (s.restartCnt + 1) }) (emit (.bump k) w)
    else
      let w := mod k (fun s => { s with dirty := false, argsDirty := false }) w
      setState R k .running w

/-- SVC_RUNNING_STATE, src/service.c:2840-2903.  True: `goto done`. -/
def stepRunning (E : Env) (R : Rec) (k : Key) (en : Bool) (w : World) : Bool × World :=
  if !en then (false, serviceStop E R k w)
  else if (w.svc k).pid = 0 ∧ ((w.svc k).type.isDaemon || decide ((w.svc k).type = .tty)) = true then
    let w := mod k (fun s => { s with block := .restarting }) w
    let w := setState R k .halted w
    if !(w.svc k).respawn then (true, timerAfter k (w.svc k).restartTmo .retry w)
    else (false, mod k (fun s => { s with block := .none }) w)
  else if (w.svc k).pid = 0 then
    let w := setState R k .stopping w
    (false, mod k (fun s => { s with restartTot := s.restartTot + 1, once := (s.once + 1) % 256 }) w)
  else
    let w := timerCancel k w
    match aggCond w.toCore k with
    | .off => (false, serviceStop E R k w)
    | .flux =>
      let w := (kill E (w.svc k).pid 19 .pause k w).2
      (false, setState R k .paused w)
    | .on =>
      if (w.svc k).dirty && !((w.svc k).noreload || (w.svc k).argsDirty) && w.inReload then (false, w)
      else
        let w :=
          if (w.svc k).dirty then
            let w :=
              if (w.svc k).noreload || (w.svc k).argsDirty then serviceStop E R k w
              else serviceReload E R k w
            mod k (fun s => { s with dirty := false, argsDirty := false }) w
          else w
        if (w.svc k).notify = .none then (false, serviceReady E R k true w) else (false, w)

/-- SVC_PAUSED_STATE, src/service.c:2905-2947 -/
def stepPaused (E : Env) (R : Rec) (k : Key) (en : Bool) (w : World) : World :=
  if !en then
    let w := (kill E (w.svc k).pid 18 .cont k w).2
    serviceStop E R k w
  else if (w.svc k).pid = 0 then
    setState R k .waiting
      (mod k (fun s => { s with restartCnt := schar (s.restartCnt + 1) }) (emit (.bump k) w))
  else
    match aggCond w.toCore k with
    | .on =>
      let w := (kill E (w.svc k).pid 18 .cont k w).2
      let w := setState R k .running w
      if !(w.svc k).dirty then
        let w :=
          if (w.svc k).notify = .pid then
            { w with conds := (w.conds.setOn (condPath (w.svc k).pidCond)).1 }
          else w
        serviceReady E R k true w
      else w
    | .off =>
      let w := (kill E (w.svc k).pid 18 .cont k w).2
      serviceStop E R k w
    | .flux => w

/-- The switch of `service_step`, src/service.c:2667-2948 -/
def stepBranch (E : Env) (R : Rec) (k : Key) (w : World) : Bool × World :=
  let en := enabled w.toCore k
  match (w.svc k).state with
  | .halted => (false, stepHalted R k en w)
  | .teardown => (false, stepTeardown E R k w)
  | .cleanup => (false, stepCleanup R k w)
  | .dead => (false, w)
  | .done => (false, stepDone R k en w)
  | .stopping => (false, stepStopping E R k w)
  | .setup => (false, stepSetup E R k en w)
  | .waiting => (false, stepWaiting E R k en w)
  | .starting => (false, stepStarting E R k en w)
  | .running => stepRunning E R k en w
  | .paused => (false, stepPaused E R k en w)

/-- `service_step` from label `restart:`, src/service.c:2656-2972.  `goto restart` after a
    state change always ends with the worker scheduled (`changed`). -/
def stepLoop (E : Env) (R : Rec) (k : Key) (w : World) : World :=
  let old := (w.svc k).state
  let r := stepBranch E R k w
  let gotoDone := r.1
  let w := r.2
  if gotoDone then w
  else if (w.svc k).state ≠ old then
    schedule (R.loop k w)
  else if w.runBlock ≠ 0 then schedule w
  else w

/-- `service_step`, src/service.c:2647-2972, with the ghost call stack. -/
def serviceStep (E : Env) (R : Rec) (k : Key) (w : World) : World :=
  if w.down then w
  else
    let st := w.stack
    let w := touch k w
    let w := { w with stack := k :: st }
    let w := stepLoop E R k w
    { w with stack := st }

/-! ## Timer callbacks -/

/-- `service_kill`, src/service.c:919-949 -/
def serviceKill (E : Env) (R : Rec) (k : Key) (w : World) : World :=
  let w := timerCancel k w
  let p := (w.svc k).pid
  if p ≤ 1 then w
  else
    let r := procExists E p w
    let nm := r.1
    let w := r.2
    if !nm then monitor E R p (.exited 0) w
    else (kill E p 9 .escalate k w).2

/-- `service_kill_script`, src/service.c:2263-2270 -/
def serviceKillScript (E : Env) (k : Key) (w : World) : World :=
  let p := (w.svc k).pid
  if p ≤ 1 then w else (kill E p 9 .scriptTimeout k w).2

/-- `service_retry`, src/service.c:2470-2543 -/
def serviceRetry (E : Env) (R : Rec) (k : Key) (w : World) : World :=
  let svc0 := w.svc
  let w := timerCancel k w
  let r := askB E w
  let noresp := r.1
  let w := r.2
  if noresp then w
  else if (w.svc k).respawn then
    R.step k (mod k (fun s => { s with block := .none }) w)
  else if (w.svc k).state ≠ .halted ∨ (w.svc k).block ≠ .restarting then
    -- recorded with the state in which the timer expires
    let w := { w with trace := ({ w.toCore with svc := svc0 }, .forced k) :: w.trace }
    setState R k .running (mod k (fun s => { s with restartTmo := s.restartSaved }) w)
  else if (w.svc k).restartMax ≠ -1 ∧ (w.svc k).restartCnt ≥ (w.svc k).restartMax then
    let w := emit (.giveUp k) w
    let w := mod k (fun s => { s with block := .crashing, restartCnt := 0, restartTmo := s.restartSaved }) w
    let w :=
      match (w.svc k).oncrash with
      | .reboot => emit (.rebootSelf k) w
      | .script => if (w.svc k).post then scriptFork E k .post (·.postTmo) w else w
      | .ignore => w
    R.step k w
  else
    let w := emit (.retry k) w
    let w := mod k (fun s =>
      let cnt := schar (s.restartCnt + 1)
      let saved := if cnt = 1 then s.restartTmo else s.restartSaved
      let tmo : Int := if cnt ≤ s.restartMax.tdiv 2 then 2000 else 5000
      { s with restartCnt := cnt, restartSaved := saved, restartTmo := max s.restartTmo tmo,
               block := .none }) w
    let w := R.step k w
    timerAfter k (w.svc k).restartTmo .retry w

/-- `service_timeout_cb`, src/service.c:86-99: the armed one-shot timer of `k` fires. -/
def timerFire (E : Env) (R : Rec) (k : Key) (w : World) : World :=
  if !(w.svc k).armed then w
  else
    let w := if k ∈ w.freed then { w with ub := true } else w
    let w := mod k (fun s => { s with armed := false }) w
    match (w.svc k).timer with
    | none => w
    | some .kill => serviceKill E R k w
    | some .retry => serviceRetry E R k w
    | some .killScript => serviceKillScript E k w
    | some .scriptKill => scriptKill E k w

/-! ## Configuration reload -/

/-- `conf_parse_cond`, src/conf.c:698-752 (`devmon_add_cond` is modelled separately) -/
def parseCond (arg : Option CStr) (s : Svc) : Svc :=
  let s := if s.type.isDaemon then { s with sighup := true } else s
  match arg with
  | none => { s with cond := [] }
  | some a =>
    let (s, ptr) :=
      match a with
      | '!' :: r =>
        (if s.type.isRuntask then { s with sighup := true, once := 1 } else { s with sighup := false }, r)
      | r => (s, r)
    let body := ptr.takeWhile (· ≠ '>')
    if body.length ≥ 192 then s
    else { s with cond := List.intercalate [','] (tokens isComma body) }

/-- The field assignments of `service_register`, src/service.c:1897-2070. -/
def applyStanza (z : Stanza) (argsDirty changed : Bool) (s : Svc) : Svc :=
  let s : Svc := { s with levels := z.levels }
  let s : Svc := parseCond z.cond s
  let s : Svc := { s with
    dev := if z.type = .tty ∧ z.dev ≠ [] then z.dev else s.dev
    sighalt := match z.sighalt with
      | some n => n
      | none => if s.type = .tty then 1 else 15
    killdelay := z.killdelay
    pre := z.pre.isSome
    post := z.post.isSome
    ready := z.ready.isSome
    cleanup := z.cleanup.isSome
    preTmo := z.pre.getD s.preTmo
    postTmo := z.post.getD s.postTmo
    readyTmo := z.ready.getD s.readyTmo
    cleanupTmo := z.cleanup.getD s.cleanupTmo
    reloadScript := z.reloadScript
    stopScript := z.stopScript
    notify := z.notify
    conflict := z.conflict
    ifstmt := z.ifstmt
    manual := z.manual
    respawn := z.respawn
    forking := z.forking
    restartMax := z.restartMax
    restartTmo := z.restartTmo
    oncrash := z.oncrash }
  let s : Svc := if s.type.isDaemon ∧ s.restartTmo = 0 then
      { s with restartTmo := if s.forking then 2000 else 1 } else s
  let ad := s.argsDirty || argsDirty
  let s : Svc := if changed || ad then { s with dirty := true, argsDirty := ad }
           else { s with dirty := false, argsDirty := false }
  { s with removed := false, protect := s.protect || z.static }

/-- The lookup of `service_register`, src/service.c:1866-1868 -/
def regFind (z : Stanza) (c : Core) : Option Key :=
  if z.type = .tty then findByTty c z.dev else find c z.name z.id

/-- Find or create the object, src/service.c:1878-1906.  (The mark for removal is dropped here
    already; `svc_enable` does it at src/service.c:2067 and nothing looks at it in between.  Nor
    does anything look at the runlevels of a new object before they are set.) -/
def regObj (z : Stanza) (w : World) : World :=
  match regFind z w.toCore with
  | some k =>
    mod k (fun s => { s with type := z.type, block := if z.manual then s.block else .none,
                             odd := s.odd || z.odd, zs := z :: s.zs, removed := false }) (emit (.reg k) w)
  | none =>
    let k := w.nextKey
    let s : Svc :=
      { name := z.name, id := z.id, type := z.type, block := if z.manual then .user else .none,
        levels := z.levels, odd := z.odd, zs := [z] }
    let w := emit (.new k) w
    { w with svc := upd w.svc k s, order := w.order ++ [k], nextKey := k + 1,
             main := upd w.main k [] }

/-- `service_register` after parsing, src/service.c:1809-2083 -/
def register (E : Env) (z : Stanza) (w : World) : World :=
  if !ifthenConf w.toCore z.ifstmt then w
  else if w.runlevel ≠ 10 ∧ z.levels &&& (2 ^ 32 - 1 - 2 ^ 10) = 0 then w
  else
    let r := askB E w
    if r.1 then r.2
    else
      let w := r.2
      let k := (regFind z w.toCore).getD w.nextKey
      let w := regObj z w
      let ra := askB E w
      let rc := askB E ra.2
      mod k (applyStanza z ra.1 rc.1) rc.2

/-- `svc_mark`, `svc_mark_dynamic`, src/svc.c:567-583 -/
def markDynamic (w : World) : World :=
  { w with svc := fun k =>
      if k ∈ w.order ∧ (w.svc k).protect = false then { w.svc k with removed := true } else w.svc k }

/-- `svc_mark_affected`, src/service.c:2204-2215 -/
def markAffected (name : CStr) (w : World) : World :=
  { w with svc := fun k =>
      if k ∈ w.order ∧ (w.svc k).hasCond = true ∧ condAffects name (w.svc k).cond = true then
        { w.svc k with dirty := true }
      else w.svc k }

/-- `service_update_rdeps`, src/service.c:2226-2242 -/
def updateRdeps : List Key → World → World
  | [], w => w
  | k :: ks, w =>
    if (w.svc k).dirty && (w.svc k).noreload then updateRdeps ks (markAffected (w.svc k).pidCond w)
    else updateRdeps ks w

/-- `service_mark_unavail`, src/service.c:2248-2261 -/
def markUnavail (w : World) : World :=
  { w with svc := fun k =>
      if k ∈ w.order ∧ (w.svc k).ifstmt ≠ [] ∧ ifthenConf w.toCore (w.svc k).ifstmt = false ∧
         (w.svc k).protect = false then { w.svc k with removed := true } else w.svc k }

def registerAll (E : Env) : List Stanza → World → World
  | [], w => w
  | z :: zs, w => registerAll E zs (register E z w)

/-- `conf_reload`, src/conf.c:1253-1428 -/
def confReload (E : Env) (w : World) : World :=
  let w := markDynamic (emit (.conf w.tick) w)
  let zs := E.conf w.tick
  let w := { w with tick := w.tick + 1 }
  let w := registerAll E zs w
  let w := updateRdeps w.order w
  let w := markUnavail (emit .confEnd w)
  { w with confChanged := false }

/-! ## `sm_step` -/

/-- `service_runtask_clean`, src/service.c:2995-3010 -/
def runtaskClean (R : Rec) (w : World) : World :=
  forAll R (fun k w =>
    if (w.svc k).type.isRuntask then
      let w := touch k w
      let w := mod k (fun s => { s with once := if s.sighup then 1 else 0 }) w
      if (w.svc k).state = .done then setState R k .halted w else w
    else w) w

/-- `svc_stop_completed`, src/svc.c:340-350 -/
def stopCompleted (c : Core) : Bool :=
  c.order.all (fun k => !(decide ((c.svc k).state = .stopping) && decide (1 < (c.svc k).pid)))

/-- `svc_clean_completed`, src/svc.c:364-387 -/
def cleanCompleted (c : Core) : Bool :=
  c.order.all (fun k =>
    let s := c.svc k
    enabled c k || (s.type.isRuntask && decide (s.state = .done)) ||
    (if s.removed then decide (s.state = .dead) else decide (s.state = .halted)))

/-- `service_unregister`, src/service.c:2093-2107 -/
def unregister (E : Env) (R : Rec) (k : Key) (w : World) : World :=
  let w := touch k w
  let w := serviceStop E R k w
  svcDel k (timerCancel k w)

/-- `svc_clean_dynamic(service_unregister)`, src/svc.c:616-624 -/
def cleanDynamic (E : Env) (R : Rec) (w : World) : World :=
  forAll R (fun k w => if (w.svc k).removed then unregister E R k w else w) w

/-- Conditions asserted by hook callbacks of plugins (`cond_set_path` / `cond_reassert`, which
    step nobody). -/
def hookWrites : List CStr → World → World
  | [], w => w
  | n :: ns, w =>
    hookWrites ns (if extName n then { w with conds := (w.conds.setOn (condPath n)).1 } else w)

/-- `plugin_run_hooks`, src/plugin.c:247-275: plugin callbacks, the hook condition, then
    step all run/tasks. -/
def runHook (E : Env) (R : Rec) (cond : CStr) (w : World) : World :=
  let w := hookWrites (E.hook w.tick) { w with tick := w.tick + 1 }
  let w := condOneshot R cond w
  stepAll R SType.isRuntask w

/-- `pidfile_reconf`, plugins/pidfile.c:259-291 -/
def pidfileReconf (E : Env) (R : Rec) (w : World) : World :=
  let w := forAll R (fun k w =>
    let s := w.svc k
    if s.state = .running ∧ s.dirty = false ∧ s.starting = false then
      let w := touch k w
      let w := if s.notify = .pid then serviceReady E R k true w else w
      if w.conds.get (w.svc k).pidCond = .on then w
      else { w with conds := (w.conds.setOn (condPath (w.svc k).pidCond)).1 }
    else w) w
  stepAll R (fun t => t.isRuntask || decide (t = .service)) w

/-- `service_notify_reconf`, src/service.c:3061-3077 -/
def notifyReconf (E : Env) (R : Rec) (w : World) : World :=
  forAll R (fun k w =>
    let s := w.svc k
    if s.notify = .pid ∨ s.state ≠ .running ∨ (s.notify ≠ .none ∧ (s.dirty = true ∨ s.starting = true)) then w
    else serviceReady E R k true (touch k w)) w

/-- `nologin`, src/sm.c:167-174 -/
def reserved (l : Nat) : Bool := decide (l = 0) || decide (l = 6) || decide (l = 10)

def nologinUpdate (w : World) : World :=
  let w := if w.runlevel = 1 ∨ reserved w.runlevel = true then { w with nologin := true } else w
  if w.prevlevel = 1 ∨ reserved w.prevlevel = true then { w with nologin := false } else w

/-- `do_shutdown`, src/sig.c:293-423.  Does not come back. -/
def doShutdown (w : World) : World := { emit .shutdown w with down := true }

/-- SM_BOOTSTRAP_WAIT_STATE, src/sm.c:221-246 -/
def smBootWait (E : Env) (R : Rec) (w : World) : World :=
  let w := stepAll R tyAny w
  let w := condOneshot R "int/bootstrap".toList w
  if w.newlevel = -1 then w
  else
    let w := runHook E R "hook/sys/up".toList w
    let w := stepAll R tyAny w
    let w := { w with bootstrap := false }
    let w := stepAll R SType.isRespawn w
    { w with sm := .running }

/-- SM_RUNNING_STATE, src/sm.c:248-267 -/
def smRunning (R : Rec) (w : World) : World :=
  let w := stepAll R tyAny w
  if 0 ≤ w.newlevel ∧ w.newlevel ≤ 9 then
    if (w.runlevel : Int) = w.newlevel then { w with newlevel := -1 }
    else { w with sm := .rlChange }
  else if w.reload then { w with reload := false, sm := .reloadChange }
  else w

/-- SM_RUNLEVEL_CHANGE_STATE, src/sm.c:269-307 -/
def smRlChange (E : Env) (R : Rec) (w : World) : World :=
  let w := emit (.runlevel w.runlevel w.newlevel.toNat) w
  let w := { w with prevlevel := w.runlevel, runlevel := w.newlevel.toNat, newlevel := -1 }
  let w := if w.runlevel = 0 ∨ w.runlevel = 6 then runHook E R "hook/sys/shutdown".toList w else w
  let w := nologinUpdate w
  let w := if w.runlevel ≠ 0 ∧ w.runlevel ≠ 6 ∧ w.confChanged = true then confReload E w else w
  let w := runtaskClean R w
  let w := { w with inReload := true }
  let w := stepAll R tyAny (emit .sweep w)
  { w with sm := .rlWait }

/-- SM_RUNLEVEL_WAIT_STATE, src/sm.c:309-330 -/
def smRlWait (E : Env) (R : Rec) (w : World) : World :=
  if !stopCompleted w.toCore then w
  else
    let w := emit .stopped w
    let w := runHook E R nopName w
    let w := { w with inReload := false }
    let w := stepAll R tyAny w
    { w with sm := .rlClean }

/-- SM_RUNLEVEL_CLEAN_STATE, src/sm.c:332-364 -/
def smRlClean (E : Env) (R : Rec) (w : World) : World :=
  if !cleanCompleted w.toCore then w
  else
    let w := cleanDynamic E R w
    if w.runlevel = 0 ∨ w.runlevel = 6 then doShutdown w else { w with sm := .running }

/-- SM_RELOAD_CHANGE_STATE, src/sm.c:366-383 -/
def smReloadChange (E : Env) (R : Rec) (w : World) : World :=
  let w := { w with inReload := true }
  let w := confReload E w
  let w := stepAll R tyAny (emit .sweep w)
  let w := { w with conds := w.conds.reload }
  { w with sm := .reloadWait }

/-- SM_RELOAD_WAIT_STATE, src/sm.c:385-402 -/
def smReloadWait (R : Rec) (w : World) : World :=
  if !stopCompleted w.toCore then w
  else
    let w := emit .stopped w
    let w := { w with inReload := false }
    let w := stepAll R tyAny w
    { w with sm := .reloadClean }

/-- SM_RELOAD_CLEAN_STATE, src/sm.c:404-427 -/
def smReloadClean (E : Env) (R : Rec) (w : World) : World :=
  if !cleanCompleted w.toCore then w
  else
    let w := cleanDynamic E R w
    let w := pidfileReconf E R w
    let w := runHook E R nopName w
    let w := notifyReconf E R w
    { w with sm := .running }

/-- The switch of `sm_step`, src/sm.c:203-422 -/
def smBranch (E : Env) (R : Rec) (w : World) : World :=
  match w.sm with
  | .bootstrap =>
    { stepAll R (fun t => t.isRuntask || t.isDaemon) w with sm := .bootstrapWait }
  | .bootstrapWait => smBootWait E R w
  | .running => smRunning R w
  | .rlChange => smRlChange E R w
  | .rlWait => smRlWait E R w
  | .rlClean => smRlClean E R w
  | .reloadChange => smReloadChange E R w
  | .reloadWait => smReloadWait R w
  | .reloadClean => smReloadClean E R w

/-- `sm_step` from label `restart:`, src/sm.c:197-427 -/
def smLoopBody (E : Env) (R : Rec) (w : World) : World :=
  let old := w.sm
  let w := smBranch E R w
  if w.down then w
  else if w.sm ≠ old then R.smLoop w
  else w

/-- `sm_step`, src/sm.c:192-428, with the ghost re-entrancy check. -/
def smStep (E : Env) (R : Rec) (w : World) : World :=
  if w.down then w
  else
    let w := if w.stack ≠ [] ∨ w.inSm = true then { w with reent := true } else w
    let was := w.inSm
    let w := { w with inSm := true }
    let w := smLoopBody E R w
    { w with inSm := was }

/-- Tie the knot. -/
def mkRec (E : Env) : Nat → Rec
  | 0 =>
    { fuel := 0
      step := fun _ w => { w with oof := true }
      loop := fun _ w => { w with oof := true }
      sm := fun w => { w with oof := true }
      smLoop := fun w => { w with oof := true } }
  | n + 1 =>
    let R := mkRec E n
    { fuel := n + 1
      step := serviceStep E R
      loop := stepLoop E R
      sm := smStep E R
      smLoop := smLoopBody E R }

/-! ## Events -/

/-- Everything that can happen to PID 1. -/
inductive Ev
  /-- bootstrap: read the configuration and enter the main loop, src/finit.c:700-744 -/
  | boot
  /-- a child of ours ends, `sigchld_cb` -/
  | exit (p : Int) (st : WStatus)
  /-- an orphan is re-parented to PID 1 -/
  | adopt (p : Int)
  /-- the timer of service `k` expires -/
  | timer (k : Key)
  /-- the scheduled `service_worker` runs -/
  | worker
  /-- the scheduled `sm_check_bootstrap` runs -/
  | bootCheck
  | apiStart (k : Key) | apiStop (k : Key) | apiRestart (k : Key) | apiReload (k : Key)
  | apiSignal (k : Key) (sig : Nat)
  /-- `initctl runlevel N` -/
  | apiRunlevel (l : Nat)
  /-- `initctl reload` or SIGHUP -/
  | reloadAll
  /-- `initctl reboot|halt|poweroff`, SIGUSR2, SIGTERM; with or without time limit -/
  | reboot (six : Bool) (limit : Bool)
  /-- the shutdown time limit expires -/
  | emergency
  /-- plugins and users changing conditions; without `upd` nobody is stepped -/
  | condSet (n : CStr) (upd : Bool) | condOneshot (n : CStr) (upd : Bool) | condClear (n : CStr) (upd : Bool)
  /-- `cond_update()` from the sys/usr plugins -/
  | condNotify (n : CStr)
  /-- the pid file of `k` is written: `pid` is what it contains (-1: unreadable), `there`
      whether it still exists -/
  | pidfile (k : Key) (pid : Int) (there : Bool)
  /-- the pid file of `k` is removed -/
  | pidfileDel (k : Key)
  /-- readiness notification from `k` (systemd or s6) -/
  | notifyReady (k : Key)
  /-- `service_interval_cb` -/
  | interval
  /-- `svc_gc` finds `k` old enough -/
  | gc (k : Key)
  /-- a configuration file changes on disk -/
  | confTouch
  deriving DecidableEq, Repr

/-- `conf_flush_events`: pending file events may turn up. -/
def confFlush (E : Env) (w : World) : World :=
  let r := askB E w
  if r.1 then { r.2 with confChanged := true } else r.2

/-- `sm_runlevel`, src/sm.c:465-480 (`networking()` is external) -/
def smRunlevel (E : Env) (R : Rec) (l : Nat) (w : World) : World :=
  R.sm (confFlush E { w with newlevel := (l : Int) })

/-- `sm_reload`, src/sm.c:448-456 -/
def smReload (E : Env) (R : Rec) (w : World) : World := R.sm (confFlush E { w with reload := true })

/-- substring test -/
def isInfix (a : CStr) : CStr → Bool
  | [] => a.isEmpty
  | c :: cs => a.isPrefixOf (c :: cs) || isInfix a cs

/-- `service_completed`, src/service.c:3024-3059 -/
def completed (c : Core) : Bool :=
  c.order.all (fun k =>
    let s := c.svc k
    !s.type.isRuntask || !enabled c k || conflicts c k ||
    isInfix "hook/svc/up".toList s.cond || isInfix "hook/sys/up".toList s.cond ||
    decide (s.once ≠ 0))

/-- `svc_prune_bootstrap`, src/svc.c:651-660 -/
def pruneBootstrap (R : Rec) (w : World) : World :=
  forAll R (fun k w => if (w.svc k).pid = 0 then cleanBootstrap k w else w) w

/-- `sm_check_bootstrap`, src/sm.c:68-121 -/
def bootCheck (E : Env) (R : Rec) (w : World) : World :=
  let w := { w with bootWork := false }
  let w := stepAll R tyAny w
  let done := completed w.toCore
  let t := w.bootTmo
  let w := { w with bootTmo := t - 1 }
  if t > 0 ∧ done = false then { w with bootWork := true }
  else
    let w := confFlush E w
    let w := smRunlevel E R (if w.cmdlevel ≠ 0 then w.cmdlevel else w.cfglevel) w
    if w.down then w
    else
      let w := pruneBootstrap R w
      runHook E R "hook/svc/up".toList w

/-- `stop`, src/api.c:61-74 -/
def apiStop (R : Rec) (k : Key) (w : World) : World :=
  let w := timerCancel k w
  let w := mod k (fun s => { s with block := .user }) w
  stepAll R tyAny (R.step k w)

/-- `start`, src/api.c:76-89 -/
def apiStart (R : Rec) (k : Key) (w : World) : World :=
  let w := timerCancel k w
  let w := mod k (fun s => { s with block := .none }) w
  stepAll R tyAny (R.step k w)

/-- `restart`, src/api.c:96-109 -/
def apiRestart (E : Env) (R : Rec) (k : Key) (w : World) : World :=
  if (w.svc k).state ≠ .running then apiStart R k w
  else R.step k (serviceStop E R k (timerCancel k w))

/-- `reload`, src/api.c:111-127 -/
def apiReload (R : Rec) (k : Key) (w : World) : World :=
  let w :=
    if (w.svc k).block ≠ .none then mod k (fun s => { s with block := .none }) w
    else timerCancel k w
  R.step k (mod k (fun s => { s with dirty := true }) w)

/-- `pidfile_update_conds` for a removed file, or any event while stopping,
    plugins/pidfile.c:153-158 -/
def pidfileGone (E : Env) (R : Rec) (k : Key) (w : World) : World :=
  let w := condClear R (w.svc k).pidCond w
  if (w.svc k).notify = .pid then serviceReady E R k false w else w

/-- End of `pidfile_update_conds`, plugins/pidfile.c:149-152 -/
def pidfileSet (E : Env) (R : Rec) (k : Key) (w : World) : World :=
  let w := if (w.svc k).notify = .pid then condSet R (w.svc k).pidCond w else w
  if (w.svc k).notify = .pid ∨ (w.svc k).notify = .none then serviceReady E R k true w else w

/-- `service_forked`, src/service.c:2614-2622 -/
def serviceForked (R : Rec) (k : Key) (w : World) : World :=
  let w := timerCancel k w
  let w := mod k (fun s => { s with block := .none }) w
  setState R k .running w

/-- `pidfile_update_conds`, plugins/pidfile.c:65-159, for a file that is written -/
def pidfileWrite (E : Env) (R : Rec) (k : Key) (pid : Int) (there : Bool) (w : World) : World :=
  let st := (w.svc k).state
  if st = .teardown ∨ st = .cleanup ∨ st = .setup then w
  else if st = .stopping then pidfileGone E R k w
  else
    let w := if (w.svc k).notify = .pid then mod k (fun s => { s with starting := false }) w else w
    if (w.svc k).forking then
      if pid = -1 then if there then w else condClear R (w.svc k).pidCond w
      else
        let w := serviceForked R k w
        let w := mod k (fun s => { s with pid := pid }) w
        pidfileSet E R k w
    else pidfileSet E R k w

/-- `pidfile_update_conds`, plugins/pidfile.c:65-159, for a file that is removed -/
def pidfileRemove (E : Env) (R : Rec) (k : Key) (w : World) : World :=
  let st := (w.svc k).state
  if st = .teardown ∨ st = .cleanup ∨ st = .setup then w else pidfileGone E R k w

/-- `service_notify_cb`, src/service.c:3083-3138, for a readiness message -/
def notifyReady (E : Env) (R : Rec) (k : Key) (w : World) : World :=
  let w := if k ∈ w.freed then { w with ub := true } else w
  let w := mod k (fun s => { s with starting := false }) w
  let w := serviceReady E R k true w
  if (w.svc k).notify = .s6 then mod k (fun s => { s with watch := false }) w else w

/-- `service_interval_cb`, src/service.c:3156-3183 -/
def ageAll : List Key → World → World
  | [], w => w
  | k :: ks, w =>
    ageAll ks
      (if (w.svc k).type.isDaemon ∧ (w.svc k).state = .running ∧ 0 < (w.svc k).restartCnt then
        mod k (fun s => { s with restartCnt := s.restartCnt - 1 }) (emit (.age k) w)
      else w)

/-- `svc_gc` with `maybe_clear_cond`, src/svc.c:57-103, for one object -/
def gcOne (R : Rec) (k : Key) (w : World) : World :=
  let w := { w with gc := w.gc.filter (· ≠ k) }
  let w :=
    if w.order.any (fun j => decide ((w.svc j).pidCond = (w.svc k).pidCond)) then w
    else condClear R (w.svc k).pidCond w
  { w with freed := k :: w.freed }

/-- One turn of the main loop. -/
def handle (E : Env) (n : Nat) (ev : Ev) (w : World) : World :=
  let R := mkRec E n
  if w.down then w
  else if w.booted = false then
    match ev with
    | .boot => R.sm (confReload E { w with booted := true, bootWork := true })
    | _ => w
  else
    match ev with
    | .boot => w
    | .exit p st => if p ∈ w.live then monitor E R p st (reap p (some st) w) else w
    | .adopt p => if 1 < p ∧ p ∉ w.live then { w with live := p :: w.live } else w
    | .timer k => timerFire E R k w
    | .worker => if w.work then stepAll R tyAny { w with work := false } else w
    | .bootCheck => if w.bootWork then bootCheck E R w else w
    | .apiStart k => if k ∈ w.order ∧ reserved w.runlevel = false then apiStart R k (emit (.asked k) w) else w
    | .apiStop k => if k ∈ w.order ∧ reserved w.runlevel = false then apiStop R k (emit (.asked k) w) else w
    | .apiRestart k => if k ∈ w.order ∧ reserved w.runlevel = false then apiRestart E R k (emit (.asked k) w) else w
    | .apiReload k => if k ∈ w.order ∧ reserved w.runlevel = false then apiReload R k (emit (.asked k) w) else w
    | .apiSignal k sig =>
      if k ∈ w.order ∧ (w.svc k).state = .running then (kill E (w.svc k).pid sig .api k w).2 else w
    | .apiRunlevel l =>
      if w.runlevel = 0 ∨ w.runlevel = 6 ∨ 9 < l then w
      else if w.runlevel = 10 then { w with cfglevel := l }
      else smRunlevel E R l w
    | .reloadAll => if reserved w.runlevel = false then smReload E R w else w
    | .reboot six limit =>
      if reserved w.runlevel = false then
        smRunlevel E R (if six then 6 else 0) (if limit then { w with emerg := true } else w)
      else w
    | .emergency => if w.emerg then doShutdown w else w
    | .condSet n u =>
      if extName n then
        if u then condSet R n w else { w with conds := (w.conds.set n).1 }
      else w
    | .condOneshot n u =>
      if extName n then
        if u then condOneshot R n w else { w with conds := (w.conds.oneshot n).1 }
      else w
    | .condClear n u =>
      if extName n then
        if u then condClear R n w else condClearNoupdate n w
      else w
    | .condNotify n => if extName n then condUpdate R n w else w
    | .pidfile k p there => if k ∈ w.order then pidfileWrite E R k p there w else w
    | .pidfileDel k => if k ∈ w.order then pidfileRemove E R k w else w
    | .notifyReady k => if (w.svc k).watch then notifyReady E R k w else w
    | .interval => ageAll w.order w
    | .gc k => if k ∈ w.gc then gcOne R k w else w
    | .confTouch => { w with confChanged := true }

/-- The state in which PID 1 enters its main program: runlevel S, no services.
    src/finit.c:51-66, src/sm.c:176-190 -/
def World.start (cfg cmd : Nat) : World :=
  { svc := fun _ => {}, order := [], gc := [], freed := [], nextKey := 0, assoc := [],
    conds := CondStore.init, runBlock := 0, live := [], main := fun _ => [],
    sm := .bootstrap, newlevel := -1, reload := false, inReload := false,
    runlevel := 10, prevlevel := 0, cfglevel := cfg, cmdlevel := cmd, bootstrap := true,
    bootTmo := 120, bootWork := false, nologin := false, confChanged := false, work := false,
    tick := 0, stack := [], mids := [], twice := false, inSm := false, reent := false, oof := false, ub := false,
    emerg := false, down := false, booted := false, trace := [] }

/-- Reachable states: any configuration, any answers from the environment, any sequence of
    events. -/
inductive Reach (E : Env) : World → Prop
  | start (cfg cmd : Nat) : Reach E (World.start cfg cmd)
  | event {w : World} (n : Nat) (ev : Ev) : Reach E w → Reach E (handle E n ev w)

end Verif.Sup
