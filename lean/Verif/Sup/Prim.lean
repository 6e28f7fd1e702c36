import Verif.Sup.Model

/-!
# Supervisor model: atomic steps

Every function of the model is a sequence of the atomic updates listed here.  Each update
carries what the code has established when it makes it: a *hard* guard holds always, a
*soft* guard (`Soft`) holds unless some service has been re-entered (`reent`), i.e. stepped
from inside its own step through a cycle of conditions.

Nothing in this file restricts the model: `Refine.lean` proves that every event is a sequence
of these updates.  Invariants are then proved once per update.
-/

namespace Verif.Sup

open Verif (CStr CondStore)

/-- Holds unless some service has been re-entered. -/
def Soft (w : World) (P : Prop) : Prop := w.reent = false → P

/-- What drives the updates: an event, or the expiry of the retry timer of `k`. -/
inductive Lab
  | ev (e : Ev)
  | retry (k : Key)
  deriving DecidableEq

/-- The service list holds each object once, all of them created earlier. -/
def OrdOk (c : Core) : Prop := c.order.Nodup ∧ ∀ k ∈ c.order, k < c.nextKey

/-- Service `k` may run in the current runlevel and is not marked for removal. -/
def Allowed (c : Core) (k : Key) : Prop :=
  (c.svc k).levels.testBit c.runlevel = true ∧ (c.svc k).removed = false

/-- A service that may not run is at rest, or on its way there, or has no process. -/
def Settled (c : Core) (k : Key) : Prop :=
  Allowed c k ∨ (c.svc k).state.toNat ≤ SState.stopping.toNat ∨ (c.svc k).pid ≤ 1

/-- Who may cancel the timer of `k`. -/
inductive CancelOk (lab : Lab) (w : World) (k : Key) : Prop
  | up (h : SState.stopping.toNat < (w.svc k).state.toNat)
  | over (h : (w.svc k).state = .dead ∨ (w.svc k).state = .done)
  | forked (h : (w.svc k).state ≠ .stopping) (hf : (w.svc k).forking = true)
  | noProc (h : (w.svc k).pid = 0) (hs : (w.svc k).state ≠ .halted)
  | readyExit (p : Int) (h : (p, k) ∈ w.assoc)
  | fired (h : lab = .ev (.timer k)) (ht : (w.svc k).timer = some .kill)
  | retry (h : lab = .retry k) (ht : (w.svc k).timer = some .retry)
  | cond (h : (w.svc k).block = .restarting) (ha : aggCond w.toCore k = .off)
      (hl : w.trace.head?.map (·.2) = some (.lifted k))
  | asked (h : ∃ c tl, w.trace = (c, .asked k) :: tl ∧ c.svc k = w.svc k)

/-- `service_step` may change these at will. -/
def Minor (s s' : Svc) : Prop :=
  s' = { s with
    starting := s'.starting, watch := s'.watch, dirty := s'.dirty, argsDirty := s'.argsDirty,
    once := s'.once, restartTot := s'.restartTot, restartTmo := s'.restartTmo,
    restartSaved := s'.restartSaved }

/-- The states in which a pre, post or cleanup script runs (a post script also runs in HALTED
    when the crash handler gives up). -/
def ScriptState (lab : Lab) (k : Key) (role : Role) (s : Svc) : Prop :=
  (role = .pre ∧ s.state = .setup) ∨ (role = .post ∧ s.state = .teardown) ∨
  (role = .cleanup ∧ s.state = .cleanup) ∨
  (role = .post ∧ s.state = .halted ∧ s.block = .crashing ∧ lab = .retry k)

/-- For which services a ready script may be run: those on the list, those that may run now, and
    the one that reports being ready. -/
def ReadyBy (lab : Lab) (c : Core) (k : Key) : Prop :=
  k ∈ c.order ∨ Allowed c k ∨ lab = .ev (.notifyReady k)

/-- Updates of one `svc_t` object, other than its state. -/
inductive SvcMod (E : Env) (lab : Lab) (w : World) (k : Key) : Svc → Prop
  | minor (s' : Svc) (h : Minor (w.svc k) s') (hw : s'.watch = true → (w.svc k).watch = true) :
      SvcMod E lab w k s'
  | armedOff (h : lab = .ev (.timer k) ∨ (lab = .retry k ∧ (w.svc k).timer = some .retry))
      (ha : (w.svc k).armed = true) :
      SvcMod E lab w k { w.svc k with armed := false }
  | cancel (h : CancelOk lab w k) : SvcMod E lab w k { w.svc k with timer := none, armed := false }
  | unblockCond (h : (w.svc k).block = .restarting) (ha : aggCond w.toCore k = .off)
      (ht : (w.svc k).timer = none) (hl : w.trace.head?.map (·.2) = some (.lifted k)) :
      SvcMod E lab w k { w.svc k with block := .none }
  | unblockConflict (h : (w.svc k).block = .conflict) (hs : (w.svc k).state = .halted)
      (hc : conflicts w.toCore k = false) (hr : (w.svc k).removed = false) :
      SvcMod E lab w k { w.svc k with block := .none }
  | blockRestart (h : (w.svc k).state = .running) (hp : (w.svc k).pid = 0)
      (ht : ((w.svc k).type.isDaemon || decide ((w.svc k).type = .tty)) = true)
      (he : enabled w.toCore k = true) : SvcMod E lab w k { w.svc k with block := .restarting }
  | unblockRespawn (h : Soft w ((w.svc k).state = .halted ∧ (w.svc k).block = .restarting))
      (hr : (w.svc k).respawn = true) : SvcMod E lab w k { w.svc k with block := .none }
  | blockMissing (h : (w.svc k).state = .starting) (he : enabled w.toCore k = true) :
      SvcMod E lab w k { w.svc k with block := .missing }
  | blockConflict (h : (w.svc k).state = .waiting) (he : enabled w.toCore k = true)
      (hc : conflicts w.toCore k = true) : SvcMod E lab w k { w.svc k with block := .conflict }
  | blockCrash (h : Soft w ((w.svc k).state = .stopping ∧ (w.svc k).pid = 0 ∧
        (w.svc k).block = .none)) : SvcMod E lab w k { w.svc k with block := .crashing }
  | blockManual (h : Soft w ((w.svc k).state = .stopping ∧ (w.svc k).pid = 0 ∧
        (w.svc k).timer = none)) (ht : (w.svc k).type.isRuntask = true)
      (hm : (w.svc k).manual = true) : SvcMod E lab w k { w.svc k with block := .user }
  | apiUnblock (h : lab = .ev (.apiStart k) ∨ lab = .ev (.apiRestart k) ∨ lab = .ev (.apiReload k))
      (hh : w.trace.head?.map (·.2) = some (.asked k)) :
      SvcMod E lab w k { w.svc k with block := .none }
  | apiBlock (h : lab = .ev (.apiStop k)) (ht : (w.svc k).timer = none)
      (hh : w.trace.head?.map (·.2) = some (.asked k)) :
      SvcMod E lab w k { w.svc k with block := .user }
  | forkedUnblock (p : Int) (b : Bool) (h : lab = .ev (.pidfile k p b))
      (hf : (w.svc k).forking = true) (hs : (w.svc k).state ≠ .stopping)
      (hs2 : (w.svc k).state ≠ .teardown) (hs3 : (w.svc k).state ≠ .cleanup)
      (hs4 : (w.svc k).state ≠ .setup) (ht : (w.svc k).timer = none) :
      SvcMod E lab w k { w.svc k with block := .none }
  | forkedPid (p : Int) (b : Bool) (h : lab = .ev (.pidfile k p b))
      (hf : Soft w ((w.svc k).forking = true)) :
      SvcMod E lab w k { w.svc k with pid := p }
  | pidLost (h : (w.svc k).pid ∉ w.live) (hs : SState.stopping.toNat < (w.svc k).state.toNat) :
      SvcMod E lab w k { w.svc k with pid := 0 }
  | pidOdd (h : (w.svc k).stopScript = true ∨ (w.svc k).type = .sysv)
      (hs : SState.stopping.toNat < (w.svc k).state.toNat) :
      SvcMod E lab w k { w.svc k with pid := 0 }
  | pidNone (h : (w.svc k).pid ≤ 1) (hs : (w.svc k).state = .running) :
      SvcMod E lab w k { w.svc k with pid := 0 }
  | scriptFail (role : Role) (h : Soft w (ScriptState lab k role (w.svc k))) :
      SvcMod E lab w k { w.svc k with pid := -1 }
  | armRetry (b : Bool) (ht : (w.svc k).timer = none)
      (h : Soft w ((w.svc k).state = .halted ∧ (w.svc k).block = .restarting ∧ Allowed w.toCore k) ∨
        lab = .retry k) :
      SvcMod E lab w k { w.svc k with timer := some .retry, armed := b }
  | armScript (b : Bool) (role : Role) (ht : (w.svc k).timer = none)
      (h : Soft w (ScriptState lab k role (w.svc k))) :
      SvcMod E lab w k { w.svc k with timer := some .killScript, armed := b }
  | armReady (b : Bool) (ht : (w.svc k).timer = none) (hr : (w.svc k).ready = true)
      (hk : Soft w (ReadyBy lab w.toCore k)) :
      SvcMod E lab w k { w.svc k with timer := some .scriptKill, armed := b }
  | apply (z : Stanza) (a c : Bool) (ho : z.odd = true → (w.svc k).odd = true)
      (ht : (w.svc k).type = z.type)
      (hb : z.manual = false → (w.svc k).block = .none)
      (hk : k ∈ w.order) (hz : z ∈ (w.svc k).zs)
      (hh : w.trace.head?.map (·.2) = some (.reg k) ∨ w.trace.head?.map (·.2) = some (.new k))
      (hs : Soft w (w.sm = .bootstrap ∨ w.sm = .rlChange ∨ w.sm = .reloadChange))
      (hf : (w.svc k).zs.head? = some z) (hr : (w.svc k).removed = false)
      (hc : ∃ t, lastConf w.trace = some t ∧ z ∈ E.conf t) :
      SvcMod E lab w k (applyStanza z a c (w.svc k))

/-- Changes of the state of service `k` (through `setStateRaw`). -/
inductive StateMod (lab : Lab) (w : World) (k : Key) : SState → Prop
  | wake (h : (w.svc k).state = .halted) (he : enabled w.toCore k = true) :
      StateMod lab w k .waiting
  | redo (h : Soft w ((w.svc k).state = .done ∨ (w.svc k).state = .halted))
      (ht : (w.svc k).type.isRuntask = true) (hm : (w.svc k).manual = true)
      (hb : Soft w ((w.svc k).block = .none)) (ha : Soft w (Allowed w.toCore k)) :
      StateMod lab w k .waiting
  | dead (h : (w.svc k).state = .halted) (hr : (w.svc k).removed = true) : StateMod lab w k .dead
  | tearCleanup (h : (w.svc k).state = .teardown) (hp : (w.svc k).pid = 0)
      (hr : (w.svc k).removed = true) (hc : (w.svc k).cleanup = true) (ht : (w.svc k).timer = none) :
      StateMod lab w k .cleanup
  | tearHalted (h : (w.svc k).state = .teardown) (hp : (w.svc k).pid = 0)
      (ht : (w.svc k).timer = none) : StateMod lab w k .halted
  | cleanHalted (h : (w.svc k).state = .cleanup) (hp : (w.svc k).pid = 0) : StateMod lab w k .halted
  | doneHalted (h : (w.svc k).state = .done) : StateMod lab w k .halted
  | stopDone (h : Soft w ((w.svc k).state = .stopping ∧ (w.svc k).pid = 0 ∧ (w.svc k).timer = none))
      (ht : (w.svc k).type.isRuntask = true) : StateMod lab w k .done
  | stopTear (h : Soft w ((w.svc k).state = .stopping ∧ (w.svc k).pid = 0 ∧ (w.svc k).timer = none))
      (ht : (w.svc k).post = true) : StateMod lab w k .teardown
  | stopCleanup (h : Soft w ((w.svc k).state = .stopping ∧ (w.svc k).pid = 0 ∧ (w.svc k).timer = none))
      (hr : (w.svc k).removed = true) (hc : (w.svc k).cleanup = true) : StateMod lab w k .cleanup
  | stopHalted (h : Soft w ((w.svc k).state = .stopping ∧ (w.svc k).pid = 0 ∧ (w.svc k).timer = none)) :
      StateMod lab w k .halted
  | setupFail (h : (w.svc k).state = .setup) (hp : (w.svc k).pid = 0)
      (he : enabled w.toCore k = true)
      (hf : (!(w.svc k).status.ok || decide ((w.svc k).status.rc ≠ 0)) = true) :
      StateMod lab w k .stopping
  | setupOk (h : (w.svc k).state = .setup) (hp : (w.svc k).pid = 0)
      (he : enabled w.toCore k = true)
      (hf : (!(w.svc k).status.ok || decide ((w.svc k).status.rc ≠ 0)) = false) :
      StateMod lab w k .starting
  | waitOff (h : (w.svc k).state = .waiting) (he : enabled w.toCore k = false) :
      StateMod lab w k .halted
  | waitConflict (h : (w.svc k).state = .waiting) (hb : (w.svc k).block = .conflict) :
      StateMod lab w k .halted
  | waitSetup (h : (w.svc k).state = .waiting) (he : enabled w.toCore k = true)
      (ha : aggCond w.toCore k = .on) (hr : w.inReload = false) (hc : conflicts w.toCore k = false)
      (hp : (w.svc k).pre = true) : StateMod lab w k .setup
  | waitStart (h : (w.svc k).state = .waiting) (he : enabled w.toCore k = true)
      (ha : aggCond w.toCore k = .on) (hr : w.inReload = false) (hc : conflicts w.toCore k = false)
      (hp : (w.svc k).pre = false) : StateMod lab w k .starting
  | startOff (h : (w.svc k).state = .starting) (he : enabled w.toCore k = false) :
      StateMod lab w k .halted
  | startMissing (h : (w.svc k).state = .starting) (hb : (w.svc k).block = .missing) :
      StateMod lab w k .halted
  | crash (h : (w.svc k).state = .running) (hp : (w.svc k).pid = 0)
      (hb : (w.svc k).block = .restarting) (hr : (w.svc k).removed = false)
      (ht : ((w.svc k).type.isDaemon || decide ((w.svc k).type = .tty)) = true) :
      StateMod lab w k .halted
  | complete (h : (w.svc k).state = .running) (hp : (w.svc k).pid = 0)
      (ht : (w.svc k).type.isRuntask = true) (he : enabled w.toCore k = true) :
      StateMod lab w k .stopping
  | pause (h : (w.svc k).state = .running) (hp : (w.svc k).pid ≠ 0)
      (he : enabled w.toCore k = true) (ha : aggCond w.toCore k = .flux) :
      StateMod lab w k .paused
  | cont (h : (w.svc k).state = .paused) (hp : (w.svc k).pid ≠ 0)
      (he : enabled w.toCore k = true) (ha : aggCond w.toCore k = .on)
      (ht : w.trace.head?.map (·.2) = some (.kill (w.svc k).pid 18 .cont k)) :
      StateMod lab w k .running
  | pausedGone (h : (w.svc k).state = .paused) (hp : (w.svc k).pid = 0)
      (he : enabled w.toCore k = true) : StateMod lab w k .waiting
  | lost (h : SState.stopping.toNat < (w.svc k).state.toNat) (hp : (w.svc k).pid = 0)
      (ht : (w.svc k).timer = none) : StateMod lab w k .halted
  | stop (h : SState.stopping.toNat < (w.svc k).state.toNat) (ht : (w.svc k).timer = none)
      (hk : (1 < (w.svc k).pid ∧ (w.svc k).stopScript = false ∧ (w.svc k).type ≠ .sysv ∧
          ∃ c tl, w.trace = (c, .kill (w.svc k).pid (w.svc k).sighalt .halt k) :: tl ∧
            c.svc k = w.svc k ∧ c.order = w.order ∧ c.main = w.main) ∨
        (w.svc k).stopScript = true ∨ (w.svc k).type = .sysv) :
      StateMod lab w k .stopping
  | forked (p : Int) (b : Bool) (h : lab = .ev (.pidfile k p b)) (hf : (w.svc k).forking = true)
      (hs : (w.svc k).state ≠ .stopping) (hs2 : (w.svc k).state ≠ .teardown)
      (hs3 : (w.svc k).state ≠ .cleanup) (hs4 : (w.svc k).state ≠ .setup)
      (hb : (w.svc k).block = .none) (ht : (w.svc k).timer = none) (hk : k ∈ w.order) :
      StateMod lab w k .running

/-- Which signals are sent where. -/
inductive KillOk (lab : Lab) (w : World) (k : Key) : Int → Nat → Why → Prop
  | halt (h : 1 < (w.svc k).pid) (hs : SState.stopping.toNat < (w.svc k).state.toNat)
      (hc : (w.svc k).state = .paused →
        w.trace.head?.map (·.2) = some (.kill (w.svc k).pid 18 .cont k)) :
      KillOk lab w k (w.svc k).pid (w.svc k).sighalt .halt
  | escalate (h : 1 < (w.svc k).pid) (hl : lab = .ev (.timer k)) :
      KillOk lab w k (w.svc k).pid 9 .escalate
  | readyTimeout (p : Int) (h : 1 < p) : KillOk lab w k p 9 .readyTimeout
  | scriptTimeout (h : 1 < (w.svc k).pid) : KillOk lab w k (w.svc k).pid 9 .scriptTimeout
  | group (p : Int) (h : 1 < p) : KillOk lab w k (-p) 9 .group
  | pause (h : (w.svc k).pid ≠ 0) (hs : (w.svc k).state = .running)
      (ha : aggCond w.toCore k = .flux) : KillOk lab w k (w.svc k).pid 19 .pause
  | cont (hs : (w.svc k).state = .paused) : KillOk lab w k (w.svc k).pid 18 .cont
  | hup (h : 1 < (w.svc k).pid) (hs : (w.svc k).state = .running) :
      KillOk lab w k (w.svc k).pid 1 .hup
  | api (sig : Nat) (hs : (w.svc k).state = .running) (hl : lab = .ev (.apiSignal k sig)) :
      KillOk lab w k (w.svc k).pid sig .api

/-- The part of `svc_t` that only registration changes. -/
def Svc.cfg (s : Svc) : Svc :=
  { s with state := .halted, block := .none, pid := 0, status := .exited 0, started := false,
           starting := false, dirty := false, argsDirty := false, once := 0, restartCnt := 0,
           restartTot := 0, restartSaved := 0, restartTmo := 0, watch := false, timer := none,
           armed := false }

/-- A condition name the supervisor may clear on behalf of service object `k` at any time. -/
inductive Owned (w : World) (k : Key) : CStr → Prop
  | pid (s : Svc) (h : Soft w ((w.svc k).cfg = s.cfg)) : Owned w k s.pidCond
  | ready (s : Svc) (h : Soft w ((w.svc k).cfg = s.cfg)) : Owned w k s.readyCond

/-- Condition names that may be cleared. -/
def NameOk (w : World) (n : CStr) : Prop := extName n = true ∨ ∃ k, Owned w k n

/-- Names of the internal and hook conditions. -/
def intNames : List CStr :=
  ["int/bootstrap".toList, "hook/sys/up".toList, "hook/svc/up".toList,
   "hook/sys/shutdown".toList, nopName]

/-- Changes of the condition directory. -/
inductive CondMod (lab : Lab) (w : World) : CondStore → Prop
  | ready (k : Key) (hd : (w.svc k).type.isDaemon = true) :
      CondMod lab w (w.conds.set (w.svc k).readyCond).1
  | pid (k : Key) : CondMod lab w (w.conds.set (w.svc k).pidCond).1
  | pidPath (k : Key) : CondMod lab w (w.conds.setOn (condPath (w.svc k).pidCond)).1
  | int (n : CStr) (h : n ∈ intNames) : CondMod lab w (w.conds.oneshot n).1
  | hook (n : CStr) (h : extName n = true) : CondMod lab w (w.conds.setOn (condPath n)).1
  | extSet (n : CStr) (h : extName n = true) : CondMod lab w (w.conds.set n).1
  | extOneshot (n : CStr) (h : extName n = true) : CondMod lab w (w.conds.oneshot n).1
  | extClear (n : CStr) (h : extName n = true) : CondMod lab w (w.conds.clear n).1
  | unlink (n p : CStr) (h : NameOk w n)
      (hp : p = condPath n ∨ under (condPath n) p = true) : CondMod lab w (w.conds.unlink p)
  | reload (h : Soft w (w.sm = .reloadChange)) : CondMod lab w w.conds.reload

/-- RUNNING to PAUSED or back, which leaves the conditions alone. -/
def paused (old new : SState) : Prop :=
  (old = .running ∧ new = .paused) ∨ (old = .paused ∧ new = .running)

/-- What has to be done about its conditions when the state of a service has changed. -/
structure Published (m : Mid) (s : Svc) : Prop where
  same : s.block = m.was.block ∧ s.started = m.was.started ∧ s.status = m.was.status
  kept : s.type.isDaemon = true → paused m.old s.state → m.fresh = true
  cleared : s.type.isDaemon = true → ¬ paused m.old s.state → s.svcDir.length ≤ 43 →
    ∀ q ∈ m.left, under (condPath s.svcDir) q = false
  status : s.type.isDaemon = true → (s.state = .halted ∨ s.state = .running) →
    m.made = some (condPath (s.svcDir ++ s.statusStr))
  silent : s.type.isDaemon = true → ¬ (s.state = .halted ∨ s.state = .running) → m.made = none
  outcome : s.type.isRuntask = true → s.state = .done → m.fresh = true ∧
    m.made = some (condPath (if s.started = true ∧ s.status.rc = 0 then s.successCond
      else s.failureCond))
  rearmed : s.type.isRuntask = true → s.state = .halted → m.made = none ∧
    condPath s.successCond ∉ m.left ∧ condPath s.failureCond ∉ m.left
  other : s.type.isRuntask = true → s.state ≠ .done → s.state ≠ .halted →
    m.made = none ∧ m.fresh = true

/-- The conditions that go with the state of a service. -/
inductive StateName (s : Svc) : CStr → Prop
  | dir (h : s.type.isDaemon = true) : StateName s s.svcDir
  | success (h : s.type.isRuntask = true) : StateName s s.successCond
  | failure (h : s.type.isRuntask = true) : StateName s s.failureCond

/-- Changes of the condition directory while the state of a service is being set. -/
inductive MidMod (w : World) (m : Mid) (ms : List Mid) : CondStore → List Mid → Prop
  | unlink (n p : CStr) (h : Soft w (StateName (w.svc m.key) n ∧ m.made = none))
      (hp : p = condPath n ∨ under (condPath n) p = true) :
      MidMod w m ms (w.conds.unlink p) (m.drop (fun q => decide (q = p)) :: ms)
  | drop (p : CStr) (h : w.conds.lookup p = none ∨ p.getLast? = some '/') :
      MidMod w m ms w.conds (m.drop (fun q => decide (q = p)) :: ms)
  | clear (n : CStr) (h : Soft w (StateName (w.svc m.key) n ∧ m.made = none)) :
      MidMod w m ms (w.conds.clear n).1
        (m.drop (fun q => decide (q = condPath n) || under (condPath n) q) :: ms)
  | status (s : Svc) (st : CStr)
      (h : Soft w (w.svc m.key = s ∧ s.type.isDaemon = true ∧ st = s.statusStr ∧
        (s.state = .halted ∨ s.state = .running) ∧ m.made = none)) :
      MidMod w m ms (w.conds.oneshot (s.svcDir ++ st)).1
        (m.make (condPath (s.svcDir ++ st)) :: ms)
  | success (h : Soft w ((w.svc m.key).type.isRuntask = true ∧ (w.svc m.key).state = .done ∧
      (w.svc m.key).started = true ∧ (w.svc m.key).status.rc = 0 ∧ m.made = none)) :
      MidMod w m ms (w.conds.oneshot (w.svc m.key).successCond).1
        (m.make (condPath (w.svc m.key).successCond) :: ms)
  | failure (h : Soft w ((w.svc m.key).type.isRuntask = true ∧ (w.svc m.key).state = .done ∧
      ¬ ((w.svc m.key).started = true ∧ (w.svc m.key).status.rc = 0) ∧ m.made = none)) :
      MidMod w m ms (w.conds.oneshot (w.svc m.key).failureCond).1
        (m.make (condPath (w.svc m.key).failureCond) :: ms)
  | finish (h : Soft w (Published m (w.svc m.key))) : MidMod w m ms w.conds ms

/-- Changes of the state of `sm_step`. -/
inductive SmMod (w : World) : SmSt → Prop
  | bootWait (h : Soft w (w.sm = .bootstrap)) : SmMod w .bootstrapWait
  | up (h : Soft w (w.sm = .bootstrapWait)) (hb : Soft w (w.bootstrap = false)) : SmMod w .running
  | change (h : Soft w (w.sm = .running)) (hn : 0 ≤ w.newlevel ∧ w.newlevel ≤ 9)
      (hr : (w.runlevel : Int) ≠ w.newlevel) : SmMod w .rlChange
  | rlWait (h : Soft w (w.sm = .rlChange ∧ w.inReload = true))
      (hq : Soft w (w.oof = false → ∀ k ∈ w.order, Settled w.toCore k))
      (ht : Soft w (swept w.trace = true)) : SmMod w .rlWait
  | rlClean (h : Soft w (w.sm = .rlWait ∧ w.inReload = false)) : SmMod w .rlClean
  | rlDone (h : Soft w (w.sm = .rlClean))
      (hn : Soft w (w.oof = false → ∀ k ∈ w.order, (w.svc k).removed = false)) : SmMod w .running
  | reload (h : Soft w (w.sm = .running)) : SmMod w .reloadChange
  | reloadWait (h : Soft w (w.sm = .reloadChange ∧ w.inReload = true))
      (hq : Soft w (w.oof = false → ∀ k ∈ w.order, Settled w.toCore k))
      (ht : Soft w (swept w.trace = true)) : SmMod w .reloadWait
  | reloadClean (h : Soft w (w.sm = .reloadWait ∧ w.inReload = false)) : SmMod w .reloadClean
  | reloadDone (h : Soft w (w.sm = .reloadClean))
      (hn : Soft w (w.oof = false → ∀ k ∈ w.order, (w.svc k).removed = false)) : SmMod w .running

/-- Everything of no consequence for running services. -/
def MinorGlob (w w' : World) : Prop :=
  w' = { w with
    tick := w'.tick, work := w'.work, oof := w'.oof, stack := w'.stack, inSm := w'.inSm,
    reent := w'.reent, newlevel := w'.newlevel, reload := w'.reload, cfglevel := w'.cfglevel,
    bootTmo := w'.bootTmo, bootWork := w'.bootWork, nologin := w'.nologin,
    confChanged := w'.confChanged, emerg := w'.emerg, booted := w'.booted } ∧
  (w.reent = true → w'.reent = true) ∧ (w.oof = true → w'.oof = true) ∧
  (w'.booted = w.booted ∨ (w.booted = false ∧ w'.booted = true))

/-- Atomic updates of the world. -/
inductive Prim (E : Env) (lab : Lab) : World → World → Prop
  | glob (w w' : World) (h : MinorGlob w w') : Prim E lab w w'
  | ub (w : World) (k : Key) (h : k ∈ w.freed)
      (hu : (w.svc k).armed = true ∨ (∃ p, (p, k) ∈ w.assoc) ∨ (w.svc k).watch = true) :
      Prim E lab w { w with ub := true }
  | svc (w : World) (k : Key) (s' : Svc) (h : SvcMod E lab w k s') :
      Prim E lab w { w with svc := upd w.svc k s' }
  | state (w : World) (k : Key) (new : SState) (h : StateMod lab w k new) :
      Prim E lab w (setStateRaw k new w)
  /-- the crash handler, timer callback of a service that was not crashed: back to RUNNING -/
  | retryForce (w : World) (k : Key) (h : lab = .retry k) (ht : (w.svc k).timer = some .retry)
      (hr : (w.svc k).respawn = false)
      (hs : (w.svc k).state ≠ .halted ∨ (w.svc k).block ≠ .restarting)
      (hf : ∃ c tl, w.trace = (c, .forced k) :: tl ∧ c.svc k = w.svc k) :
      Prim E lab w (setStateRaw k .running
        (mod k (fun s => { s with restartTmo := s.restartSaved }) (timerCancel k w)))
  | forced (w : World) (k : Key) (h : lab = .retry k) (ht : (w.svc k).timer = some .retry)
      (hs : (w.svc k).state ≠ .halted ∨ (w.svc k).block ≠ .restarting) :
      Prim E lab w (emit (.forced k) w)
  | asked (w : World) (k : Key)
      (h : lab = .ev (.apiStart k) ∨ lab = .ev (.apiStop k) ∨ lab = .ev (.apiRestart k) ∨
        lab = .ev (.apiReload k)) : Prim E lab w (emit (.asked k) w)
  | lifted (w : World) (k : Key) (h : (w.svc k).block = .restarting) (ha : aggCond w.toCore k = .off) :
      Prim E lab w (emit (.lifted k) w)
  | retryRespawn (w : World) (k : Key) (h : lab = .retry k) (ht : (w.svc k).timer = some .retry)
      (hr : (w.svc k).respawn = true) :
      Prim E lab w (mod k (fun s => { s with block := .none }) (timerCancel k w))
  | retryGiveUp (w : World) (k : Key) (h : lab = .retry k) (ht : (w.svc k).timer = some .retry)
      (hr : (w.svc k).respawn = false) (hs : (w.svc k).state = .halted)
      (hb : (w.svc k).block = .restarting) (hm : (w.svc k).restartMax ≠ -1)
      (hc : (w.svc k).restartCnt ≥ (w.svc k).restartMax) :
      Prim E lab w (mod k (fun s => { s with block := .crashing, restartCnt := 0,
                                             restartTmo := s.restartSaved })
        (emit (.giveUp k) (timerCancel k w)))
  | retryAgain (w : World) (k : Key) (sv tm : Int) (h : lab = .retry k)
      (ht : (w.svc k).timer = some .retry)
      (hr : (w.svc k).respawn = false) (hs : (w.svc k).state = .halted)
      (hb : (w.svc k).block = .restarting)
      (hc : ¬ ((w.svc k).restartMax ≠ -1 ∧ (w.svc k).restartCnt ≥ (w.svc k).restartMax)) :
      Prim E lab w (mod k (fun s => { s with restartCnt := schar (s.restartCnt + 1),
                                             restartSaved := sv, restartTmo := tm, block := .none })
        (emit (.retry k) (timerCancel k w)))
  | age (w : World) (k : Key) (h : 0 < (w.svc k).restartCnt) (hs : (w.svc k).state = .running) :
      Prim E lab w (mod k (fun s => { s with restartCnt := s.restartCnt - 1 }) (emit (.age k) w))
  | bump (w : World) (k : Key) (h : (w.svc k).state = .starting ∨ (w.svc k).state = .paused) :
      Prim E lab w (mod k (fun s => { s with restartCnt := schar (s.restartCnt + 1) }) (emit (.bump k) w))
  | dirty (w : World) (d : Key → Bool)
      (hs : Soft w (w.sm = .bootstrap ∨ w.sm = .rlChange ∨ w.sm = .reloadChange)) :
      Prim E lab w { w with svc := fun k => { w.svc k with dirty := d k } }
  /-- reading the configuration begins: all services are marked for removal -/
  | confRead (w : World)
      (hs : Soft w (w.sm = .bootstrap ∨ w.sm = .rlChange ∨ w.sm = .reloadChange)) :
      Prim E lab w (markDynamic (emit (.conf w.tick) w))
  /-- the configuration has been read: services whose `if:` does not hold are marked again -/
  | confEnd (w : World)
      (hs : Soft w (w.sm = .bootstrap ∨ w.sm = .rlChange ∨ w.sm = .reloadChange)) :
      Prim E lab w (markUnavail (emit .confEnd w))
  | kill (w : World) (k : Key) (tgt : Int) (sig : Nat) (why : Why) (h : KillOk lab w k tgt sig why)
      (hw : why ≠ .pause) : Prim E lab w (emit (.kill tgt sig why k) w)
  /-- a process is frozen, which makes its service PAUSED -/
  | pause (w : World) (k : Key) (h : (w.svc k).state = .running) (hp : (w.svc k).pid ≠ 0)
      (he : enabled w.toCore k = true) (ha : aggCond w.toCore k = .flux) :
      Prim E lab w (setStateRaw k .paused (kill E (w.svc k).pid 19 .pause k w).2)
  | rebootSelf (w : World) (k : Key) (h : lab = .retry k) (hb : (w.svc k).block = .crashing)
      (ho : (w.svc k).oncrash = .reboot) : Prim E lab w (emit (.rebootSelf k) w)
  /-- the command is started -/
  | start (w : World) (k : Key) (p : Int) (b : Bool) (hp : 1 < p) (hl : p ∉ w.live)
      (hb : w.runBlock = 0) (he : enabled w.toCore k = true) (hs : (w.svc k).state = .starting)
      (hn : b = true → (w.svc k).notify = .systemd ∨ (w.svc k).notify = .s6) :
      Prim E lab w (setStateRaw k .running
        (mod k (fun s => { s with dirty := false, argsDirty := false })
          (startParent k p b (spawned p k .main w))))
  /-- the command is started but setting up the notify socket fails -/
  | startBad (w : World) (k : Key) (p : Int) (hp : 1 < p) (hl : p ∉ w.live)
      (hb : w.runBlock = 0) (he : enabled w.toCore k = true) (hs : (w.svc k).state = .starting)
      (hn : (w.svc k).notify = .systemd ∨ (w.svc k).notify = .s6) :
      Prim E lab w (startParent k p false (spawned p k .main w))
  /-- a pre, post or cleanup script is started -/
  | script (w : World) (k : Key) (p : Int) (role : Role) (hp : 1 < p) (hl : p ∉ w.live)
      (hr : role ≠ .main) (h : Soft w (ScriptState lab k role (w.svc k)))
      (ha : Soft w (role = .pre → Allowed w.toCore k)) :
      Prim E lab w (mod k (fun s => { s with pid := p }) (spawned p k role w))
  | readyScript (w : World) (k : Key) (p : Int) (hp : 1 < p) (hl : p ∉ w.live)
      (h : (w.svc k).ready = true) (hk : Soft w (ReadyBy lab w.toCore k)) :
      Prim E lab w { spawned p k .ready w with assoc := w.assoc ++ [(p, k)] }
  | sysvStop (w : World) (k : Key) (p : Int) (hp : 1 < p) (hl : p ∉ w.live)
      (h : (w.svc k).type = .sysv) : Prim E lab w (spawned p k .sysvStop w)
  /-- a script is run to completion -/
  | scriptRun (w : World) (k : Key) (p : Int) (role : Role) (hp : 1 < p) (hl : p ∉ w.live)
      (hr : role = .stopScript ∨ role = .reloadScript) : Prim E lab w (reap p none (spawned p k role w))
  /-- a process of a service is collected -/
  | collect (w : World) (k : Key) (p : Int) (st : WStatus) (hl : p ∈ w.live)
      (hf : findByPid w.toCore p = some k) (hp : (w.svc k).pid = p) (h1 : 1 < p)
      (h : lab = .ev (.exit p st)) : Prim E lab w (monitorHead E k st (reap p (some st) w))
  /-- some other process is collected -/
  | collectOther (w : World) (p : Int) (st : WStatus) (hl : p ∈ w.live)
      (hf : findByPid w.toCore p = none ∨ p ≤ 1) (h : lab = .ev (.exit p st)) :
      Prim E lab w (reap p (some st) w)
  /-- a process that was not our child is found to be gone -/
  | lost (w : World) (k : Key) (st : WStatus) (hl : (w.svc k).pid ∉ w.live) (h1 : 1 < (w.svc k).pid)
      (hk : k ∈ w.order) : Prim E lab w (monitorHead E k st w)
  | assoc (w : World) (l : List (Int × Key)) (h : ∀ a ∈ l, a ∈ w.assoc) :
      Prim E lab w { w with assoc := l }
  | adopt (w : World) (p : Int) (hp : 1 < p) (hl : p ∉ w.live) :
      Prim E lab w { w with live := p :: w.live }
  | unblock (w : World) (h : w.runBlock ∉ w.live) : Prim E lab w { w with runBlock := 0 }
  | conds (w : World) (st : CondStore) (h : CondMod lab w st) : Prim E lab w { w with conds := st }
  /-- the conditions of a service whose state changes -/
  | mid (w : World) (m : Mid) (ms : List Mid) (st : CondStore) (ms' : List Mid)
      (hm : w.mids = m :: ms) (h : MidMod w m ms st ms') :
      Prim E lab w { w with conds := st, mids := ms' }
  | del (w : World) (k : Key) (ht : (w.svc k).timer = none)
      (hr : (w.svc k).removed = true)
      (hs : (w.svc k).state = .dead ∨ (w.svc k).state = .done) (hk : k ∈ w.order) :
      Prim E lab w (svcDel k w)
  | delBoot (w : World) (k : Key) (h : (w.svc k).levels &&& (2 ^ 32 - 1 - 2 ^ 10) = 0)
      (hk : Soft w (k ∈ w.order)) :
      Prim E lab w (svcDel k (mod k (fun s => { s with pid := 0 }) w))
  | regOld (w : World) (z : Stanza) (k : Key) (h : regFind z w.toCore = some k)
      (hz : ∃ t, lastConf w.trace = some t ∧ z ∈ E.conf t)
      (hs : Soft w (w.sm = .bootstrap ∨ w.sm = .rlChange ∨ w.sm = .reloadChange)) :
      Prim E lab w (regObj z w)
  | regNew (w : World) (z : Stanza) (h : regFind z w.toCore = none)
      (hz : ∃ t, lastConf w.trace = some t ∧ z ∈ E.conf t)
      (hs : Soft w (w.sm = .bootstrap ∨ w.sm = .rlChange ∨ w.sm = .reloadChange)) :
      Prim E lab w (regObj z w)
  | sm (w : World) (st : SmSt) (h : SmMod w st) : Prim E lab w { w with sm := st }
  | runlevel (w : World) (h : w.sm = .rlChange) :
      Prim E lab w { emit (.runlevel w.runlevel w.newlevel.toNat) w with
        prevlevel := w.runlevel, runlevel := w.newlevel.toNat, newlevel := -1 }
  | reloadOn (w : World) (h : Soft w (w.sm = .rlChange ∨ w.sm = .reloadChange)) :
      Prim E lab w { w with inReload := true }
  /-- every service told to stop has stopped -/
  | stopped (w : World) (h : stopCompleted w.toCore = true)
      (hs : Soft w (w.sm = .rlWait ∨ w.sm = .reloadWait)) : Prim E lab w (emit .stopped w)
  /-- every service is about to be given its turn -/
  | sweep (w : World) (hs : Soft w ((w.sm = .rlChange ∨ w.sm = .reloadChange) ∧ w.inReload = true)) :
      Prim E lab w (emit .sweep w)
  | reloadOff (w : World) (h : Soft w (w.sm = .rlWait ∨ w.sm = .reloadWait))
      (hq : Soft w (stopsSeen w.trace = true)) :
      Prim E lab w { w with inReload := false }
  | bootDone (w : World) (h : Soft w (w.sm = .bootstrapWait)) : Prim E lab w { w with bootstrap := false }
  | freeUp (w : World) (k : Key) (h : lab = .ev (.gc k)) (hk : k ∈ w.gc) :
      Prim E lab w { w with gc := w.gc.filter (· ≠ k) }
  | free (w : World) (k : Key) (h : lab = .ev (.gc k)) (hg : Soft w (k ∉ w.gc)) :
      Prim E lab w { w with freed := k :: w.freed }
  | shutdown (w : World)
      (h : (lab = .ev .emergency ∧ w.emerg = true) ∨
        ((w.runlevel = 0 ∨ w.runlevel = 6) ∧ Soft w (w.sm = .rlClean) ∧
         ∀ k ∈ w.order,
          enabled w.toCore k = true ∨ ((w.svc k).type.isRuntask = true ∧ (w.svc k).state = .done) ∨
          (if (w.svc k).removed then (w.svc k).state = .dead else (w.svc k).state = .halted))) :
      Prim E lab w (doShutdown w)

/-- Sequences of atomic updates. -/
inductive Steps (E : Env) (lab : Lab) : World → World → Prop
  | refl (w : World) : Steps E lab w w
  | tail {a b c : World} : Steps E lab a b → Prim E lab b c → Steps E lab a c

theorem Steps.trans {E : Env} {lab : Lab} {a b c : World} (h1 : Steps E lab a b)
    (h2 : Steps E lab b c) : Steps E lab a c := by
  induction h2 with
  | refl => exact h1
  | tail _ p ih => exact .tail ih p

theorem Steps.one {E : Env} {lab : Lab} {a b : World} (h : Prim E lab a b) : Steps E lab a b :=
  .tail (.refl a) h

/-- A predicate preserved by every atomic update is preserved by sequences. -/
theorem Steps.inv {E : Env} {lab : Lab} {P : World → Prop}
    (hP : ∀ a b, Prim E lab a b → P a → P b) {a b : World} (h : Steps E lab a b) (ha : P a) : P b := by
  induction h with
  | refl => exact ha
  | tail _ p ih => exact hP _ _ p ih

end Verif.Sup
