import Verif.Sup.Tomb
import Verif.Sup.Demo

/-!
# C41: a service object is not used after it has been freed

`svc_del` (src/svc.c:174) takes an object off the list of services; `svc_gc` (src/svc.c:83) frees
it later.  Three things in the rest of the program hold a pointer to the object: its timer, the
watcher on its readiness socket, and the table of running ready scripts.  In the model a use of a
freed object through any of these sets `ub`.  (The arithmetic of the grace period is in
`Props/Gc.lean`.)
-/

namespace Verif.Sup

open Verif (CStr)

section
variable {E : Env}

/-- C41 in full: no freed object is ever used. -/
def C41_no_use_after_free_full : Prop := ∀ (E : Env) (w : World), Reach E w → w.ub = false

/-- A service for runlevel S alone that is to be restarted 10 s after a crash. -/
def bootOnly : World :=
  run (calm [{ name := "a".toList, levels := lvS, restartTmo := 10000 }]) 20
    [.boot, .exit 108 (.exited 1), .gc 0, .timer 0]

/-- A service with a ready script that outlives it. -/
def readyLate : World :=
  run (calm [{ name := "a".toList, levels := lv2, ready := some 0 }] 17) 20
    [.boot, .bootCheck, .worker, .pidfile 0 112 true, .confTouch, .reloadAll,
     .exit 112 (.exited 0), .gc 0, .exit 115 (.exited 0)]

/-- A forking service with a readiness socket. -/
def watchLate : World :=
  run (calm [{ name := "a".toList, levels := lv2, notify := .systemd, forking := true }] 14) 20
    [.boot, .bootCheck, .worker, .exit 112 (.exited 0), .confTouch, .reloadAll, .gc 0,
     .notifyReady 0]

/-- The full claim does not hold of the code, for three separate reasons. -/
theorem C41_use_after_free : ¬ C41_no_use_after_free_full := by
  intro h
  have := h _ bootOnly (run_reach _ _ _)
  have e : bootOnly.ub = true := by decide +kernel
  rw [this] at e; cases e

/-- The three reasons: a crashed service for runlevel S alone is deleted with its restart timer
    running; a ready script may end after its service was freed; the start script of a forking
    service ends without the readiness socket being closed.  None of them involves re-entrancy. -/
theorem C41_three_ways :
    (bootOnly.ub = true ∧ bootOnly.reent = false ∧ bootOnly.oof = false) ∧
    (readyLate.ub = true ∧ readyLate.reent = false ∧ readyLate.oof = false) ∧
    (watchLate.ub = true ∧ watchLate.reent = false ∧ watchLate.oof = false) := by
  decide +kernel

/-- C41, partial: unless an object is taken off the list while a readiness watcher or a ready
    script refers to it, or because it is for runlevel S alone, no freed object is ever used; in
    every reachable state nothing refers to any freed object; no object is freed while listed or
    waiting to be freed, and none is freed twice.

    `w.trace` records with each `svc_del` the state in which it happened.  Missing: executions with
    re-entrancy, and the three cases above, in which the claim is false. -/
theorem C41_no_use_after_free_partial {w : World} (h : Reach E w) (hr : w.reent = false)
    (hd : ∀ c k, (c, Eff.del k) ∈ w.trace →
      (c.svc k).levels &&& (2 ^ 32 - 1 - 2 ^ 10) ≠ 0 ∧ (c.svc k).watch = false ∧
      ∀ p, (p, k) ∉ c.assoc) :
    w.ub = false ∧ w.freed.Nodup ∧
    ∀ k ∈ w.freed, k ∉ w.order ∧ k ∉ w.gc ∧
      (w.svc k).armed = false ∧ (w.svc k).watch = false ∧ ∀ p, (p, k) ∉ w.assoc := by
  have g := h.bury hr hd
  refine ⟨g.ub, h.freed_once hr hd, fun k hk => ?_⟩
  obtain ⟨h1, _, h3⟩ := g.freed k hk
  have b := g.buried k h1
  refine ⟨h1, h3, ?_, b.watch, b.assoc⟩
  cases e : (w.svc k).armed with
  | false => rfl
  | true => exact absurd b.timer (h.arm k e)

/-- The same in terms of the configuration: if no stanza ever read has a ready script, reports
    readiness through a socket, or is for runlevel S alone, no freed object is ever used. -/
theorem C41_plain_configuration_partial {w : World}
    (hE : ∀ t, ∀ z ∈ E.conf t, z.ready = none ∧ z.notify ≠ .systemd ∧ z.notify ≠ .s6 ∧
      z.levels &&& (2 ^ 32 - 1 - 2 ^ 10) ≠ 0)
    (h : Reach E w) (hr : w.reent = false) :
    w.ub = false ∧ w.freed.Nodup ∧
    ∀ k ∈ w.freed, k ∉ w.order ∧ k ∉ w.gc ∧
      (w.svc k).armed = false ∧ (w.svc k).watch = false ∧ ∀ p, (p, k) ∉ w.assoc :=
  C41_no_use_after_free_partial h hr (h.plainW hE hr).del

/-- A service that is removed from the configuration, stopped, and freed. -/
def freedDemo : World :=
  run (calm [{ name := "a".toList, levels := lv2 }, { name := "b".toList, levels := lv2 }] 14
      [{ name := "b".toList, levels := lv2 }]) 20
    [.boot, .bootCheck, .worker, .confTouch, .reloadAll, .exit 115 (.exited 0), .gc 0, .timer 0]

/-- Not vacuous: an object is freed, another is still listed. -/
example : freedDemo.freed = [0] ∧ freedDemo.order = [1] ∧ freedDemo.gc = [] ∧
    freedDemo.reent = false ∧ freedDemo.ub = false ∧
    (freedDemo.trace.all (fun x => match x.2 with
      | .del k => decide ((x.1.svc k).levels &&& (2 ^ 32 - 1 - 2 ^ 10) ≠ 0) &&
          !(x.1.svc k).watch && x.1.assoc.isEmpty
      | _ => true)) = true := by
  decide +kernel

end

end Verif.Sup
