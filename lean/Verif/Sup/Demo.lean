import Verif.Sup.Model

/-!
# Supervisor model: concrete executions

Used as examples that the hypotheses of the theorems can be met, and as witnesses where a
property does not hold.
-/

namespace Verif.Sup

open Verif (CStr)

/-- Run events in the given order from the start of PID 1 (runlevel 2 configured). -/
def run (E : Env) (n : Nat) (evs : List Ev) : World :=
  evs.foldl (fun w e => handle E n e w) (World.start 2 0)

theorem foldl_reach {E : Env} {n : Nat} (evs : List Ev) : ∀ {w : World}, Reach E w →
    Reach E (evs.foldl (fun w e => handle E n e w) w) := by
  induction evs with
  | nil => exact fun h => h
  | cons e es ih => exact fun h => ih (.event n e h)

theorem run_reach (E : Env) (n : Nat) (evs : List Ev) : Reach E (run E n evs) :=
  foldl_reach evs (.start 2 0)

/-- An environment in which every system call works, pid 100 + t is given out at time t, and
    the configuration is `zs` up to time `t1` and `zs2` from then on. -/
def calm (zs : List Stanza) (t1 : Nat := 1000000) (zs2 : List Stanza := []) : Env :=
  { ask := fun _ => 0, pid := fun t => 100 + t, conf := fun t => if t < t1 then zs else zs2,
    hook := fun _ => [] }

/-- Runlevel masks. -/
def lvS : Nat := 2 ^ 10
def lv2 : Nat := 2 ^ 2
def lv234 : Nat := 2 ^ 2 + 2 ^ 3 + 2 ^ 4
def lvAll : Nat := 2 ^ 11 - 1

/-- What happened, oldest first. -/
def World.log (w : World) : List Eff := (w.trace.map (·.2)).reverse

/-- Is this the start of the command of service `k`? -/
def Eff.isStart (k : Key) : Eff → Bool
  | .spawn _ j .main => decide (j = k)
  | _ => false

end Verif.Sup
