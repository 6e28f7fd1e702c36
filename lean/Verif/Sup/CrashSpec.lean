import Verif.Sup.Types

/-!
# Crashes and restarts of a service, read off the trace (specification for C12)

The definitions below read the trace of effects (most recent first).
-/

namespace Verif.Sup

open Verif (CStr CondStore)

/-- This entry records a crash of `k`: the process of the running, wanted service is gone. -/
def crashOf (k : Key) (x : Core × Eff) : Bool :=
  decide (x.2 = .trans k .running .halted ∧ (x.1.svc k).block = .restarting ∧
    (x.1.svc k).removed = false ∧ ((x.1.svc k).type.isDaemon || decide ((x.1.svc k).type = .tty)) = true)

/-- This entry is a forked command process of `k`. -/
def startOf (k : Key) (x : Core × Eff) : Bool :=
  match x.2 with
  | .spawn _ j .main => decide (j = k)
  | _ => false

/-- Someone intervenes: `k` is created, its configuration is read again, or the user asks for it
    to be started, stopped, restarted or reloaded. -/
def interOf (k : Key) (x : Core × Eff) : Bool :=
  decide (x.2 = .new k ∨ x.2 = .reg k ∨ x.2 = .asked k)

/-- A crash of `k` that has neither been answered by the crash handler, nor by an intervention,
    nor been let go because the conditions of `k` are gone. -/
def crashPending (k : Key) : List (Core × Eff) → Bool
  | [] => false
  | x :: t =>
    if crashOf k x then true
    else if interOf k x ∨ x.2 = .retry k ∨ x.2 = .giveUp k ∨ x.2 = .lifted k then false
    else crashPending k t

/-- The crash handler has given up on `k`, and nobody has intervened since. -/
def gaveUp (k : Key) : List (Core × Eff) → Bool
  | [] => false
  | x :: t => if x.2 = .giveUp k then true else if interOf k x then false else gaveUp k t

/-- Instability index of `k` as the documentation describes it: one up for every automatic restart
    and every failed start, one down for every stable period. -/
def spent (k : Key) : List (Core × Eff) → Int
  | [] => 0
  | x :: t =>
    if x.2 = .new k ∨ x.2 = .giveUp k then 0
    else if x.2 = .retry k ∨ x.2 = .bump k then spent k t + 1
    else if x.2 = .age k then spent k t - 1
    else spent k t

/-- The index has always fitted the `signed char` it is kept in. -/
def Fits (k : Key) (t : List (Core × Eff)) : Prop := ∀ s, s <:+ t → spent k s ≤ 127

/-- Automatic restarts since the last intervention or stable period. -/
def retries (k : Key) : List (Core × Eff) → Nat
  | [] => 0
  | x :: t =>
    if interOf k x ∨ x.2 = .age k then 0
    else if x.2 = .retry k then retries k t + 1
    else retries k t

/-- Crashes let go because the conditions were gone, in the same period. -/
def lifts (k : Key) : List (Core × Eff) → Nat
  | [] => 0
  | x :: t =>
    if interOf k x ∨ x.2 = .age k then 0
    else if x.2 = .lifted k then lifts k t + 1
    else lifts k t

/-- Since the last start of `k` in this period, `k` has crashed. -/
def crashed (k : Key) : List (Core × Eff) → Bool
  | [] => false
  | x :: t =>
    if crashOf k x then true
    else if interOf k x ∨ x.2 = .age k ∨ startOf k x then false
    else crashed k t

/-- Starts of `k` after a crash, in this period. -/
def crashStarts (k : Key) : List (Core × Eff) → Nat
  | [] => 0
  | x :: t =>
    if interOf k x ∨ x.2 = .age k then 0
    else if startOf k x ∧ crashed k t then crashStarts k t + 1
    else crashStarts k t

end Verif.Sup
