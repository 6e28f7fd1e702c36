import Verif.Down

/-!
# The network and the runlevels (src/sm.c, src/helpers.c)

When `networking()` is called, and what it does.  Changing runlevel is that of Verif/Down.lean.
-/

namespace Verif

/-! ## When -/

/-- Init, and the calls of `networking()` that did something so far: up or down, and the runlevel at that time.  `rescue`:
    rescue mode, src/conf.c:290-291 and src/finit.c:658-659; it does not change after bootstrap. -/
structure RnState where
  down : DownState
  rescue : Bool
  calls : List (Bool × Nat)
  deriving DecidableEq, Repr

/-- The loop in `sm_step`, src/sm.c:192-428, with `downTurn`.  `ready`: for each turn, that no service has yet to stop by then -/
def rnLoop : Nat → List Bool → DownState → DownState
  | 0, _, s => s
  | n + 1, ready, s =>
    if (downTurn (ready.headD false) s).2 then rnLoop n ready.tail (downTurn (ready.headD false) s).1
    else (downTurn (ready.headD false) s).1

/-- `sm_step`: there are never more than 12 turns, `rnLoop_enough`. -/
def rnSm (ready : List Bool) (s : DownState) : DownState := rnLoop 12 ready s

/-- The runlevel asked for, src/sm.c:470 -/
def rnWant (l : Nat) (d : DownState) : DownState := { d with newlevel := some l }

/-- `sm_runlevel`, src/sm.c:465-480.  It does not come back from `sm_step()` if the system goes down in there. -/
def rnRunlevel (ready : List Bool) (l : Nat) (s : RnState) : RnState :=
  let up := !s.rescue && decide (s.down.level = 1 ∨ s.down.level = 10) && !reservedLevel l
  let calls := if up then s.calls ++ [(true, s.down.level)] else s.calls
  let d := rnSm ready (rnWant l s.down)
  if d.phase = .off then { s with down := d, calls := calls }
  else if !s.rescue && reservedLevel d.level then { s with down := d, calls := calls ++ [(false, d.level)] }
  else { s with down := d, calls := calls }

/-- What happens: a runlevel is asked for, src/api.c:414-448; the system is to go down, src/api.c:399-407 and
    src/sig.c:515-556; a reload is asked for; a service has ended; bootstrap is over, src/sm.c:60-109; the timer of a
    shutdown is over. -/
inductive RnAct
  | ask (l : Fin 10) (ready : List Bool)
  | halt (ready : List Bool)
  | reboot (ready : List Bool)
  | reload (ready : List Bool)
  | step (ready : List Bool)
  | booted (ready : List Bool)
  | expire
  deriving DecidableEq, Repr

/-- One act.  How the system goes down is left out. -/
def rnStep (s : RnState) (a : RnAct) : RnState :=
  if s.down.phase = .off then s
  else match a with
    | .ask l r =>
      if s.down.level = 0 ∨ s.down.level = 6 then s
      else if s.down.level = 10 then { s with down := { s.down with cfglevel := l } }
      else rnRunlevel r l s
    | .halt r => if reservedLevel s.down.level then s else rnRunlevel r 0 s
    | .reboot r => if reservedLevel s.down.level then s else rnRunlevel r 6 s
    | .reload r => if reservedLevel s.down.level then s else { s with down := rnSm r { s.down with reload := true } }
    | .step r => { s with down := rnSm r s.down }
    | .booted r =>
      if s.down.phase = .boot then rnRunlevel r (if s.down.cmdlevel ≠ 0 then s.down.cmdlevel else s.down.cfglevel) s else s
    | .expire => { s with down := tellKernel s.down }

/-- All acts, after bootstrap has begun with the runlevels of the configuration and the kernel command line -/
def rnRun (rescue : Bool) (cfg cmd : Nat) (acts : List RnAct) : RnState :=
  acts.foldl rnStep { down := downBoot cfg cmd, rescue := rescue, calls := [] }

/-! ## What -/

/-- What the system offers: the script of the `network` directive, `ifup` and `ifquery` in the path, the file
    `/etc/network/interfaces`; and whether fork(2) fails -/
structure RnSys where
  script : Option CStr
  ifup : Bool
  ifquery : Bool
  interfaces : Bool
  forkFails : Bool
  deriving DecidableEq, Repr

/-- What is done: a script is run to its end, a command is run beside Finit, the loopback interface is brought up or down,
    hooks are run -/
inductive RnDoes
  | script (cmd : CStr)
  | beside (cmd : CStr)
  | loopback (up : Bool)
  | hooks (up : Bool)
  deriving DecidableEq, Repr

/-- `networking`, src/helpers.c:411-482.  Its first test is left out: the runlevel before this one is never 0, as that is
    never left. -/
def rnNetworking (y : RnSys) (up : Bool) : List RnDoes :=
  let main := match up, y.script with
    | true, some c => [RnDoes.script c]
    | _, _ =>
      if y.ifup && y.interfaces then
        if y.forkFails then []
        else [.beside (if up then "ifup -a 2>&1".toList
          else if y.ifquery then "ifdown -a --force 2>&1".toList else "ifdown -a -f 2>&1".toList)]
      else [.loopback up]
  main ++ [.hooks up]

end Verif
