import Verif.Line
import Verif.Runparts

/-!
# Halt, power off and reboot (src/reboot.c, src/initctl.c, src/api.c, src/sig.c, src/sm.c)

From the command line of `reboot`, `halt`, `poweroff`, `shutdown` and `suspend` to what the kernel is told.
-/

namespace Verif

/-! ## The command line -/

/-- `cmd_t`, src/reboot.c:34-40 -/
inductive DownCmd
  | reboot
  | halt
  | poweroff
  | suspend
  deriving DecidableEq, Repr

/-- `transform` for the name of the program, src/reboot.c:59-68 -/
def downByName (name : CStr) : DownCmd :=
  if name = "halt".toList then .halt
  else if name = "poweroff".toList ∨ name = "shutdown".toList then .poweroff
  else if name = "suspend".toList then .suspend
  else .reboot

/-- What getopt_long(3) can return, src/reboot.c:137: `-?` and anything unknown, `-f`, `-H`, `-h`, `-P` or `-p`, `-r`, `-t` -/
inductive DownOpt
  | help
  | force
  | halt
  | h
  | poweroff
  | reboot
  | timeout (arg : CStr)
  deriving DecidableEq, Repr

/-- What the program does: print its usage, complain about the timeout, tell the kernel, or ask init -/
inductive DownAsk
  | usage
  | badTimeout
  | force (cmd : DownCmd)
  | ask (cmd : DownCmd) (timeout : Int)
  deriving DecidableEq, Repr

/-- The loop over the options, src/reboot.c:137-170, and what follows, 172-240.  `sulogin`: called from the shell of
    sulogin(8). -/
def downOpts (sulogin : Bool) : DownCmd → Bool → Int → List DownOpt → DownAsk
  | cmd, force, timeout, [] => if force || sulogin then .force cmd else .ask cmd timeout
  | cmd, force, timeout, o :: os =>
    match o with
    | .help => .usage
    | .force => downOpts sulogin cmd true timeout os
    | .halt => downOpts sulogin .halt force timeout os
    | .h | .poweroff => downOpts sulogin .poweroff force timeout os
    | .reboot => downOpts sulogin .reboot force timeout os
    | .timeout a => if atoi a < 1 then .badTimeout else downOpts sulogin cmd force (atoi a) os

/-- `reboot_main`, src/reboot.c:120-243 -/
def rebootMain (sulogin : Bool) (name : CStr) (opts : List DownOpt) : DownAsk :=
  downOpts sulogin (downByName name) false 0 opts

/-! ## Init -/

/-- The states of the state machine, src/sm.c:41-52, where `off` is after `do_shutdown` -/
inductive DownPhase
  | boot
  | run
  | change
  | changeWait
  | reloadWait
  | off
  deriving DecidableEq, Repr

/-- The variables of init that matter.  `overflow`: the delay of the timer did not fit an int. -/
structure DownState where
  phase : DownPhase
  level : Nat
  cfglevel : Nat
  cmdlevel : Nat
  newlevel : Option Nat
  reload : Bool
  halt : ShutOp
  timer : Bool
  overflow : Bool
  told : Option ShutOp
  deriving DecidableEq, Repr

/-- `IS_RESERVED_RUNLEVEL`, src/private.h:35 -/
def reservedLevel (l : Nat) : Bool := decide (l = 0 ∨ l = 6 ∨ l = 10)

/-- The end of `do_shutdown`, src/sig.c:401-422 -/
def tellKernel (s : DownState) : DownState := { s with phase := .off, told := some s.halt }

/-- One turn of the loop in `sm_step`, src/sm.c:192-428, and whether it goes on.  `ready`: no service has yet to stop. -/
def downTurn (ready : Bool) (s : DownState) : DownState × Bool :=
  match s.phase with
  | .boot => if s.newlevel = none then (s, false) else ({ s with phase := .run }, true)
  | .run =>
    match s.newlevel with
    | some n => if s.level = n then ({ s with newlevel := none }, false) else ({ s with phase := .change }, true)
    | none => if s.reload then ({ s with reload := false, phase := .reloadWait }, true) else (s, false)
  | .change => ({ s with level := s.newlevel.getD 0, newlevel := none, phase := .changeWait }, true)
  | .changeWait =>
    if ready then
      if s.level = 0 ∨ s.level = 6 then (tellKernel s, false) else ({ s with phase := .run }, true)
    else (s, false)
  | .reloadWait => if ready then ({ s with phase := .run }, true) else (s, false)
  | .off => (s, false)

/-- The loop -/
def downLoop (ready : Bool) : Nat → DownState → DownState
  | 0, s => s
  | n + 1, s => if (downTurn ready s).2 then downLoop ready n (downTurn ready s).1 else (downTurn ready s).1

/-- `sm_step`: there are never more than 12 turns, `downLoop_enough`. -/
def downStep (ready : Bool) (s : DownState) : DownState := downLoop ready 12 s

/-- `sm_runlevel`, src/sm.c:465-480 -/
def downRunlevel (ready : Bool) (l : Nat) (s : DownState) : DownState := downStep ready { s with newlevel := some l }

/-- `do_reboot`, src/api.c:246-311, and the test before it, src/api.c:399-407.  It returns 1 for all but suspend, so the
    client is always told of a failure. -/
def downApi (ready : Bool) (cmd : DownCmd) (timeout : Int) (s : DownState) : DownState :=
  if reservedLevel s.level then s
  else
    let s := match cmd with
      | .reboot => { s with halt := .reboot }
      | .halt => { s with halt := .halt }
      | .poweroff => { s with halt := .off }
      | .suspend => s
    let s := if timeout > 0 then { s with timer := true, overflow := s.overflow || decide (timeout > 2147483) } else s
    match cmd with
    | .reboot => downRunlevel ready 6 s
    | .halt => downRunlevel ready 0 s
    | .poweroff => downRunlevel ready 0 s
    | .suspend => s

/-- The signal the client sends when it is told of a failure, src/reboot.c:212-234, as taken by `sigusr2_cb` and
    `sigterm_cb`, src/sig.c:515-556 -/
def downSignal (ready : Bool) (cmd : DownCmd) (s : DownState) : DownState :=
  if reservedLevel s.level then s
  else
    match cmd with
    | .reboot => downRunlevel ready 6 { s with halt := .reboot }
    | .halt | .poweroff => downRunlevel ready 0 { s with halt := .off }
    | .suspend => s

/-- The request for a runlevel, src/api.c:414-448 -/
def downLevel (ready : Bool) (c : Char) (s : DownState) : DownState :=
  if reservedLevel s.level = true ∧ s.level ≠ 10 then s
  else
    let c := if c = 's' ∨ c = 'S' then '1' else c
    if isDigit c then
      let l := c.toNat - 48
      let s := if l = 0 then { s with halt := .off } else s
      let s := if l = 6 then { s with halt := .reboot } else s
      if s.level = 10 then { s with cfglevel := l } else downRunlevel ready l s
    else s

/-- What happens: somebody calls one of the programs (the request, any number of steps of the state machine, the signal,
    which is sent as each request seems to have failed), asks for a runlevel, or for a reload; a service has ended;
    bootstrap is over; the timer is over.  The Booleans tell whether all services have stopped by then. -/
inductive DownEv
  | command (cmd : DownCmd) (timeout : Int) (ready : Bool) (steps : List Bool) (ready' : Bool)
  | level (c : Char) (ready : Bool)
  | reload (ready : Bool)
  | step (ready : Bool)
  | booted (ready : Bool)
  | tick
  deriving DecidableEq, Repr

/-- One event -/
def downEv (s : DownState) (e : DownEv) : DownState :=
  if s.phase = .off then s
  else match e with
    | .command c t r steps r' =>
      let s := downApi r c t s
      let s := steps.foldl (fun s r => downStep r s) s
      downSignal r' c s
    | .level c r => downLevel r c s
    | .reload r => if reservedLevel s.level then s else downStep r { s with reload := true }
    | .step r => downStep r s
    | .booted r =>
      if s.phase = .boot then downRunlevel r (if s.cmdlevel ≠ 0 then s.cmdlevel else s.cfglevel) s else s
    | .tick => if s.timer then tellKernel s else s

/-- Bootstrap, with the runlevels of the configuration and the kernel command line; `halt` is SHUT_DEFAULT, src/sig.h:58 -/
def downBoot (cfglevel cmdlevel : Nat) : DownState :=
  { phase := .boot, level := 10, cfglevel := cfglevel, cmdlevel := cmdlevel, newlevel := none, reload := false,
    halt := .halt, timer := false, overflow := false, told := none }

end Verif
