import Verif.CStr

/-!
# The watchdog daemon

`src/watchdog.c`, one system call at a time, with the device of the kernel and the passing of time, in milliseconds.  Signals
may come between any two of the calls; a signal ends sleep(3) but only if that has begun.

The device is that of the kernel (drivers/watchdog/watchdog_dev.c): opening it starts the timer, a timeout that is accepted is
also a sign of life, and the timer goes on after close(2) unless `V` was written.  The board is reset when the timer has run
out.  A kernel that never stops the timer (`nowayout`) is left out.
-/

namespace Verif

/-- The device: whether the timer runs, the timeout, the last sign of life, and whether closing stops it -/
structure WdHw where
  on : Bool
  timeout : Nat
  last : Nat
  magic : Bool
  deriving DecidableEq, Repr

/-- Where the program is -/
inductive WdPc
  /-- opened, about to set the timeout, src/watchdog.c:74 -/
  | init
  /-- at the loop, 76 -/
  | top
  /-- about to sleep in it, 78 -/
  | nap
  /-- after the loop, 82 -/
  | left
  /-- about to see whether to hand over, 88 -/
  | hand
  /-- about to write `V`, 91 -/
  | magic
  /-- at the second loop, 111 -/
  | wtop
  /-- about to sleep in it, 113 -/
  | wnap
  /-- about to set the timeout, 116 -/
  | wset
  /-- about to close the device, 118 -/
  | closing
  | gone
  deriving DecidableEq, Repr

/-- Program, device and time.  `due`: the time the program can go on; later than now if it sleeps. -/
structure WdSt where
  now : Nat
  due : Nat
  pc : WdPc
  running : Bool
  handover : Bool
  shutdown : Bool
  hw : WdHw
  reset : Bool
  deriving DecidableEq, Repr

/-- What happens: time passes, the program makes a call, SIGTERM or SIGPWR arrives -/
inductive WdEv
  | tick (ms : Nat)
  | act
  | term
  | pwr
  deriving DecidableEq, Repr

/-- `WDIOC_KEEPALIVE` -/
def wdPing (s : WdSt) : WdSt := { s with hw := { s.hw with last := s.now } }

/-- `WDIOC_SETTIMEOUT` with a number of seconds -/
def wdSet (accepts : Nat → Bool) (s : WdSt) (sec : Nat) : WdSt :=
  if accepts sec then { s with hw := { s.hw with timeout := sec * 1000, last := s.now } } else s

/-- The next call, src/watchdog.c:68-118; `WDT_TIMEOUT` is 30, src/watchdog.h:29 -/
def wdAct (accepts : Nat → Bool) (s : WdSt) : WdSt :=
  match s.pc with
  | .init => { wdSet accepts s 30 with pc := .top }
  | .top => if s.running then { wdPing s with pc := .nap } else { s with pc := .left }
  | .nap => { s with pc := .top, due := s.now + 15000 }
  | .left => { (if s.shutdown then wdSet accepts s 10 else s) with pc := .hand }
  | .hand => if s.handover then { wdPing s with pc := .magic } else { s with pc := .wtop }
  | .magic => { s with hw := { s.hw with magic := true, last := s.now }, pc := .wtop }
  | .wtop => if s.handover then { s with pc := .closing } else { s with pc := .wnap }
  | .wnap => { s with pc := .wset, due := s.now + 1000 }
  | .wset => { wdSet accepts s (if s.shutdown then 1 else 0) with pc := .wtop }
  | .closing => { s with hw := { s.hw with on := s.hw.on && !s.hw.magic }, pc := .gone }
  | .gone => s

/-- `sighandler`, src/watchdog.c:43-51, which ends a sleep -/
def wdSignal (s : WdSt) (term : Bool) : WdSt :=
  if s.pc = .gone then s
  else { s with running := false, handover := s.handover || term, shutdown := s.shutdown || !term, due := min s.due s.now }

/-- One event.  The program makes no call while it sleeps; and when it has made one it can go on at once unless it sleeps now. -/
def wdStep (accepts : Nat → Bool) (s : WdSt) : WdEv → WdSt
  | .tick n => { s with now := s.now + n, reset := s.reset || (s.hw.on && decide (s.hw.last + s.hw.timeout < s.now + n)) }
  | .act => if s.due ≤ s.now then wdAct accepts { s with due := s.now } else s
  | .term => wdSignal s true
  | .pwr => wdSignal s false

/-- The device has just been opened; the timeout is the driver's -/
def wdOpen (dflt : Nat) : WdSt := ⟨0, 0, .init, true, false, false, ⟨true, dflt, 0, false⟩, false⟩

/-- Events from a state on -/
def wdFrom (accepts : Nat → Bool) (s : WdSt) (es : List WdEv) : WdSt := es.foldl (wdStep accepts) s

/-- Events from the opening of the device on -/
def wdRun (accepts : Nat → Bool) (dflt : Nat) (es : List WdEv) : WdSt := wdFrom accepts (wdOpen dflt) es

end Verif
