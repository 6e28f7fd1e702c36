/-!
# Deferred destruction of service objects

`svc_del` (src/svc.c:174-183) takes a service off the service list, stamps it with the time and puts
it on `gc_list`.  `svc_gc` (src/svc.c:83-105), run by a timer, frees the objects on that list that
have been there for `SVC_TERM_TIMEOUT`.

Modelled: the list, the time stamps with the C arithmetic on them (`time_t` and `long` are 64 bit,
`int` is 32 bit, conversion to `int` keeps the low 32 bits), and the timer.  Not modelled:
`maybe_clear_cond` and the contents of the objects, which are in the supervisor model.
-/

namespace Verif.Gc

/-- `struct timespec` -/
structure Ts where
  sec : Int
  nsec : Int
  deriving DecidableEq, Repr

/-- A time stamp as `clock_gettime` returns it. -/
def Ts.ok (t : Ts) : Prop := 0 ≤ t.nsec ∧ t.nsec < 1000000000

instance (t : Ts) : Decidable t.ok := inferInstanceAs (Decidable (_ ∧ _))

/-- `SVC_TERM_TIMEOUT`, src/svc.h:108, in ms -/
def grace : Int := 3000

/-- Conversion to `int`. -/
def toInt (x : Int) : Int := (x + 2 ^ 31) % 2 ^ 32 - 2 ^ 31

/-- The age of an object as computed in src/svc.c:93-94. -/
def msec (now at_ : Ts) : Int :=
  toInt ((now.sec - at_.sec) * 1000 + (now.nsec - at_.nsec).tdiv 1000000)

/-- A service object on `gc_list`; `svc->gc` is the time of its removal. -/
structure Obj where
  id : Nat
  stamp : Ts
  deriving DecidableEq, Repr

/-- `gc_list`, the calls of `free` so far, most recent first, and whether the timer is set. -/
structure State where
  list : List Obj := []
  freed : List (Nat × Ts) := []
  timer : Bool := false
  deriving DecidableEq, Repr

/-- `svc_del`, src/svc.c:174-183, with `schedule_work`, src/schedule.c:50-64 -/
def del (id : Nat) (now : Ts) (s : State) : State :=
  { s with list := s.list ++ [⟨id, now⟩], timer := true }

/-- The loop of `svc_gc`, src/svc.c:90-101 -/
def sweep (now : Ts) : List Obj → State → State
  | [], s => s
  | o :: rest, s =>
    if msec now o.stamp < grace then sweep now rest s
    else sweep now rest { s with list := s.list.erase o, freed := (o.id, now) :: s.freed }

/-- `svc_gc`, src/svc.c:83-105, called when the timer expires -/
def gc (now : Ts) (s : State) : State :=
  let s := sweep now s.list { s with timer := false }
  { s with timer := !s.list.isEmpty }

/-- What happens: a service object is removed, or the timer expires. -/
inductive Ev
  | del (id : Nat)
  | timer
  deriving DecidableEq, Repr

/-- One event at time `now`; the timer expires only if it is set. -/
def step (s : State) (x : Ev × Ts) : State :=
  match x.1 with
  | .del id => del id x.2 s
  | .timer => if s.timer then gc x.2 s else s

/-- A history of events, in order, from the start of the program. -/
def run (h : List (Ev × Ts)) : State := h.foldl step {}

end Verif.Gc
