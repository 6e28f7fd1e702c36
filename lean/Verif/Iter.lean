import Verif.CStr

/-!
# Listing the services

`svc_iterator` (src/svc.c:226-244) as the API uses it, with one iterator for all clients (src/api.c:341, 539-548), `svc_new`, `svc_del` and `svc_gc`
(src/svc.c:83-187).  Services are objects with a number; of their contents nothing is modelled.  The iterator is a pointer: it can point to an object that
is in the list of those to be freed, or to one that was freed.
-/

namespace Verif

/-- The two lists, the iterator, the time in milliseconds, and the number of the next object -/
structure ItSt where
  live : List Nat
  /-- with the time of deletion -/
  gc : List (Nat × Nat)
  iter : Option Nat
  now : Nat
  next : Nat
  deriving DecidableEq, Repr

/-- `TAILQ_NEXT` -/
def itAfter (x : Nat) : List Nat → Option Nat
  | [] => none
  | y :: l => if y = x then l.head? else itAfter x l

/-- What a client is sent: a service, or one with PID -1.  `ub` is the use of an object that was freed. -/
inductive ItAns
  | svc (x : Nat)
  | fin
  | ub
  deriving DecidableEq, Repr

/-- `svc_iterator`, src/svc.c:226-244, and `send_svc`, src/api.c:324-337 -/
def itAsk (s : ItSt) (first : Bool) : ItAns × ItSt :=
  match (if first then s.live.head? else s.iter) with
  | none => (.fin, s)
  | some x =>
    if x ∈ s.live then (.svc x, { s with iter := itAfter x s.live })
    else if x ∈ s.gc.map (·.1) then (.svc x, { s with iter := itAfter x (s.gc.map (·.1)) })
    else (.ub, s)

/-- What happens -/
inductive ItEv
  /-- a request of a client, src/client.c:146-183 -/
  | ask (client : Nat) (first : Bool)
  | add
  | del (x : Nat)
  | wait (ms : Nat)
  | collect
  deriving DecidableEq, Repr

/-- `svc_new`, src/svc.c:154; `svc_del`, 174-187; `svc_gc`, 90-103 -/
def itStep (s : ItSt) : ItEv → ItSt × Option (Nat × ItAns)
  | .ask c first => ((itAsk s first).2, some (c, (itAsk s first).1))
  | .add => ({ s with live := s.live ++ [s.next], next := s.next + 1 }, none)
  | .del x => (if x ∈ s.live then { s with live := s.live.erase x, gc := s.gc ++ [(x, s.now)] } else s, none)
  | .wait ms => ({ s with now := s.now + ms }, none)
  | .collect => ({ s with gc := s.gc.filter fun g => decide (s.now - g.2 < 3000) }, none)

/-- All of it, with the answers -/
def itRun (s : ItSt) : List ItEv → ItSt × List (Nat × ItAns)
  | [] => (s, [])
  | e :: es => ((itRun (itStep s e).1 es).1, (itStep s e).2.toList ++ (itRun (itStep s e).1 es).2)

end Verif
