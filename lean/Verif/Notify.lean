import Verif.CStr

/-!
# Readiness notification

Finit's end: `service_start` (src/service.c:656-664,706-733,744-748) and `service_notify_cb` (src/service.c:3083-3150).
The other end: `sd_notify` (libsystemd/sd-daemon.c:38-91), which daemons are linked with.
Simplified: memory, sockets and `setenv()` never fail, process numbers are not used twice while a socket is open, and a
datagram that is sent is not dropped.  For s6 the pipe is given by the pieces that are read from it.
-/

namespace Verif

/-- `NOTIFY_PATH`, src/service.c:60 -/
def notifyPath (pid : Nat) : CStr := "@run/finit/notify/".toList ++ Nat.toDigits 10 pid

/-- What the parent binds the socket to, src/service.c:711-717: `sun_path` has 108 bytes; the first byte is zero. -/
def notifyBind (pid : Nat) : CStr := Char.ofNat 0 :: (strlcpy 108 (notifyPath pid)).drop 1

/-- The variable `NOTIFY_SOCKET` of the child, src/service.c:735,746: `str` has 20 + 32 bytes. -/
def notifyVar (pid : Nat) : CStr := strlcpy 52 (notifyPath pid)

/-- What `sd_notify` does: an error, nothing, or a message to an address -/
inductive SdCall
  | error
  | nothing
  | send (addr msg : CStr)
  deriving DecidableEq, Repr

/-- `sd_notify` up to `connect`, libsystemd/sd-daemon.c:38-73 -/
def sdNotify (env : Option CStr) (state : CStr) : SdCall :=
  if state = [] then .error
  else
    match env with
    | none => .nothing
    | some path =>
      if path.head? ≠ some '/' ∧ path.head? ≠ some '@' then .error
      else if path.length ≥ 108 then .error
      else .send (if path.head? = some '@' then Char.ofNat 0 :: path.drop 1 else path) state

/-- The services that use the protocol of systemd, by some number: their processes, whether the socket is bound, what is in it,
    and whether they are ready -/
structure NotifySt where
  bound : Nat → Bool := fun _ => false
  queue : Nat → List CStr := fun _ => []
  ready : Nat → Bool := fun _ => false

/-- Whether a message makes a service ready, src/service.c:3097-3113: 31 bytes are read of it. -/
def isReadyMsg (msg : CStr) : Bool := decide ("READY=1".toList ∈ tokens (· == '\n') (msg.take 31))

/-- For s6, src/service.c:3114-3116: a piece of at most 31 bytes ends in a line feed. -/
def isReadyPiece (piece : CStr) : Bool := decide (piece.getLast? = some '\n')

/-- What happens: the parent binds the socket of a service; some process calls `sd_notify` with this value of the variable; the
    parent reads a message. -/
inductive NotifyEv
  | bind (i : Nat)
  | call (env : Option CStr) (msg : CStr)
  | read (i : Nat)

/-- One event, for services with these processes -/
def notifyStep (pids : List Nat) (s : NotifySt) : NotifyEv → NotifySt
  | .bind i => { s with bound := fun j => if j = i then true else s.bound j }
  | .call env msg =>
    match sdNotify env msg with
    | .send addr m =>
      match (List.range pids.length).find? (fun i => s.bound i && decide (notifyBind (pids.getD i 0) = addr)) with
      | some i => { s with queue := fun j => if j = i then s.queue j ++ [m] else s.queue j }
      | none => s
    | _ => s
  | .read i =>
    match s.queue i with
    | [] => s
    | m :: ms =>
      { s with
        queue := fun j => if j = i then ms else s.queue j
        ready := fun j => if j = i then s.ready j || isReadyMsg m else s.ready j }

/-- Some events -/
def notifyRun (pids : List Nat) (es : List NotifyEv) : NotifySt := es.foldl (notifyStep pids) {}

/-- Reading a pipe in pieces of at most 31 bytes, src/service.c:3097: all that was written at once -/
def pipePieces (text : CStr) : List CStr :=
  if h : text = [] then [] else text.take 31 :: pipePieces (text.drop 31)
termination_by text.length
decreasing_by
  have := List.length_pos_iff.2 h
  rw [List.length_drop]
  omega

/-- `sd_pid_notify`, libsystemd/sd-daemon.c:119-155: what is called, and the variable afterwards if the socket exists -/
def sdPidNotify (pid : Nat) (unset : Bool) (env : Option CStr) (state : CStr) : SdCall × Option CStr :=
  if state = [] then (.error, env)
  else
    let path := strlcpy 256 (notifyPath pid)
    (sdNotify (some path) state,
      match env with
      | some e => some e
      | none => if unset then none else some path)

end Verif
