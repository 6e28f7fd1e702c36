import Verif.Util

/-!
# Ending what is left at shutdown (src/sig.c)

kill(2) is not modelled further than that it is called; what processes do with signals is the environment.
-/

namespace Verif

/-- A directory of /proc that is a number: the number and the contents of `cmdline`, with all arguments, each ended by a
    zero -/
structure RProc where
  pid : Nat
  cmdline : List Char
  deriving DecidableEq, Repr

/-- fgets(3) with a buffer of 1024 bytes, src/sig.c:231: up to the first newline, none at the end of the file; what is read is
    then used as a string, which ends at the first zero. -/
def firstLine (file : List Char) : Option CStr :=
  if file = [] then none
  else
    let b := file.take 1023
    let l := b.takeWhile (fun c => decide (c ≠ '\n')) ++ (b.dropWhile (fun c => decide (c ≠ '\n'))).take 1
    some (l.takeWhile (fun c => decide (c.toNat ≠ 0)))

/-- Whether the callback is called for a process, `do_iterate_proc`, src/sig.c:204-250; its `cmdline` can be opened. -/
def reapable (p : RProc) : Bool :=
  if p.pid = 0 then false
  else if p.pid = 1 then false
  else match firstLine p.cmdline with
    | none => false
    | some file =>
      if (strstr "gdbserver".toList file).isSome then false
      else if file.head? = some '@' then false
      else if (strstr "initctl".toList file).isSome then false
      else true

/-- The processes there are: when SIGTERM is sent, at each poll after it (from 1), when SIGKILL is sent, and when file
    systems are unmounted -/
structure ReapEnv where
  atTerm : List RProc
  atPoll : Nat → List RProc
  atKill : List RProc
  atEnd : List RProc

/-- Signals sent -/
inductive RSig
  | term
  | kill
  deriving DecidableEq, Repr

/-- `do_iterate_proc` with `kill_cb`, src/sig.c:252-259 -/
def reapSend (sig : RSig) (ps : List RProc) : List (RSig × Nat) := (ps.filter reapable).map (fun p => (sig, p.pid))

/-- `do_iterate_proc` with `status_cb`, src/sig.c:261-269 -/
def reapStatus (ps : List RProc) : Bool := ps.any reapable

/-- The loop of `do_wait`, src/sig.c:281-289, after `k` polls and with `n` more after the next: whether anything is left, and
    the number of polls -/
def reapLoop (env : ReapEnv) : Nat → Nat → Bool × Nat
  | 0, k => (reapStatus (env.atPoll (k + 1)), k + 1)
  | n + 1, k => if reapStatus (env.atPoll (k + 1)) then reapLoop env n (k + 1) else (false, k + 1)

/-- `do_wait`, src/sig.c:275-292: polls are 250 ms apart -/
def reapWait (env : ReapEnv) (secs : Nat) : Bool × Nat := reapLoop env (secs * 1000 * 1000 / 250000 - 1) 0

/-- The part of `do_shutdown` in src/sig.c:314-322: the signals sent, in order, and the number of polls -/
def reapAll (env : ReapEnv) : List (RSig × Nat) × Nat :=
  let w := reapWait env 1
  (reapSend .term env.atTerm ++ (if w.1 then reapSend .kill env.atKill else []), w.2)

end Verif
