import Verif.Mounts

/-!
# Swap areas at bootstrap and shutdown (src/finit.c:412-432, src/sig.c:173-195)

The programs swapon(8) and swapoff(8) are modelled by what they do with each of their arguments; which device a name means, and whether the
kernel does as told, are parameters.  Commands are run by a shell (`run_interactive()`, src/exec.c:190-255, and popen(3)); of it only the
splitting of a command into words is modelled.  What it does with a command that has a character with a meaning for the shell is a parameter.
-/

namespace Verif

structure SwEnv where
  /-- The device a name means to swapon(8) and swapoff(8): a device, a file, `LABEL=`, `UUID=` -/
  dev : CStr → Option Nat
  /-- There is a program swapon -/
  haveOn : Bool
  /-- There is a program swapoff -/
  haveOff : Bool
  /-- swapon(2) succeeds -/
  okOn : Nat → Bool
  /-- swapoff(2) succeeds -/
  okOff : Nat → Bool
  /-- What else a shell does -/
  wild : CStr → List Nat → List Nat

/-- A character without a meaning for the shell -/
def swPlain (c : Char) : Bool := c.isAlphanum || ['/', '_', '-', '=', '.', ':', ',', '+', '@', '%'].contains c

/-- The words of a command without such characters; `acc` is the word so far -/
def swSplit : CStr → CStr → List CStr
  | acc, [] => if acc = [] then [] else [acc]
  | acc, c :: r => if c = ' ' then (if acc = [] then swSplit [] r else acc :: swSplit [] r) else swSplit (acc ++ [c]) r

/-- An argument of swapon(8) or swapoff(8); the areas in use -/
def swArg (E : SwEnv) (on : Bool) (used : List Nat) (arg : CStr) : List Nat :=
  match E.dev arg with
  | none => used
  | some d =>
    if on then (if E.okOn d && !used.contains d then used ++ [d] else used)
    else if E.okOff d then used.filter (· ≠ d) else used

/-- A command that is run -/
def swRun (E : SwEnv) (on : Bool) (cmd : CStr) (used : List Nat) : List Nat :=
  if cmd.all (fun c => swPlain c || c = ' ') then
    match swSplit [] cmd with
    | [] => used
    | _ :: args => args.foldl (swArg E on) used
  else E.wild cmd used

/-- `fs_swapon()`, src/finit.c:412-432, with `cmd[256]`, src/finit.c:435 -/
def swBoot (E : SwEnv) (es : List BfsEnt) (used : List Nat) : List Nat :=
  if E.haveOn then
    es.foldl (fun u e => if e.type ≠ "swap".toList then u else swRun E true (("swapon ".toList ++ e.fsname).take 255) u) used
  else used

/-- `fs_swapoff()`, src/sig.c:173-195 -/
def swHalt (E : SwEnv) (es : List BfsEnt) (used : List Nat) : List Nat :=
  if E.haveOff then
    es.foldl (fun u e => if e.type ≠ "swap".toList then u else swRun E false (("swapoff ".toList ++ e.fsname).take 255) u) used
  else used

end Verif
