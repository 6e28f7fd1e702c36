import Verif.Conf
import Verif.Sulogin
import Verif.Environ

/-!
# Modules for the devices found at boot (plugins/modprobe.c)

nftw(3) is a parameter: the files it comes to, in order, each with its path, whether it is a regular file its owner may read, and its text
if fopen(3) succeeds.  Memory is never short.  What becomes of a fork is a parameter as well.  A process that waits for a child that has
become a second init waits for good: the signal that may interrupt waitpid(2) is not modelled.
-/

namespace Verif

/-- A file below /sys/devices -/
structure CpFile where
  path : CStr
  reg : Bool
  text : Option CStr
  deriving DecidableEq, Repr

/-- `scan_uevent` with the file open, plugins/modprobe.c:163-187: the first line read that begins so counts. -/
def cpUevent : List (List Char) → Option CStr
  | [] => none
  | buf :: ls => if "MODALIAS=".toList.isPrefixOf buf then some ((chompLine buf).drop 9) else cpUevent ls

/-- `scan_modalias` with the file open, plugins/modprobe.c:143-161 -/
def cpModalias (ls : List (List Char)) : Option CStr := ls.head?.map chompLine

/-- `maybe_fopen_alias`, plugins/modprobe.c:129-141; a path without a slash is never opened -/
def cpOpen (file : CStr) (f : CpFile) : Option CStr :=
  if basenm f.path = f.path then none
  else if file ≠ basenm f.path then none
  else f.text

/-- `alias_add_uniq`, plugins/modprobe.c:89-127 -/
def cpAdd (al : List CStr) : Option CStr → List CStr
  | none => al
  | some a => if a ∈ al then al else al ++ [a]

/-- `scan_alias`, plugins/modprobe.c:189-202 -/
def cpScan (al : List CStr) (f : CpFile) : List CStr :=
  if f.reg then
    match cpOpen "uevent".toList f with
    | some text => cpAdd al (cpUevent (fgetsAll text))
    | none =>
      match cpOpen "modalias".toList f with
      | some text => cpAdd al (cpModalias (fgetsAll text))
      | none => al
  else al

/-- What becomes of `fork` and `execvp` in `modprobe` -/
inductive CpTurn
  | noFork
  | run
  | missing
  deriving DecidableEq, Repr

/-- The aliases modprobe is started with, the sum of the return values, and how many generations below the process that began is the one
    that goes on -/
structure CpRes where
  ran : List CStr := []
  rc : Nat := 0
  depth : Nat := 0
  deriving DecidableEq, Repr

/-- The loop over the aliases, plugins/modprobe.c:220-223, with `modprobe`, 64-87.  If `execvp` fails the child returns from `modprobe` as well and
    goes on with the rest of the list, while its parent waits for it. -/
def cpProbe (turn : Nat → CpTurn) : Nat → List CStr → CpRes
  | _, [] => {}
  | n, a :: as =>
    let r := cpProbe turn (n + 1) as
    match turn n with
    | .noFork => { r with rc := r.rc + 1 }
    | .run => { r with ran := a :: r.ran }
    | .missing => { r with depth := r.depth + 1 }

/-- What coldplug finds: /lib/modules, a mounted /sys, the files of nftw(3) if that succeeds, and the forks -/
structure CpEnv where
  modules : Bool
  sys : Bool
  tree : Option (List CpFile)
  turn : Nat → CpTurn

/-- `coldplug`, plugins/modprobe.c:204-227 -/
def coldplug (e : CpEnv) : CpRes :=
  if !e.modules then {}
  else if !e.sys then {}
  else
    match e.tree with
    | none => {}
    | some files => cpProbe e.turn 0 (files.foldl cpScan [])

end Verif
