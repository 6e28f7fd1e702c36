import Verif.CStr

/-!
# Boot parameters

Model of `conf_parse_cmdline` and its parsers in src/conf.c, of `cond_boot_parse` and `cond_boot_strap` in src/cond-w.c,
of the `runlevel` line of finit.conf, and of the choice of a runlevel at the end of bootstrap in src/sm.c.

Simplified: built with rescue mode and without `--enable-kernel-cmdline`; the log level of the kernel is not modelled.
-/

namespace Verif

/-- How progress is shown, src/helpers.h:45-49 -/
inductive Progress
  | silent
  | classic
  | modern
  deriving DecidableEq, Repr

/-- What boot parameters set.  `fsckMode` is `none` if file systems are not checked. -/
structure BootOpts where
  /-- arguments of `finit.cond`, newest first: `cond_boot_list` -/
  conds : List CStr := []
  config : CStr
  fstab : Option CStr
  debug : Bool
  progress : Progress
  rescue : Bool := false
  single : Bool := false
  cmdlevel : Nat := 0
  fsckMode : Option CStr
  fsckRepair : CStr
  deriving DecidableEq, Repr

/-- `get_bool`, src/conf.c:127-138 -/
def getBool (arg : Option CStr) (dflt : Bool) : Bool :=
  match arg with
  | none => dflt
  | some a =>
    if a = "true".toList ∨ a = "on".toList ∨ a = "1".toList then true
    else if a = "false".toList ∨ a = "off".toList ∨ a = "0".toList then false
    else dflt

/-- A parameter at its first `=`, src/conf.c:162-164 -/
def splitEq (opt : CStr) : CStr × Option CStr :=
  (opt.takeWhile (· ≠ '='), match opt.dropWhile (· ≠ '=') with
    | [] => none
    | _ :: a => some a)

/-- `parse_finit_opts`, src/conf.c:158-211 -/
def finitOpt (o : BootOpts) (name : CStr) (arg : Option CStr) : BootOpts :=
  if name = "cond".toList then
    match arg with
    | none => o
    | some a => { o with conds := a :: o.conds }
  else if name = "config".toList then
    match arg with
    | none => o
    | some a => { o with config := a }
  else if name = "debug".toList then { o with debug := getBool arg true }
  else if name = "fstab".toList then
    match arg with
    | none => o
    | some a => { o with fstab := some a }
  else if name = "status_style".toList then
    match arg with
    | none => o
    | some a =>
      if a = "old".toList ∨ a = "classic".toList then { o with progress := .classic } else { o with progress := .modern }
  else if name = "status".toList ∨ name = "show_status".toList then
    { o with progress := if getBool arg true then .modern else .silent }
  else o

/-- `parse_fsck_opts`, src/conf.c:213-248 -/
def fsckOpt (o : BootOpts) (name : CStr) (arg : Option CStr) : BootOpts :=
  if name = "mode".toList then
    match arg with
    | none => o
    | some a =>
      if a = "skip".toList then { o with fsckMode := none }
      else if a = "auto".toList then { o with fsckMode := some [] }
      else if a = "force".toList then { o with fsckMode := some "-f".toList }
      else o
  else if name = "repair".toList then
    match arg with
    | none => o
    | some a =>
      if a = "no".toList then { o with fsckRepair := "-n".toList }
      else if a = "preen".toList then { o with fsckRepair := "-p".toList }
      else if a = "yes".toList then { o with fsckRepair := "-y".toList }
      else o
  else o

/-- Value of digits, as of `strtonum`; values above the range are errors as well -/
def digitsVal (ds : CStr) : Nat := ds.foldl (fun v c => 10 * v + (c.toNat - '0'.toNat)) 0

/-- `parse_runlevel`, src/conf.c:256-275 -/
def parseLevel (arg : CStr) : Nat :=
  if arg.all (fun c => decide ('0' ≤ c ∧ c ≤ '9')) then
    if digitsVal arg < 1 ∨ 9 < digitsVal arg ∨ digitsVal arg = 6 then 0 else digitsVal arg
  else 0

/-- `parse_arg`, src/conf.c:277-304 -/
def bootArg (o : BootOpts) (arg : CStr) : BootOpts :=
  if "finit.".toList <+: arg then finitOpt o (splitEq (arg.drop 6)).1 (splitEq (arg.drop 6)).2
  else if "fsck.".toList <+: arg then fsckOpt o (splitEq (arg.drop 5)).1 (splitEq (arg.drop 5)).2
  else if arg = "rescue".toList ∨ arg = "recover".toList then { o with rescue := true }
  else if arg = "single".toList ∨ arg = "S".toList then { o with single := true }
  else { o with cmdlevel := parseLevel arg }

/-- `conf_parse_cmdline`, src/conf.c:368-385; `o` has what is set when finit is built -/
def bootOpts (o : BootOpts) (args : List CStr) : BootOpts := args.foldl bootArg o

/-- `cond_boot_strap`, src/cond-w.c:76-104: the conditions that are set once they can be -/
def bootConds (o : BootOpts) : List CStr :=
  o.conds.flatMap fun a => (tokens (· = ',') a).map fun c =>
    if "boot/".toList <+: c then c else "boot/".toList ++ c

/-- The runlevel of finit.conf: the `runlevel` line, src/conf.c:1008-1018.  `none` is a token that is not a number
    from 1 to 9. -/
def confLevel (dflt : Nat) (token : Option Nat) : Nat :=
  let l := match token with
    | some n => if 1 ≤ n ∧ n ≤ 9 then n else dflt
    | none => dflt
  if l < 1 ∨ 9 < l ∨ l = 6 then 2 else l

/-- The runlevel after bootstrap: src/conf.c:1417-1419 and src/sm.c:72, 101-108.  `cfg` is the configured one. -/
def firstLevel (o : BootOpts) (cfg : Nat) : Nat :=
  if o.cmdlevel ≠ 0 then o.cmdlevel else if o.single then 1 else cfg

end Verif
