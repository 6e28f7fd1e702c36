import Verif.Line

/-!
# Terminals: the `tty` line, registration, and starting getty (src/tty.c, src/service.c, src/getty.c)

The words of a line are what strtok(3) gives.  `svc->baud` and `svc->term` are left out: nothing reads them.
-/

namespace Verif

/-- `struct tty`, src/tty.h:31-44, and `passenv` -/
structure Tty where
  cmd : Option CStr := none
  args : List CStr := []
  dev : Option CStr := none
  noclear : Bool := false
  nowait : Bool := false
  nologin : Bool := false
  notty : Bool := false
  rescue : Bool := false
  passenv : Bool := false
  deriving DecidableEq, Repr

/-- The outside: `whichp`, whether a path exists and is a character device, the path of the bundled getty, and the words in
    /sys/class/tty/console/active -/
structure TtyEnv where
  which : CStr → Bool
  stat : CStr → Option Bool
  getty : CStr
  consoles : List CStr

/-- One word, src/tty.c:158-173 -/
def ttyWord (E : TtyEnv) (t : Tty) (w : CStr) : Tty :=
  if w = "noclear".toList then { t with noclear := true }
  else if w = "nowait".toList then { t with nowait := true }
  else if w = "nologin".toList then { t with nologin := true }
  else if w = "notty".toList then { t with notty := true }
  else if w = "passenv".toList then { t with passenv := true }
  else if w = "rescue".toList then { t with rescue := true }
  else if t.cmd = none ∧ E.which w = true then { t with cmd := some w }
  else { t with args := t.args ++ [w] }

/-- The first loop of `tty_parse_args`, src/tty.c:157-176 -/
def ttyWords (E : TtyEnv) : Tty → List CStr → Tty
  | t, [] => t
  | t, w :: ws => if (ttyWord E t w).args.length < 64 then ttyWords E (ttyWord E t w) ws else ttyWord E t w

/-- Words taken for a device, src/tty.c:195-201 -/
def isDevWord (w : CStr) : Bool :=
  decide (w = "@console".toList) || "/dev".toList.isPrefixOf w || "tty".toList.isPrefixOf w || decide (w = "console".toList)

/-- `tty_canonicalize`, src/tty.c:49-76; the buffer has 80 bytes -/
def ttyCanon (E : TtyEnv) (dev : CStr) : Option CStr :=
  if dev = "@console".toList then some dev
  else match E.stat (dev.take 79) with
    | some chr => if chr then some (dev.take 79) else none
    | none =>
      if "/dev/".toList.isPrefixOf (dev.take 79) then some (dev.take 79)
      else match E.stat (("/dev/".toList ++ dev).take 79) with
        | some chr => if chr then some (("/dev/".toList ++ dev).take 79) else none
        | none => some (("/dev/".toList ++ dev).take 79)

/-- `tty_parse_args`, src/tty.c:151-250 -/
def ttyParse (E : TtyEnv) (words : List CStr) : Option Tty :=
  let t := ttyWords E {} words
  let t := if t.rescue then { t with notty := true } else t
  if t.notty then some t
  else match (t.args.find? isDevWord).bind (ttyCanon E) with
    | none => none
    | some d =>
      some { t with
        dev := some d
        args := if t.cmd = none ∧ t.passenv = true ∧ t.args.length < 64 then "-p".toList :: t.args else t.args
        cmd := some (t.cmd.getD E.getty) }

/-- `tty_atcon`, src/tty.c:88-132: the next console.  The state is what strtok_r(3) has yet to find, none if the file is to be
    read (again). -/
def ttyAtcon (E : TtyEnv) (st : Option (List CStr)) : Option CStr × Option (List CStr) :=
  match st.getD E.consoles with
  | [] => (none, none)
  | d :: ds => (some d, some ds)

/-- The part of a registered service that matters -/
structure TtySvc where
  cmd : CStr
  args : List CStr
  dev : CStr
  noclear : Bool
  nowait : Bool
  nologin : Bool
  notty : Bool
  rescue : Bool
  deriving DecidableEq, Repr

/-- The program, src/service.c:1845-1852 -/
def ttyCmd (t : Tty) : CStr := t.cmd.getD "tty".toList

/-- What is stored, src/service.c:1927-1945: the device in 32 bytes, the arguments by `parse_cmdline_args`, with @console
    replaced -/
def ttySvc (t : Tty) (dev : Option CStr) : TtySvc :=
  let d := strlcpy 32 (dev.getD [])
  { cmd := ttyCmd t
    args := strlcpy 256 (ttyCmd t) ::
      (cmdLoop t.args none [] 1).1.map (fun a => if a = "@console".toList then d else a)
    dev := d, noclear := t.noclear, nowait := t.nowait, nologin := t.nologin, notty := t.notty, rescue := t.rescue }

/-- A service is found by its device, `svc_find_by_tty`, src/svc.c:502-520, and updated, or a new one is made. -/
def ttyPut (dev : Option CStr) (s : TtySvc) : List TtySvc → List TtySvc
  | [] => [s]
  | x :: xs => if dev = some x.dev then s :: xs else x :: ttyPut dev s xs

/-- From `next:` on, src/service.c:1831-2080: one service for each console.  The number is more than there are consoles. -/
def ttyNext (E : TtyEnv) (t : Tty) : Nat → Option CStr → Option (List CStr) → List TtySvc → Option (List CStr) × List TtySvc
  | 0, _, st, svcs => (st, svcs)
  | n + 1, dev, st, svcs =>
    if E.which (ttyCmd t) = false then (st, svcs)
    else
      let svcs := ttyPut dev (ttySvc t dev) svcs
      if t.dev = some "@console".toList then
        match ttyAtcon E st with
        | (some d, st) => ttyNext E t n (some d) st svcs
        | (none, st) => (st, svcs)
      else (st, svcs)

/-- Registering a line, src/service.c:1819-2080 -/
def ttyRegister (E : TtyEnv) (words : List CStr) (st : Option (List CStr)) (svcs : List TtySvc) :
    Option (List CStr) × List TtySvc :=
  match ttyParse E words with
  | none => (st, svcs)
  | some t =>
    let a := if t.dev = some "@console".toList then ttyAtcon E st else (t.dev, st)
    ttyNext E t ((a.2.getD []).length + 2) a.1 a.2 svcs

/-- What is run -/
inductive TtyRun
  /-- sulogin(8), or a shell if there is none -/
  | rescue
  /-- a shell without a device -/
  | bare
  /-- a shell on the device -/
  | shell (dev : CStr) (noclear nowait : Bool)
  /-- execv(3) with these arguments, the first of which is the name of the program -/
  | exec (dev cmd : CStr) (argv : List CStr) (noclear nowait : Bool)
  | fail
  deriving DecidableEq, Repr

/-- `tty_exec`, src/tty.c:268-323; `exist` is `tty_exists` -/
def ttyExec (E : TtyEnv) (exist : CStr → Bool) (s : TtySvc) : TtyRun :=
  if s.notty then (if s.rescue then .rescue else .bare)
  else match ttyCanon E s.dev with
    | none => .fail
    | some dev =>
      if exist dev = false then .fail
      else if s.nologin then .shell dev s.noclear s.nowait
      else .exec dev s.cmd (s.args.drop 1) s.noclear s.nowait

/-- What getty is told -/
structure GettyArgs where
  passenv : Bool
  tty : CStr
  speed : Int
  term : Option CStr
  deriving DecidableEq, Repr

/-- `main` of the bundled getty, src/getty.c:379-413; none is a usage message.  Simplified: options come first. -/
def gettyMain (argv : List CStr) : Option GettyArgs :=
  match (argv.drop 1).dropWhile (fun a => decide (a = "-p".toList)) with
  | [] => none
  | tty :: rest =>
    if tty.head? = some '-' then none
    else some { passenv := decide ((argv.drop 1).head? = some "-p".toList), tty := tty,
                speed := atoi (rest.head?.getD ['0']), term := (rest.drop 1).head? }

end Verif
