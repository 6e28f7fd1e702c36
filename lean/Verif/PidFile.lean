import Verif.Util

/-!
# PID files (src/pid.c) and the options `kill:` and `halt:` (src/service.c)
-/

namespace Verif

/-- `paste(buf, len, dir, file)` of libite, without the limit: `dir`, a slash if needed, `file`.
    `dir` does not end in a slash here. -/
def paste (dir file : CStr) : CStr := dir ++ (if file.head? = some '/' then [] else ['/']) ++ file

/-- What follows the first `/run/`, if any, src/pid.h:63-65 -/
def afterRun (file : CStr) : CStr :=
  match strstr "/run/".toList file with
  | some (_, b) => b
  | none => file

/-- `pid_runpath`, src/pid.h:50-73.  `pre` is the static `prefix`: `/run` if that is a directory,
    else `/var/run`.  A result that does not fit is cut off (and an error is logged). -/
def pidRunpath (pre file : CStr) (len : Nat) : CStr :=
  (paste pre (afterRun file)).take (len - 1)

/-- `pid_file`, src/pid.c:103-114, of a service with the given `pidfile` -/
def pidFile (pidfile : CStr) : Option CStr :=
  match pidfile with
  | [] => none
  | c :: cs => if c = '!' then some cs else some (c :: cs)

/-- Result of the parser: invalid, undefined behaviour, or the new `svc->pidfile`. -/
inductive PidRes
  | bad
  | ub
  | ok (pidfile : CStr)
  deriving DecidableEq, Repr

/-- `pid_file_set`, src/pid.c:150-176.  `old` is `svc->pidfile` before, of 256 (MAX_CMD_LEN) bytes. -/
def pidFileSet (pre : CStr) (forking : Bool) (old : CStr) (file : Option CStr) (not : Bool) : PidRes :=
  match file.or (pidFile old) with
  | none => .bad
  | some file =>
    let not := not || file.head? = some '!'
    let file := if file.head? = some '!' then file.drop 1 else file
    let not := not || forking
    let buf := pidRunpath pre (deDotdot file) 256
    if not then .ok ('!' :: buf.take 254) else .ok (buf.take 255)

/-- `pid_file_parse`, src/pid.c:206-238.  `path` has 64 (MAX_ARG_LEN) bytes: `&path[len - 4]` is
    beyond its end if the full name has 68 bytes or more. -/
def pidFileParse (pre : CStr) (forking : Bool) (old arg : CStr) : PidRes :=
  if arg = [] then .bad
  else if "pid:".toList.isPrefixOf arg then
    let arg := arg.drop 4
    if "!/".toList.isPrefixOf arg ∨ arg.head? = some '/' then pidFileSet pre forking old (some arg) false
    else
      let not := decide (arg.head? = some '!')
      let arg := if not then arg.drop 1 else arg
      let full := (if not then ['!'] else []) ++ "/var/run/".toList ++ arg
      let path := full.take 63
      if full.length > 4 then
        if full.length - 4 ≥ 64 then .ub
        else if path.drop (full.length - 4) ≠ ".pid".toList then
          pidFileSet pre forking old (some (strlcat 64 path ".pid".toList)) false
        else pidFileSet pre forking old (some path) false
      else pidFileSet pre forking old (some path) false
  else if arg = "pid".toList then pidFileSet pre forking old none false
  else .bad

/-! ## Options -/

/-- `isspace` in the C locale -/
def isSpace (c : Char) : Bool := decide (c.toNat = 32 ∨ (9 ≤ c.toNat ∧ c.toNat ≤ 13))

/-- The sign in front of a number: is it negative, and what follows. -/
def signOf (s : CStr) : Bool × CStr :=
  if s.head? = some '-' then (true, s.drop 1)
  else if s.head? = some '+' then (false, s.drop 1) else (false, s)

/-- `strtonum(3)` of OpenBSD (in libite): the whole string must be a number, with white space and a
    sign allowed in front, from `lo` to `hi`. -/
def strtonum (s : CStr) (lo hi : Int) : Option Int :=
  let neg := (signOf (s.dropWhile isSpace)).1
  let s := (signOf (s.dropWhile isSpace)).2
  if s = [] ∨ ¬ (∀ c ∈ s, isDigit c = true) then none
  else
    let n : Int := if neg then - (digits s : Int) else digits s
    if n < lo ∨ n > hi then none else some n

/-- `parse_killdelay`, src/service.c:1419-1432: the new `svc->killdelay` -/
def parseKilldelay (cur : Int) (delay : CStr) : Int :=
  match strtonum delay 1 300 with
  | none => cur
  | some sec => sec * 1000

/-- `parse_sighalt`, src/service.c:1408-1417: the new `svc->sighalt` -/
def parseSighalt (cur : Int) (arg : CStr) : Int :=
  if sigNum arg = -1 then cur else sigNum arg

end Verif
