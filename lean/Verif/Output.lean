import Verif.Line
import Verif.Log
import Verif.Json
import Verif.Sulogin

/-!
# Where the output of a service goes: src/service.c:205-415, src/logit.c and the `log` line of src/conf.c

Not modelled: failures of fork(2), dup2(2), strdup(3) and ptsname(3), what pty(7) does to the text, and sysklogd's logger(1), of
which the arguments are known only.  syslog(3) and openlog(3) are those of glibc.  Rotation is in Verif/Rotate.lean.
-/

namespace Verif

/-! ## The `log` line -/

/-- The `static` variables of the `log` line, src/conf.c:977, and the globals it sets, src/conf.c:72-73 -/
structure LogSet where
  size : Int := 200000
  count : Int := 5
  sizeMax : Int := 200000
  countMax : Int := 5
  deriving DecidableEq, Repr

/-- `strtobytes(strtok(NULL, ":= "))`, NULL included.  `none` is an overflow. -/
def logNum : Option CStr → Option Int
  | none => some (-1)
  | some w => match strtobytes w with
    | .bad => some (-1)
    | .val n => some n
    | .ub => none

/-- The separators of src/conf.c:979 -/
def isLogMark (c : Char) : Bool := c == ':' || c == '=' || c == ' '

/-- The loop over the words, src/conf.c:980-987.  `none` is an overflow. -/
def logWords (s : LogSet) : List CStr → Option LogSet
  | [] => some s
  | [w] =>
    if w.take 4 = "size".toList then some { s with size := -1 }
    else if w.take 5 = "count".toList then some { s with count := -1 }
    else some s
  | w :: v :: ws =>
    if w.take 4 = "size".toList then
      match logNum (some v) with
      | none => none
      | some n => logWords { s with size := n } ws
    else if w.take 5 = "count".toList then
      match logNum (some v) with
      | none => none
      | some n => logWords { s with count := n } ws
    else logWords s (v :: ws)

/-- The rest of a `log` line, src/conf.c:975-995 -/
def logLine (s : LogSet) (x : CStr) : Option LogSet :=
  match logWords s (tokens isLogMark x) with
  | none => none
  | some s =>
    some { s with
           sizeMax := if 0 ≤ s.size then s.size else s.sizeMax
           countMax := if 0 ≤ s.count then s.count else s.countMax }

/-! ## redirect -/

/-- The outside: can a pty be had, is `logger` that of sysklogd, is there a `logit`, which files open for writing, the
    console, `debug`, the build option REDIRECT_OUTPUT, the PID, and the globals of the `log` line -/
structure OutEnv where
  pty : Bool := true
  sysklogd : Bool := false
  logit : Bool := true
  opens : CStr → Bool := fun _ => true
  console : CStr := "/dev/console".toList
  debug : Bool := false
  redirectOutput : Bool := false
  pid : Nat := 1
  sizeMax : Int := 200000
  countMax : Int := 5
  same : CStr → CStr → Bool := fun a b => a == b

/-- Where standard output and standard error of the process are led to -/
inductive Out
  | inherited                                        -- what PID 1 has
  | file (path : CStr)
  | prog (path : CStr) (argv : List CStr)            -- to a program
  | finitlog (tag : CStr) (facility level : Int)     -- to a process that calls syslog(3)
  deriving DecidableEq, Repr

/-- `fredirect`, src/service.c:232-244 -/
def fredirect (E : OutEnv) (path : CStr) : Out := if E.opens path then .file path else .inherited

/-- `_PATH_LOGIT`, in a build with the default prefix -/
def logitPath : CStr := "/usr/libexec/finit/logit".toList

/-- `debug ? "-s" : NULL` -/
def debugFlag (E : OutEnv) : List CStr := if E.debug then ["-s".toList] else []

/-- `lredirect`, src/service.c:267-392, with `fallback_logger`, 250-265.  `rot` has 25 bytes, `sz` 20, `num` 3 and `pid` 16; the
    priority has 20 bytes (src/svc.h), so the 256 of `fallback_logger` are enough. -/
def lredirect (E : OutEnv) (ident : CStr) (notify : LNotify) (l : LogCfg) : Out :=
  if !E.pty then .inherited
  else
    let tag := if l.ident ≠ [] then l.ident else ident
    let prio := if l.prio ≠ [] then l.prio else "daemon.info".toList
    if !E.sysklogd && !E.logit then
      let r := logParse E.same prio 24 5
      .finitlog tag r.2.1 r.2.2
    else if l.file.head? = some '/' then
      if E.sysklogd then
        .prog "logger".toList (["logger".toList, "-f".toList, l.file, "-b".toList, "-t".toList, tag, "-p".toList, prio, "-I".toList,
          strlcpy 16 (intText E.pid), "-r".toList, strlcpy 25 (intText E.sizeMax ++ ':' :: intText E.countMax)] ++ debugFlag E)
      else
        .prog logitPath (["logit".toList, "-f".toList, l.file, "-n".toList, strlcpy 20 (intText E.sizeMax), "-r".toList,
          strlcpy 3 (intText E.countMax)] ++ debugFlag E)
    else if E.sysklogd && notify ≠ .systemd then
      .prog "logger".toList (["logger".toList, "-t".toList, tag, "-p".toList, prio, "-I".toList, strlcpy 16 (intText E.pid)] ++
        debugFlag E)
    else .prog logitPath (["logit".toList, "-t".toList, tag, "-p".toList, prio] ++ debugFlag E)

/-- `redirect`, src/service.c:397-415.  Standard input is `/dev/null`, if that opens, whatever the rest. -/
def redirect (E : OutEnv) (ident : CStr) (notify : LNotify) (l : LogCfg) : Out :=
  if l.enabled then
    if l.null then fredirect E "/dev/null".toList
    else if l.console then fredirect E E.console
    else lredirect E ident notify l
  else if E.debug then fredirect E E.console
  else if E.redirectOutput then fredirect E "/dev/null".toList
  else .inherited

/-! ## logit -/

/-- The variables of `main`, src/logit.c:211-217 -/
structure LogitCfg where
  ident : Option CStr := none
  file : Option CStr := none
  stderr : Bool := false
  fac : Int := 8
  lvl : Int := 6
  size : Int := 204800
  num : Int := 5
  words : List CStr := []
  deriving DecidableEq, Repr

/-- A name in one of the tables of <syslog.h>, src/logit.c:153-158 and 168-175 -/
def prioLookup (names : List (CStr × Int)) (s : CStr) : Option Int :=
  (names.find? fun p => decide (p.1 = s)).map (·.2)

/-- `parse_prio`, src/logit.c:134-187.  `none` is the return value 1, after which the program ends. -/
def parsePrio (arg : CStr) (cfg : LogitCfg) : Option LogitCfg :=
  if '.' ∈ arg then
    match prioLookup facilityNames (arg.takeWhile fun c => decide (c ≠ '.')) with
    | none => none
    | some f => match prioLookup priorityNames ((arg.dropWhile fun c => decide (c ≠ '.')).drop 1) with
      | none => none
      | some l => some { cfg with fac := f, lvl := l }
  else match prioLookup priorityNames arg with
    | none => none
    | some l => some { cfg with lvl := l }

/-- An option with an argument, src/logit.c:220-253.  `none`: the program ends. -/
def logitOpt (c : Char) (v : CStr) (cfg : LogitCfg) : Option LogitCfg :=
  if c = 'f' then some { cfg with file := some v }
  else if c = 'n' then some { cfg with size := atoi v }
  else if c = 'p' then parsePrio v cfg
  else if c = 'r' then some { cfg with num := atoi v }
  else if c = 't' then some { cfg with ident := some v }
  else none

/-- What getopt(3) made of the letters after a dash -/
inductive Letters
  | done (cfg : LogitCfg)
  | wants (c : Char) (cfg : LogitCfg)      -- the argument of `c` is the next word
  | ends                                   -- -h, -v, or an option that is unknown or refused
  deriving DecidableEq, Repr

/-- The letters of a word of options, getopt(3) with "f:hn:p:r:st:v" -/
def logitLetters : CStr → LogitCfg → Letters
  | [], cfg => .done cfg
  | c :: cs, cfg =>
    if c = 's' then logitLetters cs { cfg with stderr := true }
    else if c ∈ ['f', 'n', 'p', 'r', 't'] then
      if cs = [] then .wants c cfg
      else match logitOpt c cs cfg with
        | some cfg => .done cfg
        | none => .ends
    else .ends

/-- The loop of `main`, src/logit.c:219-258; getopt(3) of glibc puts the words that are no options last -/
def logitArgs : List CStr → LogitCfg → Option LogitCfg
  | [], cfg => some cfg
  | [a], cfg =>
    if a = "--".toList then some cfg
    else if a.head? = some '-' ∧ a.tail ≠ [] then
      match logitLetters a.tail cfg with
      | .done cfg => some cfg
      | _ => none
    else some { cfg with words := cfg.words ++ [a] }
  | a :: b :: rest, cfg =>
    if a = "--".toList then some { cfg with words := cfg.words ++ b :: rest }
    else if a.head? = some '-' ∧ a.tail ≠ [] then
      match logitLetters a.tail cfg with
      | .done cfg => logitArgs (b :: rest) cfg
      | .wants c cfg =>
        match logitOpt c b cfg with
        | some cfg => logitArgs rest cfg
        | none => none
      | .ends => none
    else logitArgs (b :: rest) { cfg with words := cfg.words ++ [a] }

/-- The pieces `while ((fgets(buf, 512, stdin)))` reads -/
def fgetsLog (s : CStr) : List CStr :=
  match s with
  | [] => []
  | c :: s => (fgetsOne 511 (c :: s)).1 :: fgetsLog (fgetsOne 511 (c :: s)).2
  termination_by s.length
  decreasing_by
    rw [show (511 : Nat) = 510 + 1 from rfl, fgetsOne]
    split
    · exact Nat.lt_succ_self _
    · exact Nat.lt_succ_of_le (fgetsOne_le 510 s)

/-- `parse_level`, src/logit.c:98-121: the level, with the facility bits of the default, and the text -/
def markLevel (dflt : Nat) : CStr → Nat × CStr
  | '<' :: d :: '>' :: m =>
    if 48 ≤ d.toNat ∧ d.toNat ≤ 55 then (dflt / 8 * 8 + (d.toNat - 48), m) else (dflt, '<' :: d :: '>' :: m)
  | m => (dflt, m)

/-- A message in the system log -/
structure LogMsg where
  tag : CStr
  pri : Nat
  text : CStr
  deriving DecidableEq, Repr

/-- openlog(3) of glibc: facility 0 is not taken, LOG_USER stays -/
def openFac (fac : Nat) : Nat := if fac = 0 then 8 else fac

/-- syslog(3) of glibc: the facility of openlog(3) is used if there is none in the priority -/
def sysPri (fac pri : Nat) : Nat := if pri / 8 = 0 then pri + openFac fac else pri

/-- `logit` and `do_log`, src/logit.c:123-141, of standard input; `user` is LOGNAME, USER or the name of the package -/
def logitRun (user : CStr) (cfg : LogitCfg) (input : CStr) : List LogMsg :=
  (fgetsLog input).map fun p =>
    { tag := cfg.ident.getD user, pri := sysPri cfg.fac.toNat (markLevel cfg.lvl.toNat p).1, text := (markLevel cfg.lvl.toNat p).2 }

end Verif
