import Verif.Conf
import Verif.Exec
import Verif.Runlevels
import Verif.Cond

/-!
# Service lines

Model of the parser for `service`, `task`, `run` and `sysv` lines: `service_register` and its helpers,
src/service.c:1250-2083.  What a line means is split as in the code: the description is cut off, leading words
are taken as options as long as they look like one, the next word is the command and the rest are its arguments;
then a service object, new or found by its name, is filled in.

Not modelled: `tty` lines; a bare `cgroup` option (it takes the bytes that follow it in the line for the name of
the group; the result `odd` marks it); running out of memory.  The tests for `if:` and for the bootstrap
runlevel, which decide whether the line is used at all, are parts of the supervisor model.  Programs that exist,
the user the supervisor runs as, and global settings are parameters.
-/

namespace Verif

/-! ## Words -/

/-- The loop of `parse_args`, src/service.c:1271-1308: the word and what follows the byte that ends it.  `q` is
    the open quote (`in_quote`), `colon` is `has_colon`. -/
def argLoop : Option Char → Bool → CStr → CStr × CStr
  | _, _, [] => ([], [])
  | some q, colon, c :: cs =>
    let r := argLoop (if c = q then none else some q) colon cs
    (c :: r.1, r.2)
  | none, colon, c :: cs =>
    if isQuote c then
      let r := argLoop (some c) colon cs
      (c :: r.1, r.2)
    else if c = ':' then
      let r := argLoop none true cs
      (c :: r.1, r.2)
    else if isBlank c then
      if colon && decide ((cs.dropWhile isBlank).head? = some ',') then
        let r := argLoop none colon cs
        (c :: r.1, r.2)
      else ([], cs)
    else
      let r := argLoop none colon cs
      (c :: r.1, r.2)

/-- `parse_args`, src/service.c:1255-1323 -/
def parseArgs (line : CStr) : Option (CStr × CStr) :=
  match line.dropWhile isBlank with
  | [] => none
  | c :: cs => some (argLoop none false (c :: cs))

/-- `MATCH_CMD`, src/private.h:32-33: what follows the prefix, which is in lower case -/
def matchCmd (pre : String) (l : CStr) : Option CStr :=
  if lower (l.take pre.length) = pre.toList then some (l.drop pre.length) else none

/-- `atoi` of glibc: `strtol`, which stops at the limits of `long`, made an `int` -/
def atoi (s : CStr) : Int :=
  let neg := (signOf (s.dropWhile isSpace)).1
  let n : Int := digits ((signOf (s.dropWhile isSpace)).2.takeWhile isDigit)
  let n : Int := if neg then max (-n) (-9223372036854775808) else min n 9223372036854775807
  (n + 2147483648) % 4294967296 - 2147483648

/-! ## Options -/

/-- `svc_oncrash_action_t`, src/svc.h:83-87 -/
inductive OnCrash
  | ignore | reboot | script
  deriving DecidableEq, Repr

/-- The local variables of `service_register` that hold the options, src/service.c:1661-1681, with their
    defaults.  `name` is without the leading `name:`. -/
structure Opts where
  username : Option CStr := none
  runlevels : Option CStr := none
  cond : Option CStr := none
  id : Option CStr := none
  log : Option CStr := none
  pid : Option CStr := none
  name : Option CStr := none
  notify : Option CStr := none
  halt : Option CStr := none
  delay : Option CStr := none
  pre : Option CStr := none
  post : Option CStr := none
  ready : Option CStr := none
  cleanup : Option CStr := none
  reload : Option CStr := none
  stop : Option CStr := none
  env : Option CStr := none
  cgroup : Option CStr := none
  conflict : Option CStr := none
  ifstmt : Option CStr := none
  forking : Bool := false
  manual : Bool := false
  nowarn : Bool := false
  respawn : Bool := false
  restartMax : Int := 10
  restartTmo : Int := 0
  oncrash : OnCrash := .ignore
  deriving DecidableEq, Repr

/-- One word: an option, the command, or undefined behaviour (overflow of an `int`). -/
inductive Tok
  | opt (o : Opts)
  | cmd
  | ub
  deriving DecidableEq, Repr

/-- The time given with `restart_sec:`, src/service.c:1757,1759: `atoi(arg) * 1000` -/
def restartSec (o : Opts) (arg : CStr) : Tok :=
  if atoi arg * 1000 < -2147483648 ∨ 2147483647 < atoi arg * 1000 then .ub
  else .opt { o with restartTmo := atoi arg * 1000 }

/-- `oncrash:`, src/service.c:1765-1770: both tests are made, the second one on what the first leaves in `arg` -/
def onCrashArg (a : CStr) (cur : OnCrash) : OnCrash :=
  let cur := if (matchCmd "reboot" a).isSome then .reboot else cur
  if (matchCmd "script" ((matchCmd "reboot" a).getD a)).isSome then .script else cur

/-- The options that start with a word, in the order in which they are tried, src/service.c:1735-1799.  Each is
    given the whole word and what follows the prefix. -/
def optTable : List (String × (CStr → CStr → Opts → Tok)) :=
  [("log", fun w _ o => .opt { o with log := some w }),
   ("pid", fun w _ o => .opt { o with pid := some w }),
   ("name:", fun _ a o => .opt { o with name := some a }),
   ("notify:", fun _ a o => .opt { o with notify := some a }),
   ("type:forking", fun _ _ o => .opt { o with forking := true }),
   ("manual:yes", fun _ _ o => .opt { o with manual := true }),
   ("restart:", fun _ a o =>
      .opt { o with restartMax := if (matchCmd "always" a).isSome then -1 else atoi a }),
   ("restarttmo:", fun _ a o => restartSec o a),
   ("restart_sec:", fun _ a o => restartSec o a),
   ("norestart", fun _ _ o => .opt { o with restartMax := 0 }),
   ("nowarn", fun _ _ o => .opt { o with nowarn := true }),
   ("oncrash:", fun _ a o => .opt { o with oncrash := onCrashArg a o.oncrash }),
   ("respawn", fun _ _ o => .opt { o with respawn := true }),
   ("halt:", fun _ a o => .opt { o with halt := some a }),
   ("kill:", fun _ a o => .opt { o with delay := some a }),
   ("pre:", fun _ a o => .opt { o with pre := some a }),
   ("post:", fun _ a o => .opt { o with post := some a }),
   ("ready:", fun _ a o => .opt { o with ready := some a }),
   ("cleanup:", fun _ a o => .opt { o with cleanup := some a }),
   ("reload:", fun _ a o => .opt { o with reload := some a }),
   ("stop:", fun _ a o => .opt { o with stop := some a }),
   ("env:", fun _ a o => .opt { o with env := some a }),
   ("cgroup", fun _ a o => .opt { o with cgroup := some a }),
   ("conflict:", fun _ a o => .opt { o with conflict := some a }),
   ("if:", fun _ a o => .opt { o with ifstmt := some a })]

/-- The first option of the table that the word starts with; if there is none, the word is the command. -/
def optFind (w : CStr) (o : Opts) : List (String × (CStr → CStr → Opts → Tok)) → Tok
  | [] => .cmd
  | (pre, f) :: t =>
    match matchCmd pre w with
    | some a => f w a o
    | none => optFind w o t

/-- The chain of `else if` in `service_register`, src/service.c:1727-1802 -/
def optWord (w : CStr) (o : Opts) : Tok :=
  if w.head? = some '@' then .opt { o with username := some (w.drop 1) }
  else if w.head? = some '[' then .opt { o with runlevels := some w }
  else if w.head? = some '<' then .opt { o with cond := some (w.drop 1) }
  else if w.head? = some ':' then .opt { o with id := some (w.drop 1) }
  else optFind w o optTable

/-- What a line says: nothing useful (`incomplete:`), undefined behaviour, or the options, the command and the
    text that follows it. -/
inductive Parsed
  | incomplete
  | ub
  | ok (o : Opts) (cmd args : CStr)
  deriving DecidableEq, Repr

/-- The loop of `service_register`, src/service.c:1712-1808.  Every round uses up a word, so the length of the
    line is enough fuel. -/
def optLoop : Nat → Opts → CStr → Parsed
  | 0, _, _ => .incomplete
  | n + 1, o, line =>
    match parseArgs line with
    | none => .incomplete
    | some (w, rest) =>
      match optWord w o with
      | .cmd => .ok o w rest
      | .ub => .ub
      | .opt o => optLoop n o rest

/-- The line without the description, and the description, src/service.c:1693-1710 -/
def splitDesc (line : CStr) : CStr × Option CStr :=
  match strstr "-- ".toList line with
  | some (a, b) => (a, some (b.dropWhile isBlank))
  | none =>
    if 2 < line.length ∧ line.drop (line.length - 2) = "--".toList then
      (line.take (line.length - 2), some [])
    else (line, none)

/-- The options, the command and the text after it, src/service.c:1693-1808 -/
def parseLine (line : CStr) : Parsed := optLoop ((splitDesc line).1.length + 1) {} (splitDesc line).1

/-- `parse_name`, src/service.c:1487-1512 -/
def parseName (cmd : CStr) (name : Option CStr) : CStr :=
  match name with
  | some n => n
  | none =>
    let path := cmd.takeWhile (· ≠ ' ')
    let pos := (path.drop 1).reverse.dropWhile (· ≠ '/')
    -- up to and including the last slash after the first byte
    cmd.drop (if pos = [] then 0 else pos.length + 1)

/-! ## Arguments -/

/-- The loop of `parse_cmdline_args`, src/service.c:1534-1575, over the words that `strtok_r` finds: the
    arguments stored, and what is left in the next slot if a quote is never closed.  `cur` is that slot, `i` its
    number.  Each slot has 256 bytes. -/
def cmdLoop : List CStr → Option Char → CStr → Nat → List CStr × CStr
  | [], sep, cur, _ => ([], if sep.isSome then cur else [])
  | a :: as, sep, cur, i =>
    if 63 ≤ i then ([], if sep.isSome then cur else [])
    else
      let cur := if sep.isNone then [] else cur
      let quote := (a.head?).any isQuote
      let cur := if quote then cur else if sep.isSome then strlcat 256 cur [' '] else cur
      let sep := if quote then a.head? else sep
      let cur := strlcat 256 cur a
      if sep.isSome && decide (a.getLast? ≠ sep) then cmdLoop as sep cur i
      else
        let r := cmdLoop as none [] (i + 1)
        (cur :: r.1, r.2)

/-- The arguments that follow the command, and an unfinished one -/
def cmdArgs (args : CStr) : List CStr × CStr := cmdLoop (tokens (fun c => decide (c = ' ')) args) none [] 1

/-- The words of the command line as stored in `svc->args` -/
def newArgs (cmd args : CStr) : List CStr := strlcpy 256 cmd :: (cmdArgs args).1

/-- `diff`, src/service.c:1525-1587, without the test of the environment file: `old` is `svc->args` before.
    A slot beyond the ones stored counts if something is in it. -/
def argsDiff (old : List CStr) (cmd args : CStr) : Bool :=
  decide (old.headD [] ≠ cmd) ||
  (List.range 63).any (fun j =>
    match (cmdArgs args).1[j]? with
    | some a => decide (old.getD (j + 1) [] ≠ a)
    | none => decide (old.getD (j + 1) [] ≠ []) || (decide (j = (cmdArgs args).1.length) && (cmdArgs args).2 ≠ []))

/-! ## The service object -/

/-- Types, without `tty`, src/svc.h:45-52 -/
inductive LType
  | service | task | run | sysv
  deriving DecidableEq, Repr

/-- `svc_is_daemon`, src/svc.h:275 -/
def LType.daemon : LType → Bool
  | .service | .sysv => true
  | _ => false

/-- `svc_notify_t`, src/svc.h:89-95 -/
inductive LNotify
  | none | pid | systemd | s6
  deriving DecidableEq, Repr

/-- `svc->log`, src/svc.h:171-179 -/
structure LogCfg where
  enabled : Bool := false
  null : Bool := false
  console : Bool := false
  file : CStr := []
  prio : CStr := []
  ident : CStr := []
  deriving DecidableEq, Repr

/-- A script and its time limit in ms -/
structure Script where
  path : CStr := []
  tmo : Int := 0
  deriving DecidableEq, Repr

/-- The fields of `svc_t` that configuration fills in, src/svc.h:119-236 -/
structure Cfg where
  type : LType
  name : CStr := []
  id : CStr := []
  cmd : CStr := []
  args : List CStr := []
  argsDirty : Bool := false
  username : CStr := []
  group : CStr := []
  levels : BitVec 32 := 0
  sighup : Bool := false
  once : Nat := 0
  cond : CStr := []
  sighalt : Int := 15
  killdelay : Int := 3000
  pre : Script := {}
  post : Script := {}
  ready : Script := {}
  cleanup : Script := {}
  reload : CStr := []
  stop : CStr := []
  log : LogCfg := {}
  notify : LNotify := .none
  desc : CStr := []
  env : CStr := []
  file : CStr := []
  conflict : CStr := []
  ifstmt : CStr := []
  manual : Bool := false
  nowarn : Bool := false
  respawn : Bool := false
  forking : Bool := false
  restartMax : Int := 0
  restartTmo : Int := 0
  oncrash : OnCrash := .ignore
  pidfile : CStr := []
  cgName : CStr := []
  cgCfg : CStr := []
  dirty : Bool := false
  deriving DecidableEq, Repr

/-- What is outside of the parser: programs that can be run (`which`), the user and group of the supervisor,
    the default readiness notification, the current control group, the directory of PID files, and whether a
    file has changed since it was last read. -/
structure LineEnv where
  which : CStr → Bool
  user : CStr
  group : CStr
  readiness : LNotify
  cgroup : CStr
  runDir : CStr
  changed : CStr → Bool

/-- `svc_new`, src/svc.c:117-158 -/
def newSvc (type : LType) (cmd name id : CStr) : Cfg :=
  { type := type, name := strlcpy 64 name, id := strlcpy 65 id, cmd := strlcpy 256 cmd,
    desc := strlcpy 64 (strlcpy 64 name) }

/-- `conf_parse_cond`, src/conf.c:698-752 -/
def lineCond (arg : Option CStr) (s : Cfg) : Cfg :=
  let s := if s.type.daemon then { s with sighup := true } else s
  match arg with
  | none => { s with cond := [] }
  | some a =>
    let neg := decide (a.head? = some '!')
    let s := if neg then
        if s.type.daemon then { s with sighup := false } else { s with sighup := true, once := 1 }
      else s
    let body := (if neg then a.drop 1 else a).takeWhile (· ≠ '>')
    if body.length ≥ 192 then s
    else { s with cond := List.intercalate [','] (tokens isComma body) }

/-- `unquote(&path, NULL)`, src/util.h:230-248; none: unterminated quote -/
def unquoteWord (s : CStr) : Option CStr :=
  match s with
  | [] => some []
  | q :: r => if isQuote q then if q ∈ r then some (r.takeWhile (· ≠ q)) else none else some (q :: r)

/-- Result of parsing one option: undefined behaviour or the new value -/
inductive Res (α : Type)
  | ub
  | ok (a : α)
  deriving DecidableEq, Repr

/-- The end of `parse_script`, src/service.c:1461-1481 -/
def scriptPath (E : LineEnv) (path : CStr) : CStr :=
  match unquoteWord path with
  | none => []
  | some p => if E.which p && decide (p.length < 256) then p else []

/-- `parse_script`, src/service.c:1437-1482, with a time limit to be set.  `tmo` is that limit before. -/
def parseScript (E : LineEnv) (killdelay : Int) (script : CStr) (old : Script) : Script :=
  if ',' ∈ script then
    match strtonum (script.takeWhile (· ≠ ',')) 0 3600 with
    | none => { path := [], tmo := old.tmo }
    | some sec => { path := scriptPath E ((script.dropWhile (· ≠ ',')).drop 1), tmo := sec * 1000 }
  else { path := scriptPath E script, tmo := killdelay }

/-- `parse_script` without one: `tmo` is NULL, and set all the same if a time is given. -/
def parseScript0 (E : LineEnv) (script : CStr) : Res CStr :=
  if ',' ∈ script then
    match strtonum (script.takeWhile (· ≠ ',')) 0 3600 with
    | none => .ok []
    | some _ => .ub
  else .ok (scriptPath E script)

/-- One call of `strtok`: the token and what follows it -/
def strtok (p : Char → Bool) (s : CStr) : Option (CStr × CStr) :=
  match s.dropWhile p with
  | [] => none
  | c :: cs => some ((c :: cs).takeWhile (fun c => !p c), ((c :: cs).dropWhile (fun c => !p c)).drop 1)

/-- One token of `parse_log`, src/service.c:1333-1347; `rest` is what `strtok` has not seen.  `strlcpy` is
    handed NULL if nothing follows `prio` or `tag`. -/
def logWord (tok rest : CStr) (l : LogCfg) : Res (LogCfg × CStr) :=
  if tok = "log".toList then .ok ({ l with enabled := true }, rest)
  else if tok = "null".toList ∨ tok = "/dev/null".toList then .ok ({ l with null := true }, rest)
  else if tok = "console".toList ∨ tok = "/dev/console".toList then .ok ({ l with console := true }, rest)
  else if tok.head? = some '/' then .ok ({ l with file := strlcpy 64 tok }, rest)
  else if tok = "priority".toList ∨ tok = "prio".toList then
    match strtok isComma rest with
    | none => .ub
    | some (v, r) => .ok ({ l with prio := strlcpy 20 v }, r)
  else if tok = "tag".toList ∨ tok = "identity".toList ∨ tok = "ident".toList then
    match strtok isComma rest with
    | none => .ub
    | some (v, r) => .ok ({ l with ident := strlcpy 20 v }, r)
  else .ok (l, rest)

/-- The loop of `parse_log`, src/service.c:1328-1349; each round uses up a token. -/
def logLoop : Nat → (Char → Bool) → CStr → LogCfg → Res LogCfg
  | 0, _, _, l => .ok l
  | n + 1, p, s, l =>
    match strtok p s with
    | none => .ok l
    | some (tok, rest) =>
      match logWord tok rest l with
      | .ub => .ub
      | .ok (l, rest) => logLoop n (fun c => decide (c = ':' ∨ c = '=' ∨ c = ',' ∨ c = ' ')) rest l

/-- `parse_log`, src/service.c:1328-1349 -/
def parseLog (arg : CStr) (l : LogCfg) : Res LogCfg :=
  logLoop (arg.length + 1) (fun c => decide (c = ':' ∨ c = ',' ∨ c = ' ')) arg l

/-- `parse_notify`, src/service.c:1351-1360 -/
def parseNotify (arg : CStr) : LNotify :=
  if arg = "systemd".toList then .systemd
  else if arg = "s6".toList then .s6
  else if arg = "pid".toList then .pid
  else .none

/-- `parse_cgroup`, src/service.c:1385-1406, for an argument that is not empty -/
def parseCgroup (arg : CStr) (s : Cfg) : Cfg :=
  let cfg (s : Cfg) (p : CStr) : Cfg := if p.length ≥ 144 then s else { s with cgCfg := strlcpy 128 p }
  if arg.head? = some '.' then
    let s := { s with cgName := strlcpy 16 ((arg.takeWhile (· ≠ ':')).drop 1) }
    if ':' ∈ arg then cfg s ((arg.dropWhile (· ≠ ':')).drop 1) else s
  else if arg.head? = some ':' then cfg s (arg.drop 1)
  else { s with cgName := strlcpy 16 (arg.drop 1) }

/-- User and group, src/service.c:1908-1920 -/
def lineUser (E : LineEnv) (o : Opts) (s : Cfg) : Cfg :=
  match o.username with
  | some u =>
    if ':' ∈ u then
      { s with group := strlcpy 16 ((u.dropWhile (· ≠ ':')).drop 1),
               username := strlcpy 16 (u.takeWhile (· ≠ ':')) }
    else { s with username := strlcpy 16 u }
  | none => { s with username := strlcpy 16 E.user, group := strlcpy 16 E.group }

/-- `parse_cmdline_args`, src/service.c:1517-1607 -/
def lineArgs (E : LineEnv) (cmd args : CStr) (s : Cfg) : Cfg :=
  { s with args := newArgs cmd args, argsDirty := argsDiff s.args cmd args || E.changed s.env }

/-- `halt:` and `kill:`, src/service.c:1955-1962 -/
def lineStop (o : Opts) (s : Cfg) : Cfg :=
  { s with
    sighalt := match o.halt with
      | some a => parseSighalt s.sighalt a
      | none => 15
    killdelay := match o.delay with
      | some a => parseKilldelay s.killdelay a
      | none => 3000 }

/-- One script that may be given with a time limit, as src/service.c:1963-1966 -/
def optScript (E : LineEnv) (killdelay : Int) (a : Option CStr) (old : Script) : Script :=
  match a with
  | some a => parseScript E killdelay a old
  | none => { path := [], tmo := old.tmo }

/-- The scripts with a time limit, src/service.c:1963-1978 -/
def lineScripts (E : LineEnv) (o : Opts) (s : Cfg) : Cfg :=
  { s with
    pre := optScript E s.killdelay o.pre s.pre
    post := optScript E s.killdelay o.post s.post
    ready := optScript E s.killdelay o.ready s.ready
    cleanup := optScript E s.killdelay o.cleanup s.cleanup }

/-- One script without, as src/service.c:1980-1983 -/
def optScript0 (E : LineEnv) (a : Option CStr) : Res CStr :=
  match a with
  | some a => parseScript0 E a
  | none => .ok []

/-- `log`, src/service.c:1990-1995 -/
def optLog (a : Option CStr) (l : LogCfg) : Res LogCfg :=
  match a with
  | some a => parseLog a l
  | none => .ok { l with enabled := false }

/-- `reload:`, `stop:` and `log`, src/service.c:1980-1995 -/
def lineMore (E : LineEnv) (o : Opts) (s : Cfg) : Res Cfg :=
  match optScript0 E o.reload, optScript0 E o.stop, optLog o.log s.log with
  | .ok r, .ok t, .ok l => .ok { s with reload := r, stop := t, log := l }
  | _, _, _ => .ub

/-- Readiness, description, environment file, conflicts and flags, src/service.c:1997-2028 -/
def linePlain (E : LineEnv) (o : Opts) (desc : Option CStr) (file : CStr) (s : Cfg) : Cfg :=
  { s with
    notify := match o.notify with
      | some a => parseNotify a
      | none => E.readiness
    desc := match desc with
      | some d => strlcpy 64 d
      | none => s.desc
    env := match o.env with
      | some a => if a.length ≥ 256 then s.env else a
      | none => []
    file := strlcpy 64 file
    conflict := strlcpy 64 (o.conflict.getD [])
    ifstmt := strlcpy 130 (o.ifstmt.getD [])
    manual := o.manual
    nowarn := o.nowarn
    respawn := o.respawn
    forking := o.forking
    restartMax := o.restartMax
    restartTmo := o.restartTmo
    oncrash := o.oncrash }

/-- The option `pid` as it is used, src/service.c:2034-2040 -/
def pidOpt (o : Opts) (name : CStr) : Option CStr :=
  if o.pid.isNone && o.forking then some ("pid:!".toList ++ name) else o.pid

/-- The PID file, if the option is given and right, src/service.c:2042-2047 -/
def linePidFile (E : LineEnv) (pid : Option CStr) (s : Cfg) : Res Cfg :=
  match pid with
  | none => .ok s
  | some p =>
    let done (s : Cfg) : Cfg := if s.pidfile.head? = some '!' then { s with forking := true } else s
    match pidFileParse E.runDir s.forking s.pidfile p with
    | .ub => .ub
    | .bad => .ok (done s)
    | .ok f => .ok (done { s with pidfile := f })

/-- The PID file and the restart delay of a daemon, src/service.c:2030-2054 -/
def linePid (E : LineEnv) (o : Opts) (s : Cfg) : Res Cfg :=
  if s.type.daemon then
    match linePidFile E (pidOpt o s.name) s with
    | .ub => .ub
    | .ok s => .ok (if s.restartTmo = 0 then { s with restartTmo := if s.forking then 2000 else 1 } else s)
  else .ok s

/-- Control group, src/service.c:2059-2062, and whether the service counts as modified, :2064-2068 -/
def lineGroup (E : LineEnv) (o : Opts) (s : Cfg) : Cfg :=
  let s := { s with cgName := strlcpy 16 E.cgroup }
  let s := match o.cgroup with
    | some a => parseCgroup a s
    | none => s
  { s with dirty := E.changed s.file || E.changed s.env || s.argsDirty }

/-- What becomes of a line: not used (incomplete, or the program is missing), undefined behaviour, not modelled,
    or a service. -/
inductive Reg
  | skipped
  | ub
  | odd
  | ok (s : Cfg)
  deriving DecidableEq, Repr

/-- The object that is filled in, src/service.c:1873-1906: a new one, or `old`, the one found by name -/
def lineObj (type : LType) (cmd name id : CStr) (old : Option Cfg) : Cfg :=
  match old with
  | some s => { s with type := type, cmd := strlcpy 256 cmd }
  | none => newSvc type cmd name id

/-- src/service.c:1908-2083 -/
def lineFill (E : LineEnv) (o : Opts) (desc : Option CStr) (file cmd args : CStr) (s : Cfg) : Reg :=
  let s := lineUser E o s
  let s := { s with levels := parseRunlevels o.runlevels }
  let s := lineCond o.cond s
  let s := lineArgs E cmd args s
  let s := lineStop o s
  let s := lineScripts E o s
  match lineMore E o s with
  | .ub => .ub
  | .ok s =>
    match linePid E o (linePlain E o desc file s) with
    | .ub => .ub
    | .ok s => if o.cgroup = some [] then .odd else .ok (lineGroup E o s)

/-- `service_register`, src/service.c:1659-2083.  `find` looks up a service by name and id. -/
def registerLine (E : LineEnv) (find : CStr → CStr → Option Cfg) (type : LType) (file line : CStr) : Reg :=
  match parseLine line with
  | .incomplete => .skipped
  | .ub => .ub
  | .ok o cmd args =>
    let name := parseName cmd o.name
    let id := o.id.getD []
    if E.which cmd then
      lineFill E o (splitDesc line).2 file cmd args (lineObj type cmd name id (find name id))
    else .skipped

end Verif
