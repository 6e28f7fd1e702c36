import Verif.Cond
import Verif.Util

/-!
# What `initctl -j` prints

Model of the texts that `initctl -j status`, `initctl -j cond show`, `initctl -j cond dump` and `initctl -j ls` write
to standard output: `json_status_one`, `show_status`, `svc_cond`, `svc_command`, `runlevel_arr`, `do_cond_show` and
`dump_one_cond` of src/initctl.c, and `do_list` and `serv_list` of src/serv.c.

Simplified: what is known of a service is given as a record of the strings and numbers that are printed (its type and
status as the words that `svc_typestr` and `svc_status` give for them).  Characters stand for bytes or for what the
bytes encode.
-/

namespace Verif

/-- What is printed of a service; the fields are those of `svc_t` unless said otherwise.  `levels i` is `ISSET(runlevels, i)`,
    `exit` is `none` while the service runs, and otherwise tells a signal (`true`) from an exit code. -/
structure JSvc where
  ident : CStr
  desc : CStr := []
  type : CStr := "service".toList
  forking : Bool := false
  status : CStr := "running".toList
  exit : Option (Bool × Nat) := none
  file : CStr := []
  cmd : CStr
  args : List CStr := []
  sysv : Option Bool := none
  env : CStr := []
  cond : CStr := []
  starts : Option Int := none
  restarts : Int := 0
  pidfile : CStr := []
  pid : Int := 0
  user : CStr := "root".toList
  group : CStr := "root".toList
  uptime : Int := 0
  levels : Nat → Bool

/-- `%d` and `%ld` -/
def intText : Int → CStr
  | .ofNat n => Nat.toDigits 10 n
  | .negSucc n => '-' :: Nat.toDigits 10 (n + 1)

/-- A string of the output: `\"%s\"` -/
def quoted (s : CStr) : CStr := '"' :: s ++ ['"']

/-- The loop of `runlevel_arr`, src/initctl.c:805-820, for the levels still to be visited; `s` tells whether one was
    printed -/
def levelsLoop (levels : Nat → Bool) : Bool → List Nat → CStr
  | _, [] => []
  | s, i :: is =>
    if levels i then
      (if i = 10 then quoted "S".toList else (if s then ", ".toList else []) ++ intText i) ++ levelsLoop levels true is
    else levelsLoop levels s is

/-- `runlevel_arr`, src/initctl.c:798-824; the longest text, of 39 characters, fits the buffer of 42 -/
def levelsText (levels : Nat → Bool) : CStr :=
  "[ ".toList ++ levelsLoop levels false [10, 0, 1, 2, 3, 4, 5, 6, 7, 8, 9] ++ " ]".toList

/-- One condition in `svc_cond`, src/initctl.c:533-556, between its quotes; `ansi` sets those apart that are not met -/
def condItem (get : CStr → CState) (ansi : Bool) (c : CStr) : List CStr :=
  match get c with
  | .on => ["+".toList, c]
  | .flux => (if ansi then ["\x1b[1m".toList] else []) ++ ["~".toList, c] ++ (if ansi then ["\x1b[0m".toList] else [])
  | .off => (if ansi then ["\x1b[1m".toList] else []) ++ ["-".toList, c] ++ (if ansi then ["\x1b[0m".toList] else [])

/-- The pieces that `svc_cond`, src/initctl.c:510-566, adds to the buffer one after the other.  A condition has a comma
    before it unless it begins where the text begins. -/
def condPieces (get : CStr → CState) (ansi : Bool) : Bool → List CStr → List CStr
  | _, [] => []
  | first, c :: cs =>
    (if first then [] else [",".toList, " ".toList]) ++ [['"']] ++ condItem get ansi c ++ [['"']] ++
      condPieces get ansi false cs

/-- `svc_cond`, src/initctl.c:510-566, for `-j`; `buf` has 512 bytes and each piece is added with `strlcat` -/
def condArr (get : CStr → CState) (ansi : Bool) (cond : CStr) : CStr :=
  if cond = [] then []
  else (["[ ".toList] ++ condPieces get ansi (decide (cond.head? ≠ some ',')) (tokens (fun c => decide (c = ',')) cond) ++
    [" ]".toList]).foldl (strlcat 512) []

/-- `svc_command`, src/initctl.c:838-866, without escapes; `sysv` is whether a SysV script is halted -/
def commandText (s : JSvc) : CStr :=
  ((s.args.takeWhile fun a => decide (a ≠ [])).flatMap (fun a => [" ".toList, a]) ++
    (match s.sysv with
      | none => []
      | some true => [" ".toList, "stop".toList]
      | some false => [" ".toList, "start".toList])).foldl (strlcat 512) (strlcpy 512 s.cmd)

/-- The members that `json_status_one`, src/initctl.c:992-1065, prints, each with the text printed for its value -/
def statusMembers (get : CStr → CState) (s : JSvc) : List (CStr × CStr) :=
  [("identity".toList, quoted s.ident), ("description".toList, quoted s.desc), ("type".toList, quoted s.type),
   ("forking".toList, if s.forking then "true".toList else "false".toList), ("status".toList, quoted s.status)] ++
  (match s.exit with
    | none => []
    | some (sig, n) => [("exit".toList, "{ ".toList ++ quoted (if sig then "signal".toList else "code".toList) ++
        ": ".toList ++ intText n ++ " }".toList)]) ++
  [("origin".toList, quoted (if s.file = [] then "built-in".toList else s.file)), ("command".toList, quoted (commandText s))] ++
  (if strlcpy 512 s.env = [] then [] else [("environment".toList, quoted (strlcpy 512 s.env))]) ++
  (if condArr get false s.cond = [] then [] else [("condition".toList, condArr get false s.cond)]) ++
  (match s.starts with | none => [] | some n => [("starts".toList, intText n)]) ++
  [("restarts".toList, intText s.restarts),
   ("pidfile".toList, quoted (if s.pidfile.head? = some '!' then s.pidfile.drop 1
      else if s.pidfile = [] then "none".toList else s.pidfile)),
   ("pid".toList, intText s.pid), ("user".toList, quoted s.user), ("group".toList, quoted s.group),
   ("uptime".toList, intText (if s.pid ≠ 0 then s.uptime else 0)), ("runlevels".toList, levelsText s.levels)]

/-- The lines of members: each but the last ends with a comma -/
def membersText (indent : CStr) : List (CStr × CStr) → CStr
  | [] => []
  | [m] => indent ++ "  ".toList ++ quoted m.1 ++ ": ".toList ++ m.2 ++ "\n".toList
  | m :: ms => indent ++ "  ".toList ++ quoted m.1 ++ ": ".toList ++ m.2 ++ ",\n".toList ++ membersText indent ms

/-- An object as it is printed: `{`, its members, and `}` -/
def objText (indent : CStr) (ms : List (CStr × CStr)) : CStr :=
  "{\n".toList ++ membersText indent ms ++ indent ++ "}".toList

/-- `initctl -j status NAME` when there is one, src/initctl.c:1103-1109 -/
def statusOneText (get : CStr → CState) (s : JSvc) : CStr := objText [] (statusMembers get s) ++ "\n".toList

/-- The objects of a list, with `,` and a new line before each but the first -/
def itemsText (objs : List CStr) : CStr :=
  match objs with
  | [] => []
  | o :: os => "  ".toList ++ o ++ os.flatMap fun o => ",\n  ".toList ++ o

/-- The list as `initctl -j status` (src/initctl.c:1160-1175), `cond show` (src/initctl.c:568-620) and `cond dump`
    (src/initctl.c:355-427) print it: nothing at all if it is empty -/
def arrText (objs : List CStr) : CStr :=
  if objs = [] then [] else "[\n".toList ++ itemsText objs ++ "\n]\n".toList

/-- `initctl -j status`, src/initctl.c:1160-1175 -/
def statusText (get : CStr → CState) (l : List JSvc) : CStr :=
  arrText (l.map fun s => objText "  ".toList (statusMembers get s))

/-- `condstr`, src/cond.c:36-45 -/
def condWord : CState → CStr
  | .on => "on".toList
  | .off => "off".toList
  | .flux => "flux".toList

/-- `initctl -j cond show`, src/initctl.c:568-620; `agg` is `cond_get_agg` -/
def condShowText (get agg : CStr → CState) (plain : Bool) (l : List JSvc) : CStr :=
  arrText ((l.filter fun s => decide (s.cond ≠ [])).map fun s => objText "  ".toList
    [("pid".toList, intText s.pid), ("identity".toList, quoted s.ident), ("status".toList, quoted (condWord (agg s.cond))),
     ("condition".toList, condArr get (!plain) s.cond)])

/-- `initctl -j cond dump`, src/initctl.c:355-427; each file found, with the process and service it is of -/
def condDumpText (l : List (Int × CStr × CState × CStr)) : CStr :=
  arrText (l.map fun x => objText "  ".toList
    [("pid".toList, intText x.1), ("identity".toList, quoted x.2.1), ("status".toList, quoted (condWord x.2.2.1)),
     ("condition".toList, quoted x.2.2.2)])

/-- The names in `do_list`, src/serv.c:145-158, with commas between -/
def namesText : List CStr → CStr
  | [] => []
  | [n] => quoted n
  | n :: ns => quoted n ++ ",".toList ++ namesText ns

/-- One place that `serv_list` looks at: a directory with the `.conf` files in it, or the file finit.conf -/
inductive LsPlace
  | dir (title : CStr) (names : List CStr)
  | file (title path : CStr)

/-- `do_list`, src/serv.c:73-165, for `-j`: for a directory without `.conf` files nothing is printed -/
def lsOne (comma : Bool) : LsPlace → CStr
  | .dir title names =>
    if names = [] then []
    else (if comma then ",".toList else []) ++ quoted title ++ ": [".toList ++ namesText names ++ "]".toList
  | .file title path => (if comma then ",".toList else []) ++ quoted title ++ ": ".toList ++ quoted path

/-- `serv_list` without an argument, src/serv.c:185-207, for the places that there are; the counter `pre` also counts
    those for which nothing is printed -/
def lsText (places : List LsPlace) : CStr :=
  "{".toList ++ (match places with
    | [] => []
    | p :: ps => lsOne false p ++ ps.flatMap (lsOne true)) ++ "}\n".toList

/-- `initctl -j ls DIR`, src/serv.c:172-183: the title is NULL, for which the C library prints `(null)` -/
def lsDirText (names : List CStr) : CStr := "[".toList ++ lsOne false (.dir "(null)".toList names) ++ "]\n".toList

end Verif
