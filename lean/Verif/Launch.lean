import Verif.CStr
import Verif.Line

/-!
# The words a program is started with

The child in `service_start` (src/service.c:736-891) from `svc->cmd` and `svc->args` to `execvp`, with `exec_runtask` (src/exec.c:261-282), the arguments of
`tty_exec` (src/tty.c:312-322) and the stop of SysV scripts (src/service.c:1137-1147).  `wordexp` is that of the GNU C library (posix/wordexp.c) for
IFS not set, without commands, arithmetic, home directories, patterns, and parameters other than variables; for those the outcome is
`other`, and nothing is proved.
-/

namespace Verif

/-! ## wordexp -/

/-- Where `parse_*` in wordexp.c are -/
inductive WxMode
  | plain
  | esc
  | sq
  | dq
  | dqEsc
  /-- after a dollar sign, in double quotes or not -/
  | dollar (q : Bool)
  | name (q : Bool) (n : CStr)
  | brace (q : Bool) (n : CStr)
  deriving DecidableEq, Repr

/-- `word` and `we_wordv`; a word that is empty is a null pointer -/
structure WxSt where
  mode : WxMode
  word : CStr
  out : List CStr
  deriving DecidableEq, Repr

/-- WRDE_BADCHAR, WRDE_SYNTAX, and what is not modelled -/
inductive WxErr
  | bad
  | syntax
  | other
  deriving DecidableEq, Repr

/-- IFS -/
def wxIfs (c : Char) : Bool := decide (c = ' ' ∨ c = '\t' ∨ c = '\n')

/-- A character outside of quotes, `wordexp` -/
def wxPlain (s : WxSt) (c : Char) : Except WxErr WxSt :=
  if c = '\\' then .ok { s with mode := .esc }
  else if c = '$' then .ok { s with mode := .dollar false }
  else if c = '`' ∨ c = '~' ∨ c = '*' ∨ c = '[' ∨ c = '?' then .error .other
  else if c = '"' then .ok { s with mode := .dq }
  else if c = '\'' then .ok { s with mode := .sq }
  else if c = ' ' ∨ c = '\t' then .ok { s with word := [], out := if s.word = [] then s.out else s.out ++ [s.word] }
  else if c ∈ "\n|&;<>(){}".toList then .error .bad
  else .ok { s with word := s.word ++ [c] }

/-- The end of quotes: a word that is empty so far is one. -/
def wxClose (s : WxSt) : WxSt := { s with mode := .plain, out := if s.word = [] then s.out ++ [[]] else s.out }

/-- A character in double quotes, `parse_dquote` -/
def wxDq (s : WxSt) (c : Char) : Except WxErr WxSt :=
  if c = '"' then .ok (wxClose s)
  else if c = '$' then .ok { s with mode := .dollar true }
  else if c = '`' then .error .other
  else if c = '\\' then .ok { s with mode := .dqEsc }
  else .ok { s with word := s.word ++ [c] }

/-- Either -/
def wxOuter (q : Bool) (s : WxSt) (c : Char) : Except WxErr WxSt :=
  if q then wxDq { s with mode := .dq } c else wxPlain { s with mode := .plain } c

/-- Fields after the first end the word before. -/
def wxFields (s : WxSt) : List CStr → WxSt
  | [] => s
  | f :: fs => wxFields { s with out := s.out ++ [s.word], word := f } fs

/-- The value of a variable, `parse_param` -/
def wxExpand (env : CStr → Option CStr) (q : Bool) (n : CStr) (s : WxSt) : WxSt :=
  let v := (env n).getD []
  if q then { s with word := s.word ++ v }
  else match tokens wxIfs v with
    | [] => s
    | f :: fs => wxFields { s with word := s.word ++ f } fs

/-- Characters of names -/
def wxName (c : Char) : Bool := c.isAlphanum || decide (c = '_')

/-- One character -/
def wxStep (env : CStr → Option CStr) (s : WxSt) (c : Char) : Except WxErr WxSt :=
  match s.mode with
  | .plain => wxPlain s c
  | .esc => .ok { s with mode := .plain, word := if c = '\n' then s.word else s.word ++ [c] }
  | .sq => if c = '\'' then .ok (wxClose s) else .ok { s with word := s.word ++ [c] }
  | .dq => wxDq s c
  | .dqEsc =>
    .ok { s with
      mode := .dq
      word := if c = '\n' then s.word else if c = '$' ∨ c = '`' ∨ c = '"' ∨ c = '\\' then s.word ++ [c] else s.word ++ ['\\', c] }
  | .dollar q =>
    if c = '(' ∨ c = '[' ∨ c = '*' ∨ c = '@' ∨ c = '$' ∨ c = '#' ∨ c.isDigit then .error .other
    else if c = '{' then .ok { s with mode := .brace q [] }
    else if wxName c then .ok { s with mode := .name q [c] }
    else wxOuter q { s with word := s.word ++ ['$'] } c
  | .name q n => if wxName c then .ok { s with mode := .name q (n ++ [c]) } else wxOuter q (wxExpand env q n s) c
  | .brace q n =>
    if c = '}' ∧ n ≠ [] then .ok { wxExpand env q n s with mode := if q then .dq else .plain }
    else if wxName c ∧ ¬ (n = [] ∧ c.isDigit) then .ok { s with mode := .brace q (n ++ [c]) }
    else .error .other

/-- All of them -/
def wxRun (env : CStr → Option CStr) (s : WxSt) : CStr → Except WxErr WxSt
  | [] => .ok s
  | c :: t => match wxStep env s c with
    | .ok s => wxRun env s t
    | .error e => .error e

/-- The last word -/
def wxFlush (s : WxSt) : List CStr := if s.word = [] then s.out else s.out ++ [s.word]

/-- The end of the text -/
def wxEnd (env : CStr → Option CStr) (s : WxSt) : Except WxErr (List CStr) :=
  match s.mode with
  | .plain => .ok (wxFlush s)
  | .dollar false => .ok (wxFlush { s with word := s.word ++ ['$'] })
  | .name false n => .ok (wxFlush (wxExpand env false n s))
  | _ => .error .syntax

/-- `wordexp` -/
def wordexp (env : CStr → Option CStr) (t : CStr) : Except WxErr (List CStr) :=
  match wxRun env ⟨.plain, [], []⟩ t with
  | .ok s => wxEnd env s
  | .error e => .error e

/-! ## The child -/

/-- Types of services -/
inductive LKind
  | daemon
  | runtask
  | tty
  | sysv
  deriving DecidableEq, Repr

/-- What becomes of the child -/
inductive Launch
  | exec (cmd : CStr) (argv : List CStr)
  /-- `sh -c` -/
  | shell (text : CStr)
  /-- it ends with status 1 -/
  | fail
  /-- the array is too small -/
  | ub
  | other
  deriving DecidableEq, Repr

/-- The descriptor in place of the first `%n`, src/service.c:775-785; at most two digits, and blanks -/
def putFd (ds : CStr) : CStr → CStr
  | [] => []
  | c :: s => if c = '%' ∧ s.head? = some 'n' then (if ds.length ≤ 2 then (ds ++ [' ', ' ']).take 2 ++ s.drop 1 else c :: s) else c :: putFd ds s

/-- The text given to `wordexp`, src/service.c:768-799; `fd` are the digits of the descriptor for s6 -/
def launchArg (fd : Option CStr) (arg : CStr) : CStr :=
  let arg' := match fd with
    | some ds => putFd ds arg
    | none => arg
  if (arg.head?).any (fun c => decide (c ∈ "|<>&:".toList)) then '\\' :: arg' else arg'

/-- The loop over `svc->args`, src/service.c:767-805: an empty one is the last -/
def launchWords (env : CStr → Option CStr) (fd : Option CStr) (ws : List CStr) : List CStr → Except WxErr (List CStr)
  | [] => .ok ws
  | a :: as =>
    if a = [] then .ok ws
    else match wordexp env (launchArg fd a) with
      | .error e => .error e
      | .ok w => launchWords env fd (ws ++ w) as

/-- `exec_runtask`, src/exec.c:261-282: `argv` includes the name -/
def runtaskText (cmd : CStr) (argv : List CStr) : CStr := (argv.drop 1).foldl (fun b a => strlcat 1024 (strlcat 1024 b [' ']) a) (strlcat 1024 [] cmd)

/-- The child in `service_start`, src/service.c:756-887.  For terminals with the arguments that are left from before, src/tty.c:313-320 -/
def launch (k : LKind) (env : CStr → Option CStr) (fd : Option CStr) (cmd : CStr) (args : List CStr) : Launch :=
  match k with
  | .sysv =>
    let as := args.takeWhile (· ≠ [])
    if 64 < as.length + 2 then .ub else .exec cmd (as ++ ["start".toList])
  | _ =>
    match wordexp env cmd with
    | .error .other => .other
    | .error _ => .fail
    | .ok w => match launchWords env fd w args with
      | .error .other => .other
      | .error _ => .fail
      | .ok ws =>
        if 64 < ws.length then .fail
        else if ws.any (fun w => decide (256 ≤ w.length)) then .fail
        else match k with
          | .runtask => .shell (runtaskText (ws.headD []) (ws.drop 1))
          | .tty => .exec cmd (((ws ++ args.drop ws.length).drop 1).takeWhile (· ≠ []))
          | _ => .exec (ws.headD []) (ws.drop 1)

/-- The stop of a SysV script, src/service.c:1137-1147 -/
def sysvStop (cmd : CStr) (args : List CStr) : Launch := .shell (runtaskText cmd (((args.take 62).takeWhile (· ≠ [])) ++ ["stop".toList]))

end Verif
