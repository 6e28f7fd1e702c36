import Verif.CStr

/-!
# Small string utilities (src/util.c)
-/

namespace Verif

/-- `strstr(3)`: the first occurrence of `pat`, as what is before and what is after it. -/
def strstr (pat : CStr) : CStr → Option (CStr × CStr)
  | [] => if pat = [] then some ([], []) else none
  | c :: cs =>
    if pat.isPrefixOf (c :: cs) then some ([], (c :: cs).drop pat.length)
    else (strstr pat cs).map (fun r => (c :: r.1, r.2))

/-- `while (strncmp(file, pre, n) == 0) memmove(file, file + n, ...)`, src/util.c:585-586,592-593 -/
def dropPre (pre : CStr) : Nat → CStr → CStr
  | 0, s => s
  | n + 1, s => if pre.isPrefixOf s then dropPre pre n (s.drop pre.length) else s

/-- `/./` becomes `/`, src/util.c:587-588 -/
def dropDots : Nat → CStr → CStr
  | 0, s => s
  | n + 1, s =>
    match strstr "/./".toList s with
    | none => s
    | some (a, b) => dropDots n (a ++ '/' :: b)

/-- Up to and including the last `/` (the scan for `cp2`, src/util.c:598-599). -/
def keepDir (a : CStr) : CStr := (a.reverse.dropWhile (· ≠ '/')).reverse

/-- Alternate between removing leading `../` and `xxx/../`, src/util.c:591-603 -/
def dropUps : Nat → CStr → CStr
  | 0, s => s
  | n + 1, s =>
    let s := dropPre "../".toList s.length s
    match strstr "/../".toList s with
    | none => s
    | some (a, b) => dropUps n (keepDir a ++ b)

/-- Elide `xxx/..` at the end, src/util.c:606-612 -/
def dropTail : Nat → CStr → CStr
  | 0, s => s
  | n + 1, s =>
    if s.length > 3 ∧ "/..".toList.isSuffixOf s then
      let a := s.take (s.length - 3)
      if '/' ∈ a then dropTail n ((keepDir a).dropLast) else s
    else s

/-- Collapse multiple `/`, src/util.c:615-618 -/
def collapse : Nat → CStr → CStr
  | 0, s => s
  | n + 1, s =>
    match strstr "//".toList s with
    | none => s
    | some (a, b) => collapse n (a ++ '/' :: b)

/-- `de_dotdot`, src/util.c:579-619.  Every round of each loop shortens the string, so its length
    is enough fuel (proved in `Verif/Props/Util.lean`). -/
def deDotdot (s : CStr) : CStr :=
  let s := dropPre "./".toList s.length s
  let s := dropDots s.length s
  let s := dropUps (s.length + 1) s
  let s := dropTail s.length s
  collapse s.length s

/-! ## Signal names -/

/-- `tolower` on ASCII -/
def lower (s : CStr) : CStr := s.map Char.toLower

/-- `strcasecmp(a, b) == 0` -/
def caseEq (a b : CStr) : Bool := decide (lower a = lower b)

/-- `signames`, src/util.c:76-109; the index is the signal number. -/
def sigTable : List CStr :=
  ["", "HUP", "INT", "QUIT", "ILL", "TRAP", "ABRT", "BUS", "FPE", "KILL", "USR1", "SEGV", "USR2",
   "PIPE", "ALRM", "TERM", "STKFLT", "CHLD", "CONT", "STOP", "TSTP", "TTIN", "TTOU", "URG", "XCPU",
   "XFSZ", "VTALRM", "PROF", "WINCH", "IO", "PWR", "SYS"].map String.toList

/-- `sig2str`, src/util.c:414-420 -/
def sig2str (signo : Int) : CStr :=
  if signo < 1 ∨ signo ≥ sigTable.length then [] else sigTable.getD signo.toNat []

/-- The loop of `str2sig`, src/util.c:436-439: `i` is the number of the first name in the list. -/
def str2sigLoop (sig : CStr) : Nat → List CStr → Int
  | _, [] => -1
  | i, n :: ns => if caseEq sig n then i else str2sigLoop sig (i + 1) ns

/-- `str2sig`, src/util.c:429-442 -/
def str2sig (sig : CStr) : Int :=
  let sig := if caseEq (sig.take 3) "SIG".toList then sig.drop 3 else sig
  str2sigLoop sig 1 (sigTable.drop 1)

/-- `signames`, src/sig.c:112-167, with the numbers of Linux (all but alpha, mips, parisc, sparc). -/
def sigMap : List (Int × CStr) :=
  [(2, "SIGINT"), (4, "SIGILL"), (6, "SIGABRT"), (8, "SIGFPE"), (11, "SIGSEGV"), (15, "SIGTERM"),
   (1, "SIGHUP"), (3, "SIGQUIT"), (5, "SIGTRAP"), (9, "SIGKILL"), (7, "SIGBUS"), (31, "SIGSYS"),
   (13, "SIGPIPE"), (14, "SIGALRM"), (23, "SIGURG"), (19, "SIGSTOP"), (20, "SIGTSTP"), (18, "SIGCONT"),
   (17, "SIGCHLD"), (21, "SIGTTIN"), (22, "SIGTTOU"), (29, "SIGPOLL"), (24, "SIGXCPU"), (25, "SIGXFSZ"),
   (26, "SIGVTALRM"), (27, "SIGPROF"), (10, "SIGUSR1"), (12, "SIGUSR2"), (28, "SIGWINCH"),
   (16, "SIGSTKFLT"), (30, "SIGPWR"), (29, "SIGIO"), (6, "SIGIOT"), (17, "SIGCLD")].map
    (fun p => (p.1, p.2.toList))

/-- The loop of `sig_num`, src/sig.c:598-603 -/
def sigNumLoop (name : CStr) (off : Nat) : List (Int × CStr) → Int
  | [] => -1
  | p :: ps => if caseEq name (p.2.drop off) then p.1 else sigNumLoop name off ps

/-- `sig_num`, src/sig.c:591-606 -/
def sigNum (name : CStr) : Int :=
  sigNumLoop name (if caseEq (name.take 3) "SIG".toList then 0 else 3) sigMap

/-- `sig_name`, src/sig.c:608-618 -/
def sigName (signo : Int) : CStr :=
  match sigMap.find? (fun p => decide (p.1 = signo)) with
  | some p => p.2
  | none => "SIGUNKOWN".toList

/-! ## Sizes -/

/-- Result of `strtobytes`. -/
inductive Bytes
  | bad              -- returned -1 on purpose
  | val (n : Int)
  | ub               -- signed overflow, or `atoi` out of range
  deriving DecidableEq, Repr

/-- Value of a string of digits. -/
def digits (s : CStr) : Nat := s.foldl (fun n c => n * 10 + (c.toNat - 48)) 0

/-- `isdigit` -/
def isDigit (c : Char) : Bool := decide (48 ≤ c.toNat ∧ c.toNat ≤ 57)

/-- INT_MAX -/
def intMax : Nat := 2147483647

/-- `while (mod--) bytes *= 1000;`, src/util.c:408-409 -/
def mulLoop : Nat → Nat → Bytes
  | 0, b => .val b
  | m + 1, b => if b * 1000 > intMax then .ub else mulLoop m (b * 1000)

/-- `strtobytes`, src/util.c:385-412 (`arg` not NULL) -/
def strtobytes (arg : CStr) : Bytes :=
  let num := arg.takeWhile isDigit
  let rest := arg.dropWhile isDigit
  let mod : Option Nat :=
    match rest with
    | [] => some 0
    | c :: _ => if c = 'G' then some 3 else if c = 'M' then some 2 else if c = 'k' then some 1 else none
  match mod with
  | none => .bad
  | some m => if digits num > intMax then .ub else mulLoop m (digits num)

end Verif
