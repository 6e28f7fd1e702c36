import Verif.CStr

/-!
# The built-in getty (src/getty.c)

It shows `/etc/issue` with a prompt, reads a name and runs `login`.

Simplified: `fgetval()` of libite is taken to find the value of a line with this very key;
`uname()` and the time are given; `write()` writes everything, `/bin/login` can be run and the
terminal can be made the controlling one.  `readch` either gives a byte or fails, which it does when the line hangs up, at
an end-of-file typed by the user, or by an interrupted `read()`.
-/

namespace Verif

/-! ## The name -/

/-- What `readch()` gives, src/getty.c:129-139 -/
inductive TtyRead
  | ch (c : Char)
  | fail
  deriving DecidableEq, Repr

/-- What comes of it: `login` is run with a name, with the input that is left; getty waits for input; or it has written
    behind its buffer. -/
inductive LogEnd
  | login (name : CStr) (rest : List TtyRead)
  | waiting
  | overflow
  deriving DecidableEq, Repr

/-- The bytes up to NUL -/
def toCStr (s : List Char) : CStr := s.takeWhile fun c => decide (c ≠ '\x00')

/-- `get_logname()` with `char name[len]`, src/getty.c:275-305, and `goto restart` in `getty()`, src/getty.c:354-356.  `acc` are
    the bytes stored in `name` so far, the last first, `np` is behind them.  At the end of the line the NUL is written at `np`,
    which lies behind the buffer if that is full. -/
def getLogname (len : Nat) : List Char → List TtyRead → LogEnd
  | _, [] => .waiting
  | _, .fail :: r => getLogname len [] r
  | acc, .ch c :: r =>
    if c = '\n' then
      if acc.length < len then
        if toCStr acc.reverse = [] then getLogname len [] r else .login (toCStr acc.reverse) r
      else .overflow
    else getLogname len (if acc.length < len then c :: acc else acc) r

/-- `exec_login()`, src/getty.c:311-332 -/
def loginArgs (passenv : Bool) (name : CStr) : List CStr :=
  if passenv then ["/bin/login".toList, "-p".toList, "--".toList, name] else ["/bin/login".toList, "--".toList, name]

/-- The length of the buffer, src/getty.c:337,406-410, with what `sysconf(_SC_LOGIN_NAME_MAX)` gives -/
def logLen (sys : Nat) : Nat := (if sys < 64 then 64 else sys) + 1

/-! ## The speed -/

/-- The codes of `speed_t` in `<asm-generic/termbits.h>` of Linux: with B0 to B38400 and B57600 to B4000000 -/
def speedCodes : List (Nat × Nat) :=
  [(0, 0), (50, 1), (75, 2), (110, 3), (134, 4), (150, 5), (200, 6), (300, 7), (600, 8), (1200, 9), (1800, 10), (2400, 11),
   (4800, 12), (9600, 13), (19200, 14), (38400, 15), (57600, 4097), (115200, 4098), (230400, 4099), (460800, 4100),
   (500000, 4101), (576000, 4102), (921600, 4103), (1000000, 4104), (1152000, 4105), (1500000, 4106), (2000000, 4107),
   (2500000, 4108), (3000000, 4109), (3500000, 4110), (4000000, 4111)]

/-- `stty()` with `cfsetispeed()` and `cfsetospeed()`, which refuse what is not one of the codes, src/stty.c:106-109: the speed of
    the line in baud -/
def sttySpeed (now code : Nat) : Nat :=
  if code = 0 then now
  else match speedCodes.find? (fun x => decide (x.2 = code)) with
    | some x => x.1
    | none => now

/-- `getty(tty, atoi(speed), …)`, src/getty.c:412,353: the speed of the line after it, with the number given as argument -/
def gettySpeed (now arg : Nat) : Nat := sttySpeed now arg

/-! ## The issue -/

/-- The lines of `os-release`: keys and values -/
abbrev OsFile := List (CStr × CStr)

/-- The last line with this key, cut to the buffer, `get_val()`, src/getty.c:67-75; none if there is none: then the buffer is as
    it was before -/
def osVal (f : OsFile) (key : String) (len : Nat) : Option CStr :=
  (f.reverse.find? (fun x => decide (x.1 = key.toList))).map (fun x => strlcpy len x.2)

/-- `rel->version`, which is set to zeros before, and may be the code name, src/getty.c:94-95,117-126 -/
def osVersion (f : OsFile) : CStr :=
  let v := (osVal f "VERSION" 32).getD []
  let c := (osVal f "VERSION_CODENAME" 30).getD []
  if v = [] ∧ c ≠ [] then
    if c.head? = some '(' then strlcpy 32 c else strlcpy 32 ('(' :: c ++ [')'])
  else v

/-- What the lines are filled in with -/
structure IssueEnv where
  /-- `/etc/os-release`, or `/usr/lib/os-release` -/
  os : Option OsFile
  sysname : CStr
  nodename : CStr
  release : CStr
  version : CStr
  machine : CStr
  domain : CStr
  tty : CStr
  /-- `ctime_r()`, without the line feed -/
  time : CStr

/-- The value of `compat`, src/getty.c:82-132; none if it depends on what is in `rel->id`, which has not been written -/
def issueCompat (e : IssueEnv) : Option Bool :=
  match e.os with
  | none => some true
  | some f =>
    match osVal f "ID" 32 with
    | none => none
    | some id => some (decide (id = "alpine".toList))

/-- What is printed for `rel->…`: none if it has not been written -/
def osField (e : IssueEnv) (key : String) (len : Nat) : Option CStr := e.os.bind fun f => osVal f key len

/-- The cases of `switch (*++s)`, src/getty.c:163-228: none for those that are not known; in them none for memory that has not
    been written -/
def issueEscape (e : IssueEnv) (compat : Bool) (c : Char) : Option (Option CStr) :=
  if c = 'B' then some (if compat then some [] else osField e "BUG_REPORT_URL" 128)
  else if c = 'D' then some (if compat then some [] else osField e "DOCUMENTATION_URL" 128)
  else if c = 'H' then some (if compat then some [] else osField e "HOME_URL" 128)
  else if c = 'I' then some (if compat then some [] else osField e "ID" 32)
  else if c = 'l' then some (some e.tty)
  else if c = 'm' then some (some e.machine)
  else if c = 'N' then some (if compat then some [] else osField e "NAME" 32)
  else if c = 'n' then some (some e.nodename)
  else if c = 'o' then some (some e.domain)
  else if c = 'r' then some (if compat then some e.release else osField e "VERSION_ID" 32)
  else if c = 'S' then some (if compat then some [] else osField e "SUPPORT_URL" 128)
  else if c = 's' then some (if compat then some e.sysname else osField e "PRETTY_NAME" 64)
  else if c = 't' then some (some e.time)
  else if c = 'v' then some (if compat then some e.version else some (osVersion (e.os.getD [])))
  else none

/-- Print `a`, and then `b`, where none is memory that has not been written. -/
def printBoth (a b : Option CStr) : Option CStr :=
  match a, b with
  | some x, some y => some (x ++ y)
  | _, _ => none

/-- `parseln()`, src/getty.c:151-241, where `acc` is what lies between `s0` and `s`, the last first -/
def parseLn (esc : Char → Option (Option CStr)) : List Char → CStr → Option CStr
  | acc, [] => some acc.reverse
  | acc, '\\' :: [] => some acc.reverse
  | acc, '\\' :: c :: r =>
    match esc c with
    | none => printBoth (some acc.reverse) (parseLn esc [c, '\\'] r)
    | some v => printBoth (some acc.reverse) (printBoth v (parseLn esc [] r))
  | acc, x :: r => parseLn esc (x :: acc) r

/-- The pieces `fgets(buf, size, fp)` gives of a file: up to and with the line feed, of at most `room` = size - 1 bytes.  `acc` is
    the piece so far, the last first. -/
def fgetsPieces (room : Nat) : List Char → List Char → List (List Char)
  | acc, [] => if acc = [] then [] else [acc.reverse]
  | acc, c :: r =>
    if c = '\n' ∨ acc.length + 1 ≥ room then (c :: acc).reverse :: fgetsPieces room [] r
    else fgetsPieces room (c :: acc) r

/-- `BUFSIZ` of glibc -/
def bufsiz : Nat := 8192

/-- `issue()`, src/getty.c:246-270; none if memory is read that has not been written -/
def issueText (e : IssueEnv) (file : Option (List Char)) : Option CStr :=
  match issueCompat e with
  | none => none
  | some compat =>
    let esc := issueEscape e compat
    let lines := match file with
      | some s => (fgetsPieces (bufsiz - 1) [] s).map toCStr
      | none => ["Welcome to \\s \\v \\n \\l\n\n".toList]
    printBoth (lines.foldr (fun l out => printBoth (parseLn esc [] l) out) (some [])) (parseLn esc [] "\\n login: ".toList)

end Verif
