import Verif.Sulogin
import Verif.Environ
import Verif.Mounts
import Verif.Console

/-!
# What commands run by Finit print (src/exec.c)

`run_interactive()` and `run()` with a prefix for the log: mount(8), fsck(8), modprobe(8) and the like.
-/

namespace Verif

/-- A command: what it writes to standard output and to standard error, and how it ends -/
structure XoCmd where
  out : List Char
  err : List Char
  ends : BfsEnd
  deriving DecidableEq

/-- `debug`: debug mode; `temp`: a temporary file can be made; `shExec`: the shell of popen(3) replaces itself by the
    command -/
structure XoEnv where
  debug : Bool
  temp : Bool
  shExec : Bool
  deriving DecidableEq, Repr

/-- What is seen on the console, in order: what is being done, what the command wrote to standard error, the mark
    for how it ended -/
inductive XoSay
  | desc (text : CStr)
  | err (text : List Char)
  | mark (n : Nat)
  deriving DecidableEq, Repr

structure XoRes where
  console : List XoSay
  log : List CStr
  status : Int
  deriving DecidableEq, Repr

/-- A buffer as a string: up to the first NUL -/
def xoStr (l : List Char) : CStr := l.takeWhile (· ≠ '\x00')

/-- The loop over the output, src/exec.c:158-162, in the child of `run()`, with its prefix.  What logit() makes of the line is left out. -/
def xoLog (pfx : CStr) (out : List Char) : List CStr :=
  (fgetsAll out).map fun l => pfx ++ (if pfx = [] then [] else ": ".toList) ++ chompLine (xoStr l)

/-- The status of `run()`, src/exec.c:164-191.  The child passes on `WEXITSTATUS`. -/
def xoStatus (E : XoEnv) : BfsEnd → Int
  | .exited n => (n % 256 : Nat)
  | .killed s => if E.shExec then 0 else ((128 + s) % 256 : Nat)
  | .noFork => -1

/-- The copy of the temporary file to standard error, src/exec.c:246-252: `fwrite(line, len, sizeof(char), stderr)` is one
    item of `len` bytes, so it returns 1, or 0 if there is nothing, and the loop goes on if that is `len`. -/
def xoDump (s : List Char) : List Char :=
  match s with
  | [] => []
  | c :: s =>
    let line := (c :: s).take 1024
    line ++ if line.length = 1 then xoDump ((c :: s).drop 1024) else []
  termination_by s.length
  decreasing_by simp only [List.length_drop, List.length_cons]; omega

/-- The mark, src/helpers.c:341-370, none for a negative status -/
def xoMark (status : Int) : List XoSay := if status < 0 then [] else [.mark (statusRc status)]

/-- `run_interactive()`, src/exec.c:199-259.  The message that there was no fork(2) is left out. -/
def xoRun (E : XoEnv) (desc : CStr) (c : XoCmd) : XoRes :=
  let out := if c.ends = .noFork then [] else c.out
  let err := if c.ends = .noFork then [] else c.err
  let status := xoStatus E c.ends
  let console :=
    if E.temp && !E.debug then .desc desc :: (xoMark status ++ [.err (xoDump err)])
    else .desc desc :: .err err :: xoMark status
  ⟨console, xoLog [] out, status⟩

end Verif
