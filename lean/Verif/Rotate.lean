import Verif.CStr

/-!
# Log files and their rotation

Model of src/logrotate.c and of `flogit` in src/logit.c, the program that writes what a service prints to its log
file.  Files are `FILE`, `FILE.N` and `FILE.N.gz`.

Simplified: renaming, creating, removing and truncating files works; names have room in their buffers (6 digits for
the number); `gzip` either works, or leaves things as they are; it refuses to overwrite an existing file (its standard
input is not a terminal).  The text has no NUL bytes.  Negative sizes and numbers are as 0.
-/

namespace Verif

/-- `FILE`, `FILE.N` and `FILE.N.gz`, the latter by what is compressed in it -/
structure LogFiles where
  live : CStr := []
  plain : Nat → Option CStr := fun _ => none
  gz : Nat → Option CStr := fun _ => none

/-- `rename(FILE.a, FILE.b)`, which does nothing if there is no `FILE.a` -/
def mvLog (f : Nat → Option CStr) (a b : Nat) : Nat → Option CStr :=
  match f a with
  | none => f
  | some c => fun i => if i = b then some c else if i = a then none else f i

/-- The first loop of `logrotate`, src/logrotate.c:64-72, from a count down -/
def ageGz : Nat → (Nat → Option CStr) → Nat → Option CStr
  | 0, f => f
  | n + 1, f => if n + 1 > 2 then ageGz n (mvLog f n (n + 1)) else f

/-- src/logrotate.c:85-90: `gzip FILE.2` -/
def gzipLog (works : Bool) (fs : LogFiles) : LogFiles :=
  match fs.plain 2 with
  | none => fs
  | some c =>
    if works = true ∧ fs.gz 2 = none then
      { fs with
        plain := fun i => if i = 2 then none else fs.plain i
        gz := fun i => if i = 2 then some c else fs.gz i }
    else fs

/-- The second loop of `logrotate`, src/logrotate.c:74-91 -/
def agePlain (works : Bool) : Nat → LogFiles → LogFiles
  | 0, fs => fs
  | n + 1, fs =>
    let fs := { fs with plain := mvLog fs.plain n (n + 1) }
    agePlain works n (if n + 1 = 2 then gzipLog works fs else fs)

/-- `logrotate`, src/logrotate.c:50-105 -/
def logrotate (works : Bool) (num sz : Nat) (fs : LogFiles) : LogFiles :=
  if 0 < sz ∧ sz < fs.live.length then
    if 0 < num then
      let fs := agePlain works num { fs with gz := ageGz num fs.gz }
      { fs with plain := fun i => if i = 1 then some fs.live else fs.plain i, live := [] }
    else { fs with live := [] }
  else fs

/-- What `logit` deals with: a line (or a part of 511 bytes of a line), after which the C library writes some of
    what it has in its buffer; or the end of the input, and another `logit` for the same file -/
inductive LogIn
  | line (text : CStr) (flush : Nat)
  | again
  deriving Repr

/-- The files and what is in the buffer of the C library -/
structure LogState where
  files : LogFiles := {}
  pend : CStr := []

/-- `fclose` -/
def LogState.close (s : LogState) : LogState :=
  { files := { s.files with live := s.files.live ++ s.pend }, pend := [] }

/-- The loop of `flogit`, src/logit.c:77-87, with `checksz`, src/logit.c:46-59; `fsync` does not write what is in the
    buffer -/
def flogitStep (works : Bool) (num sz : Nat) (s : LogState) : LogIn → LogState
  | .line text flush =>
    let pend := s.pend ++ text
    let s : LogState :=
      { files := { s.files with live := s.files.live ++ pend.take flush }, pend := pend.drop flush }
    if 0 < sz ∧ sz < s.files.live.length then
      let s := s.close
      { s with files := logrotate works num sz s.files }
    else s
  | .again => s.close

/-- `flogit`, src/logit.c:61-90 -/
def flogit (works : Bool) (num sz : Nat) (ins : List LogIn) (s : LogState) : LogState :=
  ins.foldl (flogitStep works num sz) s

end Verif
