import Verif.Sulogin
import Verif.Environ
import Verif.Runparts

/-!
# The name of the host, src/helpers.c, src/conf.c

The file /etc/hostname is its text, without NUL, and can be read whole; its size is that fstat(2) tells.  realloc(3) is that of the GNU
C library: it frees for size 0, and gives room of size 0 if there was none.  Not modelled: shortage of memory, failure of fstat(2), and
a file that changes while it is read.
-/

namespace Verif

/-- `hostname`, src/conf.c:69, none for NULL, and the name the kernel has -/
structure HnSt where
  name : Option CStr
  kernel : CStr
  deriving DecidableEq, Repr

/-- sethostname(2): no more than 64 bytes -/
def hnKernel (old new : CStr) : CStr := if new.length ≤ 64 then new else old

/-- The end of `set_hostname()`, src/helpers.c:399-404 -/
def hnDone (st : HnSt) : HnSt :=
  match st.name with
  | none => st
  | some n => { st with kernel := hnKernel st.kernel n }

/-- `set_hostname()`, src/helpers.c:374-405.  None if strlen(3) is called for room without a terminator. -/
def hnSet (rescue : Bool) (file : Option (List Char)) (st : HnSt) : Option HnSt :=
  if rescue then some (hnDone st)
  else match file with
    | none => some (hnDone st)
    | some text =>
      if text.length = 0 then
        match st.name with
        | some _ => some { st with name := none }
        | none => none
      else some (hnDone { st with name := some (chompLine (fgetsOne (text.length - 1) text).1) })

/-- A line `host` or `hostname`, src/conf.c:910 -/
def hnLine (line : CStr) : Option CStr :=
  match matchRp "host ".toList line with
  | some x => some (stripLine x)
  | none => (matchRp "hostname ".toList line).map stripLine

/-- What a line does to `hostname`, src/conf.c:910-914 -/
def hnName (name : Option CStr) (line : CStr) : Option CStr := match hnLine line with | some x => some x | none => name

/-- What the lines of the configuration do to `hostname`, src/conf.c:1198-1219; `boot` is `BOOTSTRAP` -/
def hnLines (boot : Bool) (lines : List CStr) (name : Option CStr) : Option CStr :=
  if boot then lines.foldl hnName name else name

/-- What happens to the name -/
inductive HnEv
  /-- The configuration is read, src/conf.c:1255-1428 -/
  | read (boot rescue : Bool) (lines : List CStr) (file : Option (List Char))
  /-- Somebody else sets the name -/
  | other (name : CStr)
  deriving DecidableEq, Repr

/-- One event -/
def hnStep (st : HnSt) : HnEv → Option HnSt
  | .read boot rescue lines file => hnSet rescue file { st with name := hnLines boot lines st.name }
  | .other n => some { st with kernel := hnKernel st.kernel n }

/-- All events -/
def hnRun : List HnEv → HnSt → Option HnSt
  | [], st => some st
  | e :: es, st => match hnStep st e with
    | none => none
    | some st => hnRun es st

/-- Before all, `conf_init()`, src/conf.c:1651; `defhost` is `DEFHOST` -/
def hnInit (defhost kernel : CStr) : HnSt := { name := some defhost, kernel := kernel }

end Verif
