import Verif.Sulogin
import Verif.PidFile

/-!
# The name of the system in the banner at bootstrap (src/helpers.c:156-193)

Used if no other name was built in (src/finit.c:94-99).  Not modelled: a NUL in the file, and shortage of memory.
-/

namespace Verif

/-- A quoted value, src/helpers.c:170-181: `q` is the quote it begins with, `rest` what follows it -/
def bhQuoted (q : Char) (rest : CStr) : CStr :=
  let t := q :: (rest.reverse.dropWhile isSpace).reverse
  if t.getLast? = some q then t.dropLast.drop 1 else t

/-- A line, src/helpers.c:165-184: the name if it is the line for it -/
def bhLine (buf : CStr) : Option CStr :=
  if "PRETTY_NAME=".toList.isPrefixOf buf then
    match buf.drop 12 with
    | [] => some []
    | q :: rest => some (if q = '"' ∨ q = '\'' then bhQuoted q rest else q :: rest)
  else none

/-- `release_heading()`, src/helpers.c:156-193, with /etc/os-release if there is one, and the name and version of Finit -/
def bhHeading (file : Option (List Char)) (finit : CStr) : CStr :=
  match file with
  | none => finit
  | some text => ((fgetsAll text).findSome? bhLine).getD finit

end Verif
