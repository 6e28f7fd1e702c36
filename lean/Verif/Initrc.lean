import Verif.Files
import Verif.Modload

/-!
# /run/finit/.initrc, by which initctl knows what Finit uses (src/conf.c:416-437, src/initctl.c:1440-1473, src/finit.c:713-726)

Not modelled: that the file cannot be written, and shortage of memory.  Names have no line feed.  fparseln(3) of libite is modelled
as its manual says, with the defaults: `#` begins a comment and `\` at the end joins lines, unless there is a `\` before it.
-/

namespace Verif

/-- `conf_saverc()`, src/conf.c:419-437: the lines, with the constants of src/finit.h:53-54,73-74 -/
def irSave (conf rcsd : CStr) : List CStr :=
  ["FINIT_CONF=".toList ++ conf, "FINIT_RCSD=".toList ++ rcsd, "FINIT_CGPATH=/sys/fs/cgroup".toList,
   "INIT_SOCKET=/run/finit/socket".toList, "INIT_MAGIC=0x03091969".toList]

/-- A line up to a comment; `esc` if the character before it is a `\` that is not escaped -/
def irCut (esc : Bool) : CStr → CStr
  | [] => []
  | c :: r => if c = '#' ∧ esc = false then [] else c :: irCut (decide (c = '\\') && !esc) r

/-- Whether the next line is joined: there is an odd number of `\` at the end. -/
def irJoins (s : CStr) : Bool := (s.reverse.takeWhile (· = '\\')).length % 2 == 1

/-- The lines fparseln(3) gives, `buf` is what it has so far -/
def irParse : Option CStr → List CStr → List CStr
  | none, [] => []
  | some b, [] => [b]
  | buf, l :: ls =>
    let s := irCut false l
    if irJoins s then irParse (some (buf.getD [] ++ s.dropLast)) ls
    else if s = [] ∧ l ≠ [] ∧ buf = none then irParse (some []) ls
    else (buf.getD [] ++ s) :: irParse none ls

/-- One line in `sourcerc()`, src/initctl.c:1449-1464: `finit_conf` and `finit_rcsd`, none if initctl crashed -/
def irLine (st : Option (Option CStr × Option CStr)) (line : CStr) : Option (Option CStr × Option CStr) :=
  match st with
  | none => none
  | some (conf, rcsd) =>
    match fgetVal line "FINIT_CONF".toList (· = '=') with
    | .crash => none
    | .val v => (match fgetVal line "FINIT_RCSD".toList (· = '=') with
      | .crash => none
      | .val w => some (some v, some w)
      | .none => some (some v, rcsd))
    | .none => (match fgetVal line "FINIT_RCSD".toList (· = '=') with
      | .crash => none
      | .val w => some (conf, some w)
      | .none => some (conf, rcsd))

/-- `sourcerc()`, src/initctl.c:1440-1473, with the file if there is one and the defaults of the build; none if initctl crashed -/
def irSource (file : Option (List CStr)) (dconf drcsd : CStr) : Option (CStr × CStr) :=
  match file with
  | none => some (dconf, drcsd)
  | some lines =>
    match (irParse none lines).foldl irLine (some (none, none)) with
    | none => none
    | some st => some (st.1.getD dconf, st.2.getD drcsd)

/-- `finit_rcsd` after some lines read at bootstrap, src/conf.c:937-941 -/
def irRcsd (rcsd : CStr) (lines : List CStr) : CStr := lines.foldl (fun r l => (rcsdOf l).getD r) rcsd

/-- Bootstrap, src/finit.c:718-725 with src/conf.c:1687,1293,1331-1394: the main file is read, .initrc is written, then `conf_reload()` reads the
    main file again and all others.  The file, and what Finit uses after that. -/
def irBoot (conf drcsd : CStr) (main others : List CStr) : List CStr × (CStr × CStr) :=
  let r := irRcsd drcsd main
  (irSave conf r, (conf, irRcsd (irRcsd r main) others))

end Verif
