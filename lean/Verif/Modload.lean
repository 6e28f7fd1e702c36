import Verif.Line
import Verif.Json

/-!
# Kernel modules from /etc/modules-load.d (plugins/modules-load.c)

The lines of a file are those fparseln(3) gives, without the line feed.  Memory is never short and all files can be read.
-/

namespace Verif

/-- What `fgetval` gives: no value, a value, or it reads through a null pointer -/
inductive GetVal
  | none
  | val (v : CStr)
  | crash
  deriving DecidableEq, Repr

/-- A quoted value, src/helpers.h:131-142: blanks at its end are cut off, and so is the quote if it is there. -/
def unquoteVal (v : CStr) : CStr :=
  match v with
  | [] => []
  | q :: r =>
    if q = '"' ∨ q = '\'' then
      let t := (r.reverse.dropWhile isSpace).reverse
      if t = [] then [] else if t.getLast? = some q then t.dropLast else q :: t
    else q :: r

/-- `fgetval`, src/helpers.h:103-146: the separators after the key are skipped, and so is the end of the text. -/
def fgetVal (line key : CStr) (sep : Char → Bool) : GetVal :=
  if line.takeWhile (fun c => !sep c) ≠ key then .none
  else
    match (line.dropWhile (fun c => !sep c)).dropWhile sep with
    | [] => .crash
    | c :: v => .val (unquoteVal (c :: v))

/-- The separators `"= \t"` -/
def isSetSep (c : Char) : Bool := decide (c = '=' ∨ c = ' ' ∨ c = '\t')

/-- The variables of `modules_load`, the lines registered so far, and how it ends -/
structure ModSt where
  index : Int
  lvl : CStr := ['S']
  prog : CStr := "/sbin/modprobe".toList
  out : List CStr := []
  skip : Bool := false
  crash : Bool := false
  deriving DecidableEq, Repr

/-- The line for `service_register`, plugins/modules-load.c:69-72,165-168; `cmd` has 1024 bytes -/
def modCmd (index : Int) (lvl prog mod args : CStr) : CStr :=
  strlcpy 1024 ("cgroup.init name:modprobe.".toList ++ mod ++
    (if index = 0 then [] else " :".toList ++ intText index) ++ " [".toList ++ lvl ++ "] ".toList ++ prog ++ ' ' :: (mod ++
    ' ' :: (args ++ " --".toList)))

/-- `set …`, plugins/modules-load.c:121-159; `access` is access(2) for running the program -/
def modSet (access : CStr → Bool) (s : ModSt) (set : CStr) : ModSt :=
  if set = "noindex".toList then { s with index := 0 }
  else
    match fgetVal set "index".toList isSetSep with
    | .crash => { s with crash := true }
    | .val v => { s with index := atoi v }
    | .none =>
      match fgetVal set "runlevel".toList isSetSep with
      | .crash => { s with crash := true }
      | .val v => { s with lvl := v }
      | .none =>
        match fgetVal set "modprobe".toList isSetSep with
        | .crash => { s with crash := true }
        | .val v => if access v then { s with prog := v } else { s with skip := true }
        | .none => s

/-- One line, plugins/modules-load.c:105-172 -/
def modLine (access : CStr → Bool) (s : ModSt) (line : CStr) : ModSt :=
  if s.skip || s.crash then s
  else if line.head? = some ';' then s
  else
    let mod := (line.dropWhile isBlank).takeWhile (· ≠ '#')
    if mod = [] then s
    else
      match fgetVal mod "set".toList isSetSep with
      | .crash => { s with crash := true }
      | .val set => modSet access s set
      | .none =>
        match strtok (fun c => decide (c = ' ')) mod with
        | Option.none => s
        | some (m, args) =>
          { s with
            out := s.out ++ [modCmd s.index s.lvl s.prog m args]
            index := if s.index = 0 then 0 else s.index + 1 }

/-- `modules_load`, plugins/modules-load.c:74-181 -/
def modFile (access : CStr → Bool) (lines : List CStr) (index : Int) : ModSt :=
  lines.foldl (modLine access) { index := index }

/-- `load`, plugins/modules-load.c:197-213: the lines registered, none if Finit crashes.  `index` is the number of the next one. -/
def modLoad (access : CStr → Bool) : List (List CStr) → Int → Option (List CStr)
  | [], _ => some []
  | f :: fs, index =>
    let s := modFile access f index
    if s.crash then Option.none
    else (modLoad access fs (index + s.out.length)).map (s.out ++ ·)

end Verif
