import Verif.Sulogin
import Verif.Runparts
import Verif.Line
import Verif.Getty

/-!
# The `module` line (src/conf.c:617-660, 925-929)

Not modelled: the progress shown on the console and the output of modprobe (see Verif/Cmdout.lean).  /proc/modules and what a command
does are parameters; /proc/modules is read to its end where the code stops at the first match, which reads the same.
-/

namespace Verif

/-- `strtok(buf, " \t")` and what `buf` holds after it, src/conf.c:627,649: the blanks before the token are left -/
def kmCut (s : CStr) : Option CStr := (strtok isBlank s).map fun t => s.takeWhile isBlank ++ t.1

/-- `kmod_exists()`, src/conf.c:617-637; none if /proc/modules cannot be opened -/
def kmExists (proc : Option (List Char)) (mod : CStr) : Bool :=
  match proc with
  | none => false
  | some text => (fgetsAll text).any fun buf => decide ((strtok isBlank (toCStr buf)).map Prod.fst = some mod)

/-- `kmod_load()`, src/conf.c:639-660: the command that is run, none if there is none -/
def kmLoad (runlevel : Int) (proc : Option (List Char)) (mod : CStr) : Option CStr :=
  if runlevel ≠ 10 then none
  else
    match kmCut (strlcpy 64 mod) with
    | none => none
    | some module => if kmExists proc module then none else some (strlcat 1024 "modprobe ".toList mod)

/-- A line in `parse_static()`, src/conf.c:926-929: the command that is run for it, none if there is none -/
def kmLine (runlevel : Int) (proc : Option (List Char)) (line : CStr) : Option CStr :=
  if runlevel = 10 then
    match matchRp "module ".toList line with
    | some x => kmLoad runlevel proc (stripLine x)
    | none => none
  else none

/-- The lines of a configuration one after the other: the commands run for `module` lines, and the system after them -/
def kmBoot {W : Type} (proc : W → Option (List Char)) (sh : CStr → W → W) (runlevel : Int) : List CStr → W → List CStr × W
  | [], w => ([], w)
  | l :: ls, w =>
    match kmLine runlevel (proc w) l with
    | none => kmBoot proc sh runlevel ls w
    | some cmd =>
      let r := kmBoot proc sh runlevel ls (sh cmd w)
      (cmd :: r.1, r.2)

/-- What `sh -c` runs for a command whose first word has no `=`: its words.  None if there is more to it than words. -/
def kmShell (text : CStr) : Option (List CStr) :=
  if text.all (fun c => shPlain c || decide (c = '=') || isBlank c) then some (tokens isBlank text) else none

end Verif
