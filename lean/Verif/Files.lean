import Verif.Conf
import Verif.Runparts

/-!
# Reading the configuration: which files, in what order, with what in them (src/conf.c)
-/

namespace Verif

/-! ## Memory of `instantiate` -/

/-- The first loop of `instantiate`, src/conf.c:1127-1130: `pos` goes on by one as long as there is a '%' at or after it. -/
def pctRounds : CStr → Nat
  | [] => 0
  | c :: s => if '%' ∈ c :: s then pctRounds s + 1 else 0

/-- The second loop of `instantiate`, src/conf.c:1136-1148, in a buffer of `cap` bytes.  None is a write beyond it (or a
    loop that does not end). -/
def instLoopIn (cap : Nat) (name : CStr) : Nat → Nat → CStr → Option CStr
  | 0, _, _ => none
  | n + 1, pos, line =>
    let from_ := line.drop pos
    match from_.dropWhile (· ≠ '%') with
    | [] => some line
    | _ :: rest =>
      let ptr := pos + (from_.takeWhile (· ≠ '%')).length
      if rest.head? = some 'i' then
        let line' := line.take ptr ++ name ++ line.drop (ptr + 2)
        if line'.length + 1 ≤ cap then instLoopIn cap name n (pos + name.length) line' else none
      else instLoopIn cap name n (pos + 1) line

/-- `instantiate`, src/conf.c:1118-1151, with the buffer that is allocated -/
def instantiateIn (line name : CStr) : Option CStr :=
  if name = [] then some line
  else instLoopIn (line.length + pctRounds line * name.length + 1) name (line.length + 1) 0 line

/-! ## Templates -/

/-- `is_template`, src/conf.c:1153-1172: none is no template, else the name of the instance, empty for the template itself;
    `name` has 65 bytes. -/
def isTemplate (file : CStr) : Option CStr :=
  match file.dropWhile (· ≠ '@') with
  | [] => none
  | _ :: nm =>
    match strstr ".conf".toList nm with
    | none => some []
    | some (inst, _) => some (inst.take 64)

/-! ## Files -/

/-- What `lstat` and `realpath` say of a path -/
inductive FKind
  | file
  | dir
  | dangling
  | missing
  deriving DecidableEq, Repr

/-- The file system: names in a directory, kinds of files, and the lines of those that can be opened (as they are after
    `fparseln` and `tabstospaces`, src/conf.c:1202-1206). -/
structure ConfFs where
  ls : CStr → List CStr
  kind : CStr → FKind
  text : CStr → Option (List CStr)

/-- Sorting of glob(3), in the C locale -/
def insertName (n : CStr) : List CStr → List CStr
  | [] => [n]
  | m :: l => if n ≤ m then n :: m :: l else m :: insertName n l

/-- Sorting of glob(3) -/
def sortNames : List CStr → List CStr
  | [] => []
  | n :: l => insertName n (sortNames l)

/-- The pattern `*.conf` of glob(3): no hidden files -/
def globName (n : CStr) : Bool := decide (n.head? ≠ some '.') && ".conf".toList.isSuffixOf n

/-- `glob_append` for one directory, src/conf.c:1229-1250; the directory's name has no characters special to glob(3). -/
def globConf (fs : ConfFs) (dir : CStr) : List CStr :=
  ((sortNames (fs.ls dir)).filter globName).map (fun n => dir ++ '/' :: n)

/-- FINIT_SYSPATH_ and FINIT_RUNPATH_ of a default build -/
def confSys : CStr × CStr := ("/lib/finit/system".toList, "/run/finit/system".toList)

/-- The tests of src/conf.c:1365-1390 -/
def readableConf (fs : ConfFs) (path : CStr) : Bool :=
  decide (fs.kind path = .file) && decide (6 ≤ path.length) && ".conf".toList.isSuffixOf path

/-- The files that `conf_reload` reads after the main file, src/conf.c:1324-1394 -/
def confPaths (fs : ConfFs) (rcsd : CStr) : List CStr :=
  confFiles confSys (readableConf fs)
    (globConf fs confSys.1 ++ globConf fs confSys.2 ++ globConf fs rcsd ++ globConf fs (rcsd ++ "/enabled".toList))

/-- An `include` line, src/conf.c:964-968: the file, in a buffer of 1024 bytes -/
def includeOf (line : CStr) : Option CStr := (matchRp "include ".toList line).map (fun x => (stripLine x).take 1023)

/-- `parse_conf`, src/conf.c:1174-1227: the lines that are acted upon, each with the file it is attributed to.  The number
    is that of file descriptors left: without one, fopen(3) fails.  An `include` that fails is given to `parse_dynamic` and
    `parse_env`, which do nothing with it.  A file exists if, and only if, it can be opened. -/
def parseConf (fs : ConfFs) : Nat → CStr → List (CStr × CStr)
  | 0, _ => []
  | fds + 1, file =>
    let t := isTemplate file
    if t = some [] then []
    else match fs.text file with
      | none => []
      | some lines =>
        lines.flatMap fun line =>
          let line := instantiate line (t.getD [])
          match includeOf line with
          | some inc => parseConf fs fds inc
          | none => [(file, line)]

/-- A line `rcsd DIR`, src/conf.c:937-941 -/
def rcsdOf (line : CStr) : Option CStr := (matchRp "rcsd ".toList line).map stripLine

/-- `finit_rcsd` after some lines; only at bootstrap -/
def rcsdAfter (boot : Bool) (rcsd : CStr) (items : List (CStr × CStr)) : CStr :=
  if boot then items.foldl (fun r it => (rcsdOf it.2).getD r) rcsd else rcsd

/-- `conf_reload`, src/conf.c:1255-1397, without rescue mode: all lines that are acted upon, in order, and `finit_rcsd`
    afterwards -/
def readAll (fs : ConfFs) (boot : Bool) (fds : Nat) (main rcsd : CStr) : List (CStr × CStr) × CStr :=
  let a := parseConf fs fds main
  let r := rcsdAfter boot rcsd a
  let b := (confPaths fs r).flatMap (parseConf fs fds)
  (a ++ b, rcsdAfter boot r b)

end Verif
