import Verif.PidFile

/-!
# Pieces of the .conf parser (src/conf.c)
-/

namespace Verif

/-! ## Templates -/

/-- The second loop of `instantiate`, src/conf.c:1136-1148; `pos` is an index into `line`.
    Each round brings `pos` closer to the end, so the length of the line is enough fuel. -/
def instLoop (name : CStr) : Nat → Nat → CStr → CStr
  | 0, _, line => line
  | n + 1, pos, line =>
    let from_ := line.drop pos
    match from_.dropWhile (· ≠ '%') with
    | [] => line
    | _ :: rest =>
      let ptr := pos + (from_.takeWhile (· ≠ '%')).length
      if rest.head? = some 'i' then
        instLoop name n (pos + name.length) (line.take ptr ++ name ++ line.drop (ptr + 2))
      else instLoop name n (pos + 1) line

/-- `instantiate`, src/conf.c:1118-1151; the allocation does not fail. -/
def instantiate (line name : CStr) : CStr :=
  if name = [] then line else instLoop name (line.length + 1) 0 line

/-! ## Environment -/

/-- Without the white space at the end. -/
def trimEnd (s : CStr) : CStr := (s.reverse.dropWhile isSpace).reverse

/-- `unquote(&val, end)`, src/util.h:230-248, `end` being the last character of the line. -/
def unquoteEnd (val : CStr) : CStr :=
  match val with
  | [] => []
  | q :: r =>
    if (q = '"' ∨ q = '\'') ∧ (q :: r).getLast? = some q then r.dropLast else q :: r

/-- `conf_parse_env`, src/conf.c:520-583: the key and the value, or none (NULL) -/
def confParseEnv (line : CStr) : Option (CStr × CStr) :=
  let l := trimEnd (line.dropWhile isSpace)
  if '=' ∈ l then
    let key := trimEnd (l.takeWhile (· ≠ '='))
    let val := ((l.dropWhile (· ≠ '=')).drop 1).dropWhile isSpace
    let key := if "set".toList.isPrefixOf key then key.drop 3 else key
    let key := key.dropWhile isSpace
    if ∃ c ∈ key, isSpace c = true then none else some (key, unquoteEnd val)
  else none

/-! ## Resource limits -/

/-- A limit: a number of units, or RLIM_INFINITY -/
inductive Lim
  | num (n : Int)
  | inf
  deriving DecidableEq, Repr

/-- `struct rlimit` -/
structure RLimit where
  cur : Lim
  max : Lim
  deriving DecidableEq, Repr

/-- `rlimit_names`, src/conf.c:759-780, with the numbers of Linux -/
def rlimitNames : List (CStr × Nat) :=
  [("as", 9), ("core", 4), ("cpu", 0), ("data", 2), ("fsize", 1), ("locks", 10), ("memlock", 8),
   ("msgqueue", 12), ("nice", 13), ("nofile", 7), ("nproc", 6), ("rss", 5), ("rtprio", 14), ("rttime", 15),
   ("sigpending", 11), ("stack", 3)].map (fun p => (p.1.toList, p.2))

/-- `str2rlim`, src/conf.c:782-792 -/
def str2rlim (s : CStr) : Option Nat := (rlimitNames.find? (fun p => decide (p.1 = s))).map (·.2)

/-- The words of the line: level, resource, value, src/conf.c:834-848 -/
def rlimitWords (line : CStr) : Option (CStr × CStr × CStr) :=
  match tokens (fun c => decide (c = ' ' ∨ c = '\t')) line with
  | level :: limit :: val :: _ => some (level, limit, val)
  | [limit, val] => some ("both".toList, limit, val)
  | _ => none

/-- The value of a limit, src/conf.c:855-867 -/
def limitOf (val : CStr) : Option Lim :=
  if val = "unlimited".toList ∨ val = "infinity".toList then some Lim.inf
  else (strtonum val 0 4294967296).map Lim.num

/-- src/conf.c:869-876, for the resource itself -/
def setLimit (level : CStr) (v : Lim) (l : RLimit) : RLimit :=
  if level = "soft".toList then { l with cur := v }
  else if level = "hard".toList then { l with max := v }
  else if level = "both".toList then { cur := v, max := v }
  else l

/-- `conf_parse_rlimit`, src/conf.c:828-880; `arr` is indexed by resource. -/
def confParseRlimit (line : CStr) (arr : Nat → RLimit) : Nat → RLimit :=
  match rlimitWords line with
  | none => arr
  | some (level, limit, val) =>
    match str2rlim limit, limitOf val with
    | some r, some v => fun i => if i = r then setLimit level v (arr i) else arr i
    | _, _ => arr

/-! ## Which files are read -/

/-- `basenm`, src/util.c:159-169 -/
def basenm (path : CStr) : CStr := (path.reverse.takeWhile (· ≠ '/')).reverse

/-- `strncmp(path, dir, strlen(dir)) == 0` for one of the two system directories `dirs` -/
def inSysDir (dirs : CStr × CStr) (path : CStr) : Bool :=
  dirs.1.isPrefixOf path || dirs.2.isPrefixOf path

/-- The loop over the files found by glob(3) in `conf_reload`, src/conf.c:1343-1394: the files given
    to `parse_conf`, in order.  `readable` stands for the tests of src/conf.c:1365-1389 (an existing
    file, not a directory, not a dangling symlink, a name ending in .conf). -/
def confFiles (dirs : CStr × CStr) (readable : CStr → Bool) : List CStr → List CStr
  | [] => []
  | path :: later =>
    if inSysDir dirs path && later.any (fun q => decide (basenm path = basenm q)) then
      confFiles dirs readable later
    else if readable path then path :: confFiles dirs readable later
    else confFiles dirs readable later

end Verif
