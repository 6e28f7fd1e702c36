import Verif.Exec
import Verif.Line

/-!
# Lines of tmpfiles.d

Model of `tmpfiles` in src/tmpfiles.c, with `--create`: what a line does to the file at its path, for the types `b`,
`c`, `d`, `D`, `f`, `F`, `l`, `L` and `p`.

Simplified: only the file at the path itself is looked at, parents are taken to be made by `mkparent`; calls to the
kernel succeed if the file is of the right kind; numbers of users and groups are their names; `mode` has no sign and
is below 2³²; `create` of libite makes the file if there is none, and sets its mode and owner.  Not modelled: `C`
(copies), the types with patterns (`e`, `w`, `z`, `Z`) and `--remove`.
-/

namespace Verif

/-- Kinds of files -/
inductive TKind
  | reg
  | dir
  | fifo
  | blk (major minor : Int)
  | chr (major minor : Int)
  | lnk (target : CStr)
  deriving DecidableEq, Repr

/-- A file -/
structure TNode where
  kind : TKind
  mode : Nat
  user : CStr := "root".toList
  group : CStr := "root".toList
  data : List Nat := []
  deriving DecidableEq, Repr

/-- What else matters: the umask, users and groups there are, and what a symbolic link leads to, by its text -/
structure TmpEnv where
  umask : Nat
  isUser : CStr → Bool
  isGroup : CStr → Bool
  leads : CStr → Bool
  leadsToDir : CStr → Bool
  /-- whether `create` empties a file -/
  empties : Bool

/-- The fields of a line, src/tmpfiles.c:278-292 -/
structure TmpLine where
  type : CStr
  path : CStr
  mode : Nat
  user : CStr
  group : CStr
  arg : Option CStr
  deriving DecidableEq, Repr

/-- `strtok(NULL, seps)`: the token, and what is left -/
def tmpTok (sep : Char → Bool) (s : CStr) : Option CStr × CStr :=
  match s.dropWhile sep with
  | [] => (none, [])
  | c :: cs => (some ((c :: cs).takeWhile fun x => !sep x), ((c :: cs).dropWhile fun x => !sep x).drop 1)

/-- `strtoul(token, &end, 8)`, and 0 if there are no digits, src/tmpfiles.c:294-297 -/
def octalOf (s : CStr) : Nat := (s.takeWhile isOct).foldl (fun v c => v * 8 + (c.toNat - 48)) 0

/-- `-` and nothing stand for root, src/tmpfiles.c:300-305 -/
def orRoot (s : Option CStr) : CStr :=
  match s with
  | none => "root".toList
  | some u => if u = "-".toList then "root".toList else u

/-- The beginning of `tmpfiles`, src/tmpfiles.c:278-309; nothing if the line is skipped -/
def tmpParse (line : CStr) : Option TmpLine :=
  match tmpTok isBlank line with
  | (none, _) => none
  | (some type, r) =>
    match tmpTok isBlank r with
    | (none, _) => none
    | (some path, r) =>
      if '%' ∈ path then none
      else
        let mode := tmpTok isBlank r
        let user := tmpTok isBlank mode.2
        let group := tmpTok isBlank user.2
        let age := tmpTok isBlank group.2
        let arg := tmpTok (fun c => decide (c = '\n')) age.2
        some ⟨type, path, octalOf (mode.1.getD []), orRoot user.1, orRoot group.1, arg.1⟩

/-- What the kernel makes of the mode in `open`, `mknod` and `mkfifo` -/
def maskMode (umask mode : Nat) : Nat := mode &&& (0o7777 ^^^ (umask &&& 0o777))

/-- `mode ?: dflt` -/
def modeOr (mode dflt : Nat) : Nat := if mode = 0 then dflt else mode

/-- `stat`, which follows a symbolic link -/
def TmpEnv.stat (E : TmpEnv) (old : Option TNode) : Bool :=
  match old with
  | none => false
  | some n => match n.kind with
    | .lnk t => E.leads t
    | _ => true

/-- `fisdir`, which follows a symbolic link -/
def TmpEnv.isDir (E : TmpEnv) (old : Option TNode) : Bool :=
  match old with
  | none => false
  | some n => match n.kind with
    | .lnk t => E.leadsToDir t
    | .dir => true
    | _ => false

/-- `parse_mm`, src/tmpfiles.c:88-109 -/
def parseMm (arg : Option CStr) : Option (Int × Int) :=
  match arg with
  | none => none
  | some a =>
    if ':' ∈ a then
      let major := atoi (a.takeWhile fun c => decide (c ≠ ':'))
      let minor := atoi ((a.dropWhile fun c => decide (c ≠ ':')).drop 1)
      if major = 0 ∨ minor = 0 then none else some (major, minor)
    else none

/-- `mksubsys`, src/util.c:249-273 -/
def mksubsys (E : TmpEnv) (mode : Nat) (user group : CStr) (old : Option TNode) : Option TNode :=
  if E.isUser user then
    let group := if E.isGroup group then group else "root".toList
    match old with
    | none => some { kind := .dir, mode := mode, user := user, group := group }
    | some n => some { n with mode := mode, user := user, group := group }
  else old

/-- `create` of libite -/
def createFile (E : TmpEnv) (mode : Nat) (user group : CStr) (old : Option TNode) : Option TNode :=
  match old with
  | none => some { kind := .reg, mode := mode, user := user, group := group }
  | some n => some { n with mode := mode, user := user, group := group, data := if E.empties then [] else n.data }

/-- `fopen(path, "w")`, `write_arg` and `fclose`; a symbolic link stays what it is -/
def writeFile (E : TmpEnv) (arg : Option CStr) (old : Option TNode) : Option TNode :=
  let data := match arg with
    | none => []
    | some a => (writeArg a).bytes
  match old with
  | none => some { kind := .reg, mode := maskMode E.umask 0o666, data := data }
  | some n => if n.kind = .reg then some { n with data := data } else some n

/-- `ln`, which does nothing if there is something -/
def lnFile (target : CStr) (old : Option TNode) : Option TNode :=
  match old with
  | none => some { kind := .lnk target, mode := 0o777 }
  | some n => some n

/-- `rmrf`, src/tmpfiles.c:125-135, which does nothing unless it is a directory -/
def rmrf (E : TmpEnv) (old : Option TNode) : Option TNode := if E.isDir old then none else old

/-- The second character of the type -/
def TmpLine.plus (l : TmpLine) : Bool := decide (l.type[1]? = some '+')

/-- Cases `b`, `c` and `p`: something that is there stays, or is erased, src/tmpfiles.c:366-389,479-487 -/
def mkSpecial (E : TmpEnv) (l : TmpLine) (kind : TKind) (old : Option TNode) : Option TNode :=
  let new : TNode := { kind := kind, mode := maskMode E.umask (modeOr l.mode 0o644) }
  match old with
  | none => some new
  | some n => if E.stat old then (if l.plus then some new else some n) else some n

/-- Case `L`, src/tmpfiles.c:462-478 -/
def mkLink (E : TmpEnv) (l : TmpLine) (old : Option TNode) : Option TNode :=
  let target := l.arg.getD ("/usr/share/factory".toList ++ l.path)
  if E.stat old then
    if l.plus then lnFile target (rmrf E old) else old
  else lnFile target old

/-- The `switch` of `tmpfiles`, src/tmpfiles.c:363-531 -/
def tmpCreate (E : TmpEnv) (l : TmpLine) (old : Option TNode) : Option TNode :=
  match l.type.head? with
  | some 'b' => match parseMm l.arg with
    | none => old
    | some (a, b) => mkSpecial E l (.blk a b) old
  | some 'c' => match parseMm l.arg with
    | none => old
    | some (a, b) => mkSpecial E l (.chr a b) old
  | some 'd' | some 'D' => mksubsys E (modeOr l.mode 0o755) l.user l.group old
  | some 'f' | some 'F' =>
    if l.plus || decide (l.type.head? = some 'F') then
      match l.arg with
      | none => createFile E (modeOr l.mode 0o644) l.user l.group old
      | some _ => writeFile E l.arg old
    else if E.stat old then old else writeFile E l.arg old
  | some 'l' =>
    if E.leads (l.arg.getD ("/usr/share/factory".toList ++ l.path)) then mkLink E l old else old
  | some 'L' => mkLink E l old
  | some 'p' => mkSpecial E l .fifo old
  | _ => old

end Verif
