import Verif.CStr

/-!
# Login records

`utmp_set` and what is built on it (src/utmp-api.c:44-191), with pututline(3) as in the GNU C library (login/utmp_file.c and
login/utmp-equal.h).  Host and time of a record are left out, and so is the rotation of `wtmp` and `lastlog`; that no write fails is
taken for granted.
-/

namespace Verif

/-- The types used, <utmp.h> -/
inductive UtType
  | runLvl
  | bootTime
  | init
  | login
  /-- written by login(1) -/
  | user
  | dead
  deriving DecidableEq, Repr

/-- `struct utmp` -/
structure UtRec where
  type : UtType
  pid : Nat
  line : CStr
  id : CStr
  user : CStr
  deriving DecidableEq, Repr

/-- Types of records that belong to a terminal -/
def utIsProc : UtType → Bool
  | .runLvl | .bootTime => false
  | _ => true

/-- `__utmp_equal` -/
def utEqual (a b : UtRec) : Bool :=
  utIsProc a.type && utIsProc b.type && (if a.id ≠ [] ∧ b.id ≠ [] then decide (a.id = b.id) else decide (a.line = b.line))

/-- Whether pututline(3) takes an entry for that of a record: `matches_last_entry` -/
def utMatch (r e : UtRec) : Bool := if utIsProc r.type then utEqual e r else decide (e.type = r.type)

/-- pututline(3) after setutent(3): in place of the first entry that matches, else at the end -/
def utPut (u : List UtRec) (r : UtRec) : List UtRec :=
  match u with
  | [] => [r]
  | e :: u => if utMatch r e then r :: u else e :: utPut u r

/-- The two files -/
structure UtFiles where
  utmp : List UtRec
  wtmp : List UtRec
  deriving DecidableEq, Repr

/-- `utmp_logrotate`, src/utmp-api.c:63-82, for `utmp`: records have 384 bytes -/
def utRotate (rot : Bool) (u : List UtRec) : List UtRec := if rot ∧ 100 * 1024 < 384 * u.length then [] else u

/-- `utmp_set`, src/utmp-api.c:84-127; a file is at most renamed before it is written -/
def utmpSet (rot : Bool) (f : UtFiles) (type : UtType) (pid : Nat) (line id user : CStr) : UtFiles :=
  let r : UtRec := match type with
    | .runLvl | .bootTime => ⟨type, pid, ['~'], ['~', '~'], user.take 32⟩
    | _ => ⟨type, pid, line.take 32, id.take 4, user.take 32⟩
  ⟨utRotate rot (if type = .dead then f.utmp else utPut f.utmp r), f.wtmp ++ [r]⟩

/-- `set_getty`, src/utmp-api.c:139-160: the name of the terminal -/
def utLine (tty : CStr) : CStr := if tty.take 5 = "/dev/".toList then tty.drop 5 else tty

/-- and its identity, without that of the caller -/
def utId (line : CStr) : CStr := if line.take 4 = "pts/".toList then line.drop 4 else line

/-- `encode`, src/utmp-api.c:177-182 -/
def utLevel (lvl : Nat) : Nat := if lvl = 10 then 0 else lvl + '0'.toNat

/-- What is recorded: the boot, src/utmp-api.c:129-132; a change of runlevel, 184-187; the shutdown, 134-137; a process on a terminal, 162-170, which
    may also be login(1); the end of one, 172-175 -/
inductive UtEv
  | boot
  | level (pre now : Nat)
  | halt
  | proc (type : UtType) (tty : CStr) (pid : Nat) (user : CStr)
  | dead (pid : Nat)
  deriving DecidableEq, Repr

/-- One of them -/
def utStep (rot : Bool) (f : UtFiles) : UtEv → UtFiles
  | .boot => utmpSet rot f .bootTime 0 [] [] "reboot".toList
  | .level pre now => utmpSet rot f .runLvl (utLevel pre * 256 + utLevel now % 256) [] [] "runlevel".toList
  | .halt => utmpSet rot f .runLvl 0 [] [] "shutdown".toList
  | .proc type tty pid user => utmpSet rot f type pid (utLine tty) (utId (utLine tty)) user
  | .dead pid => utmpSet rot f .dead pid [] [] []

/-- All of them, from empty files -/
def utRun (rot : Bool) (es : List UtEv) : UtFiles := es.foldl (utStep rot) ⟨[], []⟩

end Verif
