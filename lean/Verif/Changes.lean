import Verif.CStr

/-!
# Noticing changed configuration files

Model of `conf_change_act`, `conf_changed`, `conf_iwatch_read` and `conf_flush_events` in src/conf.c, with the watched
directories of `conf_monitor`.

Simplified: a path is its text, directories are not symbolic links and links lead to absolute paths; a file is watched if
its directory is, so the watch for finit.conf itself is not modelled; the kernel tells of every change in a watched
directory until its queue is full.
-/

namespace Verif

/-- What is at a path -/
inductive FNode
  | file (data : CStr)
  | link (target : CStr)
  deriving DecidableEq, Repr

/-- Files by path -/
abbrev Files := CStr → Option FNode

/-- Result of realpath(3): a path, `ENOENT`, or `ELOOP` -/
inductive Real
  | found (p : CStr)
  | noent
  | loop
  deriving DecidableEq, Repr

/-- realpath(3) with the given number of links left -/
def realAt (fs : Files) : Nat → CStr → Real
  | n, p => match fs p with
    | none => .noent
    | some (.file _) => .found p
    | some (.link t) => match n with
      | 0 => .loop
      | n + 1 => realAt fs n t

/-- realpath(3), with MAXSYMLINKS of Linux -/
def realpath (fs : Files) (p : CStr) : Real := realAt fs 40 p

/-- What is read from a path -/
def contents (fs : Files) (p : CStr) : Option CStr :=
  match realpath fs p with
  | .found q => match fs q with
    | some (.file d) => some d
    | _ => none
  | _ => none

/-- `paste` of libite -/
def pastePath (dir name : CStr) : CStr :=
  if dir.getLast? = some '/' then dir ++ name else dir ++ '/' :: name

/-- An event: the path of its watch, if there is one, and its name -/
structure InEvent where
  dir : Option CStr
  name : CStr
  deriving DecidableEq, Repr

/-- What is known: files, events not yet read, and `conf_change_list` -/
structure Watched where
  fs : Files
  queue : List InEvent := []
  changes : List CStr := []

/-- The event the kernel makes for a change of a path, with these watches -/
def eventFor (ws : List CStr) (p : CStr) : Option InEvent :=
  let name := (p.reverse.takeWhile (· ≠ '/')).reverse
  let dir := ((p.reverse.dropWhile (· ≠ '/')).drop 1).reverse
  (ws.find? fun w => decide (w = dir) || decide (w = dir ++ ['/'])).map fun w => ⟨some w, name⟩

/-- The path an event is about, src/conf.c:1467-1471.  `char` is signed: `name[0] >= ' '`. -/
def eventPath (dir name : CStr) : CStr :=
  match name with
  | c :: _ => if 32 ≤ c.toNat ∧ c.toNat < 128 then pastePath dir name else dir
  | [] => dir

/-- What is noted for an event, src/conf.c:1474-1487; `none` if realpath(3) fails but with `ENOENT` -/
def notedFor (fs : Files) (name fn : CStr) : Option CStr :=
  if '@' ∈ name then some fn else
    match realpath fs fn with
    | .found q => some q
    | .noent => some fn
    | .loop => none

/-- `conf_change_act`, src/conf.c:1461-1510; `none` on failure -/
def changeAct (fs : Files) (dir name : CStr) (changes : List CStr) : Option (List CStr) :=
  (notedFor fs name (eventPath dir name)).map fun rp => if rp ∈ changes then changes else rp :: changes

/-- `conf_iwatch_read`, src/conf.c:1543-1580, for the events of one read(2) -/
def readBatch (fs : Files) : List InEvent → List CStr → List CStr
  | [], ch => ch
  | e :: es, ch => match e.dir with
    | none => readBatch fs es ch
    | some d => match changeAct fs d e.name ch with
      | none => ch
      | some ch => readBatch fs es ch

/-- One read(2) of at most `n` events -/
def readSome (n : Nat) (s : Watched) : Watched :=
  { s with queue := s.queue.drop n, changes := readBatch s.fs (s.queue.take n) s.changes }

/-- `conf_flush_events`, src/conf.c:1603-1607; `sizes` is how many events each read(2) gets -/
def flushAll (sizes : Nat → Nat) : Nat → Watched → Watched
  | 0, s => s
  | fuel + 1, s => if s.queue = [] then s else flushAll sizes fuel (readSome (sizes fuel + 1) s)

/-- `conf_changed`, src/conf.c:1520-1541 -/
def confChanged (s : Watched) (file : CStr) : Bool :=
  if '@' ∈ file then decide (file ∈ s.changes) else
    match realpath s.fs file with
    | .found q => decide (q ∈ s.changes)
    | _ => false

/-- What can happen between two reloads -/
inductive FAct
  /-- a file or link is made, changed or removed -/
  | change (p : CStr) (n : Option FNode)
  /-- events are read -/
  | read (n : Nat)
  /-- the kernel's queue is full: what it should tell is lost, but for `IN_Q_OVERFLOW` -/
  | lost (p : CStr) (n : Option FNode)

/-- One step -/
def fstep (ws : List CStr) (s : Watched) : FAct → Watched
  | .change p n => { s with fs := fun q => if q = p then n else s.fs q, queue := s.queue ++ (eventFor ws p).toList }
  | .read n => readSome n s
  | .lost p n => { s with fs := fun q => if q = p then n else s.fs q, queue := s.queue ++ [⟨none, []⟩] }

/-- The state in which the files are read at a reload: after `conf_flush_events`, before `drop_changes`,
    src/sm.c:453-475.  The list is empty after the reload before, src/conf.c:1408. -/
def atReload (ws : List CStr) (fs : Files) (acts : List FAct) (sizes : Nat → Nat) : Watched :=
  let s := acts.foldl (fstep ws) { fs := fs }
  flushAll sizes s.queue.length s

/-- Watches of `conf_monitor`, src/conf.c:1612-1643, when all directories are there at boot -/
def watches (rcsd : CStr) : List CStr :=
  [rcsd, rcsd ++ "/available/".toList, rcsd ++ "/enabled/".toList, "/etc/default/".toList, "/etc/conf.d/".toList]

end Verif
