import Verif.PidFile
import Verif.Line
import Verif.Sulogin
import Verif.Environ

/-!
# Whose PID file it is: plugins/pidfile.c, src/svc.c and src/pid.c

What is told by the kernel of files in `/run`, and what becomes of the conditions `pid/NAME`.  A file may have changed again when the
event is dealt with, so each event comes with the text that is found then.  What `service_ready()` and `service_forked()` do is in
Verif.Sup.Model.
-/

namespace Verif

/-- `svc->notify`, src/svc.h:90-95: how a service tells that it is ready -/
inductive PwNotify
  | pid | none | other
  deriving DecidableEq, Repr

/-- A service, src/svc.h:146-260 -/
structure PwSvc where
  pid : Int
  pidfile : CStr
  /-- `SVC_TYPE_DAEMON` -/
  daemon : Bool := true
  forking : Bool := false
  notify : PwNotify := .pid
  /-- in one of the states SETUP, TEARDOWN and CLEANUP -/
  busy : Bool := false
  stopping : Bool := false
  /-- the condition `pid/NAME` is on -/
  cond : Bool := false
  deriving DecidableEq, Repr

/-- The services, in the order of `svc_iterator()` -/
structure PwSt where
  order : List Nat
  svc : Nat → PwSvc

/-- The kind of an event: `IN_CLOSE_WRITE`, `IN_ATTRIB`, `IN_MODIFY` and `IN_MOVED_TO`; `IN_DELETE`; or `IN_MOVED_FROM` -/
inductive PwKind
  | written | deleted | away
  deriving DecidableEq, Repr

/-- `pid_file_read()`, src/pid.c:116-132 -/
def pwNum : Option (List Char) → Int
  | none => -1
  | some text => if text = [] then 0 else atoi (chompLine (fgetsOne 41 text).1)

/-- `svc_find_by_pidfile()`, src/svc.c:536-565, and `svc_find_by_pid()`, src/svc.c:445-455 -/
def pwFind (fn : CStr) (text : Option (List Char)) (st : PwSt) : Option Nat :=
  match if 1 < pwNum text then st.order.find? (fun k => (st.svc k).pid == pwNum text) else none with
  | some k => some k
  | none => st.order.find? (fun k => pidFile (st.svc k).pidfile == some fn)

/-- `fnmatch()` with `*\.pid` and `*`/pid, plugins/pidfile.c:73-74 -/
def pwNamed (fn : CStr) : Bool := ".pid".toList.isSuffixOf fn || "/pid".toList.isSuffixOf fn

/-- `svc_has_pidfile()`, src/svc.h:284 -/
def pwHas (s : PwSvc) : Bool := s.daemon && (s.pidfile != [] && s.pidfile.head? != some '!')

/-- `pid_file_set(svc, fn, 1)`, plugins/pidfile.c:120-123 -/
def pwLearn (fn : CStr) (s : PwSvc) : PwSvc :=
  if pwHas s then s
  else match pidFileSet "/run".toList s.forking s.pidfile (some fn) true with
    | .ok p => { s with pidfile := p }
    | _ => s

/-- A file is written, plugins/pidfile.c:111-152; `fexist()` holds if the file could be read -/
def pwWritten (fn : CStr) (text : Option (List Char)) (s : PwSvc) : PwSvc :=
  let s := pwLearn fn s
  if s.forking then
    if pwNum text = -1 then (if text = none then { s with cond := false } else s)
    else { s with pid := pwNum text, cond := if s.notify = .pid then true else s.cond }
  else { s with cond := if s.notify = .pid then true else s.cond }

/-- What becomes of the service that was found, plugins/pidfile.c:84-158 -/
def pwUpdate (fn : CStr) (kind : PwKind) (text : Option (List Char)) (s : PwSvc) : PwSvc :=
  if s.busy then s
  else if s.stopping then { s with cond := false }
  else match kind with
    | .written => pwWritten fn text s
    | .deleted => { s with cond := false }
    | .away => s

/-- `pidfile_update_conds()`, plugins/pidfile.c:65-159; `pidfile_callback()`, plugins/pidfile.c:247-248, does not call it when a file is
    moved away -/
def pwEvent (fn : CStr) (kind : PwKind) (text : Option (List Char)) (st : PwSt) : PwSt :=
  if kind = .away then st
  else if pwNamed fn = false then st
  else match pwFind fn text st with
    | none => st
    | some k => { st with svc := fun j => if j = k then pwUpdate fn kind text (st.svc k) else st.svc j }

/-- What happens: an event, or the rest of Finit changes a service -/
inductive PwAct
  | file (fn : CStr) (kind : PwKind) (text : Option (List Char))
  | other (k : Nat) (s : PwSvc)
  deriving DecidableEq, Repr

def pwStep (a : PwAct) (st : PwSt) : PwSt :=
  match a with
  | .file fn kind text => pwEvent fn kind text st
  | .other k s => { st with svc := fun j => if j = k then s else st.svc j }

def pwRun (acts : List PwAct) (st : PwSt) : PwSt := acts.foldl (fun s a => pwStep a s) st

end Verif
