import Verif.CStr
import Verif.Cond
import Verif.Util
import Verif.PidFile

/-!
# The registry of services: identity, look-up, `if:` statements and job requests

Model of src/svc.c: `svc_new`, `svc_del`, the iterators, the `svc_find*` functions, `svc_ifthen`, `tokstr` and
`svc_parse_jobstr`, of `sanitize` in src/util.c, and of the part of `service_register` in src/service.c that
decides whether a stanza makes a new service or updates a known one.

Simplified: an entry keeps only the fields these functions read.  The job counter is a natural number (it is
an `int` in C and would overflow after 2^31 registrations).  Log messages are left out.
-/

namespace Verif

/-- The fields of `struct svc` used here, src/svc.h:119-236 -/
structure Ent where
  name : CStr
  id : CStr
  cmd : CStr
  job : Nat
  tty : Bool := false
  dev : CStr := []
  deriving DecidableEq

/-- `svc_list` and `jobcounter`, src/svc.c:49-50 -/
structure Regs where
  list : List Ent
  next : Nat
  deriving DecidableEq

/-- Before the first registration. -/
def Regs.start : Regs := ⟨[], 1⟩

/-- `svc_new`, src/svc.c:117-160: MAX_ARG_LEN is 64, MAX_ID_LEN 65, MAX_CMD_LEN 256 (src/svc.h:97-99,153-154) -/
def svcNew (r : Regs) (cmd name id : CStr) (tty : Bool) (dev : CStr) : Regs :=
  let e := fun job => Ent.mk (strlcpy 64 name) (strlcpy 65 id) (strlcpy 256 cmd) job tty (strlcpy 32 dev)
  match r.list.find? (fun s => decide (s.cmd = cmd)) with
  | some s => { r with list := r.list ++ [e s.job] }
  | none => { list := r.list ++ [e r.next], next := r.next + 1 }

/-- `svc_del`, src/svc.c:174-183, of the entry at a position of the list -/
def svcDel (r : Regs) (i : Nat) : Regs := { r with list := r.list.eraseIdx i }

/-- `svc_find`, src/svc.c:397-411: the position of the first match -/
def svcFind (l : List Ent) (name id : CStr) : Option Nat :=
  l.findIdx? (fun s => decide (s.name = name ∧ s.id = id))

/-- `strchr(name, ':')` and the split, src/svc.c:428-434 -/
def splitIdent (s : CStr) : CStr × CStr :=
  (s.takeWhile (fun c => decide (c ≠ ':')), (s.dropWhile (fun c => decide (c ≠ ':'))).drop 1)

/-- `svc_find_by_str`, src/svc.c:421-437 -/
def svcFindByStr (l : List Ent) (s : CStr) : Option Nat :=
  svcFind l (splitIdent s).1 (splitIdent s).2

/-- `svc_find_by_jobid`, src/svc.c:487-500 -/
def svcFindByJobid (l : List Ent) (job : Int) (id : CStr) : Option Nat :=
  l.findIdx? (fun s => decide ((s.job : Int) = job ∧ s.id = id))

/-- `svc_find_by_tty`, src/svc.c:502-519 -/
def svcFindByTty (l : List Ent) (dev : CStr) : Option Nat :=
  l.findIdx? (fun s => decide (s.tty = true ∧ s.dev = dev))

/-- All positions an iterator visits, in order: `svc_named_iterator` (src/svc.c:257-269) and
    `svc_job_iterator` (src/svc.c:283-293) -/
def positions (p : Ent → Bool) (l : List Ent) : List Nat :=
  (List.range l.length).filter (fun i => (l[i]?).any p)

/-- `svc_ident`, src/svc.h:458-476; the buffer has MAX_IDENT_LEN = 130 bytes -/
def svcIdent (e : Ent) : CStr :=
  let b := strlcpy 130 e.name
  if e.id = [] then b else strlcat 130 (strlcat 130 b [':']) e.id

/-! ## `if:` statements -/

/-- One member of the list: is it negated, and which name, src/svc.c:773-776 and 791-794 -/
def ifMember (m : CStr) : Bool × CStr :=
  match m with
  | '!' :: n => (true, n)
  | n => (false, n)

/-- `svc_ifthen`, src/svc.c:750-812; MAX_IDENT_LEN is 130 -/
def ifthen (isConf : Bool) (l : List Ent) (cond : CStr → CState) (stmt : CStr) : Bool :=
  match stmt with
  | [] => true
  | '<' :: body =>
    if isConf then true
    else (tokens isComma (strlcpy 130 (body.takeWhile (fun c => decide (c ≠ '>'))))).all fun m =>
      if (ifMember m).1 then decide (cond (ifMember m).2 ≠ .on) else decide (cond (ifMember m).2 ≠ .off)
  | s =>
    if !isConf then true
    else (tokens isComma (strlcpy 130 s)).all fun m =>
      if (ifMember m).1 then (svcFindByStr l (ifMember m).2).isNone
      else (svcFindByStr l (ifMember m).2).isSome

/-! ## Registration -/

/-- What a stanza says about the identity of a service.  `dev` is the device of a tty (empty when it has none);
    `cmd` is taken to exist (`whichp`, src/service.c:1881). -/
structure Stanza where
  tty : Bool := false
  dev : CStr := []
  name : CStr
  id : CStr := []
  cmd : CStr
  ifstmt : CStr := []
  deriving DecidableEq

/-- The part of a device name that becomes the id of a tty, src/service.c:1863-1869 -/
def ttyId (dev : CStr) : CStr :=
  let b := (dev.reverse.takeWhile (fun c => decide (c ≠ '/'))).reverse
  if b.take 3 = "tty".toList then b.drop 3 else b

/-- The name and id looked up and stored, src/service.c:1796-1803 and 1861-1875 -/
def Stanza.ident (s : Stanza) : CStr × CStr :=
  if s.tty ∧ s.dev ≠ [] then ("tty".toList, if s.id = [] then ttyId s.dev else s.id) else (s.name, s.id)

/-- `service_register`, src/service.c:1805-1912, as far as identity goes.  At this point `svc_ifthen` is called
    with `is_conf` set, so it does not look at conditions. -/
def register (r : Regs) (s : Stanza) : Regs :=
  if !ifthen true r.list (fun _ => .off) s.ifstmt then r
  else
    let found := if s.tty then (if s.dev = [] then none else svcFindByTty r.list s.dev)
      else svcFind r.list s.ident.1 s.ident.2
    match found with
    | none => svcNew r s.cmd s.ident.1 s.ident.2 s.tty s.dev
    | some i => { r with
        list := r.list.modify i fun e => { e with tty := s.tty, cmd := strlcpy 256 s.cmd } }

/-- What happens to the registry over time. -/
inductive RegOp
  | reg (s : Stanza)
  | del (i : Nat)

def Regs.step (r : Regs) : RegOp → Regs
  | .reg s => register r s
  | .del i => svcDel r i

/-- The registry after a history of registrations and removals. -/
def Regs.run (ops : List RegOp) : Regs := ops.foldl Regs.step Regs.start

/-! ## Job requests -/

/-- Helper of `tokstr`: `acc` is the token being read, reversed. -/
def tokstrAux (acc : CStr) : List Char → List CStr
  | [] => [acc.reverse]
  | c :: cs =>
    if isSpace c then acc.reverse :: (if cs = [] then [] else tokstrAux [] cs)
    else tokstrAux (c :: acc) cs

/-- The tokens given out by repeated calls of `tokstr`, src/svc.c:815-841: the buffer (which may hold NUL bytes)
    is cut at every white space, and each token is then read as a C string. -/
def tokstr (buf : List Char) : List CStr :=
  (if buf = [] then [] else tokstrAux [] buf).map (·.takeWhile fun c => decide (c ≠ '\x00'))

/-- A byte matched by `[a-z0-9_]` regardless of case -/
def isWord (c : Char) : Bool :=
  isDigit c || decide (97 ≤ c.toNat ∧ c.toNat ≤ 122) || decide (65 ≤ c.toNat ∧ c.toNat ≤ 90) || decide (c = '_')

/-- `sanitize`, src/util.c:559-577: the regular expression `[a-z0-9_]+[:]?[a-z0-9_]*` is not anchored, so it
    matches as soon as one such byte is in the string. -/
def sanitize (s : CStr) : Bool := s.any isWord

/-- LONG_MAX (64 bit) -/
def longMax : Nat := 9223372036854775807

/-- Conversion of a non-negative `long` to the `int` parameter of `svc_job_iterator` and `svc_find_by_jobid` -/
def toInt32 (v : Nat) : Int :=
  let m := v % 4294967296
  if m < 2147483648 then (m : Int) else (m : Int) - 4294967296

/-- What one token makes `svc_parse_jobstr` do, src/svc.c:862-917. -/
inductive JobAct
  /-- `goto next`: not sane -/
  | skip
  /-- `continue` without fetching the next token: the loop never ends -/
  | hang
  /-- without an id: `found` for each position; if there is none, `not_found` -/
  | all (l : List Nat)
  /-- with an id: `found` for the match, or for NULL if there is no match and no `not_found` -/
  | one (o : Option Nat)
  deriving DecidableEq

/-- src/svc.c:862-917 -/
def jobAct (l : List Ent) (tok : CStr) : JobAct :=
  if !sanitize tok then .skip
  else
    let name := (splitIdent tok).1
    let id := (splitIdent tok).2
    let hasId := tok.contains ':'
    if (tok.head?).any isDigit then
      let v := digits (tok.takeWhile isDigit)
      if v > longMax then .hang
      else if hasId then .one (svcFindByJobid l (toInt32 v) id)
      else .all (positions (fun e => decide ((e.job : Int) = toInt32 v)) l)
    else if hasId then .one (svcFind l name id)
    else .all (positions (fun e => decide (e.name = tok)) l)

/-- A sequence of `result += found(svc, user_data)` -/
def callAll {σ} (found : σ → Option Nat → σ × Nat) : σ × Nat → List (Option Nat) → σ × Nat
  | s, [] => s
  | (s, n), t :: ts => callAll found ((found s t).1, n + (found s t).2) ts

/-- `svc_parse_jobstr` as the start, stop, restart, reload and signal requests call it (src/api.c:55-59 and 151):
    with `found` and without `not_found`.  `none`: it never returns. -/
def parseJobstr {σ} (l : List Ent) (found : σ → Option Nat → σ × Nat) : σ × Nat → List CStr → Option (σ × Nat)
  | s, [] => some s
  | s, tok :: ts =>
    match jobAct l tok with
    | .skip => parseJobstr l found s ts
    | .hang => none
    | .all is => parseJobstr l found (callAll found s (is.map some)) ts
    | .one o => parseJobstr l found (callAll found s [o]) ts

/-- `svc_parse_jobstr` as `do_query` calls it (src/api.c:172-181): without `found`, and with `missing`, which
    counts 1.  `none`: it never returns. -/
def queryJobstr (l : List Ent) : Nat → List CStr → Option Nat
  | n, [] => some n
  | n, tok :: ts =>
    match jobAct l tok with
    | .skip => queryJobstr l n ts
    | .hang => none
    | .all is => queryJobstr l (if is = [] then n + 1 else n) ts
    | .one o => queryJobstr l (if o = none then n + 1 else n) ts

/-- `do_start` and its like on the data of a request, src/api.c:139-142 -/
def jobRequest {σ} (l : List Ent) (found : σ → Option Nat → σ × Nat) (s : σ) (buf : List Char) : Option (σ × Nat) :=
  parseJobstr l found (s, 0) (tokstr buf)

/-- `do_query` on the data of a request, src/api.c:172-181 -/
def queryRequest (l : List Ent) (buf : List Char) : Option Nat := queryJobstr l 0 (tokstr buf)

end Verif
