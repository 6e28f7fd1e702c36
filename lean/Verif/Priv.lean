import Verif.Line

/-!
# The user and group a service runs as

`service_fork` (src/service.c:524-590), `getuser` and `getgroup` (src/util.c:183-213), built without `ENABLE_STATIC`.
The account files, what the kernel grants and what directories can be entered are parameters.  The environment of the
child is in `Verif.Environ`, resource limits are in `Verif.Conf`.
-/

namespace Verif

/-- The account files: `getpwnam` gives number and home directory, `getgrnam` the number; both are 32 bits without a sign. -/
structure Accounts where
  user : CStr → Option (BitVec 32 × CStr)
  group : CStr → Option (BitVec 32)

/-- Whose rights a process has, and where it is: real, effective and saved numbers are one here, since `setuid` and
    `setgid` of a process of root change all of them. -/
structure Cred where
  uid : BitVec 32
  gid : BitVec 32
  groups : List (BitVec 32)
  cwd : CStr
  deriving DecidableEq, Repr

/-- What the kernel allows: `setuid`, `setgid`, `chdir` -/
structure PrivKern where
  uid : Cred → BitVec 32 → Bool
  gid : Cred → BitVec 32 → Bool
  dir : Cred → CStr → Bool

/-- `getuser`, src/util.c:183-199: the number as an `int`, -1 if there is no such user, and the home directory -/
def getUser (A : Accounts) (name : CStr) : Int × Option CStr :=
  match A.user name with
  | none => (-1, none)
  | some (n, home) => (n.toInt, some home)

/-- `getgroup`, src/util.c:201-213 -/
def getGroup (A : Accounts) (name : CStr) : Int :=
  match A.group name with
  | none => -1
  | some n => n.toInt

/-- src/service.c:549-552: `setgid`; `err` only writes to the log, src/log.h:66 -/
def dropGroup (K : PrivKern) (gid : Int) (c : Cred) : Cred :=
  if gid ≥ 0 then
    if K.gid c (BitVec.ofInt 32 gid) then { c with gid := BitVec.ofInt 32 gid } else c
  else c

/-- src/service.c:555-556: `setuid` -/
def dropUser (K : PrivKern) (uid : Int) (c : Cred) : Cred :=
  if K.uid c (BitVec.ofInt 32 uid) then { c with uid := BitVec.ofInt 32 uid } else c

/-- src/service.c:561-567: to the home directory, or to the root directory -/
def goHome (K : PrivKern) (home : Option CStr) (c : Cred) : Cred :=
  match home with
  | none => c
  | some h =>
    if K.dir c h then { c with cwd := h }
    else if K.dir c ['/'] then { c with cwd := ['/'] }
    else c

/-- The child in `service_fork`, src/service.c:529-572, from the rights it has inherited to those it runs the program with -/
def serviceFork (A : Accounts) (K : PrivKern) (username group : CStr) (c : Cred) : Cred :=
  let u := getUser A username
  let g := getGroup A group
  let c := dropGroup K g c
  if u.1 ≥ 0 then goHome K u.2 (dropUser K u.1 c) else c

end Verif
