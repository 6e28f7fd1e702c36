import Verif.CStr

/-!
# File systems at boot

`fs_mount_all` in src/finit.c: which fstab(5) is used, which file systems are checked in which order, what happens when
a check fails, the root file system becoming writable, `mount -a`, swap, and the mounts every system needs.

A line of fstab(5) or /proc/mounts is what getmntent(3) makes of it; lines longer than the buffer of 256 bytes that the
code gives to getmntent_r(3) are not modelled.  The programs run (fsck, mount, swapon, sulogin) are parameters, as is
what is mounted before and after `mount -a`.
-/

namespace Verif

/-- A line of fstab(5), `struct mntent` -/
structure BfsEnt where
  fsname : CStr
  dir : CStr
  type : CStr
  opts : CStr
  passno : Int
  deriving DecidableEq

/-- How a command ended that is run by a shell, src/exec.c:138-184.  -/
inductive BfsEnd
  | exited (n : Nat)
  | killed (sig : Nat)
  | noFork
  deriving DecidableEq

/-- What is found at boot -/
structure BfsEnv where
  /-- fsck.mode, `none` to skip all checks, src/conf.c:85-101,222-231 -/
  mode : Option CStr
  /-- fsck.repair, src/conf.c:85-101,236-246 -/
  repair : CStr
  /-- Rescue mode, src/finit.c:659 -/
  rescue : Bool
  /-- The fstab(5) asked for on the kernel command line or built in, src/conf.c:187-193,373 -/
  given : Option CStr
  /-- The fstab(5) built in, `FINIT_FSTAB` -/
  dflt : Option CStr
  /-- The files there are -/
  file : CStr → Option (List BfsEnt)
  /-- /proc/mounts before `mount -a`: directories and options -/
  mounts : List (CStr × CStr)
  /-- stat(2) says it is a block device -/
  isBlk : CStr → Bool
  /-- /sys/block with the device numbers -/
  blocks : List (CStr × Nat × Nat)
  /-- The device number of the root file system -/
  rootDev : Nat × Nat
  /-- How commands end -/
  ends : CStr → BfsEnd
  /-- The shell replaces itself by the last command, as most do -/
  shExec : Bool
  /-- There is a program sulogin -/
  haveSulogin : Bool
  /-- There is a program swapon -/
  haveSwapon : Bool
  /-- The directories that are mount points after `mount -a` -/
  mounted : List CStr
  /-- statfs(2) says tmpfs or overlayfs -/
  onTmpfs : CStr → Bool
  /-- /run is a directory -/
  haveRun : Bool
  /-- The group tty, 0 if there is none -/
  ttyGid : Nat

/-- What init does -/
inductive BfsAct
  /-- run fsck(8) -/
  | check (cmd : CStr)
  /-- run sulogin(8) -/
  | shell
  | reboot
  /-- make the root file system writable -/
  | remount
  | hookRootfsUp
  /-- run mount(8) -/
  | mountAll (cmd : CStr)
  | hookMountError
  | hookMountPost
  | swapon (cmd : CStr)
  | mount (src dir type opts : CStr)
  | hookBasefsUp
  deriving DecidableEq

/-- The status `run` returns for a command run with popen(3), src/exec.c:154-184.  The child passes on `WEXITSTATUS`, which
    is 0 for a program that was killed, unless a shell in between made it 128 and the signal.  Without fork(2) the status is
    -1, to the caller the same as 1: not zero and not above 1. -/
def bfsStatus (E : BfsEnv) (cmd : CStr) : Nat :=
  match E.ends cmd with
  | .exited n => n
  | .killed s => if E.shExec then 0 else 128 + s
  | .noFork => 1

/-- `string_match` of libite: equal as far as the shorter goes -/
def bfsMatch (a b : CStr) : Bool := a.isPrefixOf b || b.isPrefixOf a

/-- `hasmntopt` of libc: one of the options, maybe with a value -/
def bfsHasOpt (opts opt : CStr) : Bool :=
  (tokens (· == ',') opts).any fun o => decide (o = opt) || (opt ++ ['=']).isPrefixOf o

/-- `ismnt("/proc/mounts", dir, "rw")`, src/util.c:637-663: the first line for the directory decides -/
def bfsIsRw (dir : CStr) : List (CStr × CStr) → Bool
  | [] => false
  | (d, o) :: ms => if d = dir then (tokens (· == ',') o).contains "rw".toList else bfsIsRw dir ms

/-- `fs_root_dev`, src/finit.c:135-176: the first whole disk with the device number of the root file system -/
def bfsRootDev (E : BfsEnv) : Option CStr :=
  match E.blocks.find? (fun b => b.2 = E.rootDev) with
  | some b => some (("/dev/".toList ++ b.1).take 191)
  | none => none

/-- The device to check, src/finit.c:213-241 -/
def bfsDev (E : BfsEnv) (fsname : CStr) : Option CStr :=
  if E.isBlk fsname then some fsname
  else if bfsMatch fsname "UUID=".toList || bfsMatch fsname "LABEL=".toList then some fsname
  else if fsname = "/dev/root".toList then bfsRootDev E
  else none

/-- The command, src/finit.c:248 -/
def bfsCmd (mode repair dev : CStr) : CStr :=
  ("fsck ".toList ++ mode ++ [' '] ++ repair ++ [' '] ++ dev).take 255

/-- `sulogin(1)`, src/finit.c:104-133 -/
def bfsSulogin (E : BfsEnv) : List BfsAct := (if E.haveSulogin then [.shell] else []) ++ [.reboot]

/-- The command that checks this file system in this pass, if it is to be checked, src/finit.c:206-248 -/
def bfsWant (E : BfsEnv) (mode : CStr) (pass : Nat) (e : BfsEnt) : Option CStr :=
  if e.passno = 0 ∨ e.passno ≠ pass then none
  else
    match bfsDev E e.fsname with
    | none => none
    | some dev => if bfsIsRw e.dir E.mounts then none else some (bfsCmd mode E.repair dev)

/-- `fsck`, src/finit.c:181-271: what is done, and whether a check ended with 1, `none` if the system goes down -/
def bfsPass (E : BfsEnv) (mode : CStr) (pass : Nat) : List BfsEnt → List BfsAct × Option Bool
  | [] => ([], some false)
  | e :: es =>
    match bfsWant E mode pass e with
    | none => bfsPass E mode pass es
    | some cmd =>
      if 1 < bfsStatus E cmd then
        if bfsHasOpt e.opts "nofail".toList then (.check cmd :: (bfsPass E mode pass es).1, (bfsPass E mode pass es).2)
        else (.check cmd :: bfsSulogin E, none)
      else
        (.check cmd :: (bfsPass E mode pass es).1,
          (bfsPass E mode pass es).2.map (fun b => b || decide (bfsStatus E cmd ≠ 0)))

/-- `fsck_all`, src/finit.c:273-289, from the pass on, `n` of them -/
def bfsPasses (E : BfsEnv) (mode : CStr) (es : List BfsEnt) : Nat → Nat → List BfsAct × Option Bool
  | 0, _ => ([], some false)
  | n + 1, pass =>
    match bfsPass E mode pass es with
    | (acts, none) => (acts, none)
    | (acts, some true) => (acts, some true)
    | (acts, some false) => (acts ++ (bfsPasses E mode es n (pass + 1)).1, (bfsPasses E mode es n (pass + 1)).2)

/-- `fsck_all`, src/finit.c:273-289, and the test for rescue mode, src/finit.c:458 -/
def bfsCheckAll (E : BfsEnv) (es : List BfsEnt) : List BfsAct × Option Bool :=
  match E.mode with
  | none => ([], some false)
  | some mode => bfsPasses E mode es 9 1

/-- `fs_remount_root`, src/finit.c:304-332 -/
def bfsRemount (es : List BfsEnt) (bad : Bool) : List BfsAct :=
  match es.find? (fun e => e.dir = ['/']) with
  | none => []
  | some e => if bfsHasOpt e.opts "ro".toList then [] else if bad then [] else [.remount]

/-- The command that mounts everything, src/finit.c:435,464-465 -/
def bfsMountCmd (fstab : CStr) : CStr :=
  if fstab = "/etc/fstab".toList then "mount -na".toList else ("mount -na -T ".toList ++ fstab).take 255

/-- `fs_swapon`, src/finit.c:412-432 -/
def bfsSwapon (E : BfsEnv) (es : List BfsEnt) : List BfsAct :=
  if E.haveSwapon then
    (es.filter (fun e => e.type = "swap".toList)).map fun e => .swapon (("swapon ".toList ++ e.fsname).take 255)
  else []

/-- The options for devpts, src/finit.c:368-377: `mode` is the number 0620, written in decimal -/
def bfsPtsOpts (gid : Nat) : CStr :=
  ("gid=".toList ++ (toString gid).toList ++ ",mode=".toList ++ (toString (0o620 : Nat)).toList ++ ",ptmxmode=0666".toList).take 31

/-- `fs_finalize`, src/finit.c:351-410; mount flags and the directories made are left out -/
def bfsFinalize (E : BfsEnv) : List BfsAct :=
  (if "/dev/shm".toList ∈ E.mounted then []
   else [.mount "shm".toList "/dev/shm".toList "tmpfs".toList "mode=1777".toList]) ++
  (if "/dev/pts".toList ∈ E.mounted then []
   else [.mount "devpts".toList "/dev/pts".toList "devpts".toList (bfsPtsOpts E.ttyGid)]) ++
  (if "/dev/mqueue".toList ∈ E.mounted then []
   else [.mount "mqueue".toList "/dev/mqueue".toList "tmpfs".toList []]) ++
  (if E.haveRun ∧ "/run".toList ∉ E.mounted ∧ E.onTmpfs "/run".toList = false then
     [.mount "tmpfs".toList "/run".toList "tmpfs".toList "mode=0755,size=10%".toList,
      .mount "tmpfs".toList "/run/lock".toList "tmpfs".toList "mode=0777,size=5252880".toList]
   else []) ++
  (if "/tmp".toList ∉ E.mounted ∧ E.onTmpfs "/tmp".toList = false then
     [.mount "tmpfs".toList "/tmp".toList "tmpfs".toList "mode=1777".toList]
   else [])

/-- The fstab(5) used, src/finit.c:437-448 -/
def bfsFstab (E : BfsEnv) : Option (CStr × List BfsEnt) :=
  match E.given.bind (fun p => (E.file p).map fun es => (p, es)) with
  | some r => some r
  | none => E.dflt.bind (fun p => (E.file p).map fun es => (p, es))

/-- The end of `fs_mount_all`, src/finit.c:460-480 -/
def bfsRest (E : BfsEnv) (fstab : CStr) (es : List BfsEnt) : List BfsAct :=
  [.hookRootfsUp, .mountAll (bfsMountCmd fstab)] ++
  (if bfsStatus E (bfsMountCmd fstab) = 0 then [] else [.hookMountError]) ++
  [.hookMountPost] ++ bfsSwapon E es ++ bfsFinalize E ++ [.hookBasefsUp]

/-- `fs_mount_all`, src/finit.c:434-480 -/
def bfsMountAll (E : BfsEnv) : List BfsAct :=
  match bfsFstab E with
  | none => bfsSulogin E
  | some (fstab, es) =>
    if E.rescue then bfsRest E fstab es
    else
      match bfsCheckAll E es with
      | (acts, none) => acts
      | (acts, some bad) => acts ++ bfsRemount es bad ++ bfsRest E fstab es

end Verif
