import Verif.Util

/-!
# Unmounting at shutdown (src/mount.c, src/sig.c)
-/

namespace Verif

/-- A line of /proc/mounts.  `held`: something else than another mount keeps it busy, or it cannot be unmounted at all.
    `tmpfs` is the type of the file system. -/
structure Mount where
  id : Nat
  fsname : CStr
  dir : CStr
  tmpfs : Bool
  held : Bool
  deriving DecidableEq, Repr

/-- `is_protected`, src/mount.c:45-71 -/
def protectedMnts : List CStr :=
  ["/sys", "/proc", "/.dev", "/dev", "/dev/pts", "/dev/shm", "dev/.static/dev", "/dev/vcs", "/run", "/var/run", "/"].map
    String.toList

/-- `is_protected`, src/mount.c:45-71 -/
def isProtected (dir : CStr) : Bool :=
  decide (dir ∈ protectedMnts) || "/proc/".toList.isPrefixOf dir || "/sys/".toList.isPrefixOf dir ||
    "/run/".toList.isPrefixOf dir

/-- A directory is, or is below, another one. -/
def atOrBelow (d top : CStr) : Bool := decide (d = top ∨ top = ['/']) || (top ++ ['/']).isPrefixOf d

/-- Two mounts are in each other's way if one is at or below the directory of the other. -/
def inWay (a b : Mount) : Bool := atOrBelow a.dir b.dir || atOrBelow b.dir a.dir

/-- umount(2) of a directory: what is mounted there last is unmounted, unless it is busy: it is held, or something was
    mounted below it, or over it, later.  None is failure. -/
def umount (dir : CStr) : List Mount → Option (Mount × List Mount)
  | [] => none
  | m :: later =>
    if later.any (fun x => decide (x.dir = dir)) then (umount dir later).map (fun r => (r.1, m :: r.2))
    else if m.dir = dir ∧ m.held = false ∧ later.all (fun x => !inWay m x) = true then some (m, later)
    else none

/-- The loop of `unmount_tmpfs` and `unmount_regular`, src/mount.c:111-133, up to the first success: `todo` are the lines of
    /proc/mounts that are yet to be read, `want` those that are tried. -/
def umountPass (want : Mount → Bool) (ms : List Mount) : List Mount → Option (Mount × List Mount)
  | [] => none
  | m :: todo =>
    if isProtected m.dir = false ∧ want m = true then
      match umount m.dir ms with
      | some r => some r
      | none => umountPass want ms todo
    else umountPass want ms todo

/-- The loop of `unmount_tmpfs` and `unmount_regular`: after each success the iteration restarts.  What was unmounted, in
    order, and what is left. -/
def umountLoop (want : Mount → Bool) : Nat → List Mount → List Mount × List Mount
  | 0, ms => ([], ms)
  | n + 1, ms =>
    match umountPass want ms ms with
    | none => ([], ms)
    | some (m, ms') => let r := umountLoop want n ms'; (m :: r.1, r.2)

/-- `unmount_tmpfs`, src/mount.c:111-121: by the name of the device, not by the type -/
def unmountTmpfs (ms : List Mount) : List Mount × List Mount :=
  umountLoop (fun m => decide (m.fsname = "tmpfs".toList)) ms.length ms

/-- `unmount_regular`, src/mount.c:123-133 -/
def unmountRegular (ms : List Mount) : List Mount × List Mount := umountLoop (fun _ => true) ms.length ms

/-- What happens to file systems in `do_shutdown`, src/sig.c:355-361: what is unmounted before swap is turned off, what
    after, and what is left -/
def unmountAll (ms : List Mount) : List Mount × List Mount × List Mount :=
  let a := unmountTmpfs ms
  let b := unmountRegular a.2
  (a.1, b.1, b.2)

end Verif
