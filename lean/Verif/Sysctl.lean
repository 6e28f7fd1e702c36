import Verif.CStr

/-!
# Settings of the kernel at boot, plugins/procps.c

A file for sysctl(8) is the settings it has, in order; sysctl(8) makes them all.  Names of files are of characters that mean nothing to
the shell.  glob(3) gives the files of a directory that end in `.conf` sorted by name.  `SYSCTL_PATH` is its default.
-/

namespace Verif

/-- Files: the names in a directory, as glob(3) gives them, what is in a file, and where the shell can write to -/
structure SctlFs where
  dir : CStr → List CStr
  text : CStr → List (CStr × CStr)
  writable : CStr → Bool

/-- The values of the kernel -/
abbrev SctlVals := CStr → Option CStr

/-- One setting -/
def sctlSet (v : SctlVals) (s : CStr × CStr) : SctlVals := fun k => if k = s.1 then some s.2 else v k

/-- The directories, plugins/procps.c:51-56 -/
def sctlDirs : List CStr :=
  ["/run/sysctl.d".toList, "/etc/sysctl.d".toList, "/usr/local/lib/sysctl.d".toList, "/usr/lib/sysctl.d".toList,
   "/lib/sysctl.d".toList, "/mnt/sysctl.d".toList]

/-- The last file, plugins/procps.c:57 -/
def sctlConf : CStr := "/etc/sysctl.conf".toList

/-- The files in the order of glob(3) with `GLOB_APPEND`, plugins/procps.c:51-57; a `sysctl.conf` that is missing sets nothing -/
def sctlPaths (fs : SctlFs) : List CStr :=
  sctlDirs.flatMap (fun d => (fs.dir d).map fun n => d ++ '/' :: n) ++ [sctlConf]

/-- The start of the command, plugins/procps.c:64 -/
def sctlCmd : CStr := "/sbin/sysctl -e -p ".toList

/-- The command in its buffer of 160 bytes, plugins/procps.c:62-64 -/
def sctlLine (path : CStr) : CStr := (sctlCmd ++ path ++ " >/dev/null".toList).take 159

/-- What the shell makes of a command that starts with `sctlCmd`: the file that is read, none if it cannot be run -/
def sctlShell (fs : SctlFs) (line : CStr) : Option CStr :=
  let args := line.drop sctlCmd.length
  let path := args.takeWhile (· ≠ ' ')
  match args.dropWhile (· ≠ ' ') with
  | ' ' :: '>' :: to => if to = [] then none else if fs.writable to then some path else none
  | _ => some path

/-- A file, plugins/procps.c:61-66 -/
def sctlFile (fs : SctlFs) (v : SctlVals) (path : CStr) : SctlVals :=
  match sctlShell fs (sctlLine path) with
  | none => v
  | some p => (fs.text p).foldl sctlSet v

/-- `setup()`, plugins/procps.c:42-71 -/
def sctlSetup (fs : SctlFs) (rescue : Bool) (v : SctlVals) : SctlVals :=
  if rescue then v else (sctlPaths fs).foldl (sctlFile fs) v

end Verif
