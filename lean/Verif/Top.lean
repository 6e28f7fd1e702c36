import Verif.CStr

/-!
# The figures of `initctl top` (src/cgutil.c)
-/

namespace Verif

/-- A line of a file, with its newline, as read by `fgets(buf, n + 1, fp)` until it ends: pieces of at most `n`
    characters.  What comes after 20 pieces is left out. -/
def tpPieces (n : Nat) (line : CStr) : Nat → List CStr
  | 0 => []
  | k + 1 => if line = [] then [] else line.take n :: tpPieces n (line.drop n) k

/-- All pieces of a file of these lines, each without its newline, src/cgutil.c:205-206 -/
def tpRead (n : Nat) (lines : List CStr) : List CStr :=
  lines.flatMap fun l => (tpPieces n (l ++ ['\n']) 20).map (·.filter (· ≠ '\n'))

/-- `strtoull(s, NULL, 10)`.  The kernel writes no signs. -/
def tpNum (s : CStr) : Nat :=
  min (2 ^ 64 - 1) (Nat.ofDigitChars 10 ((s.dropWhile (· = ' ')).takeWhile Char.isDigit) 0)

/-- `!strncmp(buf, name, strlen(name))` -/
def tpIs (name : String) (buf : CStr) : Bool := buf.take name.length == name.toList

/-- `uint64_t` -/
def tpAdd (a b : Nat) : Nat := (a + b) % 2 ^ 64

/-- A line of memory.stat, src/cgutil.c:205-240: `cg_rss` and `cg_vmlib` -/
def tpStat (x : Nat × Nat) (buf : CStr) : Nat × Nat :=
  if tpIs "anon" buf then (tpAdd x.1 (tpNum (buf.drop 5)), x.2)
  else if tpIs "slab" buf then (tpAdd x.1 (tpNum (buf.drop 5)), x.2)
  else if tpIs "kernel_stack" buf then (tpAdd x.1 (tpNum (buf.drop 5)), x.2)
  else if tpIs "pagetables" buf then (tpAdd x.1 (tpNum (buf.drop 5)), x.2)
  else if tpIs "percpu" buf then (tpAdd x.1 (tpNum (buf.drop 5)), x.2)
  else if tpIs "sock" buf then (tpAdd x.1 (tpNum (buf.drop 5)), x.2)
  else if tpIs "file" buf then (x.1, tpAdd x.2 (tpNum (buf.drop 5)))
  else if tpIs "file_mapped" buf then (x.1, tpAdd x.2 (tpNum (buf.drop 5)))
  else x

/-- `cgroup_memuse()`, src/cgutil.c:193-248, for a memory.stat of these lines, into `buf[42]` -/
def tpMemory (lines : List CStr) : Nat × Nat := (tpRead 41 lines).foldl tpStat (0, 0)

/-- `cg_memshare`, src/cgutil.c:244, in tenths of a percent as shown by `%5.1f` -/
def tpShare (rss total : Nat) : Nat := 10 * (rss * 100 % 2 ^ 64 / total)

/-- `cg_prev`, and `cg_load` in tenths of a percent as shown by `%5.1f` -/
structure TpCpu where
  prev : Nat := 0
  load : Nat := 0
  deriving DecidableEq, Repr

/-- `cgroup_cpuload()`, src/cgutil.c:259-292, for a cpu.stat of these lines, into `buf[64]` -/
def tpCpu (c : TpCpu) (lines : List CStr) : TpCpu :=
  match (tpRead 63 lines).find? (tpIs "usage_usec") with
  | none => c
  | some buf =>
    let curr := tpNum (buf.drop 11)
    { prev := curr
      load := if c.prev ≠ 0 then 10 * (100 * ((curr + 2 ^ 64 - c.prev) % 2 ^ 64 / 1000000)) else c.load }

/-- The loads shown for a group, look by look, `cgtop()` every second, src/cgutil.c:584-593,655 -/
def tpLoads : TpCpu → List (List CStr) → List Nat
  | _, [] => []
  | c, l :: r => (tpCpu c l).load :: tpLoads (tpCpu c l) r

end Verif
