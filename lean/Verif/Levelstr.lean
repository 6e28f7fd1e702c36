import Verif.Runlevels

/-!
# Runlevels as shown by initctl (src/initctl.c:760-803)
-/

namespace Verif

/-- The values of `i` in the loop, src/initctl.c:771,775-799: `do … while (i < INIT_LEVEL)` -/
def rsIter : Nat → Nat → List Nat
  | 0, _ => []
  | k + 1, i =>
    let next := if i = 10 then 0 else i + 1
    i :: if next < 10 then rsIter k next else []

/-- One round, src/initctl.c:776-790: the runlevel, or `-`, in bold if it is the current one -/
def rsRound (plain : Bool) (curr : Nat) (levels : BitVec 32) (lvl : CStr) (i : Nat) : CStr :=
  if levels.getLsbD i then
    let lvl := if !plain && curr == i then strlcat 32 lvl "\x1b[1m".toList else lvl
    let lvl := strlcat 32 lvl (if i = 10 then "S".toList else [Char.ofNat (48 + i)])
    if !plain && curr == i then strlcat 32 lvl "\x1b[0m".toList else lvl
  else strlcat 32 lvl "-".toList

/-- `runlevel_string()`, src/initctl.c:768-803, into `lvl[32]` -/
def rsString (plain : Bool) (curr : Nat) (levels : BitVec 32) : CStr :=
  strlcat 32 ((rsIter 100 10).foldl (rsRound plain curr levels) (strlcpy 32 "[".toList)) "]".toList

/-- The column of `initctl status`, src/initctl.c:1205-1209: `%-21.21s ` or `%-13.13s ` -/
def rsColumn (lvls : CStr) : CStr :=
  let n := if '\x1b' ∈ lvls then 21 else 13
  let t := lvls.take n
  t ++ List.replicate (n - t.length) ' ' ++ [' ']

end Verif
