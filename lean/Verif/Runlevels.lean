import Verif.CStr

/-!
# Runlevel lists (src/conf.c:661-696)
-/

namespace Verif

/-- `1 << n` on a 32-bit `int`. -/
def bit32 (n : Nat) : BitVec 32 := 1#32 <<< n

/-- `level` of one character, src/conf.c:680-686: `none` when out of range.  (`char` may be signed
    or not: bytes from 128 on are out of range either way.) -/
def rlLevel (c : Char) : Option Nat :=
  if c = 's' ∨ c = 'S' then some 10
  else if c.toNat < 48 then none
  else if c.toNat - 48 > 10 then none
  else some (c.toNat - 48)

/-- The loop of `conf_parse_runlevels`, src/conf.c:669-693.  `neg` is the variable `not`. -/
def rlLoop : Bool → BitVec 32 → CStr → BitVec 32
  | _, m, [] => m
  | neg, m, c :: cs =>
    if c = ']' then m
    else if c = '!' then rlLoop true 0x7FE#32 cs
    else
      match rlLevel c with
      | none => rlLoop neg m cs
      | some l => if neg then rlLoop neg (m &&& ~~~(bit32 l)) cs else rlLoop neg (m ||| bit32 l) cs

/-- `conf_parse_runlevels`, src/conf.c:662-696.  The argument, if any, starts with `[`
    (src/service.c:1726-1727), which is skipped (`i = 1`). -/
def parseRunlevels (arg : Option CStr) : BitVec 32 :=
  rlLoop false 0 ((arg.getD "[234]".toList).drop 1)

end Verif
