import Verif.CStr

/-!
# Sizes and times as shown by initctl (src/util.c)
-/

namespace Verif

/-- `memsz()`, src/util.c:528-553, into `buf[len]`.  For sizes below 2^61, where `gb` fits an `int`. -/
def szMem (len n : Nat) : CStr :=
  if n = 0 then strlcpy len "--.--".toList
  else
    let gb := n / (1024 * 1024 * 1024)
    let n := n % (1024 * 1024 * 1024)
    let mb := n / (1024 * 1024)
    let n := n % (1024 * 1024)
    let kb := n / 1024
    let b := n % 1024
    if gb ≠ 0 then strlcpy len (Nat.toDigits 10 gb ++ '.' :: Nat.toDigits 10 (mb / 102) ++ ['G'])
    else if mb ≠ 0 then strlcpy len (Nat.toDigits 10 mb ++ '.' :: Nat.toDigits 10 (kb / 102) ++ ['M'])
    else strlcpy len (Nat.toDigits 10 kb ++ '.' :: Nat.toDigits 10 (b / 102) ++ ['k'])

/-- A size in `initctl status`: `uptm[42]`, src/initctl.c:1081,1149 -/
def szStatus (n : Nat) : CStr := szMem 42 n

/-- A size in a column of `initctl top` and `initctl cgroup`: `s[32]`, then `%6.6s`, src/cgutil.c:380,416-419,424-425,512-526 -/
def szColumn (n : Nat) : CStr :=
  let t := (szMem 32 n).take 6
  List.replicate (6 - t.length) ' ' ++ t

/-- One part of `uptime()`: `snprintf(y, sizeof(y), "%ld year", years)` if it is not 0, src/util.c:575-584 -/
def szPart (n : Nat) (name : CStr) : CStr :=
  if n = 0 then [] else strlcpy 20 (Nat.toDigits 10 n ++ ' ' :: name)

/-- `x ? " " : ""`, src/util.c:586-591 -/
def szSep (n : Nat) : CStr := if n = 0 then [] else [' ']

/-- `uptime()`, src/util.c:555-594, into `buf[len]`.  Times are not negative. -/
def szUptime (len secs : Nat) : CStr :=
  let years := secs / 31556926
  let secs := secs % 31556926
  let days := secs / 86400
  let secs := secs % 86400
  let hours := secs / 3600
  let secs := secs % 3600
  let mins := secs / 60
  let secs := secs % 60
  strlcpy len (szPart years "year".toList ++ szSep years ++ szPart days "day".toList ++ szSep days ++
    szPart hours "hour".toList ++ szSep hours ++ szPart mins "min".toList ++ szSep mins ++ szPart secs "sec".toList)

end Verif
