import Verif.CStr

/-!
# Progress on the console, src/helpers.c

What is written is characters, of which a byte or more each; the texts of steps are ASCII.  `delline()` of libite erases the line and
is left out: what is on the line before is arbitrary.  write(2) succeeds.  Without `CONFIG_PRINTK_TIME`.
-/

namespace Verif

/-- `pstyle_t`, src/helpers.h:45-49, without the silent one, for which nothing is written -/
inductive PStyle
  | classic
  | modern
  deriving DecidableEq, Repr

/-- What is written: all of it, or nothing is said because a loop goes on for 2^64 turns but a few, or memory is read that does not
    belong to the text -/
inductive ConsOut
  | text (s : CStr)
  | hang
  | overread
  deriving DecidableEq, Repr

/-- How many bytes a text has -/
def byteLen (s : CStr) : Nat := s.foldr (fun c n => c.utf8Size + n) 0

/-- `cprintf()`, src/helpers.c:95-109, with a short format: the length of vsnprintf(3), which is not that of the buffer, is written -/
def cprintf (s : CStr) : ConsOut := if byteLen s < 256 then .text s else .overread

/-- The escape character -/
def ESC : Char := Char.ofNat 27

/-- A sequence for the terminal -/
def csi (s : String) : CStr := ESC :: '[' :: s.toList

/-- `slen()`, src/helpers.c:199-223, for ASCII: a sequence counts as the letter at its end -/
def slen : CStr → Bool → Nat
  | [], _ => 0
  | c :: s, esc =>
    if esc = true ∧ c.isAlpha = false then slen s true
    else if esc = false ∧ c = ESC then slen s true
    else slen s false + 1

/-- How often the loop of `pad()` is gone through, src/helpers.c:234-238, where `size_t` has 64 bits -/
def padTurns (i width : Nat) : Nat := (if width < 8 then width + (2 ^ 64 - 8) else width - 8) - i

/-- The loop of `pad()`, src/helpers.c:235-238 -/
def padLoop (len : Nat) (ch : CStr) : Nat → CStr → CStr
  | 0, buf => buf
  | t + 1, buf => padLoop len ch t (strlcat len buf ch)

/-- `pad()`, src/helpers.c:228-241 -/
def pad (buf : CStr) (len : Nat) (ch : CStr) (width : Nat) : Option CStr :=
  let t := padTurns (slen buf false) width
  if 2 ^ 63 ≤ t then none else some (padLoop len ch t (strlcat len buf " ".toList))

/-- `status1`, src/helpers.c:61-70 -/
def status1 : Nat → CStr
  | 0 => " OK ".toList
  | 1 => "FAIL".toList
  | 2 => "WARN".toList
  | _ => " \\/ ".toList

/-- `status2`, src/helpers.c:61-74 -/
def status2 : Nat → CStr
  | 0 => " OK ".toList
  | 1 => "FAIL".toList
  | 2 => "WARN".toList
  | _ => " ⋯  ".toList

/-- `color`, src/helpers.c:61-78 -/
def statusColor : Nat → CStr
  | 0 => csi "1;32m"
  | 1 => csi "1;31m"
  | _ => csi "1;33m"

/-- `rc` as `status()` takes it, src/helpers.c:305-306 -/
def statusRc (rc : Int) : Nat := if rc < 0 ∨ 4 ≤ rc then 3 else rc.toNat

/-- `status()`, src/helpers.c:301-319 -/
def statusOf (style : PStyle) (rc : Int) : CStr :=
  let rc := statusRc rc
  match style with
  | .classic => csi (if rc = 1 ∨ rc = 2 then "7m" else "1m") ++ '[' :: status1 rc ++ ']' :: csi "0m"
  | .modern => csi "1m" ++ '[' :: statusColor rc ++ status2 rc ++ csi "0m" ++ csi "1m" ++ ']' :: csi "0m" ++ " ".toList

/-- `printv()`, src/helpers.c:321-339, on a terminal of `cols` columns; the text is what vsnprintf(3) makes of the format -/
def printv (style : PStyle) (cols : Nat) (text : CStr) : ConsOut :=
  let buf := text.take (cols - 1)
  match style with
  | .classic =>
    match pad buf cols ".".toList cols with
    | none => .hang
    | some b => cprintf ('\r' :: b ++ " ".toList)
  | .modern => cprintf ('\r' :: csi "K" ++ statusOf .modern 3 ++ buf)

/-- The end of `print()`, src/helpers.c:354-360 -/
def printRc (style : PStyle) (rc : Int) : ConsOut :=
  if rc < 0 then .text []
  else match style with
    | .classic => cprintf (statusOf .classic rc ++ "\n".toList)
    | .modern => cprintf ('\r' :: statusOf .modern rc ++ "\n".toList)

/-- One after the other -/
def ConsOut.andThen (a b : ConsOut) : ConsOut :=
  match a, b with
  | .text s, .text t => .text (s ++ t)
  | .text _, b => b
  | a, _ => a

/-- A step from `print_desc()` to `print_result()`, or `print()` with both, src/helpers.c:341-370 -/
def printStep (style : PStyle) (cols : Nat) (text : CStr) (rc : Int) : ConsOut :=
  (printv style cols text).andThen (printRc style rc)

end Verif
