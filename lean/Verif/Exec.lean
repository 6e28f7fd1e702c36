import Verif.CStr

/-!
# Splitting a command line, and writing the argument of a tmpfiles line

Model of the argument splitter in `run` (src/exec.c:96-139) and of `write_arg`, `write_hex` and `write_num`
(src/tmpfiles.c:143-262).  Reading or writing outside the string is an outcome of its own.
-/

namespace Verif

/-! ## `run` -/

/-- `arg` after `strsep(&arg, set)`: the token, and the rest unless the end of the string was reached -/
def strsep (sep : Char → Bool) (s : CStr) : CStr × Option CStr :=
  match s.dropWhile (fun c => !sep c) with
  | [] => (s, none)
  | _ :: rest => (s.takeWhile (fun c => !sep c), some rest)

inductive Split
  | ok (args : List CStr)
  /-- EOVERFLOW, src/exec.c:131-136 -/
  | tooLong
  /-- a write through a null pointer, or a read behind the end of the string -/
  | wild
  deriving DecidableEq

def isBlank (c : Char) : Bool := decide (c = ' ' ∨ c = '\t')

def isQuote (c : Char) : Bool := decide (c = '\'' ∨ c = '"')

/-- What is kept when one more argument has been found. -/
def Split.cons (a : CStr) : Split → Split
  | .ok l => .ok (a :: l)
  | r => r

/-- The `while` loop, src/exec.c:113-128, with room for `n` more arguments.  `arg` is none when it is NULL. -/
def splitLoop : Nat → Option CStr → Split
  | 0, none => .ok []
  | 0, some _ => .tooLong
  | _ + 1, none => .ok []
  | n + 1, some s =>
    match s with
    | [] => Split.cons [] (splitLoop n none) -- `strsep` of the empty string
    | q :: r =>
      if isQuote q then
        match strsep (fun c => decide (c = q)) r with
        | (_, none) => .wild -- no closing quote: `arg` is NULL, and `arg - 1` is written to
        | (body, some []) => -- the closing quote ends the string: `arg` now points behind it
          if n = 0 then .tooLong else Split.cons (q :: (body ++ [q])) .wild
        | (body, some (_ :: rest)) => Split.cons (q :: (body ++ [q])) (splitLoop n (some rest))
      else Split.cons (strsep isBlank (q :: r)).1 (splitLoop n (strsep isBlank (q :: r)).2)

/-- src/exec.c:110-137; NUM_ARGS is 16 (src/exec.c:50) -/
def splitCmd (cmd : CStr) : Split :=
  Split.cons (strsep isBlank cmd).1 (splitLoop 15 (strsep isBlank cmd).2)

/-! ## `write_arg` -/

/-- The bytes written, and whether the argument was read past its end. -/
structure Written' where
  bytes : List Nat
  wild : Bool
  deriving DecidableEq

/-- A digit accepted by `write_hex`, src/tmpfiles.c:152-154 -/
def isHexish (c : Char) : Bool :=
  decide (48 ≤ c.toNat ∧ c.toNat ≤ 55 ∨ 97 ≤ c.toNat ∧ c.toNat ≤ 102 ∨ 65 ≤ c.toNat ∧ c.toNat ≤ 70)

/-- The value of a hexadecimal digit, as `strtoul` reads it -/
def hexVal (c : Char) : Nat :=
  if c.toNat ≤ 57 then c.toNat - 48 else if c.toNat ≤ 70 then c.toNat - 55 else c.toNat - 87

def isOct (c : Char) : Bool := decide (48 ≤ c.toNat ∧ c.toNat ≤ 55)

/-- At most `n` leading bytes of a kind -/
def upTo (p : Char → Bool) (n : Nat) (s : CStr) : CStr := (s.take n).takeWhile p

/-- `write_hex`, src/tmpfiles.c:143-174: the bytes, and how far it got -/
def writeHex (p : CStr) : List Nat × Nat :=
  let num := upTo isHexish 2 p
  if num = [] then (['x'.toNat], 0)
  else ([num.foldl (fun v c => v * 16 + hexVal c) 0 % 256], num.length)

/-- `write_num`, src/tmpfiles.c:176-203 -/
def writeNum (p : CStr) : List Nat × Nat :=
  let num := upTo isOct 3 p
  if num = [] then ([], 0)
  else ([num.foldl (fun v c => v * 8 + (c.toNat - 48)) 0 % 256], num.length)

/-- The cases of the `switch`, src/tmpfiles.c:216-258, without `x` and the octal digits -/
def escByte (c : Char) : Nat :=
  if c = 'a' then 7 else if c = 'b' then 8 else if c = 'e' then 27 else if c = 'n' then 10
  else if c = 't' then 9 else c.toNat

/-- What one escape writes, and how much of the text behind the backslash it uses up. -/
def escape (c : Char) (rest : CStr) : List Nat × Nat :=
  if c = 'x' then ((writeHex rest).1, (writeHex rest).2 + 1)
  else if isOct c then writeNum (c :: rest)
  else ([escByte c], 1)

/-- `write_arg`, src/tmpfiles.c:205-262.  The loop runs at most once for each byte, so `fuel` is the length of the
    argument. -/
def writeArgLoop : Nat → CStr → Written'
  | 0, arg => ⟨arg.map Char.toNat, false⟩
  | n + 1, arg =>
    let head := arg.takeWhile (fun c => decide (c ≠ '\\'))
    match arg.dropWhile (fun c => decide (c ≠ '\\')) with
    | [] => ⟨head.map Char.toNat, false⟩
    | [_] => ⟨head.map Char.toNat ++ [0], true⟩ -- the terminator is written, and reading goes on behind it
    | _ :: c :: rest =>
      let r := escape c rest
      let w := writeArgLoop n ((c :: rest).drop r.2)
      ⟨head.map Char.toNat ++ r.1 ++ w.bytes, w.wild⟩

def writeArg (arg : CStr) : Written' := writeArgLoop arg.length arg

/-- The argument as it is left behind: the first backslash has been overwritten with the terminator,
    src/tmpfiles.c:214 -/
def afterWriteArg (arg : CStr) : CStr := arg.takeWhile (fun c => decide (c ≠ '\\'))

end Verif
