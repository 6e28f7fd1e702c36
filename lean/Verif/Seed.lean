import Verif.CStr

/-!
# The random seed

`plugins/urandom.c:80-205` with `RANDOMSEED` defined.  A seed is told from others by a number; what is in it is left out.
Simplified: memory and `/dev/urandom` are there, reading is not interrupted and the kernel accepts the entropy.
-/

namespace Verif

/-- Where the bytes of a seed come from: the kernel's own generator, the hardware, or the time and the usage of resources -/
inductive SeedFrom
  | kernel | hardware | guess
  deriving DecidableEq, Repr

/-- A seed file -/
structure Seed where
  num : Nat
  src : SeedFrom
  len : Nat
  deriving DecidableEq, Repr

/-- The file, the number of the next seed, and the seeds the kernel was given, with the bits they were said to be worth -/
structure SeedSt where
  file : Option Seed
  next : Nat
  given : List (Seed × Nat)
  deriving DecidableEq, Repr

/-- What happens: a boot, with the number of bytes the hardware generator gives, if it is there; the end of the system in order,
    with the number of bytes that could be written, if the file could be opened; or otherwise (power loss, a reset) -/
inductive SeedEv
  | boot (hw : Option Nat)
  | save (n : Option Nat)
  | crash
  deriving DecidableEq, Repr

/-- Making a seed if there is none or it is too short, plugins/urandom.c:95-128.  At most 512 bytes are read; the fallback writes
    128 words (plugins/urandom.c:53-78). -/
def seedMake (hw : Option Nat) (s : SeedSt) : SeedSt :=
  if s.file.all (fun f => decide (f.len < 512)) then
    let f : Seed := match hw with
      | some n => if n = 0 then { num := s.next, src := .guess, len := 512 } else { num := s.next, src := .hardware, len := min n 512 }
      | none => { num := s.next, src := .guess, len := 512 }
    { s with file := some f, next := s.next + 1 }
  else s

/-- Giving it to the kernel, plugins/urandom.c:130-176: at most 32 KiB, eight bits for each byte -/
def seedGive (s : SeedSt) : SeedSt :=
  match s.file with
  | none => s
  | some f => if f.len = 0 then s else { s with given := s.given ++ [(f, min f.len 32768 * 8)] }

/-- `setup` and `save`, plugins/urandom.c:80-178,180-197, not in rescue mode -/
def seedStep (s : SeedSt) : SeedEv → SeedSt
  | .boot hw => seedGive (seedMake hw s)
  | .save (some n) => { s with file := some { num := s.next, src := .kernel, len := min n 32768 }, next := s.next + 1 }
  | .save none => s
  | .crash => s

end Verif
