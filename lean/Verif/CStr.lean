/-!
# C strings and the libc helpers used by finit

A C string is a `List Char` without its terminating NUL; one `Char` stands for one byte.
-/

namespace Verif

/-- A C string (without the terminating NUL). -/
abbrev CStr := List Char

/-- Helper of `tokens`: `acc` holds the current token, reversed. -/
def tokensAux (p : Char → Bool) (acc : CStr) : CStr → List CStr
  | [] => if acc = [] then [] else [acc.reverse]
  | c :: cs =>
    if p c then
      (if acc = [] then tokensAux p [] cs else acc.reverse :: tokensAux p [] cs)
    else tokensAux p (c :: acc) cs

/-- The sequence of tokens produced by repeated `strtok(3)` calls with the separators
    selected by `p`: maximal non-empty runs of non-separators, in order. -/
def tokens (p : Char → Bool) (s : CStr) : List CStr := tokensAux p [] s

/-- `strlcpy(dst, src, n)` / `snprintf(dst, n, "%s", src)`: keep at most `n - 1` bytes. -/
def strlcpy (n : Nat) (s : CStr) : CStr := s.take (n - 1)

/-- `strlcat(dst, src, n)` for a `dst` that is already terminated within `n`. -/
def strlcat (n : Nat) (dst src : CStr) : CStr := dst ++ src.take (n - 1 - dst.length)

/-- Independent specification of "`n` is one of the `p`-separated members of `l`". -/
def IsMember (p : Char → Bool) (n l : CStr) : Prop :=
  n ≠ [] ∧ (∀ c ∈ n, p c = false) ∧
  ∃ pre post, l = pre ++ n ++ post ∧
    (pre = [] ∨ ∃ pre' c, pre = pre' ++ [c] ∧ p c = true) ∧
    (post = [] ∨ ∃ c post', post = c :: post' ∧ p c = true)

end Verif
