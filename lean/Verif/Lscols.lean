import Verif.CStr

/-!
# The columns of `initctl ls` (src/serv.c:58-71, 73-165)

The names are those of glob(3), of which there is at least one.  Not modelled: the headings, the list with one name in a row for `-p`, and the names as JSON, which are in
Verif/Json.lean.  The loop is the same for both, so that the division is modelled here for both.
-/

namespace Verif

/-- `calc_width()`, src/serv.c:58-71 -/
def lsWidth (names : List CStr) : Nat := names.foldl (fun w n => if n.length > w then n.length else w) 0

/-- The number of columns, src/serv.c:141-143; `ttcols` is not negative -/
def lsNum (ttcols width : Nat) : Nat :=
  let num := (ttcols - 2) / width
  if num ≥ 1 ∧ (num - 1) * 2 + num * width > ttcols then num - 1 else num

/-- `"%-*s"`, src/serv.c:157 -/
def lsCell (width : Nat) (n : CStr) : CStr := n ++ List.replicate (width - n.length) ' '

/-- The loop, src/serv.c:145-159: none if the program is ended by the division by zero in line 147 -/
def lsLoop (num width : Nat) (json : Bool) : Nat → Bool → List CStr → Option CStr
  | _, _, [] => some []
  | i, prev, n :: ns =>
    if 0 < i ∧ num = 0 then none
    else
      let nl := decide (0 < i ∧ i % num = 0) && !json
      match lsLoop num width json (i + 1) true ns with
      | none => none
      | some t => some ((if nl then ['\n'] else []) ++ (if prev && !nl then (if json then [','] else [' ', ' ']) else []) ++
          (if json then '"' :: n ++ ['"'] else lsCell width n) ++ t)

/-- `do_list()`, src/serv.c:137-164, without the headings -/
def lsList (ttcols : Nat) (json : Bool) (names : List CStr) : Option CStr :=
  let width := lsWidth names
  if width = 0 then some []
  else
    match lsLoop (lsNum ttcols width) width json 0 false names with
    | none => none
    | some t => some (t ++ if json then [']'] else ['\n', '\n'])

end Verif
