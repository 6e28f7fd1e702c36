import Verif.Heading
import Verif.Props.Sulogin

/-!
# C119: the banner at bootstrap has the name of the system
-/

namespace Verif

/-! ## Specification -/

/-- A line of os-release(5) that gives the name `v`: as it is, if it is a word of letters and digits, or in quotes, with blanks after it.
    Names with a quote, `$`, a backquote or a backslash in them, which have another form, are left out. -/
inductive BhSays (v : CStr) : CStr → Prop
  | word : v ≠ [] → (∀ c ∈ v, c.isAlphanum = true) → BhSays v ("PRETTY_NAME=".toList ++ v)
  | quoted (q : Char) (blanks : CStr) : q = '"' ∨ q = '\'' → (∀ c ∈ v, c ≠ '"' ∧ c ≠ '\'' ∧ c ≠ '$' ∧ c ≠ '`' ∧ c ≠ '\\') →
      (∀ c ∈ blanks, c = ' ' ∨ c = '\t') → BhSays v ("PRETTY_NAME=".toList ++ q :: (v ++ q :: blanks))

/-- A line about something else -/
def BhOther (l : CStr) : Prop := ¬ "PRETTY_NAME=".toList <+: l

/-- The full claim of C119 -/
def C119_full : Prop := ∀ a l b text v finit, TextFile (a ++ l :: b) text → BhSays v l → (∀ x ∈ b, BhOther x) →
  bhHeading (some text) finit = v

/-! ## Lemmas -/

theorem bhQuoted_whole (q : Char) (v blanks : CStr) (hq : isSpace q = false) (hb : ∀ c ∈ blanks, isSpace c = true) :
    bhQuoted q (v ++ q :: blanks) = v := by
  have hr : ((v ++ q :: blanks).reverse.dropWhile isSpace).reverse = v ++ [q] := by
    rw [List.reverse_append, List.reverse_cons, List.append_assoc, List.dropWhile_append_of_pos
      (fun c hc => hb c (List.mem_reverse.mp hc)), List.singleton_append, List.dropWhile_cons, if_neg (by rw [hq]; decide),
      List.reverse_cons, List.reverse_reverse]
  unfold bhQuoted
  dsimp only
  rw [hr, if_pos (by rw [← List.cons_append, List.getLast?_append]; rfl), ← List.cons_append, List.dropLast_concat]
  rfl

theorem bhLine_other {l : CStr} (h : BhOther l) : bhLine (l ++ ['\n']) = none := by
  unfold bhLine
  rw [if_neg]
  intro hp
  have h1 : "PRETTY_NAME=".toList <+: l ++ ['\n'] := List.isPrefixOf_iff_prefix.mp hp
  rcases List.prefix_concat_iff.mp h1 with e | e
  · have := congrArg List.getLast? e
    rw [List.getLast?_concat] at this
    revert this
    decide
  · exact h e

theorem bhLine_key (c : Char) (r : CStr) :
    bhLine ("PRETTY_NAME=".toList ++ c :: r) = some (if c = '"' ∨ c = '\'' then bhQuoted c r else c :: r) := by
  unfold bhLine
  rw [if_pos (List.isPrefixOf_iff_prefix.mpr (List.prefix_append _ _))]
  rfl

theorem bh_find : ∀ (a : List CStr) (l : CStr) (b : List CStr) (v : CStr), (∀ x ∈ a, BhOther x) → bhLine (l ++ ['\n']) = some v →
    ((a ++ l :: b).map (· ++ ['\n'])).findSome? bhLine = some v
  | [], l, b, v, _, h => by
    rw [List.nil_append, List.map_cons, List.findSome?_cons, h]
  | x :: a, l, b, v, ha, h => by
    rw [List.cons_append, List.map_cons, List.findSome?_cons, bhLine_other (ha x List.mem_cons_self)]
    exact bh_find a l b v (fun y hy => ha y (List.mem_cons_of_mem _ hy)) h

theorem bh_first {a : List CStr} {l : CStr} {b : List CStr} {text : List Char} {v : CStr} (finit : CStr) (ht : TextFile (a ++ l :: b) text)
    (ha : ∀ x ∈ a, BhOther x) (h : bhLine (l ++ ['\n']) = some v) : bhHeading (some text) finit = v := by
  unfold bhHeading
  dsimp only
  rw [fgetsAll_file ht, bh_find a l b v ha h]
  rfl

/-! ## C119 -/

/-- The name in quotes of the first line for it is shown without them, and nothing else, whatever is between them. -/
theorem C119_quoted (a : List CStr) (q : Char) (v blanks : CStr) (b : List CStr) (text : List Char) (finit : CStr)
    (ht : TextFile (a ++ ("PRETTY_NAME=".toList ++ q :: (v ++ q :: blanks)) :: b) text) (hq : q = '"' ∨ q = '\'')
    (hb : ∀ c ∈ blanks, isSpace c = true) (ha : ∀ x ∈ a, BhOther x) : bhHeading (some text) finit = v := by
  refine bh_first finit ht ha ?_
  have e : "PRETTY_NAME=".toList ++ q :: (v ++ q :: blanks) ++ ['\n'] = "PRETTY_NAME=".toList ++ q :: (v ++ q :: (blanks ++ ['\n'])) := by
    simp [List.append_assoc]
  rw [e, bhLine_key, if_pos hq, bhQuoted_whole]
  · rcases hq with h | h <;> rw [h] <;> decide
  · intro c hc
    rcases List.mem_append.mp hc with h | h
    · exact hb c h
    · rw [List.mem_singleton.mp h]; decide

/-- The claim, if the name is in quotes and there is one line for it. -/
theorem C119_partial (a : List CStr) (l : CStr) (b : List CStr) (text : List Char) (v finit : CStr) (ht : TextFile (a ++ l :: b) text)
    (hs : BhSays v l) (hq : l ≠ "PRETTY_NAME=".toList ++ v) (ha : ∀ x ∈ a, BhOther x) : bhHeading (some text) finit = v := by
  cases hs with
  | word _ _ => exact absurd rfl hq
  | quoted q blanks h1 _ h3 =>
    exact C119_quoted a q v blanks b text finit ht h1 (fun c hc => by rcases h3 c hc with h | h <;> rw [h] <;> decide) ha

/-- A name that is not in quotes is shown with the end of its line, so that the banner is broken in two. -/
theorem C119_word (a : List CStr) (c : Char) (v : CStr) (b : List CStr) (text : List Char) (finit : CStr)
    (ht : TextFile (a ++ ("PRETTY_NAME=".toList ++ c :: v) :: b) text) (hc : c ≠ '"' ∧ c ≠ '\'') (ha : ∀ x ∈ a, BhOther x) :
    bhHeading (some text) finit = c :: v ++ ['\n'] := by
  refine bh_first finit ht ha ?_
  rw [List.append_assoc, List.cons_append, bhLine_key, if_neg (fun h => h.elim hc.1 hc.2)]

/-- Without the file, or a line for it, the name is that of Finit. -/
theorem C119_none (finit : CStr) : bhHeading none finit = finit ∧
    ∀ (lines : List CStr) (text : List Char), TextFile lines text → (∀ x ∈ lines, BhOther x) → bhHeading (some text) finit = finit := by
  refine ⟨rfl, fun lines text ht h => ?_⟩
  have hn : ∀ ls : List CStr, (∀ x ∈ ls, BhOther x) → (ls.map (· ++ ['\n'])).findSome? bhLine = none := by
    intro ls
    induction ls with
    | nil => intro _; rfl
    | cons x ls ih =>
      intro h
      rw [List.map_cons, List.findSome?_cons, bhLine_other (h x List.mem_cons_self)]
      exact ih (fun y hy => h y (List.mem_cons_of_mem _ hy))
  unfold bhHeading
  dsimp only
  rw [fgetsAll_file ht, hn lines h]
  rfl

theorem C119_full_false : ¬ C119_full := by
  intro h
  have ht : TextFile ([] ++ ("PRETTY_NAME=".toList ++ ['A']) :: []) "PRETTY_NAME=A\n".toList := ⟨by decide, by decide⟩
  have h1 := h [] _ [] _ ['A'] [] ht (.word (by decide) (by decide)) (fun x hx => (nomatch hx))
  rw [C119_word [] 'A' [] [] _ [] ht (by decide) (fun x hx => (nomatch hx))] at h1
  revert h1
  decide

/-! ## Examples -/

/-- An os-release(5) -/
def bhDemo : List CStr := ["NAME=Infix".toList] ++ ("PRETTY_NAME=".toList ++ '"' :: ("Infix OS 24".toList ++ '"' :: [' '])) :: ["ID=infix".toList]

theorem bhDemo_text : TextFile bhDemo "NAME=Infix\nPRETTY_NAME=\"Infix OS 24\" \nID=infix\n".toList := by
  unfold bhDemo; exact ⟨by decide +kernel, by decide +kernel⟩

example : bhHeading (some "NAME=Infix\nPRETTY_NAME=\"Infix OS 24\" \nID=infix\n".toList) [] = "Infix OS 24".toList :=
  C119_partial _ _ _ _ "Infix OS 24".toList [] bhDemo_text (.quoted '"' [' '] (.inl rfl) (by decide) (by decide)) (by decide)
    (fun x hx => by rw [List.mem_singleton.mp hx]; unfold BhOther; decide)

example : bhHeading (some "NAME=Infix\nID=infix\n".toList) "Finit".toList = "Finit".toList :=
  (C119_none _).2 ["NAME=Infix".toList, "ID=infix".toList] _ ⟨by decide, by decide⟩ (by unfold BhOther; decide)

end Verif
