import Verif.LineLemmas

/-!
# The arguments of a command (C49, C51)
-/

namespace Verif

/-! ## Specification -/

/-- A word of a command line: plain, or in quotes. -/
inductive ArgPiece
  | plain (w : CStr)
  | quoted (q : Char) (body : CStr)

/-- As it is written.  The quotes are kept for the expansion that follows. -/
def ArgPiece.text : ArgPiece → CStr
  | .plain w => w
  | .quoted q body => q :: (body ++ [q])

/-- A plain word has no blank and does not begin with a quote; quoted text has no such quote inside. -/
def ArgPiece.Ok : ArgPiece → Prop
  | .plain w => w ≠ [] ∧ ' ' ∉ w ∧ ¬ (w.head?).any isQuote = true
  | .quoted q body => isQuote q = true ∧ q ∉ body

/-- Words with one blank between them. -/
def joinWords : List CStr → CStr
  | [] => []
  | [w] => w
  | w :: ws => w ++ ' ' :: joinWords ws

/-- Quoted text that survives: single blanks, none at either end, and no quote behind a blank. -/
def Tidied (body : CStr) : Prop :=
  ∃ ws, body = joinWords ws ∧ (∀ w ∈ ws, w ≠ [] ∧ ' ' ∉ w) ∧ ∀ w ∈ ws.tail, ¬ (w.head?).any isQuote = true

/-- Quoted text is of this form, and no word is longer than what is kept of it. -/
def ArgPiece.Good (p : ArgPiece) : Prop :=
  p.Ok ∧ p.text.length < 256 ∧
    match p with
    | .plain _ => True
    | .quoted _ body => Tidied body

/-- A command line, with so many more blanks in front of each word, and some at the end. -/
def renderArgs : List (Nat × ArgPiece) → Nat → CStr
  | [], t => List.replicate t ' '
  | (n, p) :: r, t => List.replicate n ' ' ++ p.text ++ (if r = [] then List.replicate t ' ' else ' ' :: renderArgs r t)

/-- The words of the command line, and no others, are the arguments of the program. -/
def C49_full : Prop :=
  ∀ (ps : List (Nat × ArgPiece)) (t : Nat) (cmd : CStr), (∀ p ∈ ps, p.2.Ok) →
    newArgs cmd (renderArgs ps t) = cmd :: ps.map (·.2.text)

/-- After a reload the arguments are marked as changed exactly if they are not what they were. -/
def C51_full : Prop :=
  ∀ cmd args cmd' args' : CStr, argsDiff (newArgs cmd args) cmd' args' = true ↔ newArgs cmd' args' ≠ newArgs cmd args

/-! ## Words -/

theorem tokens_blank (s : CStr) : tokens (fun c => decide (c = ' ')) (' ' :: s) = tokens (fun c => decide (c = ' ')) s := by
  simp [tokens, tokensAux]

theorem tokens_word {w : CStr} (h0 : w ≠ []) (h : ' ' ∉ w) (s : CStr) :
    tokens (fun c => decide (c = ' ')) (w ++ ' ' :: s) = w :: tokens (fun c => decide (c = ' ')) s := by
  unfold tokens
  rw [tokensAux_append_nosep _ w [] _ (fun c hc => by
    rw [decide_eq_false_iff_not]; rintro rfl; exact h hc)]
  simp [tokensAux, h0]

theorem tokens_trail (s : CStr) :
    tokens (fun c => decide (c = ' ')) (s ++ [' ']) = tokens (fun c => decide (c = ' ')) s := by
  have : ∀ (s acc : CStr), tokensAux (fun c => decide (c = ' ')) acc (s ++ [' ']) =
      tokensAux (fun c => decide (c = ' ')) acc s := by
    intro s
    induction s with
    | nil => intro acc; simp [tokensAux]
    | cons c s ih =>
      intro acc
      simp only [List.cons_append, tokensAux, ih]
  exact this s []

theorem tokens_blanks (n : Nat) (s : CStr) :
    tokens (fun c => decide (c = ' ')) (List.replicate n ' ' ++ s) = tokens (fun c => decide (c = ' ')) s := by
  induction n with
  | zero => rfl
  | succ n ih => rw [List.replicate_succ, List.cons_append, tokens_blank, ih]

/-- The words that follow the first one in quotes, with the closing quote. -/
def tailToks (q : Char) : List CStr → List CStr
  | [] => []
  | [w] => [w ++ [q]]
  | w :: ws => w :: tailToks q ws

/-- The pieces into which a word is cut at the blanks. -/
def quotedToks (q : Char) : List CStr → List CStr
  | [] => [[q, q]]
  | [w] => [q :: (w ++ [q])]
  | w :: ws => (q :: w) :: tailToks q ws

theorem tailToks_tokens {q : Char} (hq : q ≠ ' ') : ∀ (ws : List CStr), ws ≠ [] → (∀ w ∈ ws, w ≠ [] ∧ ' ' ∉ w) →
    ∀ s, tokens (fun c => decide (c = ' ')) (joinWords ws ++ q :: ' ' :: s) =
      tailToks q ws ++ tokens (fun c => decide (c = ' ')) s
  | [], h, _, _ => absurd rfl h
  | [w], _, hw, s => by
    have e : joinWords [w] ++ q :: ' ' :: s = (w ++ [q]) ++ ' ' :: s := by simp [joinWords]
    rw [e, tokens_word (by simp) (by
      rw [List.mem_append]
      rintro (h | h)
      · exact (hw w (by simp)).2 h
      · rw [List.mem_singleton] at h; exact hq h.symm)]
    rfl
  | w :: v :: ws, _, hw, s => by
    have e : joinWords (w :: v :: ws) ++ q :: ' ' :: s = w ++ ' ' :: (joinWords (v :: ws) ++ q :: ' ' :: s) := by
      simp [joinWords]
    rw [e, tokens_word (hw w (by simp)).1 (hw w (by simp)).2,
      tailToks_tokens hq (v :: ws) (by simp) (fun x hx => hw x (List.mem_cons_of_mem _ hx)) s]
    rfl

theorem quotedToks_tokens {q : Char} (hq : q ≠ ' ') : ∀ (ws : List CStr), (∀ w ∈ ws, w ≠ [] ∧ ' ' ∉ w) →
    ∀ s, tokens (fun c => decide (c = ' ')) (q :: (joinWords ws ++ [q]) ++ ' ' :: s) =
      quotedToks q ws ++ tokens (fun c => decide (c = ' ')) s
  | [], _, s => by
    rw [tokens_word (by simp) (by simp [joinWords, hq.symm])]
    rfl
  | [w], hw, s => by
    rw [tokens_word (by simp) (by
      simp only [joinWords, List.mem_cons, List.mem_append, List.not_mem_nil, or_false, not_or]
      exact ⟨fun h => hq h.symm, (hw w (by simp)).2, fun h => hq h.symm⟩)]
    rfl
  | w :: v :: ws, hw, s => by
    have e : q :: (joinWords (w :: v :: ws) ++ [q]) ++ ' ' :: s =
        (q :: w) ++ ' ' :: (joinWords (v :: ws) ++ q :: ' ' :: s) := by simp [joinWords]
    rw [e, tokens_word (by simp) (by
      simp only [List.mem_cons, not_or]
      exact ⟨fun h => hq h.symm, (hw w (by simp)).2⟩),
      tailToks_tokens hq (v :: ws) (by simp) (fun x hx => hw x (List.mem_cons_of_mem _ hx)) s]
    rfl

/-! ## The loop -/

theorem strlcat_fits {n : Nat} {a b : CStr} (h : (a ++ b).length < n) : strlcat n a b = a ++ b := by
  unfold strlcat
  rw [List.length_append] at h
  rw [List.take_of_length_le (by omega)]

/-- One round: `S` is the open quote, `C` what the slot holds. -/
theorem cmdLoop_step {a : CStr} {as : List CStr} {sep : Option Char} {cur : CStr} {i : Nat} {S : Option Char}
    {C : CStr} (hi : i < 63) (hS : S = if (a.head?).any isQuote then a.head? else sep)
    (hC : C = strlcat 256 (if (a.head?).any isQuote then (if sep.isNone then [] else cur)
      else if sep.isSome then strlcat 256 (if sep.isNone then [] else cur) [' ']
      else (if sep.isNone then [] else cur)) a) :
    cmdLoop (a :: as) sep cur i =
      if S.isSome && decide (a.getLast? ≠ S) then cmdLoop as S C i
      else (C :: (cmdLoop as none [] (i + 1)).1, (cmdLoop as none [] (i + 1)).2) := by
  subst hS hC
  rw [cmdLoop, if_neg (by omega)]

theorem cmdLoop_plain {w : CStr} (hq : ¬ (w.head?).any isQuote = true) (hl : w.length < 256) (rest : List CStr)
    {i : Nat} (hi : i < 63) :
    cmdLoop (w :: rest) none [] i = (w :: (cmdLoop rest none [] (i + 1)).1, (cmdLoop rest none [] (i + 1)).2) := by
  rw [Bool.not_eq_true] at hq
  have e : strlcat 256 [] w = w := by rw [strlcat_fits (by simpa using hl)]; rfl
  rw [cmdLoop_step (S := none) (C := w) hi (by simp [hq]) (by simp [hq, e])]
  rfl

theorem last_ne {q : Char} {w : CStr} (h : q ∉ w) : w.getLast? ≠ some q := by
  intro e
  exact h (List.mem_of_getLast? e)

theorem cmdLoop_tail {q : Char} (hq : isQuote q = true) (rest : List CStr) {i : Nat} (hi : i < 63) :
    ∀ (ws : List CStr) (cur : CStr), ws ≠ [] → (∀ w ∈ ws, w ≠ [] ∧ q ∉ w ∧ ¬ (w.head?).any isQuote = true) →
      (cur ++ ' ' :: (joinWords ws ++ [q])).length < 256 →
      cmdLoop (tailToks q ws ++ rest) (some q) cur i =
        ((cur ++ ' ' :: (joinWords ws ++ [q])) :: (cmdLoop rest none [] (i + 1)).1, (cmdLoop rest none [] (i + 1)).2)
  | [], _, h, _, _ => absurd rfl h
  | [w], cur, _, hw, hl => by
    obtain ⟨h0, h1, h2⟩ := hw w (by simp)
    rw [Bool.not_eq_true] at h2
    have h3 : ((w ++ [q]).head?).any isQuote = false := by
      cases w with
      | nil => exact absurd rfl h0
      | cons c w => exact h2
    have hl' : (cur ++ ' ' :: (w ++ [q])).length < 256 := hl
    simp at hl'
    have e : strlcat 256 (strlcat 256 cur [' ']) (w ++ [q]) = cur ++ ' ' :: (w ++ [q]) := by
      rw [strlcat_fits (a := cur) (by simp; omega), strlcat_fits (by simp; omega)]
      simp
    change cmdLoop ((w ++ [q]) :: rest) (some q) cur i = _
    rw [cmdLoop_step (S := some q) (C := cur ++ ' ' :: (w ++ [q])) hi (by rw [h3]; rfl) (by rw [h3]; exact e.symm)]
    rw [if_neg (by simp)]
    rfl
  | w :: v :: ws, cur, _, hw, hl => by
    obtain ⟨h0, h1, h2⟩ := hw w (by simp)
    rw [Bool.not_eq_true] at h2
    have hj : joinWords (w :: v :: ws) = w ++ ' ' :: joinWords (v :: ws) := rfl
    rw [hj] at hl ⊢
    simp at hl
    have e : strlcat 256 (strlcat 256 cur [' ']) w = cur ++ ' ' :: w := by
      rw [strlcat_fits (a := cur) (by simp; omega), strlcat_fits (by simp; omega)]
      simp
    have ih := cmdLoop_tail hq rest hi (v :: ws) (cur ++ ' ' :: w) (by simp)
      (fun x hx => hw x (List.mem_cons_of_mem _ hx)) (by simp; omega)
    change cmdLoop (w :: (tailToks q (v :: ws) ++ rest)) (some q) cur i = _
    rw [cmdLoop_step (S := some q) (C := cur ++ ' ' :: w) hi (by rw [h2]; rfl) (by rw [h2]; exact e.symm)]
    rw [if_pos (by simpa using last_ne h1), ih]
    simp

theorem cmdLoop_quoted {q : Char} (hq : isQuote q = true) (rest : List CStr) {i : Nat} (hi : i < 63)
    (ws : List CStr) (h0 : ∀ w ∈ ws, w ≠ [] ∧ q ∉ w) (h1 : ∀ w ∈ ws.tail, ¬ (w.head?).any isQuote = true)
    (hl : (q :: (joinWords ws ++ [q])).length < 256) :
    cmdLoop (quotedToks q ws ++ rest) none [] i =
      ((q :: (joinWords ws ++ [q])) :: (cmdLoop rest none [] (i + 1)).1, (cmdLoop rest none [] (i + 1)).2) := by
  match ws with
  | [] =>
    change cmdLoop ([q, q] :: rest) none [] i = _
    rw [cmdLoop_step (S := some q) (C := [q, q]) hi (by simp [hq]) (by simp [hq, strlcat]), if_neg (by simp)]
    rfl
  | [w] =>
    have e : strlcat 256 [] (q :: (w ++ [q])) = q :: (w ++ [q]) := by
      rw [strlcat_fits (by simpa [joinWords] using hl)]; rfl
    change cmdLoop ((q :: (w ++ [q])) :: rest) none [] i = _
    rw [cmdLoop_step (S := some q) (C := q :: (w ++ [q])) hi (by simp [hq]) (by simp [hq, e])]
    rw [if_neg (by
      have : (q :: (w ++ [q])).getLast? = some q := by rw [← List.cons_append, List.getLast?_append]; rfl
      simp [this])]
    rfl
  | w :: v :: ws =>
    obtain ⟨hw0, hw1⟩ := h0 w (by simp)
    have hj : joinWords (w :: v :: ws) = w ++ ' ' :: joinWords (v :: ws) := rfl
    rw [hj] at hl ⊢
    simp at hl
    have e : strlcat 256 [] (q :: w) = q :: w := by
      rw [strlcat_fits (by simp; omega)]; rfl
    have hlast : (q :: w).getLast? ≠ some q := by
      cases w with
      | nil => exact absurd rfl hw0
      | cons c w =>
        rw [List.getLast?_cons_cons]
        exact last_ne hw1
    have ih := cmdLoop_tail hq rest hi (v :: ws) (q :: w) (by simp)
      (fun x hx => ⟨(h0 x (List.mem_cons_of_mem _ hx)).1, (h0 x (List.mem_cons_of_mem _ hx)).2, h1 x hx⟩)
      (by simp; omega)
    change cmdLoop ((q :: w) :: (tailToks q (v :: ws) ++ rest)) none [] i = _
    rw [cmdLoop_step (S := some q) (C := q :: w) hi (by simp [hq]) (by simp [hq, e])]
    rw [if_pos (by simpa using hlast), ih]
    simp

/-! ## C49 -/

/-- The pieces of a word. -/
theorem ArgPiece.Good.loop {p : ArgPiece} (h : p.Good) : ∃ ts : List CStr,
    (∀ s, tokens (fun c => decide (c = ' ')) (p.text ++ ' ' :: s) = ts ++ tokens (fun c => decide (c = ' ')) s) ∧
    ∀ rest i, i < 63 → cmdLoop (ts ++ rest) none [] i =
      (p.text :: (cmdLoop rest none [] (i + 1)).1, (cmdLoop rest none [] (i + 1)).2) := by
  cases p with
  | plain w =>
    obtain ⟨⟨h0, h1, h2⟩, hl, _⟩ := h
    exact ⟨[w], fun s => tokens_word h0 h1 s, fun rest i hi => cmdLoop_plain h2 hl rest hi⟩
  | quoted q body =>
    obtain ⟨⟨hq, hb⟩, hl, ws, rfl, hw, ht⟩ := h
    have hsp : q ≠ ' ' := by rintro rfl; exact absurd hq (by decide)
    have hmem : ∀ (ws : List CStr), ∀ w ∈ ws, ∀ c ∈ w, c ∈ joinWords ws := by
      intro ws
      induction ws with
      | nil => intro w hw; cases hw
      | cons v ws ih =>
        intro w hw c hc
        cases ws with
        | nil =>
          rw [List.mem_singleton] at hw
          subst hw
          exact hc
        | cons u ws =>
          change c ∈ v ++ ' ' :: joinWords (u :: ws)
          rw [List.mem_append, List.mem_cons]
          rcases List.mem_cons.1 hw with rfl | hw
          · exact Or.inl hc
          · exact Or.inr (Or.inr (ih w hw c hc))
    exact ⟨quotedToks q ws, fun s => quotedToks_tokens hsp ws hw s,
      fun rest i hi => cmdLoop_quoted hq rest hi ws (fun w h => ⟨(hw w h).1, fun hq' => hb (hmem ws w h q hq')⟩) ht hl⟩

theorem cmdLoop_render : ∀ (ps : List (Nat × ArgPiece)) (t i : Nat), (∀ p ∈ ps, p.2.Good) → i + ps.length ≤ 63 →
    cmdLoop (tokens (fun c => decide (c = ' ')) (renderArgs ps t)) none [] i = (ps.map (·.2.text), [])
  | [], t, i, _, _ => by
    have : tokens (fun c => decide (c = ' ')) (renderArgs [] t) = [] := by
      have := tokens_blanks t []
      rw [List.append_nil] at this
      exact this
    rw [this]
    rfl
  | (n, p) :: r, t, i, h, hl => by
    obtain ⟨ts, h1, h2⟩ := (h (n, p) (by simp)).loop
    have ht : tokens (fun c => decide (c = ' ')) (renderArgs ((n, p) :: r) t) =
        ts ++ tokens (fun c => decide (c = ' ')) (renderArgs r t) := by
      rw [renderArgs, List.append_assoc, tokens_blanks]
      by_cases hr : r = []
      · subst hr
        rw [if_pos rfl, ← tokens_trail, List.append_assoc]
        rw [show List.replicate t ' ' ++ [' '] = ' ' :: List.replicate t ' ' by
          rw [← List.replicate_succ', List.replicate_succ]]
        exact h1 _
      · rw [if_neg hr]
        exact h1 _
    simp at hl
    rw [ht, h2 _ i (by omega), cmdLoop_render r t (i + 1) (fun q hq => h q (List.mem_cons_of_mem _ hq)) (by omega)]
    rfl

/-- The words of the command line, and no others, are the arguments: for at most 62 words of less than 256 bytes,
    in which quoted text has single blanks, none next to the quotes, and no quote behind a blank. -/
theorem C49_args_partial (ps : List (Nat × ArgPiece)) (t : Nat) (cmd : CStr) (h : ∀ p ∈ ps, p.2.Good)
    (hn : ps.length ≤ 62) (hc : cmd.length < 256) :
    newArgs cmd (renderArgs ps t) = cmd :: ps.map (·.2.text) := by
  unfold newArgs cmdArgs
  rw [cmdLoop_render ps t 1 h (by omega)]
  unfold strlcpy
  rw [List.take_of_length_le (by omega)]

/-- Two blanks in quotes become one. -/
theorem C49_blanks : newArgs "/bin/echo".toList "\"a  b\" c".toList =
    ["/bin/echo".toList, "\"a b\"".toList, "c".toList] := by decide +kernel

/-- A quote behind a blank is taken for the beginning or the end of the text. -/
theorem C49_nested : newArgs "/bin/echo".toList "\"it 'was' so\" c".toList =
    ["/bin/echo".toList, "\"it'was'".toList, "so\"".toList, "c".toList] := by decide +kernel

/-- What is in quotes that are not closed is lost. -/
theorem C49_open : newArgs "/bin/echo".toList "a 'b c".toList = ["/bin/echo".toList, "a".toList] := by decide +kernel

/-- Words after the 62nd are lost. -/
theorem C49_many : (newArgs "/bin/echo".toList (renderArgs (List.replicate 70 (0, .plain "x".toList)) 0)).length = 63 := by
  decide +kernel

theorem C49_full_false : ¬ C49_full := by
  intro h
  have e := h [(0, .quoted '"' "a  b".toList)] 0 "/bin/echo".toList
    (by intro p hp; rw [List.mem_singleton] at hp; subst hp; exact ⟨by decide, by decide⟩)
  exact absurd e (by decide +kernel)

/-- Hypotheses of `C49_args_partial` that can be met, and the result. -/
example : let ps : List (Nat × ArgPiece) :=
      [(2, .plain "-n".toList), (0, .quoted '"' "hello, big world's".toList), (1, .plain "x=\"1\"".toList)]
    (∀ p ∈ ps, p.2.Good) ∧ renderArgs ps 1 = "  -n \"hello, big world's\"  x=\"1\" ".toList ∧
    newArgs "/bin/echo".toList (renderArgs ps 1) =
      ["/bin/echo".toList, "-n".toList, "\"hello, big world's\"".toList, "x=\"1\"".toList] := by
  have g : ∀ p ∈ ([(2, .plain "-n".toList), (0, .quoted '"' "hello, big world's".toList),
      (1, .plain "x=\"1\"".toList)] : List (Nat × ArgPiece)), p.2.Good := by
    intro p hp
    rw [List.mem_cons, List.mem_cons, List.mem_singleton] at hp
    rcases hp with rfl | rfl | rfl
    · exact ⟨⟨by decide, by decide, by decide⟩, by decide, trivial⟩
    · exact ⟨⟨by decide, by decide⟩, by decide, ["hello,".toList, "big".toList, "world's".toList],
        by decide, by decide, by decide⟩
    · exact ⟨⟨by decide, by decide, by decide⟩, by decide, trivial⟩
  exact ⟨g, by decide +kernel, C49_args_partial _ 1 _ g (by decide) (by decide)⟩

/-! ## C51 -/

theorem cmdLoop_shape : ∀ (ts : List CStr) (sep : Option Char) (cur : CStr) (i : Nat), (∀ t ∈ ts, t ≠ []) →
    i ≤ 63 → (∀ a ∈ (cmdLoop ts sep cur i).1, a ≠ []) ∧ (cmdLoop ts sep cur i).1.length + i ≤ 63
  | [], sep, cur, i, _, hi => by simp [cmdLoop, hi]
  | a :: ts, sep, cur, i, h, hi => by
    have ih := fun sep cur i hi => cmdLoop_shape ts sep cur i (fun t ht => h t (List.mem_cons_of_mem _ ht)) hi
    have ha : a ≠ [] := h a List.mem_cons_self
    have hcat : ∀ c : CStr, strlcat 256 c a ≠ [] := by
      intro c e
      unfold strlcat at e
      rw [List.append_eq_nil_iff] at e
      obtain ⟨rfl, e⟩ := e
      cases a with
      | nil => exact ha rfl
      | cons x a => simp at e
    by_cases h63 : 63 ≤ i
    · rw [cmdLoop, if_pos h63]
      exact ⟨fun a ha => (nomatch ha), by simpa using hi⟩
    · rw [cmdLoop_step (by omega) rfl rfl]
      generalize (if (a.head?).any isQuote then a.head? else sep) = S
      generalize (if (a.head?).any isQuote then (if sep.isNone then [] else cur)
        else if sep.isSome then strlcat 256 (if sep.isNone then [] else cur) [' ']
        else (if sep.isNone then [] else cur)) = C
      split
      · exact ih _ _ i hi
      · refine ⟨?_, ?_⟩
        · intro b hb
          rcases List.mem_cons.1 hb with rfl | hb
          · exact hcat _
          · exact (ih none [] (i + 1) (by omega)).1 b hb
        · have := (ih none [] (i + 1) (by omega)).2
          simp only [List.length_cons]
          omega

theorem cmdArgs_shape (args : CStr) : (∀ a ∈ (cmdArgs args).1, a ≠ []) ∧ (cmdArgs args).1.length ≤ 62 := by
  have := cmdLoop_shape (tokens (fun c => decide (c = ' ')) args) none [] 1 (tokensAux_ne_nil _ _ _) (by omega)
  exact ⟨this.1, by have := this.2; unfold cmdArgs; omega⟩

/-- The arguments are marked as changed exactly if they are not what they were, if the command is not too long
    and all quotes are closed. -/
theorem C51_partial (cmd args cmd' args' : CStr) (hc : cmd'.length < 256) (hq : (cmdArgs args').2 = []) :
    argsDiff (newArgs cmd args) cmd' args' = true ↔ newArgs cmd' args' ≠ newArgs cmd args := by
  obtain ⟨n1, l1⟩ := cmdArgs_shape args
  obtain ⟨n2, l2⟩ := cmdArgs_shape args'
  unfold argsDiff newArgs
  rw [hq]
  generalize (cmdArgs args).1 = a at *
  generalize (cmdArgs args').1 = b at *
  have hcc : strlcpy 256 cmd' = cmd' := by unfold strlcpy; rw [List.take_of_length_le (by omega)]
  rw [hcc]
  have hold : ∀ j, (strlcpy 256 cmd :: a).getD (j + 1) [] = a.getD j [] := fun j => rfl
  simp only [hold]
  change (decide (strlcpy 256 cmd ≠ cmd') || _) = true ↔ _
  rw [Bool.or_eq_true, decide_eq_true_iff]
  have key : ((List.range 63).any (fun j =>
      match b[j]? with
      | some x => decide (a.getD j [] ≠ x)
      | none => decide (a.getD j [] ≠ []) || (decide (j = b.length) && decide (([] : CStr) ≠ []))) = true) ↔ b ≠ a := by
    rw [List.any_eq_true]
    constructor
    · rintro ⟨j, hj, h⟩ rfl
      simp only [List.getD_eq_getElem?_getD] at h
      cases e : b[j]? with
      | none => rw [e] at h; simp at h
      | some x => rw [e] at h; simp at h
    · intro hne
      apply Classical.byContradiction
      intro hall
      apply hne
      apply List.ext_getElem?
      intro j
      by_cases hj : j < 63
      · have h : ¬ _ := fun h => hall ⟨j, List.mem_range.2 hj, h⟩
        simp only [List.getD_eq_getElem?_getD] at h
        cases e : b[j]? with
        | none =>
          rw [e] at h
          cases e' : a[j]? with
          | none => rfl
          | some y =>
            rw [e'] at h
            simp at h
            exact absurd h (n1 y (List.mem_of_getElem? e'))
        | some x =>
          rw [e] at h
          cases e' : a[j]? with
          | none =>
            rw [e'] at h
            simp at h
            exact absurd h (n2 x (List.mem_of_getElem? e))
          | some y =>
            rw [e'] at h
            simp at h
            rw [h]
      · rw [List.getElem?_eq_none (by omega), List.getElem?_eq_none (by omega)]
  constructor
  · rintro (h | h) e
    · injection e with e _; exact absurd e.symm h
    · injection e with _ e; exact key.1 h e
  · intro h
    by_cases e : strlcpy 256 cmd = cmd'
    · exact Or.inr (key.2 (fun e' => h (by rw [e, e'])))
    · exact Or.inl e

/-- A line that is read again without a change is taken for a changed one if a quote is not closed.  The service is
    restarted at every reload. -/
theorem C51_open : argsDiff (newArgs "/bin/echo".toList "it's 'so".toList) "/bin/echo".toList "it's 'so".toList = true := by
  decide +kernel

theorem C51_full_false : ¬ C51_full := by
  intro h
  exact (h "/bin/echo".toList "it's 'so".toList "/bin/echo".toList "it's 'so".toList).1 C51_open rfl

/-- So it is if the command is too long. -/
theorem C51_long : ∃ cmd : CStr, argsDiff (newArgs cmd []) cmd [] = true :=
  ⟨List.replicate 256 'x', by decide +kernel⟩

/-- Hypotheses of `C51_partial` that can be met, once with a change and once without. -/
example : (cmdArgs "-n 'a b'".toList).2 = [] ∧
    argsDiff (newArgs "/bin/foo".toList "-n 'a b' c".toList) "/bin/foo".toList "-n 'a b'".toList = true ∧
    argsDiff (newArgs "/bin/foo".toList "-n 'a b'".toList) "/bin/foo".toList "-n 'a b'".toList = false := by
  decide +kernel

end Verif
