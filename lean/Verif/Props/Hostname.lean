import Verif.Hostname

/-!
# C95: The system has the name it is given

The name is the first line of /etc/hostname; without that file it is that of the last `host` line of the configuration read at
bootstrap, and without such a line it is the default.
-/

namespace Verif

/-- The first line of a text is a name of 1 to 64 bytes -/
def NamesHost (text n : List Char) : Prop :=
  (text = n ∨ ∃ rest, text = n ++ '\n' :: rest) ∧ '\n' ∉ n ∧ n ≠ [] ∧ n.length ≤ 64

/-- A line gives a name: `host` or `hostname`, and the name, after which there may be blanks -/
def LineNames (line n : CStr) : Prop :=
  ∃ b1 b2 : CStr, (∀ c ∈ b1, c = ' ') ∧ (∀ c ∈ b2, c = ' ') ∧
    (line = "host ".toList ++ b1 ++ n ++ b2 ∨ line = "hostname ".toList ++ b1 ++ n ++ b2) ∧ n ≠ [] ∧ n.length ≤ 64 ∧
    ∀ c ∈ n, c ≠ ' ' ∧ c ≠ '\t' ∧ c ≠ '#'

/-- A line of something else -/
def LineOther (line : CStr) : Prop :=
  lower (line.take 5) ≠ "host ".toList ∧ lower (line.take 9) ≠ "hostname ".toList

/-- Files that are read are not empty -/
def NoEmptyFile (es : List HnEv) : Prop := ∀ b r ls, HnEv.read b r ls (some []) ∉ es

/-- The claim: whatever happened before, the name is that of the file, or that of the last `host` line at the start, or the default -/
def C95_full : Prop :=
  ∀ (defhost kernel : CStr) (es : List HnEv),
    (∀ b ls text n, NamesHost text n →
      ∃ st, hnRun (es ++ [.read b false ls (some text)]) (hnInit defhost kernel) = some st ∧ st.kernel = n) ∧
    (∀ pre post line n, LineNames line n → (∀ l ∈ post, LineOther l) →
      ∃ st, hnRun [.read true false (pre ++ line :: post) none] (hnInit defhost kernel) = some st ∧ st.kernel = n) ∧
    (∀ ls, defhost.length ≤ 64 → (∀ l ∈ ls, LineOther l) →
      ∃ st, hnRun [.read true false ls none] (hnInit defhost kernel) = some st ∧ st.kernel = defhost)

/-! ## Reading a line -/

theorem hn_fgets_all : ∀ (n : List Char), '\n' ∉ n → ∀ rest, fgetsOne n.length (n ++ rest) = (n, rest)
  | [], _, rest => rfl
  | c :: n, h, rest => by
    have hc : c ≠ '\n' := fun e => h (e ▸ List.mem_cons_self ..)
    have ih := hn_fgets_all n (fun m => h (List.mem_cons_of_mem _ m)) rest
    show fgetsOne (n.length + 1) (c :: (n ++ rest)) = _
    rw [fgetsOne, if_neg hc, ih]

theorem hn_fgets_line : ∀ (n : List Char), '\n' ∉ n → ∀ rest k, n.length < k → (fgetsOne k (n ++ '\n' :: rest)).1 = n ++ ['\n']
  | [], _, rest, 0, h => absurd h (Nat.lt_irrefl _)
  | [], _, rest, k + 1, _ => by
    show (fgetsOne (k + 1) ('\n' :: rest)).1 = _
    rw [fgetsOne, if_pos rfl]
    rfl
  | c :: n, h, rest, 0, hk => absurd hk (Nat.not_lt_zero _)
  | c :: n, h, rest, k + 1, hk => by
    have hc : c ≠ '\n' := fun e => h (e ▸ List.mem_cons_self ..)
    have ih := hn_fgets_line n (fun m => h (List.mem_cons_of_mem _ m)) rest k (Nat.lt_of_succ_lt_succ hk)
    show (fgetsOne (k + 1) (c :: (n ++ '\n' :: rest))).1 = _
    rw [fgetsOne, if_neg hc]
    show c :: _ = _
    rw [ih]
    rfl

theorem hn_chomp_plain (n : List Char) (h : '\n' ∉ n) : chompLine n = n := by
  unfold chompLine
  rw [if_neg]
  intro e
  exact h (List.mem_of_getLast? e)

theorem hn_chomp_nl (n : List Char) : chompLine (n ++ ['\n']) = n := by
  unfold chompLine
  rw [if_pos (by simp), List.dropLast_concat]

/-- What is read of a file with a line feed after the name -/
theorem hn_read (n rest : List Char) (h : '\n' ∉ n) :
    chompLine (fgetsOne ((n ++ '\n' :: rest).length - 1) (n ++ '\n' :: rest)).1 = n := by
  have hl : (n ++ '\n' :: rest).length - 1 = n.length + rest.length := by simp
  rw [hl]
  cases rest with
  | nil => rw [List.length_nil, Nat.add_zero, hn_fgets_all n h]; exact hn_chomp_plain n h
  | cons c r => rw [hn_fgets_line n h _ _ (by simp), hn_chomp_nl]

/-- What is read of a file without one -/
theorem hn_read_cut (n : List Char) (h : '\n' ∉ n) : chompLine (fgetsOne (n.length - 1) n).1 = n.dropLast := by
  have hd : '\n' ∉ n.dropLast := fun m => h (List.dropLast_subset n m)
  by_cases e : n = []
  · subst e; rfl
  · have := hn_fgets_all n.dropLast hd [n.getLast e]
    rw [List.dropLast_concat_getLast, List.length_dropLast] at this
    rw [this]
    exact hn_chomp_plain _ hd

theorem hnSet_file {text : List Char} (st : HnSt) (h : text ≠ []) (hl : (chompLine (fgetsOne (text.length - 1) text).1).length ≤ 64) :
    ∃ st', hnSet false (some text) st = some st' ∧ st'.kernel = chompLine (fgetsOne (text.length - 1) text).1 := by
  refine ⟨_, by
    unfold hnSet
    simp only [Bool.false_eq_true, if_false]
    rw [if_neg (fun e => h (List.length_eq_zero_iff.1 e))], ?_⟩
  show hnKernel _ _ = _
  rw [hnKernel, if_pos hl]

theorem hnRun_append (a b : List HnEv) (st : HnSt) : hnRun (a ++ b) st = (hnRun a st).bind (hnRun b) := by
  induction a generalizing st with
  | nil => rfl
  | cons e a ih =>
    rw [List.cons_append, hnRun, hnRun]
    cases hnStep st e with
    | none => rfl
    | some s => exact ih s

theorem hnRun_one (e : HnEv) (st : HnSt) : hnRun [e] st = hnStep st e := by
  rw [hnRun]
  cases hnStep st e <;> rfl

/-- Without empty files nothing goes wrong -/
theorem hn_defined (es : List HnEv) (h : NoEmptyFile es) (st : HnSt) : ∃ st', hnRun es st = some st' := by
  induction es generalizing st with
  | nil => exact ⟨st, rfl⟩
  | cons e es ih =>
    have ht : NoEmptyFile es := fun b r ls m => h b r ls (List.mem_cons_of_mem _ m)
    have hs : ∃ s, hnStep st e = some s := by
      cases e with
      | other n => exact ⟨_, rfl⟩
      | read b r ls f =>
        show ∃ s, hnSet r f _ = some s
        cases r with
        | true => exact ⟨_, rfl⟩
        | false =>
          cases f with
          | none => exact ⟨_, rfl⟩
          | some t =>
            have : t ≠ [] := fun e => h b false ls (e ▸ List.mem_cons_self ..)
            refine ⟨_, by
              unfold hnSet
              simp only [Bool.false_eq_true, if_false]
              rw [if_neg (fun e => this (List.length_eq_zero_iff.1 e))]⟩
    rcases hs with ⟨s, hs⟩
    rw [hnRun, hs]
    exact ih ht s

/-! ## The configuration -/

theorem hn_lower_take (w s : CStr) : matchRp w (w ++ s) = some s := by
  unfold matchRp
  rw [List.take_left, List.drop_left, if_pos rfl]

theorem hn_dropBlank (b1 s : CStr) (hb : ∀ c ∈ b1, c = ' ') (hs : ∀ c, s.head? = some c → isBlank c = false) :
    (b1 ++ s).dropWhile isBlank = s := by
  induction b1 with
  | nil =>
    cases s with
    | nil => rfl
    | cons c s => rw [List.nil_append, List.dropWhile_cons, hs c rfl]; rfl
  | cons b b1 ih =>
    have e : b = ' ' := hb b (List.mem_cons_self ..)
    rw [List.cons_append, List.dropWhile_cons, e]
    exact ih (fun c hc => hb c (List.mem_cons_of_mem _ hc))

theorem hn_noHash (s : CStr) (h : ∀ c ∈ s, c ≠ '#') : s.takeWhile (· ≠ '#') = s := by
  induction s with
  | nil => rfl
  | cons c s ih =>
    rw [List.takeWhile_cons, if_pos (by simpa using h c (List.mem_cons_self ..)), ih (fun d hd => h d (List.mem_cons_of_mem _ hd))]

theorem hn_strip (b1 n b2 : CStr) (h1 : ∀ c ∈ b1, c = ' ') (h2 : ∀ c ∈ b2, c = ' ') (hn : n ≠ [])
    (hc : ∀ c ∈ n, c ≠ ' ' ∧ c ≠ '\t' ∧ c ≠ '#') : stripLine (b1 ++ n ++ b2) = n ++ b2 := by
  unfold stripLine
  rw [List.append_assoc, hn_dropBlank b1 _ h1, hn_noHash]
  · intro c hm
    rcases List.mem_append.1 hm with hm | hm
    · exact (hc c hm).2.2
    · rw [h2 c hm]; decide
  · intro c hh
    cases n with
    | nil => exact absurd rfl hn
    | cons d n =>
      have : d = c := by simpa using hh
      subst this
      have := hc d (List.mem_cons_self ..)
      simp [isBlank, this.1, this.2.1]

theorem hn_line (line : CStr) (b1 n b2 : CStr) (h1 : ∀ c ∈ b1, c = ' ') (h2 : ∀ c ∈ b2, c = ' ')
    (hl : line = "host ".toList ++ b1 ++ n ++ b2 ∨ line = "hostname ".toList ++ b1 ++ n ++ b2) (hn : n ≠ [])
    (hc : ∀ c ∈ n, c ≠ ' ' ∧ c ≠ '\t' ∧ c ≠ '#') : hnLine line = some (n ++ b2) := by
  unfold hnLine
  rcases hl with e | e
  · rw [e, List.append_assoc, List.append_assoc, hn_lower_take]
    show some (stripLine _) = _
    rw [← List.append_assoc, hn_strip b1 n b2 h1 h2 hn hc]
  · have : matchRp "host ".toList line = none := by
      unfold matchRp
      rw [if_neg]
      rw [e]
      simp only [List.append_assoc]
      show ¬ lower ("hostname ".toList.take 5) = _
      decide
    rw [this, e, List.append_assoc, List.append_assoc, hn_lower_take]
    show some (stripLine _) = _
    rw [← List.append_assoc, hn_strip b1 n b2 h1 h2 hn hc]

theorem hn_other (line : CStr) (h : LineOther line) : hnLine line = none := by
  unfold hnLine matchRp
  rw [if_neg (fun e => h.1 (e.trans (by decide))), if_neg (fun e => h.2 (e.trans (by decide)))]
  rfl

theorem hn_others (ls : List CStr) (h : ∀ l ∈ ls, LineOther l) (n : Option CStr) :
    ls.foldl hnName n = n := by
  induction ls generalizing n with
  | nil => rfl
  | cons l ls ih =>
    rw [List.foldl_cons, hnName, hn_other l (h l (List.mem_cons_self ..))]
    exact ih (fun m hm => h m (List.mem_cons_of_mem _ hm)) n

theorem hn_last (pre post : List CStr) (line x : CStr) (n : Option CStr) (hl : hnLine line = some x) (h : ∀ l ∈ post, LineOther l) :
    hnLines true (pre ++ line :: post) n = some x := by
  unfold hnLines
  rw [if_pos rfl, List.foldl_append, List.foldl_cons, hnName, hl]
  exact hn_others post h _

/-! ## The property -/

/-- The claim for histories without an empty file, names followed by a line feed in the file, and by nothing in a `host` line -/
theorem C95_partial (defhost kernel : CStr) (es : List HnEv) (he : NoEmptyFile es) :
    (∀ b ls n rest, '\n' ∉ n → n.length ≤ 64 →
      ∃ st, hnRun (es ++ [.read b false ls (some (n ++ '\n' :: rest))]) (hnInit defhost kernel) = some st ∧ st.kernel = n) ∧
    (∀ pre post line n, LineNames line n → line.getLast? ≠ some ' ' → (∀ l ∈ post, LineOther l) →
      ∃ st, hnRun [.read true false (pre ++ line :: post) none] (hnInit defhost kernel) = some st ∧ st.kernel = n) ∧
    (∀ ls, defhost.length ≤ 64 → (∀ l ∈ ls, LineOther l) →
      ∃ st, hnRun [.read true false ls none] (hnInit defhost kernel) = some st ∧ st.kernel = defhost) := by
  refine ⟨fun b ls n rest hn hl => ?_, fun pre post line n hln hlast hpost => ?_, fun ls hd hls => ?_⟩
  · rcases hn_defined es he (hnInit defhost kernel) with ⟨s, hs⟩
    rw [hnRun_append, hs, Option.bind_some, hnRun_one]
    have hr := hn_read n rest hn
    have := hnSet_file (text := n ++ '\n' :: rest) { s with name := hnLines b ls s.name } (by simp) (by rw [hr]; exact hl)
    rw [hr] at this
    exact this
  · rcases hln with ⟨b1, b2, h1, h2, hline, hne, hl, hc⟩
    have hb2 : b2 = [] := by
      rcases List.eq_nil_or_concat b2 with e | ⟨b, c, e⟩
      · exact e
      · rw [List.concat_eq_append] at e
        refine absurd ?_ hlast
        have : c = ' ' := h2 c (by rw [e]; simp)
        rcases hline with hh | hh <;> rw [hh, e, this, ← List.append_assoc, List.getLast?_concat]
    subst hb2
    have hx := hn_line line b1 n [] h1 h2 hline hne hc
    rw [List.append_nil] at hx
    rw [hnRun_one]
    refine ⟨_, rfl, ?_⟩
    show (hnDone { name := hnLines true (pre ++ line :: post) (some defhost), kernel := kernel }).kernel = n
    rw [hn_last pre post line n _ hx hpost]
    show hnKernel _ _ = _
    rw [hnKernel, if_pos hl]
  · rw [hnRun_one]
    refine ⟨_, rfl, ?_⟩
    show (hnDone { name := hnLines true ls (some defhost), kernel := kernel }).kernel = _
    unfold hnLines
    rw [if_pos rfl, hn_others ls hls]
    show hnKernel _ _ = _
    rw [hnKernel, if_pos hd]

example :
    hnRun ([.read true false ["host one".toList] none, .other "two".toList] ++ [.read false false [] (some "three\n# comment\n".toList)])
      (hnInit "noname".toList "(none)".toList) = some { name := some "three".toList, kernel := "three".toList } := by decide

example : NoEmptyFile [.read true false ["host one".toList] none, .other "two".toList] := by
  intro b r ls h
  simp at h

example : LineNames "hostname  one".toList "one".toList :=
  ⟨" ".toList, [], by decide, by decide, Or.inr rfl, by decide, by decide, by decide⟩

/-- Without a line feed at the end of the file, the last byte of the name is lost, whatever the name and whatever happened before -/
theorem C95_cut (defhost kernel : CStr) (es : List HnEv) (he : NoEmptyFile es) (b : Bool) (ls : List CStr) (n : List Char)
    (h : NamesHost n n) :
    ∃ st, hnRun (es ++ [.read b false ls (some n)]) (hnInit defhost kernel) = some st ∧ st.kernel = n.dropLast := by
  rcases hn_defined es he (hnInit defhost kernel) with ⟨s, hs⟩
  rw [hnRun_append, hs, Option.bind_some, hnRun_one]
  have hr := hn_read_cut n h.2.1
  have := hnSet_file (text := n) { s with name := hnLines b ls s.name } h.2.2.1 (by
    rw [hr, List.length_dropLast]; have := h.2.2.2; omega)
  rw [hr] at this
  exact this

example : NamesHost "alpha".toList "alpha".toList := ⟨Or.inl rfl, by decide, by decide, by decide⟩

/-- Blanks after the name in a `host` line become part of it -/
theorem C95_blanks (defhost kernel : CStr) (pre post : List CStr) (n b : CStr) (hn : n ≠ []) (hb : ∀ c ∈ b, c = ' ')
    (hc : ∀ c ∈ n, c ≠ ' ' ∧ c ≠ '\t' ∧ c ≠ '#') (hl : (n ++ b).length ≤ 64) (h : ∀ l ∈ post, LineOther l) :
    ∃ st, hnRun [.read true false (pre ++ ("host ".toList ++ n ++ b) :: post) none] (hnInit defhost kernel) = some st ∧
      st.kernel = n ++ b := by
  have hx := hn_line ("host ".toList ++ n ++ b) [] n b (by simp) hb (Or.inl (by simp)) hn hc
  rw [hnRun_one]
  refine ⟨_, rfl, ?_⟩
  show (hnDone { name := hnLines true (pre ++ ("host ".toList ++ n ++ b) :: post) (some defhost), kernel := kernel }).kernel = _
  rw [hn_last pre post _ _ _ hx h]
  show hnKernel _ _ = _
  rw [hnKernel, if_pos hl]

example : LineOther "service /sbin/hostd".toList := ⟨by decide, by decide⟩

/-- If the file is empty no name is set, and if it is still empty when the configuration is read again, memory that was never written is
    taken for the name -/
theorem C95_empty (defhost kernel : CStr) (b : Bool) (ls : List CStr) :
    hnRun [.read b false ls (some [])] (hnInit defhost kernel) = some { name := none, kernel := kernel } ∧
    ∀ k ls', hnRun [.read b false ls (some []), .other k, .read false false ls' (some [])] (hnInit defhost kernel) = none := by
  have h1 : ∀ lines, ∃ x, hnLines b lines (some defhost) = some x := by
    intro lines
    unfold hnLines
    split
    · generalize defhost = d
      induction lines generalizing d with
      | nil => exact ⟨d, rfl⟩
      | cons l lines ih =>
        rw [List.foldl_cons, hnName]
        cases hnLine l with
        | none => exact ih d
        | some x => exact ih x
    · exact ⟨_, rfl⟩
  have hs : hnStep (hnInit defhost kernel) (.read b false ls (some [])) = some { name := none, kernel := kernel } := by
    rcases h1 ls with ⟨x, hx⟩
    show hnSet false (some []) { name := hnLines b ls (some defhost), kernel := kernel } = _
    rw [hx]
    rfl
  refine ⟨by rw [hnRun_one]; exact hs, fun k ls' => ?_⟩
  rw [hnRun, hs]
  rfl

/-- The claim is false -/
theorem C95_full_false : ¬ C95_full := by
  intro h
  rcases (h [] [] []).1 true [] "a".toList "a".toList ⟨Or.inl rfl, by decide, by decide, by decide⟩ with ⟨st, h1, h2⟩
  rcases C95_cut [] [] [] (by intro b r ls h; exact (nomatch h)) true [] "a".toList ⟨Or.inl rfl, by decide, by decide, by decide⟩ with ⟨st', h3, h4⟩
  have := Option.some.inj (h1.symm.trans h3)
  subst this
  exact absurd (h2.symm.trans h4) (by decide)

end Verif
