import Verif.Telinit

/-!
# C98: A runlevel that is asked for is changed to, or the command fails
-/

namespace Verif

/-- A word names a runlevel: one digit, or `s` or `S` for single user -/
def NamesLevel (w : CStr) (n : Nat) : Prop :=
  (∃ c : Char, w = [c] ∧ c.toNat = 48 + n ∧ n ≤ 9) ∨ (w = "s".toList ∨ w = "S".toList) ∧ n = 1

/-- Init was told to go to a level: it is the one it goes to at the end of the start, or it is told to change to it -/
def Told (st st' : TlSt) (n : Nat) : Prop :=
  if st.level = 10 then tlBooted st' = n ∧ st'.asked = st.asked else st'.asked = n :: st.asked

/-- The system does not go down -/
def TlUp (st : TlSt) : Prop := st.level ≠ 0 ∧ st.level ≠ 6

/-- The claim, for `initctl runlevel WORD` and `telinit WORD`: it succeeds, and then has done what it says, exactly if the word names a
    runlevel and the system does not go down; else nothing is changed -/
def C98_full : Prop :=
  ∀ (w : CStr) (st : TlSt),
    (∀ n, NamesLevel w n → TlUp st →
      (tlInitctl [w] st).2 = 0 ∧ Told st (tlInitctl [w] st).1 n ∧ (tlTelinit [w] st).2 = (false, 0) ∧ Told st (tlTelinit [w] st).1 n) ∧
    ((¬ ∃ n, NamesLevel w n) ∨ ¬ TlUp st → (tlInitctl [w] st).2 ≠ 0 ∧ (tlInitctl [w] st).1 = st ∧ (tlTelinit [w] st).1 = st)

/-! ## One byte -/

theorem tlInitctl_one (w : CStr) (st : TlSt) : tlInitctl [w] st = (tlApi (w.headD (Char.ofNat 0)) st, 0) := by
  simp [tlInitctl, tlRunlevel]

theorem tl_digit (c : Char) (n : Nat) (h : c.toNat = 48 + n) (hn : n ≤ 9) : isDigit c = true := by
  unfold isDigit
  rw [decide_eq_true_iff]
  omega

theorem tl_not_s (c : Char) (n : Nat) (h : c.toNat = 48 + n) (hn : n ≤ 9) : ¬ (c = 's' ∨ c = 'S') := by
  rintro (rfl | rfl)
  · have : 's'.toNat = 115 := by decide
    omega
  · have : 'S'.toNat = 83 := by decide
    omega

theorem tlApi_digit (c : Char) (n : Nat) (h : c.toNat = 48 + n) (hn : n ≤ 9) (st : TlSt) (hu : TlUp st) :
    tlApi c st = if st.level = 10 then { st with cfglevel := n } else { st with asked := n :: st.asked } := by
  unfold tlApi
  rw [if_neg (by rintro (e | e); exact hu.1 e; exact hu.2 e)]
  dsimp only
  rw [if_neg (tl_not_s c n h hn), if_pos (tl_digit c n h hn), show c.toNat - 48 = n by omega]

theorem tlApi_s (c : Char) (h : c = 's' ∨ c = 'S') (st : TlSt) (hu : TlUp st) :
    tlApi c st = if st.level = 10 then { st with cfglevel := 1 } else { st with asked := 1 :: st.asked } := by
  unfold tlApi
  rw [if_neg (by rintro (e | e); exact hu.1 e; exact hu.2 e)]
  dsimp only
  rw [if_pos h]
  rfl

theorem tlApi_down (c : Char) (st : TlSt) (hu : ¬ TlUp st) : tlApi c st = st := by
  unfold tlApi
  rw [if_pos]
  unfold TlUp at hu
  omega

theorem tlApi_other (c : Char) (h : isDigit c = false) (hs : c ≠ 's' ∧ c ≠ 'S') (st : TlSt) : tlApi c st = st := by
  unfold tlApi
  dsimp only
  rw [if_neg (show ¬ (c = 's' ∨ c = 'S') by rintro (e | e); exact hs.1 e; exact hs.2 e), h]
  simp

/-! ## The property -/

/-- What a word does that starts with what names a runlevel -/
theorem tl_word (c : Char) (w : CStr) (n : Nat) (h : NamesLevel [c] n) (st : TlSt) (hu : TlUp st) :
    (tlInitctl [c :: w] st) = (if st.level = 10 then { st with cfglevel := n } else { st with asked := n :: st.asked }, 0) ∧
    (tlTelinit [c :: w] st) = (if st.level = 10 then { st with cfglevel := n } else { st with asked := n :: st.asked }, false, 0) := by
  have hcase : (c.toNat = 48 + n ∧ n ≤ 9) ∨ (c = 's' ∨ c = 'S') ∧ n = 1 := by
    rcases h with ⟨d, e, h1, h2⟩ | ⟨e, h1⟩
    · have : c = d := by simpa using e
      subst this
      exact Or.inl ⟨h1, h2⟩
    · refine Or.inr ⟨?_, h1⟩
      rcases e with e | e
      · exact Or.inl (by simpa using e)
      · exact Or.inr (by simpa using e)
  have hapi : tlApi c st = if st.level = 10 then { st with cfglevel := n } else { st with asked := n :: st.asked } := by
    rcases hcase with ⟨h1, h2⟩ | ⟨h1, rfl⟩
    · exact tlApi_digit c n h1 h2 st hu
    · exact tlApi_s c h1 st hu
  have htel : telinit [c :: w] = .runlevel [[c]] := by
    unfold telinit
    dsimp only
    show (if isDigit c then _ else if c = 'q' ∨ c = 'Q' then _ else if c = 's' ∨ c = 'S' then _ else _) = _
    rcases hcase with ⟨h1, h2⟩ | ⟨h1, _⟩
    · rw [if_pos (tl_digit c n h1 h2)]
      rfl
    · rcases h1 with rfl | rfl <;> rfl
  refine ⟨?_, ?_⟩
  · rw [tlInitctl_one]
    show (tlApi c st, 0) = _
    rw [hapi]
  · unfold tlTelinit
    rw [htel]
    dsimp only
    rw [tlInitctl_one]
    show ((tlApi c st), false, 0) = _
    rw [hapi]

/-- A word that names a runlevel is done as asked while the system is up, and while it starts if there is no runlevel on the command line.
    While the system goes down nothing is changed. -/
theorem C98_partial (w : CStr) (st : TlSt) :
    (∀ n, NamesLevel w n → TlUp st → (st.level = 10 → st.cmdlevel = 0) →
      (tlInitctl [w] st).2 = 0 ∧ Told st (tlInitctl [w] st).1 n ∧ (tlTelinit [w] st).2 = (false, 0) ∧ Told st (tlTelinit [w] st).1 n) ∧
    (¬ TlUp st → (tlInitctl [w] st).1 = st ∧ (tlTelinit [w] st).1 = st) ∧
    ((∀ c ∈ w.head?, ∀ n, ¬ NamesLevel [c] n) → (tlInitctl [w] st).1 = st ∧ (tlTelinit [w] st).1 = st) := by
  refine ⟨fun n hn hu hb => ?_, fun hd => ?_, fun hw => ?_⟩
  · have ⟨c, e⟩ : ∃ c, w = [c] := by
      rcases hn with ⟨c, e, _⟩ | ⟨e | e, _⟩
      · exact ⟨c, e⟩
      · exact ⟨'s', e⟩
      · exact ⟨'S', e⟩
    subst e
    have := tl_word c [] n hn st hu
    rw [this.1, this.2]
    have ht : Told st (if st.level = 10 then { st with cfglevel := n } else { st with asked := n :: st.asked }) n := by
      unfold Told
      by_cases h10 : st.level = 10
      · rw [if_pos h10, if_pos h10]
        refine ⟨?_, rfl⟩
        unfold tlBooted
        rw [if_neg (by have := hb h10; simpa using this)]
      · rw [if_neg h10, if_neg h10]
    exact ⟨rfl, ht, rfl, ht⟩
  · refine ⟨by rw [tlInitctl_one]; exact tlApi_down _ st hd, ?_⟩
    unfold tlTelinit telinit
    dsimp only
    generalize w.headD (Char.ofNat 0) = c
    have hk : ∀ ws : List CStr, ∀ w, ws = [w] → (tlInitctl ws st).1 = st := by
      rintro ws w rfl
      rw [tlInitctl_one]
      exact tlApi_down _ st hd
    by_cases h1 : isDigit c = true
    · rw [if_pos h1]
      exact hk _ _ rfl
    rw [if_neg h1]
    by_cases h2 : c = 'q' ∨ c = 'Q'
    · rw [if_pos h2]
    rw [if_neg h2]
    by_cases h3 : c = 's' ∨ c = 'S'
    · rw [if_pos h3]
      exact hk _ _ rfl
    rw [if_neg h3]
  · have hc : isDigit (w.headD (Char.ofNat 0)) = false ∧ w.headD (Char.ofNat 0) ≠ 's' ∧ w.headD (Char.ofNat 0) ≠ 'S' := by
      cases w with
      | nil => exact ⟨by decide, by decide, by decide⟩
      | cons c w =>
        have h := hw c rfl
        refine ⟨?_, fun e => h 1 (Or.inr ⟨Or.inl (by rw [show c = 's' from e]; rfl), rfl⟩), fun e => h 1 (Or.inr ⟨Or.inr (by rw [show c = 'S' from e]; rfl), rfl⟩)⟩
        cases hd : isDigit c with
        | false => exact hd
        | true =>
          exfalso
          unfold isDigit at hd
          rw [decide_eq_true_iff] at hd
          exact h (c.toNat - 48) (Or.inl ⟨c, rfl, by omega, by omega⟩)
    refine ⟨by rw [tlInitctl_one]; exact tlApi_other _ hc.1 hc.2 st, ?_⟩
    unfold tlTelinit telinit
    dsimp only
    rw [hc.1]
    simp only [Bool.false_eq_true, if_false]
    rw [if_neg (show ¬ (w.headD (Char.ofNat 0) = 's' ∨ w.headD (Char.ofNat 0) = 'S') by
      rintro (e | e); exact hc.2.1 e; exact hc.2.2 e)]
    by_cases hq : w.headD (Char.ofNat 0) = 'q' ∨ w.headD (Char.ofNat 0) = 'Q'
    · rw [if_pos hq]
    · rw [if_neg hq]

example : NamesLevel "3".toList 3 := Or.inl ⟨'3', rfl, by decide, by decide⟩

example : tlTelinit ["3".toList] ⟨2, 2, 0, []⟩ = (⟨2, 2, 0, [3]⟩, false, 0) := by decide

/-- Only the first byte of a word counts, so that words that name no runlevel change it, with success: `10` goes to runlevel 1, and so
    does `init stop` -/
theorem C98_first (c d : Char) (w : CStr) (n : Nat) (h : NamesLevel [c] n) (st : TlSt) (hu : TlUp st) (hl : st.level ≠ 10) :
    (¬ ∃ m, NamesLevel (c :: d :: w) m) ∧
    tlInitctl [c :: d :: w] st = ({ st with asked := n :: st.asked }, 0) ∧
    tlTelinit [c :: d :: w] st = ({ st with asked := n :: st.asked }, false, 0) := by
  have := tl_word c (d :: w) n h st hu
  rw [if_neg hl] at this
  refine ⟨?_, this.1, this.2⟩
  rintro ⟨m, ⟨x, e, _⟩ | ⟨e | e, _⟩⟩ <;> simp at e

example : tlTelinit ["stop".toList] ⟨2, 2, 0, []⟩ = (⟨2, 2, 0, [1]⟩, false, 0) := by decide

/-- initctl never fails: not for words that are no runlevel, nor while the system goes down -/
theorem C98_silent (w : CStr) (st : TlSt) : (tlInitctl [w] st).2 = 0 := by
  rw [tlInitctl_one]

/-- `telinit` itself tells of a word that names nothing, and changes nothing then; `q` is the only other word it knows -/
theorem C98_refused (w : CStr) (st : TlSt) (h : ∀ c ∈ w.head?, ∀ n, ¬ NamesLevel [c] n) :
    tlTelinit [w] st = if w.head? = some 'q' ∨ w.head? = some 'Q' then (st, true, 0) else (st, false, 1) := by
  cases w with
  | nil =>
    rw [if_neg (by simp)]
    rfl
  | cons c r =>
    have hc := h c (by simp)
    have h1 : isDigit c = false := by
      cases e : isDigit c with
      | false => rfl
      | true =>
        unfold isDigit at e
        rw [decide_eq_true_iff] at e
        exact absurd (Or.inl ⟨c, rfl, by omega, by omega⟩) (hc (c.toNat - 48))
    have h2 : ¬ (c = 's' ∨ c = 'S') := by
      intro e
      refine hc 1 (Or.inr ⟨?_, rfl⟩)
      rcases e with rfl | rfl
      · exact Or.inl rfl
      · exact Or.inr rfl
    unfold tlTelinit telinit
    dsimp only
    show (match (if isDigit c then TlDoes.runlevel [[c]] else if c = 'q' ∨ c = 'Q' then .reload else if c = 's' ∨ c = 'S' then .runlevel [[c]] else .usage) with
      | .runlevel ws => ((tlInitctl ws st).1, false, (tlInitctl ws st).2)
      | .reload => (st, true, 0)
      | .usage => (st, false, 1)) = _
    rw [if_neg (by rw [h1]; decide)]
    by_cases hq : c = 'q' ∨ c = 'Q'
    · rw [if_pos hq, if_pos (by simpa using hq)]
    · rw [if_neg hq, if_neg h2, if_neg (by simpa using hq)]

example : tlTelinit ["foo".toList] ⟨2, 2, 0, []⟩ = (⟨2, 2, 0, []⟩, false, 1) ∧ tlTelinit ["q".toList] ⟨2, 2, 0, []⟩ = (⟨2, 2, 0, []⟩, true, 0) := by
  decide

/-- While the system starts, what is asked for is lost if there was a runlevel on the command line -/
theorem C98_cmdline (w : CStr) (st : TlSt) (h : st.level = 10) (hc : st.cmdlevel ≠ 0) :
    (tlInitctl [w] st).1.asked = st.asked ∧ tlBooted (tlInitctl [w] st).1 = st.cmdlevel := by
  rw [tlInitctl_one]
  unfold tlApi
  rw [if_neg (by omega)]
  dsimp only
  rw [if_pos h]
  generalize (w.headD (Char.ofNat 0)) = c
  split <;> split <;> exact ⟨rfl, by unfold tlBooted; exact if_pos hc⟩

/-- The claim is false -/
theorem C98_full_false : ¬ C98_full := by
  intro h
  exact ((h "foo".toList ⟨2, 2, 0, []⟩).2 (Or.inl (by
    rintro ⟨m, ⟨x, e, _⟩ | ⟨e | e, _⟩⟩ <;> simp at e))).1 (C98_silent _ _)

end Verif
