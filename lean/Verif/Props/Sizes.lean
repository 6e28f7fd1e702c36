import Verif.Sizes

/-!
# C110: sizes and times shown by initctl
-/

namespace Verif

/-! ## Specification -/

/-- What someone reads who sees a size: a decimal number and a unit, bytes if there is none, as a fraction -/
def szRead (t : CStr) : Nat × Nat :=
  let t := t.dropWhile (· = ' ')
  let whole := t.takeWhile Char.isDigit
  let rest := t.drop (whole.length + 1)
  let tenths := rest.takeWhile Char.isDigit
  let unit := match rest.drop tenths.length with
    | ['k'] => 1024
    | ['M'] => 1024 * 1024
    | ['G'] => 1024 * 1024 * 1024
    | _ => 1
  ((Nat.ofDigitChars 10 whole 0 * 10 ^ tenths.length + Nat.ofDigitChars 10 tenths 0) * unit, 10 ^ tenths.length)

/-- The unit for a size -/
def szUnit (n : Nat) : Nat :=
  if n < 1024 * 1024 then 1024 else if n < 1024 * 1024 * 1024 then 1024 * 1024 else 1024 * 1024 * 1024

/-- What is read differs from the size by at most a tenth of the unit. -/
def SzNear (t : CStr) (n : Nat) : Prop :=
  10 * (szRead t).1 ≤ (10 * n + szUnit n) * (szRead t).2 ∧ 10 * n * (szRead t).2 ≤ 10 * (szRead t).1 + szUnit n * (szRead t).2

/-- A time: the parts that are not 0, each with its unit, separated by blanks -/
def SzTime (t : CStr) (secs : Nat) : Prop :=
  ∃ y d h m s, secs = y * 31556926 + d * 86400 + h * 3600 + m * 60 + s ∧ d ≤ 365 ∧ h < 24 ∧ m < 60 ∧ s < 60 ∧
    t ++ (if s = 0 then [] else [' ']) =
      ([(y, "year".toList), (d, "day".toList), (h, "hour".toList), (m, "min".toList), (s, "sec".toList)].filter
        fun p => p.1 ≠ 0).flatMap fun p => Nat.toDigits 10 p.1 ++ [' '] ++ p.2 ++ [' ']

/-- The claim: a size is shown to a tenth of its unit, both in the status and in the columns, and a time with all its
    parts, at least one. -/
def C110_full : Prop :=
  (∀ n, 0 < n → n < 2 ^ 61 → SzNear (szStatus n) n ∧ SzNear (szColumn n) n) ∧
  (∀ secs, secs < 31556926 * 1000000 → SzTime (szUptime 42 secs) secs ∧ szUptime 42 secs ≠ [])

/-- What is left of a size after whole units, in 1024ths of the unit -/
def szLeft (n : Nat) : Nat := n % szUnit n / (szUnit n / 1024)

/-! ## Lemmas -/

theorem sz_isDigit {n : Nat} {c : Char} (h : c ∈ Nat.toDigits 10 n) : c.isDigit = true :=
  Nat.isDigit_of_mem_toDigits (by decide) (by decide) h

theorem sz_takeWhile (n : Nat) (c : Char) (r : CStr) (hc : c.isDigit = false) :
    (Nat.toDigits 10 n ++ c :: r).takeWhile Char.isDigit = Nat.toDigits 10 n := by
  rw [List.takeWhile_append_of_pos (fun _ h => sz_isDigit h), List.takeWhile_cons, hc]
  simp

/-- Reading a number with one part after the point -/
theorem szRead_text (pad a b : Nat) (u : Char) (hu : u.isDigit = false) (U : Nat)
    (hU : (match [u] with | ['k'] => 1024 | ['M'] => 1024 * 1024 | ['G'] => 1024 * 1024 * 1024 | _ => 1) = U) :
    szRead (List.replicate pad ' ' ++ (Nat.toDigits 10 a ++ '.' :: Nat.toDigits 10 b ++ [u])) =
      ((a * 10 ^ (Nat.toDigits 10 b).length + b) * U, 10 ^ (Nat.toDigits 10 b).length) := by
  have e0 : (List.replicate pad ' ' ++ (Nat.toDigits 10 a ++ '.' :: Nat.toDigits 10 b ++ [u])).dropWhile (· = ' ') =
      Nat.toDigits 10 a ++ '.' :: (Nat.toDigits 10 b ++ [u]) := by
    rw [List.dropWhile_append_of_pos (by intro c hc; simp [List.eq_of_mem_replicate hc])]
    rcases hd : Nat.toDigits 10 a with _ | ⟨c, r⟩
    · exact absurd hd Nat.toDigits_ne_nil
    · have hc : c.isDigit = true := sz_isDigit (n := a) (by rw [hd]; exact List.mem_cons_self)
      have hn : ¬ c = ' ' := by intro h; rw [h] at hc; exact absurd hc (by decide)
      simp [hn]
  have e1 := sz_takeWhile a '.' (Nat.toDigits 10 b ++ [u]) (by decide)
  have e2 := sz_takeWhile b u [] hu
  have e3 : (Nat.toDigits 10 a ++ '.' :: (Nat.toDigits 10 b ++ [u])).drop ((Nat.toDigits 10 a).length + 1) =
      Nat.toDigits 10 b ++ [u] := by
    rw [List.drop_append]; simp
  have e4 : (Nat.toDigits 10 b ++ [u]).drop (Nat.toDigits 10 b).length = [u] := by simp
  unfold szRead
  dsimp only
  rw [e0, e1, e3, e2, e4, hU, Nat.ofDigitChars_ten_toDigits, Nat.ofDigitChars_ten_toDigits]

theorem sz_one {b : Nat} (h : b ≤ 9) : (Nat.toDigits 10 b).length = 1 := by
  rw [Nat.toDigits_of_lt_base (by omega)]; rfl

theorem sz_len {k n : Nat} (hk : 0 < k) (h : n < 10 ^ k) : (Nat.toDigits 10 n).length ≤ k :=
  (Nat.length_toDigits_le_iff (by decide) hk).mpr h

/-- Which number is shown, with which unit -/
theorem szMem_eq (len n : Nat) (h : 0 < n) :
    ∃ a u U, szMem len n = strlcpy len (Nat.toDigits 10 a ++ '.' :: Nat.toDigits 10 (szLeft n / 102) ++ [u]) ∧
      u.isDigit = false ∧
      (match [u] with | ['k'] => 1024 | ['M'] => 1024 * 1024 | ['G'] => 1024 * 1024 * 1024 | _ => 1) = U ∧
      U = szUnit n ∧ a = n / szUnit n ∧ szLeft n < 1024 ∧ (u ∈ ['k', 'M', 'G']) ∧
      ∃ q, U = 1024 * q ∧ n = a * U + szLeft n * q + n % q ∧ n % q < q := by
  unfold szMem szLeft szUnit
  rw [if_neg (by omega)]
  dsimp only
  by_cases h1 : n < 1024 * 1024
  · rw [if_neg (by omega), if_neg (by omega), if_pos h1]
    refine ⟨n / 1024, 'k', 1024, ?_, by decide, rfl, rfl, rfl, by omega, by decide, 1, rfl, by omega, by omega⟩
    have e1 : n % (1024 * 1024 * 1024) % (1024 * 1024) / 1024 = n / 1024 := by omega
    have e2 : n % (1024 * 1024 * 1024) % (1024 * 1024) % 1024 = n % 1024 / (1024 / 1024) := by omega
    rw [e1, e2]
  · by_cases h2 : n < 1024 * 1024 * 1024
    · rw [if_neg (by omega), if_pos (by omega), if_neg h1, if_pos h2]
      refine ⟨n / (1024 * 1024), 'M', 1024 * 1024, ?_, by decide, rfl, rfl, rfl, by omega, by decide, 1024, rfl, by omega,
        by omega⟩
      have e1 : n % (1024 * 1024 * 1024) / (1024 * 1024) = n / (1024 * 1024) := by omega
      have e2 : n % (1024 * 1024 * 1024) % (1024 * 1024) / 1024 = n % (1024 * 1024) / (1024 * 1024 / 1024) := by omega
      rw [e1, e2]
    · rw [if_pos (by omega), if_neg h1, if_neg h2]
      refine ⟨n / (1024 * 1024 * 1024), 'G', 1024 * 1024 * 1024, ?_, by decide, rfl, rfl, rfl, by omega, by decide,
        1024 * 1024, rfl, by omega, by omega⟩
      have e2 : n % (1024 * 1024 * 1024) / (1024 * 1024) =
        n % (1024 * 1024 * 1024) / (1024 * 1024 * 1024 / 1024) := by omega
      rw [e2]

/-- One digit after the point: near enough -/
theorem sz_near (pad a : Nat) (u : Char) (U n q : Nat) (hu : u.isDigit = false)
    (hU : (match [u] with | ['k'] => 1024 | ['M'] => 1024 * 1024 | ['G'] => 1024 * 1024 * 1024 | _ => 1) = U)
    (e : U = szUnit n) (hq : U = 1024 * q) (hn : n = a * U + szLeft n * q + n % q) (hm : n % q < q)
    (hl : szLeft n < 1020) :
    SzNear (List.replicate pad ' ' ++ (Nat.toDigits 10 a ++ '.' :: Nat.toDigits 10 (szLeft n / 102) ++ [u])) n := by
  unfold SzNear
  rw [szRead_text pad a _ u hu U hU, sz_one (by omega), ← e]
  dsimp only
  generalize szLeft n = r at *
  generalize n % q = x at *
  have hr : r = 102 * (r / 102) + r % 102 := by omega
  generalize hb : r / 102 = b at *
  generalize hc : r % 102 = c at *
  have hb9 : b ≤ 9 := by omega
  have hc1 : c ≤ 101 := by omega
  have e1 : r * q = 102 * (b * q) + c * q := by rw [hr, Nat.add_mul, Nat.mul_assoc]
  have e2 : b * q ≤ 9 * q := Nat.mul_le_mul_right _ hb9
  have e3 : c * q ≤ 101 * q := Nat.mul_le_mul_right _ hc1
  have e4 : b * U = 1024 * (b * q) := by rw [hq, Nat.mul_left_comm]
  have e5 : (a * 10 ^ 1 + b) * U = 10 * (a * U) + b * U := by
    rw [Nat.add_mul]; congr 1
    rw [Nat.pow_one, Nat.mul_comm a 10, Nat.mul_assoc]
  have e6 : (10 * n + U) * 10 ^ 1 = 100 * n + 10 * U := by omega
  have e7 : 10 * n * 10 ^ 1 = 100 * n := by omega
  have e8 : U * 10 ^ 1 = 10 * U := by omega
  rw [e5, e6, e7, e8, e4]
  generalize a * U = A at *
  generalize b * q = B at *
  generalize c * q = C at *
  generalize r * q = R at *
  omega

theorem sz_text_len (a b : Nat) (u : Char) (k : Nat) (hk : 0 < k) (h : a < 10 ^ k) (hb : b ≤ 10) :
    (Nat.toDigits 10 a ++ '.' :: Nat.toDigits 10 b ++ [u]).length ≤ k + 4 := by
  have h1 := sz_len hk h
  have h2 : (Nat.toDigits 10 b).length ≤ 2 := sz_len (by decide) (by omega)
  simp only [List.length_append, List.length_cons, List.length_nil]
  omega

/-! ## Theorems -/

/-- In the status, a size is shown to a tenth of its unit, unless what is left after whole units is 1020/1024 or more. -/
theorem C110_partial (n : Nat) (h : 0 < n) (hb : n < 2 ^ 61) (hl : szLeft n < 1020) : SzNear (szStatus n) n := by
  obtain ⟨a, u, U, e, hu, hU, eU, ea, _, _, q, hq, hn, hm⟩ := szMem_eq 42 n h
  have hs : szStatus n = List.replicate 0 ' ' ++ (Nat.toDigits 10 a ++ '.' :: Nat.toDigits 10 (szLeft n / 102) ++ [u]) := by
    show szMem 42 n = _
    rw [e]
    have ha : a < 10 ^ 19 := by
      have : a ≤ n := by rw [ea]; exact Nat.div_le_self _ _
      omega
    have := sz_text_len a (szLeft n / 102) u 19 (by decide) ha (by omega)
    unfold strlcpy
    rw [List.take_of_length_le (by omega)]
    rfl
  rw [hs]
  exact sz_near 0 a u U n q hu hU eU hq hn hm hl

/-- So is it in a column, unless there are 1000 units or more. -/
theorem C110_column (n : Nat) (h : 0 < n) (ha : n / szUnit n < 1000) (hl : szLeft n < 1020) : SzNear (szColumn n) n := by
  obtain ⟨a, u, U, e, hu, hU, eU, ea, _, _, q, hq, hn, hm⟩ := szMem_eq 32 n h
  have h1 := sz_len (k := 3) (by decide) (show a < 10 ^ 3 by rw [ea]; omega)
  have h2 := sz_one (b := szLeft n / 102) (by omega)
  have hlen : (Nat.toDigits 10 a ++ '.' :: Nat.toDigits 10 (szLeft n / 102) ++ [u]).length ≤ 6 := by
    simp only [List.length_append, List.length_cons, List.length_nil]
    omega
  have hs : szColumn n = List.replicate (6 - (Nat.toDigits 10 a ++ '.' :: Nat.toDigits 10 (szLeft n / 102) ++ [u]).length) ' ' ++
      (Nat.toDigits 10 a ++ '.' :: Nat.toDigits 10 (szLeft n / 102) ++ [u]) := by
    unfold szColumn
    dsimp only
    rw [e]
    unfold strlcpy
    rw [List.take_of_length_le (l := _ ++ _) (by omega), List.take_of_length_le hlen]
  rw [hs]
  exact sz_near _ a u U n q hu hU eU hq hn hm hl

/-- From 1000 units on, the column has no unit. -/
theorem C110_unit (n : Nat) (ha : 1000 ≤ n / szUnit n) (hb : n < 2 ^ 61) :
    'k' ∉ szColumn n ∧ 'M' ∉ szColumn n ∧ 'G' ∉ szColumn n := by
  have hpos : 0 < n := by
    rcases Nat.eq_zero_or_pos n with h | h
    · subst h; simp at ha
    · exact h
  obtain ⟨a, u, U, e, hu, hU, eU, ea, _, _, q, hq, hn, hm⟩ := szMem_eq 32 n hpos
  have h4 : 4 ≤ (Nat.toDigits 10 a).length := by
    rcases Nat.lt_or_ge (Nat.toDigits 10 a).length 4 with h | h
    · have := (Nat.length_toDigits_le_iff (b := 10) (n := a) (k := 3) (by decide) (by decide)).mp (by omega)
      omega
    · exact h
  have h1 : 1 ≤ (Nat.toDigits 10 (szLeft n / 102)).length := Nat.length_toDigits_pos
  have key : ∀ c ∈ szColumn n, c.isDigit = true ∨ c = '.' ∨ c = ' ' := by
    intro c hc
    unfold szColumn at hc
    dsimp only at hc
    rcases List.mem_append.mp hc with hc | hc
    · exact Or.inr (Or.inr (List.eq_of_mem_replicate hc))
    · rw [e] at hc
      unfold strlcpy at hc
      rw [List.take_take] at hc
      have hc' : c ∈ (Nat.toDigits 10 a ++ '.' :: Nat.toDigits 10 (szLeft n / 102)) := by
        have hx : (Nat.toDigits 10 a ++ '.' :: Nat.toDigits 10 (szLeft n / 102) ++ [u]).take (min 6 (32 - 1)) =
            (Nat.toDigits 10 a ++ '.' :: Nat.toDigits 10 (szLeft n / 102)).take (min 6 (32 - 1)) :=
          List.take_append_of_le_length (by simp only [List.length_append, List.length_cons]; omega)
        rw [hx] at hc
        exact List.mem_of_mem_take hc
      rcases List.mem_append.mp hc' with h | h
      · exact Or.inl (sz_isDigit h)
      · rcases List.mem_cons.mp h with h | h
        · exact Or.inr (Or.inl h)
        · exact Or.inl (sz_isDigit h)
  refine ⟨fun h => ?_, fun h => ?_, fun h => ?_⟩ <;> exact absurd (key _ h) (by decide)

/-- What is left of 1020/1024 or more is shown as `.10`. -/
theorem C110_carry (n : Nat) (h : 0 < n) (hb : n < 2 ^ 61) (hl : 1020 ≤ szLeft n) :
    ∃ u ∈ ['k', 'M', 'G'], szStatus n = Nat.toDigits 10 (n / szUnit n) ++ ".10".toList ++ [u] := by
  obtain ⟨a, u, U, e, hu, hU, eU, ea, h24, hm, q, _⟩ := szMem_eq 42 n h
  refine ⟨u, hm, ?_⟩
  show szMem 42 n = _
  have ht : szLeft n / 102 = 10 := by omega
  have ha : a < 10 ^ 19 := by
    have : a ≤ n := by rw [ea]; exact Nat.div_le_self _ _
    omega
  have := sz_text_len a (szLeft n / 102) u 19 (by decide) ha (by omega)
  rw [e]
  unfold strlcpy
  rw [List.take_of_length_le (by omega), ht, ← ea]
  have e10 : '.' :: Nat.toDigits 10 10 = ".10".toList := by decide +kernel
  rw [e10]

/-- A time is shown with all its parts. -/
theorem C110_time (secs : Nat) (h : secs < 31556926 * 1000000) : SzTime (szUptime 42 secs) secs := by
  unfold SzTime szUptime
  dsimp only
  refine ⟨secs / 31556926, secs % 31556926 / 86400, secs % 31556926 % 86400 / 3600,
    secs % 31556926 % 86400 % 3600 / 60, secs % 31556926 % 86400 % 3600 % 60, by omega, by omega, by omega, by omega,
    by omega, ?_⟩
  have hy : secs / 31556926 < 10 ^ 6 := by omega
  have hd : secs % 31556926 / 86400 < 10 ^ 3 := by omega
  have hh : secs % 31556926 % 86400 / 3600 < 10 ^ 2 := by omega
  have hm : secs % 31556926 % 86400 % 3600 / 60 < 10 ^ 2 := by omega
  have hs : secs % 31556926 % 86400 % 3600 % 60 < 10 ^ 2 := by omega
  generalize secs / 31556926 = y at *
  generalize secs % 31556926 / 86400 = d at *
  generalize secs % 31556926 % 86400 / 3600 = hr at *
  generalize secs % 31556926 % 86400 % 3600 / 60 = mi at *
  generalize secs % 31556926 % 86400 % 3600 % 60 = s at *
  have p : ∀ n name k, 0 < k → n < 10 ^ k → k + 1 + name.length ≤ 19 →
      szPart n name = (if n = 0 then [] else Nat.toDigits 10 n ++ ' ' :: name) ∧
      (szPart n name).length ≤ k + 1 + name.length ∧ (szSep n).length ≤ 1 := by
    intro n name k hk hn hl
    have := sz_len hk hn
    unfold szPart szSep strlcpy
    split
    · simp
    · rw [List.take_of_length_le (by simp; omega)]
      refine ⟨rfl, by simp; omega, by simp⟩
  have p1 := p y "year".toList 6 (by decide) hy (by decide)
  have p2 := p d "day".toList 3 (by decide) hd (by decide)
  have p3 := p hr "hour".toList 2 (by decide) hh (by decide)
  have p4 := p mi "min".toList 2 (by decide) hm (by decide)
  have p5 := p s "sec".toList 2 (by decide) hs (by decide)
  have l1 : "year".toList.length = 4 := rfl
  have l2 : "day".toList.length = 3 := rfl
  have l3 : "hour".toList.length = 4 := rfl
  have l4 : "min".toList.length = 3 := rfl
  have l5 : "sec".toList.length = 3 := rfl
  unfold strlcpy
  rw [List.take_of_length_le (by simp only [List.length_append]; omega)]
  rw [p1.1, p2.1, p3.1, p4.1, p5.1]
  generalize "year".toList = ny
  generalize "day".toList = nd
  generalize "hour".toList = nh
  generalize "min".toList = nm
  generalize "sec".toList = ns
  unfold szSep
  have one : ∀ (n : Nat) (name : CStr), (if n = 0 then [] else Nat.toDigits 10 n ++ ' ' :: name) ++ (if n = 0 then [] else [' ']) =
      ([(n, name)].filter fun p => p.1 ≠ 0).flatMap fun p => Nat.toDigits 10 p.1 ++ [' '] ++ p.2 ++ [' '] := by
    intro n name
    by_cases hn : n = 0 <;> simp [hn]
  have split5 : ∀ (f : Nat × CStr → Bool) (g : Nat × CStr → CStr) (a b c d e : Nat × CStr),
      (([a, b, c, d, e].filter f).flatMap g) =
        ([a].filter f).flatMap g ++ (([b].filter f).flatMap g ++ (([c].filter f).flatMap g ++
          (([d].filter f).flatMap g ++ ([e].filter f).flatMap g))) := by
    intro f g a b c d e
    have : [a, b, c, d, e] = [a] ++ ([b] ++ ([c] ++ ([d] ++ [e]))) := rfl
    rw [this]
    simp only [List.filter_append, List.flatMap_append]
  rw [split5, ← one, ← one, ← one, ← one, ← one]
  simp only [List.append_assoc]

/-- Nothing is shown for what was started this very second. -/
theorem C110_now : szUptime 42 0 = [] := by decide +kernel

/-! ## Examples -/

example : szStatus 1536 = "1.5k".toList ∧ szLeft 1536 < 1020 ∧ szColumn (1024 * 1024 * 300) = "300.0M".toList ∧
    szColumn (1024 * 1024 * 1010) = "1010.0".toList ∧ szStatus 2047 = "1.10k".toList ∧
    szUptime 42 10016 = "2 hour 46 min 56 sec".toList ∧ szUptime 42 3600 = "1 hour ".toList := by decide +kernel

/-- The claim does not hold: all but 4 bytes of a kilobyte are shown as a tenth of one. -/
theorem C110_full_false : ¬ C110_full := by
  intro h
  have := (h.1 1020 (by decide) (by decide)).1
  revert this
  unfold SzNear
  decide +kernel

end Verif
