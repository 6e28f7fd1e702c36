import Verif.Runlevels

/-!
# C01: runlevel lists mean what they say
-/

namespace Verif

/-- The runlevel a character of the list stands for (doc/runlevels.md): digits, and S = 10. -/
def levelOf (c : Char) : Option Nat :=
  if '0' ≤ c ∧ c ≤ '9' then some (c.toNat - '0'.toNat)
  else if c = 'S' ∨ c = 's' then some 10
  else none

/-- Runlevel `n` is named in `l`. -/
def Listed (n : Nat) (l : CStr) : Prop := ∃ c ∈ l, levelOf c = some n

/-- The text between the brackets. -/
def listBody (s : CStr) : CStr := (s.drop 1).takeWhile (· ≠ ']')

/-- What the list `l` between the brackets allows. -/
def Allows (l : CStr) (n : Nat) : Prop :=
  ('!' ∉ l ∧ Listed n l) ∨
  ∃ pre post, l = pre ++ '!' :: post ∧ '!' ∉ post ∧ 1 ≤ n ∧ n ≤ 10 ∧ ¬ Listed n post

/-- The documented default, `[234]`. -/
def AllowsDefault (n : Nat) : Prop := n = 2 ∨ n = 3 ∨ n = 4

/-- C01 in full. -/
def C01_full : Prop :=
  (∀ s n, (parseRunlevels (some s)).getLsbD n = true ↔ Allows (listBody s) n) ∧
  (∀ n, (parseRunlevels none).getLsbD n = true ↔ AllowsDefault n)

theorem rlLevel_eq {c : Char} (hc : c ≠ ':') : rlLevel c = levelOf c := by
  have h1 : ('0' ≤ c ∧ c ≤ '9') ↔ (48 ≤ c.toNat ∧ c.toNat ≤ 57) := by
    show ('0'.val ≤ c.val ∧ c.val ≤ '9'.val) ↔ _
    rw [UInt32.le_iff_toNat_le, UInt32.le_iff_toNat_le]
    exact Iff.rfl
  have h2 : c.toNat ≠ 58 := by
    intro h
    apply hc
    have := Char.ofNat_toNat c
    rw [h] at this
    exact this.symm
  have hz : '0'.toNat = 48 := rfl
  unfold rlLevel levelOf
  by_cases hs : c = 's' ∨ c = 'S'
  · have : ¬ ('0' ≤ c ∧ c ≤ '9') := by rcases hs with rfl | rfl <;> decide
    rw [if_pos hs, if_neg this, if_pos hs.symm]
  · rw [if_neg hs]
    by_cases hd : '0' ≤ c ∧ c ≤ '9'
    · rw [if_pos hd]
      have := h1.mp hd
      rw [if_neg (by omega), if_neg (by omega), hz]
    · rw [if_neg hd, if_neg (c := c = 'S' ∨ c = 's') (fun h => hs h.symm)]
      have := mt h1.mpr hd
      split
      · rfl
      · rw [if_pos (by omega)]

theorem rlLevel_le {c : Char} {l : Nat} (h : rlLevel c = some l) : l ≤ 10 := by
  unfold rlLevel at h
  split at h
  · cases h; decide
  · split at h
    · cases h
    · split at h
      · cases h
      · cases h; omega

theorem bit32_get {l n : Nat} (hl : l ≤ 10) : (bit32 l).getLsbD n = decide (n = l) := by
  unfold bit32
  rw [BitVec.getLsbD_shiftLeft, BitVec.getLsbD_one]
  by_cases h : n = l
  · subst h
    simp
    omega
  · simp [h]
    omega

theorem mask_get (n : Nat) : (0x7FE#32).getLsbD n = decide (1 ≤ n ∧ n ≤ 10) := by
  by_cases h : n < 11
  · have : ∀ n : Fin 11, (0x7FE#32).getLsbD n.val = decide (1 ≤ n.val ∧ n.val ≤ 10) := by decide
    exact this ⟨n, h⟩
  · have h2 : ¬ (1 ≤ n ∧ n ≤ 10) := by omega
    simp only [h2, decide_false]
    apply Bool.eq_false_iff.mpr
    intro h3
    have h4 : (0x7FE#32).toNat.testBit n = true := h3
    have h5 := Nat.ge_two_pow_of_testBit h4
    have h6 : 2 ^ 11 ≤ 2 ^ n := Nat.pow_le_pow_right (by decide) (by omega)
    have h7 : (0x7FE#32).toNat = 2046 := rfl
    rw [h7] at h5
    have : 2 ^ 11 = 2048 := rfl
    omega

/-- The loop, from any state, on a list without `]` or `:`. -/
theorem rlLoop_get (l : CStr) (h1 : ∀ c ∈ l, c ≠ ']') (h2 : ∀ c ∈ l, c ≠ ':') (neg : Bool) (m : BitVec 32)
    (n : Nat) :
    (rlLoop neg m l).getLsbD n = true ↔
      ('!' ∉ l ∧ (if neg then m.getLsbD n = true ∧ ¬ Listed n l else m.getLsbD n = true ∨ Listed n l)) ∨
      ∃ pre post, l = pre ++ '!' :: post ∧ '!' ∉ post ∧ 1 ≤ n ∧ n ≤ 10 ∧ ¬ Listed n post := by
  induction l generalizing neg m with
  | nil => cases neg <;> simp [rlLoop, Listed]
  | cons c cs ih =>
    have ih := ih (fun x hx => h1 x (List.mem_cons_of_mem _ hx)) (fun x hx => h2 x (List.mem_cons_of_mem _ hx))
    have hc1 := h1 c (List.mem_cons_self ..)
    have hc2 := h2 c (List.mem_cons_self ..)
    have tail : ∀ (q : c ≠ '!') , (∃ pre post, c :: cs = pre ++ '!' :: post ∧ '!' ∉ post ∧ 1 ≤ n ∧ n ≤ 10 ∧ ¬ Listed n post) ↔
        ∃ pre post, cs = pre ++ '!' :: post ∧ '!' ∉ post ∧ 1 ≤ n ∧ n ≤ 10 ∧ ¬ Listed n post := by
      intro q
      constructor
      · rintro ⟨pre, post, e, h⟩
        cases pre with
        | nil => rw [List.nil_append] at e; injection e with e1 _; exact absurd e1 q
        | cons x pre => rw [List.cons_append] at e; injection e with _ e2; exact ⟨pre, post, e2, h⟩
      · rintro ⟨pre, post, e, h⟩
        exact ⟨c :: pre, post, by rw [e]; rfl, h⟩
    by_cases hb : c = '!'
    · subst hb
      rw [rlLoop, if_neg (by decide), if_pos rfl, ih, mask_get]
      constructor
      · rintro (⟨h3, h4, h5⟩ | ⟨pre, post, e, h⟩)
        · exact .inr ⟨[], cs, rfl, h3, (of_decide_eq_true h4).1, (of_decide_eq_true h4).2, h5⟩
        · exact .inr ⟨'!' :: pre, post, by rw [e]; rfl, h⟩
      · rintro (⟨h3, _⟩ | ⟨pre, post, e, h3, h4, h5, h6⟩)
        · exact absurd (List.mem_cons_self ..) h3
        · cases pre with
          | nil =>
            rw [List.nil_append] at e; injection e with _ e; subst e
            exact .inl ⟨h3, decide_eq_true ⟨h4, h5⟩, h6⟩
          | cons x pre =>
            rw [List.cons_append] at e; injection e with _ e
            exact .inr ⟨pre, post, e, h3, h4, h5, h6⟩
    · rw [rlLoop, if_neg hc1, if_neg hb, tail hb, rlLevel_eq hc2]
      have hm : '!' ∉ c :: cs ↔ '!' ∉ cs := by
        simp only [List.mem_cons, not_or]
        exact ⟨fun h => h.2, fun h => ⟨fun e => hb e.symm, h⟩⟩
      have hl : Listed n (c :: cs) ↔ levelOf c = some n ∨ Listed n cs := by
        unfold Listed; simp
      rw [hm, hl]
      cases hv : levelOf c with
      | none => rw [ih]; simp
      | some l =>
        have hle := rlLevel_le (by rw [rlLevel_eq hc2, hv] : rlLevel c = some l)
        have hle' : n ≤ 31 ∨ 31 < n := by omega
        cases neg with
        | true =>
          simp only [if_true]
          rw [ih, BitVec.getLsbD_and, BitVec.getLsbD_not, bit32_get hle]
          have : m.getLsbD n = true → n < 32 := fun h => BitVec.lt_of_getLsbD h
          simp only [if_true, Option.some.injEq, not_or, Bool.and_eq_true, Bool.not_eq_true',
            decide_eq_true_eq, decide_eq_false_iff_not]
          constructor
          · rintro (⟨a, ⟨b, c, d⟩, e⟩ | h)
            · exact .inl ⟨a, b, fun h => d h.symm, e⟩
            · exact .inr h
          · rintro (⟨a, b, d, e⟩ | h)
            · exact .inl ⟨a, ⟨b, this b, fun h => d h.symm⟩, e⟩
            · exact .inr h
        | false =>
          simp only [Bool.false_eq_true, if_false]
          rw [ih, BitVec.getLsbD_or, bit32_get hle]
          simp only [Bool.false_eq_true, if_false, Option.some.injEq, Bool.or_eq_true, decide_eq_true_eq]
          constructor
          · rintro (⟨a, (b | b) | e⟩ | h)
            · exact .inl ⟨a, .inl b⟩
            · exact .inl ⟨a, .inr (.inl b.symm)⟩
            · exact .inl ⟨a, .inr (.inr e)⟩
            · exact .inr h
          · rintro (⟨a, b | b | e⟩ | h)
            · exact .inl ⟨a, .inl (.inl b)⟩
            · exact .inl ⟨a, .inl (.inr b.symm)⟩
            · exact .inl ⟨a, .inr e⟩
            · exact .inr h

/-- The loop stops at `]`. -/
theorem rlLoop_body (s : CStr) (neg : Bool) (m : BitVec 32) :
    rlLoop neg m s = rlLoop neg m (s.takeWhile (· ≠ ']')) := by
  induction s generalizing neg m with
  | nil => rfl
  | cons c cs ih =>
    by_cases hc : c = ']'
    · subst hc; simp [rlLoop]
    · rw [List.takeWhile_cons, if_pos (by simpa using hc), rlLoop, rlLoop, if_neg hc, if_neg hc]
      split
      · exact ih _ _
      · split
        · exact ih _ _
        · split <;> exact ih _ _

/-- **C01**, for lists without a colon (which the code takes for S). -/
theorem C01_runlevel_lists_partial :
    (∀ s n, ':' ∉ listBody s → ((parseRunlevels (some s)).getLsbD n = true ↔ Allows (listBody s) n)) ∧
    (∀ n, (parseRunlevels none).getLsbD n = true ↔ AllowsDefault n) := by
  have main : ∀ s n, ':' ∉ listBody s →
      ((parseRunlevels (some s)).getLsbD n = true ↔ Allows (listBody s) n) := by
    intro s n h
    show (rlLoop false 0 (s.drop 1)).getLsbD n = true ↔ _
    rw [rlLoop_body, ← listBody, rlLoop_get (listBody s) ?_ (fun c hc e => h (e ▸ hc))]
    · unfold Allows
      simp
    · intro c hc e
      have := List.all_takeWhile (p := (· ≠ ']')) (l := s.drop 1)
      rw [List.all_eq_true] at this
      have := this c hc
      simp [e] at this
  refine ⟨main, ?_⟩
  intro n
  have := main "[234]".toList n (by decide)
  rw [show parseRunlevels none = parseRunlevels (some "[234]".toList) from rfl, this]
  have hb : listBody "[234]".toList = ['2', '3', '4'] := by decide
  rw [hb]
  unfold Allows AllowsDefault Listed
  constructor
  · rintro (⟨_, c, hc, h⟩ | ⟨pre, post, e, _⟩)
    · simp only [List.mem_cons, List.not_mem_nil, or_false] at hc
      rcases hc with rfl | rfl | rfl
      · exact .inl (Option.some.inj h).symm
      · exact .inr (.inl (Option.some.inj h).symm)
      · exact .inr (.inr (Option.some.inj h).symm)
    · have : '!' ∈ ['2', '3', '4'] := by rw [e]; simp
      exact absurd this (by decide)
  · intro h
    refine .inl ⟨by decide, ?_⟩
    rcases h with rfl | rfl | rfl
    · exact ⟨'2', by decide, rfl⟩
    · exact ⟨'3', by decide, rfl⟩
    · exact ⟨'4', by decide, rfl⟩

/-- No runlevel outside 0..9 and S is ever allowed, whatever the list. -/
theorem C01_no_other_runlevel (arg : Option CStr) (n : Nat) (h : (parseRunlevels arg).getLsbD n = true) :
    n ≤ 10 := by
  have loop : ∀ (l : CStr) (neg : Bool) (m : BitVec 32), (∀ n, m.getLsbD n = true → n ≤ 10) →
      ∀ n, (rlLoop neg m l).getLsbD n = true → n ≤ 10 := by
    intro l
    induction l with
    | nil => intro neg m hm; exact hm
    | cons c cs ih =>
      intro neg m hm
      rw [rlLoop]
      split
      · exact hm
      · split
        · refine ih _ _ ?_
          intro n hn
          rw [mask_get] at hn
          exact (of_decide_eq_true hn).2
        · split
          · exact ih _ _ hm
          · rename_i l hl
            have hle := rlLevel_le hl
            split
            · refine ih _ _ ?_
              intro n hn
              rw [BitVec.getLsbD_and] at hn
              exact hm n (Bool.and_eq_true _ _ ▸ hn).1
            · refine ih _ _ ?_
              intro n hn
              rw [BitVec.getLsbD_or, bit32_get hle, Bool.or_eq_true] at hn
              rcases hn with hn | hn
              · exact hm n hn
              · have := of_decide_eq_true hn; omega
  refine loop _ _ _ ?_ n h
  intro n hn
  simp at hn

/-- **C01 is false** as stated: a colon is taken for runlevel S. -/
theorem C01_colon_means_S : ¬ C01_full := by
  intro h
  have := (h.1 "[:]".toList 10).mp (by decide)
  have hb : listBody "[:]".toList = [':'] := by decide
  rw [hb] at this
  rcases this with ⟨_, c, hc, hl⟩ | ⟨pre, post, e, _⟩
  · simp only [List.mem_cons, List.not_mem_nil, or_false] at hc
    subst hc
    exact absurd hl (by decide)
  · have : '!' ∈ [':'] := by rw [e]; simp
    exact absurd this (by decide)

/-- A negated list: everything but 0, 1 and 6. -/
example : ':' ∉ listBody "[!16]".toList ∧ (parseRunlevels (some "[!16]".toList)).getLsbD 10 = true ∧
    (parseRunlevels (some "[!16]".toList)).getLsbD 0 = false ∧
    (parseRunlevels (some "[!16]".toList)).getLsbD 6 = false ∧
    (parseRunlevels (some "[S12]".toList)).getLsbD 10 = true := by decide

end Verif
