import Verif.Util
import Verif.CStrLemmas

/-! Lemmas about the string utilities. -/

namespace Verif

theorem strstr_some {pat s a b : CStr} (h : strstr pat s = some (a, b)) : s = a ++ pat ++ b := by
  induction s generalizing a b with
  | nil =>
    unfold strstr at h
    split at h
    · rename_i hp; subst hp; cases h; rfl
    · cases h
  | cons c cs ih =>
    unfold strstr at h
    split at h
    · rename_i hp
      cases h
      obtain ⟨t, ht⟩ := List.isPrefixOf_iff_prefix.mp hp
      rw [← ht]; simp
    · cases hr : strstr pat cs with
      | none => rw [hr] at h; cases h
      | some r =>
        rw [hr] at h
        simp only [Option.map_some, Option.some.injEq, Prod.mk.injEq] at h
        have := ih (a := r.1) (b := r.2) hr
        rw [← h.1, ← h.2, this]; simp

theorem strstr_none {pat s : CStr} (h : strstr pat s = none) (a b : CStr) : s ≠ a ++ pat ++ b := by
  induction s generalizing a with
  | nil =>
    intro e
    have e' := e.symm
    simp only [List.append_eq_nil_iff] at e'
    unfold strstr at h
    rw [if_pos e'.1.2] at h; cases h
  | cons c cs ih =>
    unfold strstr at h
    split at h
    · cases h
    · rename_i hp
      have hn : strstr pat cs = none := by
        cases hr : strstr pat cs with
        | none => rfl
        | some r => rw [hr] at h; cases h
      intro e
      cases a with
      | nil =>
        apply hp
        rw [e]
        exact List.isPrefixOf_iff_prefix.mpr ⟨b, by simp⟩
      | cons x xs =>
        simp only [List.cons_append, List.cons.injEq] at e
        exact ih hn xs e.2

/-- What the removal of `../` at the front leaves behind. -/
theorem dropPre_done {pre : CStr} (hp : pre ≠ []) (n : Nat) (s : CStr) (hn : s.length ≤ n) (t : CStr) :
    dropPre pre n s ≠ pre ++ t := by
  induction n generalizing s with
  | zero =>
    have : s = [] := List.eq_nil_of_length_eq_zero (by omega)
    subst this
    intro e
    have e' := e.symm
    simp only [dropPre, List.append_eq_nil_iff] at e'
    exact hp e'.1
  | succ n ih =>
    unfold dropPre
    split
    · rename_i h
      have h0 : 0 < pre.length := List.length_pos_iff.mpr hp
      exact ih _ (by rw [List.length_drop]; omega)
    · rename_i h
      intro e
      exact h (List.isPrefixOf_iff_prefix.mpr ⟨t, e.symm⟩)

theorem dropPre_length (pre : CStr) (n : Nat) (s : CStr) : (dropPre pre n s).length ≤ s.length := by
  induction n generalizing s with
  | zero => exact Nat.le_refl _
  | succ n ih =>
    unfold dropPre
    split
    · exact Nat.le_trans (ih _) (by rw [List.length_drop]; omega)
    · exact Nat.le_refl _

theorem keepDir_length (a : CStr) : (keepDir a).length ≤ a.length := by
  unfold keepDir
  rw [List.length_reverse]
  have h := (List.dropWhile_sublist (fun x => decide (x ≠ '/')) (l := a.reverse)).length_le
  rw [List.length_reverse] at h
  exact h

/-- No `..` component except at the very end. -/
def NoUp (s : CStr) : Prop :=
  ∀ pre post, s = pre ++ '.' :: '.' :: '/' :: post → pre ≠ [] ∧ ∀ p, pre ≠ p ++ ['/']

theorem dropUps_noUp (n : Nat) (s : CStr) (hn : s.length < n) : NoUp (dropUps n s) := by
  induction n generalizing s with
  | zero => omega
  | succ n ih =>
    unfold dropUps
    extract_lets s1
    have hl : s1.length ≤ s.length := dropPre_length _ _ _
    have h1 : ∀ t, s1 ≠ "../".toList ++ t := dropPre_done (by decide) _ _ (Nat.le_refl _)
    split
    · rename_i hs
      intro pre post e
      refine ⟨?_, ?_⟩
      · rintro rfl
        exact h1 post e
      · rintro p rfl
        exact strstr_none hs p post (by rw [e]; simp)
    · rename_i a b hs
      have := congrArg List.length (strstr_some hs)
      have hk := keepDir_length a
      simp only [List.length_append] at this
      have h4 : "/../".toList.length = 4 := by decide
      exact ih _ (by rw [List.length_append]; omega)

theorem NoUp.prefix {s t : CStr} (h : NoUp (s ++ t)) : NoUp s := by
  intro pre post e
  exact h pre (post ++ t) (by rw [e]; simp)

theorem keepDir_split (a : CStr) : ∃ t, a = keepDir a ++ t ∧ ∀ c ∈ t, c ≠ '/' := by
  refine ⟨(a.reverse.takeWhile (· ≠ '/')).reverse, ?_, ?_⟩
  · unfold keepDir
    rw [← List.reverse_append, List.takeWhile_append_dropWhile, List.reverse_reverse]
  · intro c hc
    have h := List.all_takeWhile (p := fun x => decide (x ≠ '/')) (l := a.reverse)
    have := List.all_eq_true.mp h c (List.mem_reverse.mp hc)
    simpa using this

/-- What is left once the loop for `xxx/..` at the end is done. -/
def TailOk (s : CStr) : Prop :=
  ∀ a, s = a ++ ['/', '.', '.'] → a = [] ∨ '/' ∉ a

theorem dropTail_ok (n : Nat) (s : CStr) (hn : s.length ≤ n) (h : NoUp s) :
    NoUp (dropTail n s) ∧ TailOk (dropTail n s) := by
  induction n generalizing s with
  | zero =>
    have : s = [] := List.eq_nil_of_length_eq_zero (by omega)
    subst this
    refine ⟨h, ?_⟩
    intro a e
    have e' := e.symm
    simp [dropTail] at e'
  | succ n ih =>
    unfold dropTail
    split
    · rename_i hs
      extract_lets a
      split
      · obtain ⟨t, ht, _⟩ := keepDir_split a
        have hk := keepDir_length a
        have hl : a.length ≤ s.length - 3 := by
          show (s.take _).length ≤ _
          rw [List.length_take]; omega
        refine ih _ (by rw [List.length_dropLast]; omega) ?_
        have e1 : s = (keepDir a).dropLast ++ (((keepDir a).drop ((keepDir a).length - 1)) ++ t ++ s.drop (s.length - 3)) := by
          have e2 : s = a ++ s.drop (s.length - 3) := (List.take_append_drop _ s).symm
          have e3 : keepDir a = (keepDir a).dropLast ++ (keepDir a).drop ((keepDir a).length - 1) := by
            rw [List.dropLast_eq_take, List.take_append_drop]
          calc s = a ++ s.drop (s.length - 3) := e2
            _ = (keepDir a ++ t) ++ s.drop (s.length - 3) := by rw [← ht]
            _ = _ := by rw [← List.append_assoc, ← List.append_assoc, ← e3]
        rw [e1] at h
        exact h.prefix
      · rename_i ha
        refine ⟨h, ?_⟩
        intro b e
        right
        have : a = b := by
          show s.take (s.length - 3) = b
          rw [e]; simp
        rw [← this]; exact ha
    · rename_i hs
      refine ⟨h, ?_⟩
      intro a e
      by_cases ha : a = []
      · exact .inl ha
      · exfalso
        apply hs
        refine ⟨?_, ?_⟩
        · have := List.length_pos_iff.mpr ha
          rw [e, List.length_append]; simp; omega
        · rw [List.isSuffixOf_iff_suffix]
          exact ⟨a, e.symm⟩

/-- Shape of a `..` component in a string with none but at the end. -/
theorem NoUp.member {s : CStr} (h : NoUp s) (hm : IsMember (· = '/') "..".toList s) :
    s = "..".toList ∨ ∃ a, s = a ++ ['/', '.', '.'] := by
  obtain ⟨_, _, pre, post, e, hpre, hpost⟩ := hm
  have hp : post = [] := by
    rcases hpost with hp | ⟨c, p, rfl, hc⟩
    · exact hp
    · exfalso
      have hc : c = '/' := by simpa using hc
      subst hc
      have := h pre p (by rw [e]; simp)
      rcases hpre with hq | ⟨q, d, hq, hd⟩
      · exact this.1 hq
      · have hd : d = '/' := by simpa using hd
        subst hd
        exact this.2 q hq
  subst hp
  rcases hpre with rfl | ⟨q, d, rfl, hd⟩
  · left; rw [e]; simp
  · right
    have hd : d = '/' := by simpa using hd
    subst hd
    exact ⟨q, by rw [e]; simp⟩

theorem tokensAux_double (p : Char → Bool) (c : Char) (hc : p c = true) (a b acc : CStr) :
    tokensAux p acc (a ++ c :: c :: b) = tokensAux p acc (a ++ c :: b) := by
  induction a generalizing acc with
  | nil => simp [tokensAux, hc]
  | cons x xs ih => simp only [List.cons_append, tokensAux, ih]

theorem collapse_tokens (n : Nat) (s : CStr) : tokens (· = '/') (collapse n s) = tokens (· = '/') s := by
  induction n generalizing s with
  | zero => rfl
  | succ n ih =>
    unfold collapse
    split
    · rfl
    · rename_i a b h
      rw [ih, strstr_some h]
      have := tokensAux_double (· = '/') '/' (by decide) a b []
      show tokensAux _ [] _ = tokensAux _ [] _
      rw [← this]; simp

theorem collapse_fix (n : Nat) (s : CStr) (h : s.count '/' ≤ 1) : collapse n s = s := by
  cases n with
  | zero => rfl
  | succ n =>
    unfold collapse
    split
    · rfl
    · rename_i a b hs
      exfalso
      rw [strstr_some hs] at h
      simp only [List.count_append] at h
      have : List.count '/' "//".toList = 2 := by decide
      omega

set_option linter.tactic.unusedName false in
theorem deDotdot_shape (s : CStr) (h : IsMember (· = '/') "..".toList (deDotdot s)) :
    deDotdot s = "..".toList ∨ ∃ x, '/' ∉ x ∧ x ≠ "..".toList ∧ deDotdot s = x ++ "/..".toList := by
  unfold deDotdot at h ⊢
  extract_lets s1 s2 s3 s4 at h ⊢
  have h3 : NoUp s3 := dropUps_noUp _ _ (by omega)
  have h4 := dropTail_ok s3.length s3 (Nat.le_refl _) h3
  have hm : IsMember (· = '/') "..".toList s4 := by
    rw [← mem_tokens_iff] at h ⊢
    rwa [collapse_tokens] at h
  rcases NoUp.member h4.1 hm with e | ⟨a, e⟩
  · left
    have e : s4 = "..".toList := e
    rw [collapse_fix _ _ (by rw [e]; decide), e]
  · right
    have ha : '/' ∉ a := by
      rcases h4.2 a e with rfl | h
      · simp
      · exact h
    have e : s4 = a ++ ['/', '.', '.'] := e
    refine ⟨a, ha, ?_, ?_⟩
    · rintro rfl
      exact (h4.1 [] ['.', '.'] e).1 rfl
    rw [collapse_fix _ _ (by
      rw [e, List.count_append, List.count_eq_zero.mpr ha]; decide), e]
    rfl

/-- No `..` component is followed by another component. -/
theorem deDotdot_noUp (s : CStr) : NoUp (deDotdot s) := by
  intro pre post e
  have key : (pre = [] ∨ ∃ p, pre = p ++ ['/']) → False := by
    intro hp
    have hm : IsMember (· = '/') "..".toList (deDotdot s) := by
      refine ⟨by decide, by decide, pre, '/' :: post, by rw [e]; simp, ?_, .inr ⟨'/', post, rfl, by decide⟩⟩
      rcases hp with hp | ⟨p, hp⟩
      · exact .inl hp
      · exact .inr ⟨p, '/', hp, by decide⟩
    rcases deDotdot_shape s hm with h | ⟨x, hx, hn, h⟩
    · have := congrArg (List.count '/') (e.symm.trans h)
      simp at this
    · rw [h] at e
      rcases hp with rfl | ⟨p, rfl⟩
      · have e' : x ++ ['/', '.', '.'] = ['.', '.'] ++ '/' :: post := e
        rcases List.append_eq_append_iff.mp e' with ⟨t, e1, e2⟩ | ⟨t, e1, e2⟩
        · cases t with
          | nil => exact hn (by simpa using e1.symm)
          | cons c t =>
            simp only [List.cons_append, List.cons.injEq] at e2
            have : '/' ∈ ['.', '.'] := by rw [e1, ← e2.1]; simp
            exact absurd this (by decide)
        · cases t with
          | nil => exact hn (by simpa using e1)
          | cons c t =>
            simp only [List.cons_append, List.cons.injEq] at e2
            exact hx (by rw [e1, ← e2.1]; simp)
      · have := congrArg (List.count '/') e
        simp [List.count_eq_zero.mpr hx] at this
        omega
  exact ⟨fun h => key (.inl h), fun p h => key (.inr ⟨p, h⟩)⟩

end Verif
