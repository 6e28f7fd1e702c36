import Verif.Sup.Model
import Verif.CondLemmas

/-!
# C06: condition list parsing keeps every condition
-/

namespace Verif.Sup

open Verif (CStr)

/-- `Members l ms`: `ms` are the non-empty members of the comma separated list `l`, in order. -/
inductive Members : CStr → List CStr → Prop
  | none (l : CStr) (h : ∀ c ∈ l, c = ',') : Members l []
  | cons (sep m rest : CStr) (ms : List CStr) (hs : ∀ c ∈ sep, c = ',') (hm : m ≠ [])
      (hc : ',' ∉ m) (hr : rest = [] ∨ ∃ r, rest = ',' :: r) (h : Members rest ms) :
      Members (sep ++ m ++ rest) (m :: ms)

/-- The conditions written in `<...>`: after an optional `!`, up to `>`. -/
def condText (a : CStr) : CStr :=
  (match a with
   | '!' :: r => r
   | r => r).takeWhile (· ≠ '>')

/-- C06 in full: whatever the object was before, it ends up with exactly the conditions named. -/
def C06_full : Prop :=
  ∀ (a : CStr) (s : Svc) (ms : List CStr), Members (condText a) ms →
    Members (parseCond (some a) s).cond ms ∧ (ms ≠ [] → (parseCond (some a) s).cond ≠ [])

theorem Members.comma {l : CStr} {ms : List CStr} (h : Members l ms) : Members (',' :: l) ms := by
  cases h with
  | none _ h =>
    refine .none _ ?_
    intro c hc
    rcases List.mem_cons.mp hc with h1 | h1
    · exact h1
    · exact h c h1
  | cons sep m rest ms hs hm hcm hr h =>
    exact Members.cons (',' :: sep) m rest ms (by
      intro c hc
      rcases List.mem_cons.mp hc with h1 | h1
      · exact h1
      · exact hs c h1) hm hcm hr h

theorem members_aux (l acc : CStr) (hacc : ',' ∉ acc) :
    (acc = [] → Members l (tokensAux isComma acc l)) ∧
    (acc ≠ [] → ∃ n rest ms, tokensAux isComma acc l = (acc.reverse ++ n) :: ms ∧ l = n ++ rest ∧
      ',' ∉ n ∧ (rest = [] ∨ ∃ r, rest = ',' :: r) ∧ Members rest ms) := by
  induction l generalizing acc with
  | nil =>
    refine ⟨?_, ?_⟩
    · rintro rfl; exact .none [] (by simp)
    · intro h
      exact ⟨[], [], [], by simp [tokensAux, h], rfl, by simp, .inl rfl, .none [] (by simp)⟩
  | cons c cs ih =>
    by_cases hc : c = ','
    · subst hc
      have hp : isComma ',' = true := rfl
      have h0 := (ih [] (by simp)).1 rfl
      refine ⟨?_, ?_⟩
      · rintro rfl
        simp only [tokensAux, hp, if_true]
        exact h0.comma
      · intro h
        refine ⟨[], ',' :: cs, tokensAux isComma [] cs, by simp [tokensAux, hp, h], rfl, by simp,
          .inr ⟨cs, rfl⟩, ?_⟩
        exact h0.comma
    · have hp : isComma c = false := by simp [isComma, hc]
      have hacc' : ',' ∉ c :: acc := by
        simp only [List.mem_cons, not_or]
        exact ⟨fun e => hc e.symm, hacc⟩
      obtain ⟨n, rest, ms, e1, e2, h3, h4, h5⟩ := (ih (c :: acc) hacc').2 (by simp)
      have e0 : tokensAux isComma acc (c :: cs) = tokensAux isComma (c :: acc) cs := by
        simp [tokensAux, hp]
      have hn : ',' ∉ c :: n := by
        simp only [List.mem_cons, not_or]
        exact ⟨fun e => hc e.symm, h3⟩
      refine ⟨?_, ?_⟩
      · rintro rfl
        rw [e0, e1]
        have := Members.cons [] (c :: n) rest ms (by simp) (by simp) hn h4 h5
        rw [e2]
        simpa using this
      · intro _
        refine ⟨c :: n, rest, ms, by rw [e0, e1]; simp, by rw [e2]; rfl, hn, h4, h5⟩

theorem members_tokens (l : CStr) : Members l (tokens isComma l) := (members_aux l [] (by simp)).1 rfl

/-- Lists have only one sequence of members. -/
theorem Members.unique {l : CStr} {ms : List CStr} (h : Members l ms) : tokens isComma l = ms := by
  have skip : ∀ sep : CStr, (∀ c ∈ sep, c = ',') → ∀ l, tokensAux isComma [] (sep ++ l) = tokensAux isComma [] l := by
    intro sep
    induction sep with
    | nil => intro _ l; rfl
    | cons c cs ih =>
      intro h l
      have hc := h c (List.mem_cons_self ..)
      subst hc
      rw [List.cons_append]
      simp only [tokensAux, show isComma ',' = true from rfl, if_true]
      exact ih (fun c hc => h c (List.mem_cons_of_mem _ hc)) l
  induction h with
  | none l h =>
    have := skip l h []
    rw [List.append_nil] at this
    unfold tokens
    rw [this]; rfl
  | cons sep m rest ms hs hm hc hr h ih =>
    unfold tokens at ih ⊢
    rw [List.append_assoc, skip sep hs, tokensAux_append_nosep isComma m [] rest (by
      intro c h
      have : c ≠ ',' := fun e => hc (e ▸ h)
      simp [isComma, this])]
    rcases hr with rfl | ⟨r, rfl⟩
    · rw [← ih]
      simp [tokensAux, hm]
    · rw [← ih]
      simp [tokensAux, show isComma ',' = true from rfl, hm]

theorem members_join (ms : List CStr) (h1 : ∀ m ∈ ms, m ≠ []) (h2 : ∀ m ∈ ms, ',' ∉ m) :
    Members (List.intercalate [','] ms) ms := by
  induction ms with
  | nil => exact .none _ (by simp)
  | cons m ms ih =>
    have ih := ih (fun x hx => h1 x (List.mem_cons_of_mem _ hx)) (fun x hx => h2 x (List.mem_cons_of_mem _ hx))
    have hm := h1 m (List.mem_cons_self ..)
    have hc := h2 m (List.mem_cons_self ..)
    cases ms with
    | nil =>
      have := Members.cons [] m [] [] (by simp) hm hc (.inl rfl) (.none [] (by simp))
      simpa [List.intercalate] using this
    | cons m2 ms =>
      have := Members.cons [] m (',' :: List.intercalate [','] (m2 :: ms)) (m2 :: ms) (by simp) hm hc
        (.inr ⟨_, rfl⟩) ?_
      · simpa [List.intercalate] using this
      · exact ih.comma

theorem Members.each {l : CStr} {ms : List CStr} (h : Members l ms) : ∀ m ∈ ms, m ≠ [] ∧ ',' ∉ m := by
  induction h with
  | none => simp
  | cons sep m rest ms hs hm hc hr h ih =>
    intro x hx
    rcases List.mem_cons.mp hx with rfl | hx
    · exact ⟨hm, hc⟩
    · exact ih x hx

theorem parseCond_cond (a : CStr) (s : Svc) (h : (condText a).length < 192) :
    (parseCond (some a) s).cond = List.intercalate [','] (tokens isComma (condText a)) := by
  unfold parseCond
  dsimp only
  split
  · rename_i r
    exact congrArg Svc.cond (if_neg (Nat.not_le.mpr h))
  · rename_i hx
    have e : condText a = a.takeWhile (· ≠ '>') := by
      unfold condText
      split
      · exact absurd rfl (hx _)
      · rfl
    rw [e] at h ⊢
    exact congrArg Svc.cond (if_neg (Nat.not_le.mpr h))

/-- **C06**, for lists that fit (at most 191 bytes): the object ends up with exactly the conditions
    named, in order, whatever it had before. -/
theorem C06_conditions_kept_partial (a : CStr) (s : Svc) (ms : List CStr) (hl : (condText a).length < 192)
    (hm : Members (condText a) ms) :
    Members (parseCond (some a) s).cond ms ∧ (ms ≠ [] → (parseCond (some a) s).cond ≠ []) := by
  rw [parseCond_cond a s hl, hm.unique]
  have := members_join ms (fun m h => (hm.each m h).1) (fun m h => (hm.each m h).2)
  refine ⟨this, ?_⟩
  intro hne he
  rw [he] at this
  have := this.unique
  rw [tokens_nil] at this
  exact hne this.symm

/-- What is stored is what is looked at: the conditions a service waits for are those named. -/
theorem C06_conditions_checked_partial (a : CStr) (c : Core) (k : Key) (ms : List CStr)
    (hl : (condText a).length < 192) (hm : Members (condText a) ms) :
    aggCond { c with svc := upd c.svc k (parseCond (some a) (c.svc k)) } k = c.conds.agg ms := by
  unfold aggCond CondStore.aggStr
  dsimp only
  rw [upd_same, (C06_conditions_kept_partial a (c.svc k) ms hl hm).1.unique]

/-- **C06 is false** for longer lists: a new service with a condition list of 192 bytes or more
    ends up with no condition at all. -/
theorem C06_long_list_is_dropped : ¬ C06_full := by
  intro h
  have := (h (List.replicate 192 'a') {} _ (members_tokens _)).2 (by decide +kernel)
  exact this (by decide +kernel)

/-- `<!a/x,b>`: two conditions. -/
example : (condText "!a/x,,b>".toList).length < 192 ∧
    Members (condText "!a/x,,b>".toList) ["a/x".toList, "b".toList] ∧
    (parseCond (some "!a/x,,b>".toList) {}).cond = "a/x,b".toList := by
  refine ⟨by decide, ?_, by decide⟩
  have := members_tokens (condText "!a/x,,b>".toList)
  have e : tokens isComma (condText "!a/x,,b>".toList) = ["a/x".toList, "b".toList] := by decide
  rwa [e] at this

end Verif.Sup
