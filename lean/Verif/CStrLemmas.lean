import Verif.CStr

namespace Verif

theorem tokensAux_ne_nil (p : Char → Bool) (s acc : CStr) :
    ∀ t ∈ tokensAux p acc s, t ≠ [] := by
  induction s generalizing acc with
  | nil => intro t ht; simp only [tokensAux] at ht; split at ht <;> simp_all
  | cons c cs ih =>
    intro t ht
    simp only [tokensAux] at ht
    split at ht
    · split at ht
      · exact ih _ t ht
      · rcases List.mem_cons.1 ht with h | h
        · subst h; simpa using ‹¬ acc = []›
        · exact ih _ t h
    · exact ih _ t ht

theorem tokensAux_nosep (p : Char → Bool) (s acc : CStr) (hacc : ∀ c ∈ acc, p c = false) :
    ∀ t ∈ tokensAux p acc s, ∀ c ∈ t, p c = false := by
  induction s generalizing acc with
  | nil => intro t ht; simp only [tokensAux] at ht; split at ht <;> simp_all
  | cons c cs ih =>
    intro t ht
    simp only [tokensAux] at ht
    split at ht
    · split at ht
      · exact ih [] (by simp) t ht
      · rcases List.mem_cons.1 ht with h | h
        · subst h; simpa using hacc
        · exact ih [] (by simp) t h
    · rename_i hp
      exact ih (c :: acc) (by
        intro d hd
        rcases List.mem_cons.1 hd with h | h
        · subst h; simpa using hp
        · exact hacc d h) t ht

/-- Soundness with accumulator: a token of `acc.reverse ++ s` is a member. -/
theorem tokensAux_sound (p : Char → Bool) (s acc : CStr) (hacc : ∀ c ∈ acc, p c = false)
    (t : CStr) (ht : t ∈ tokensAux p acc s) :
    IsMember p t (acc.reverse ++ s) := by
  induction s generalizing acc with
  | nil =>
    simp only [tokensAux] at ht
    split at ht
    · simp at ht
    · simp only [List.mem_singleton] at ht
      subst ht
      refine ⟨by simpa using ‹¬ acc = []›, by simpa using hacc, [], [], by simp, Or.inl rfl, Or.inl rfl⟩
  | cons c cs ih =>
    simp only [tokensAux] at ht
    split at ht
    · rename_i hp
      have key : t ∈ tokensAux p [] cs → IsMember p t (acc.reverse ++ c :: cs) := by
        intro ht
        obtain ⟨h1, h2, pre, post, h3, h4, h5⟩ := ih [] (by simp) ht
        refine ⟨h1, h2, acc.reverse ++ c :: pre, post, ?_, ?_, h5⟩
        · simp only [List.reverse_nil, List.nil_append] at h3
          simp [h3]
        · right
          rcases h4 with rfl | ⟨pre', d, rfl, hd⟩
          · exact ⟨acc.reverse, c, by simp, hp⟩
          · exact ⟨acc.reverse ++ c :: pre', d, by simp, hd⟩
      split at ht
      · exact key ht
      · rcases List.mem_cons.1 ht with h | h
        · subst h
          refine ⟨by simpa using ‹¬ acc = []›, by simpa using hacc, [], c :: cs, by simp, Or.inl rfl,
            Or.inr ⟨c, cs, rfl, hp⟩⟩
        · exact key h
    · rename_i hp
      have := ih (c :: acc) (by
        intro d hd
        rcases List.mem_cons.1 hd with h | h
        · subst h; simpa using hp
        · exact hacc d h) ht
      simpa using this

theorem tokensAux_append_nosep (p : Char → Bool) (n acc s : CStr) (hn : ∀ c ∈ n, p c = false) :
    tokensAux p acc (n ++ s) = tokensAux p (n.reverse ++ acc) s := by
  induction n generalizing acc with
  | nil => simp
  | cons c cs ih =>
    have hc : p c = false := hn c (by simp)
    have := ih (acc := c :: acc) (fun d hd => hn d (by simp [hd]))
    simp only [List.cons_append, tokensAux, hc]
    simp [this]

/-- A token at the front (possibly continuing `acc = []`). -/
theorem tokensAux_front (p : Char → Bool) (n post : CStr) (hne : n ≠ [])
    (hn : ∀ c ∈ n, p c = false)
    (hpost : post = [] ∨ ∃ c post', post = c :: post' ∧ p c = true) :
    n ∈ tokensAux p [] (n ++ post) := by
  rw [tokensAux_append_nosep p n [] post hn]
  rcases hpost with rfl | ⟨c, post', rfl, hc⟩
  · simp [tokensAux, hne]
  · simp [tokensAux, hne, hc]

theorem tokensAux_skip (p : Char → Bool) (pre acc : CStr) (c : Char) (hc : p c = true) (s t : CStr)
    (ht : t ∈ tokensAux p [] s) : t ∈ tokensAux p acc (pre ++ c :: s) := by
  induction pre generalizing acc with
  | nil =>
    simp only [List.nil_append, tokensAux, hc, if_true]
    split
    · exact ht
    · exact List.mem_cons_of_mem _ ht
  | cons d ds ih =>
    simp only [List.cons_append, tokensAux]
    split
    · split
      · exact ih []
      · exact List.mem_cons_of_mem _ (ih [])
    · exact ih (d :: acc)

/-- `t` is one of the `strtok` tokens of `s` iff it is a member in the sense of the spec. -/
theorem mem_tokens_iff (p : Char → Bool) (t s : CStr) : t ∈ tokens p s ↔ IsMember p t s := by
  constructor
  · intro h
    simpa using tokensAux_sound p s [] (by simp) t h
  · rintro ⟨hne, hn, pre, post, rfl, hpre, hpost⟩
    have hf := tokensAux_front p t post hne hn hpost
    rcases hpre with rfl | ⟨pre', c, rfl, hc⟩
    · simpa [tokens] using hf
    · have := tokensAux_skip p pre' [] c hc _ t hf
      simpa [tokens] using this

theorem tokens_nil (p : Char → Bool) : tokens p [] = [] := by simp [tokens, tokensAux]

end Verif
