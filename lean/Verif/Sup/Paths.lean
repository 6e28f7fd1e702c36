import Verif.Sup.Hist
import Verif.CondLemmas

/-!
# Supervisor model: the paths of condition files
-/

namespace Verif.Sup

open Verif (CStr CondStore)

/-- The path of a condition about service `i`: `t/i/z`. -/
def three (t i z : CStr) : CStr := t ++ '/' :: (i ++ '/' :: z)

/-- No slash in it. -/
def Flat (s : CStr) : Prop := '/' ∉ s

instance (s : CStr) : Decidable (Flat s) := inferInstanceAs (Decidable ('/' ∉ s))

theorem split_at_slash {a b x y : CStr} (ha : Flat a) (hb : Flat b)
    (h : a ++ '/' :: x = b ++ '/' :: y) : a = b ∧ x = y := by
  induction a generalizing b with
  | nil =>
    cases b with
    | nil => simpa using h
    | cons c b =>
      simp only [List.nil_append, List.cons_append, List.cons.injEq] at h
      exact absurd h.1.symm (fun e => hb (by rw [e]; simp))
  | cons c a ih =>
    cases b with
    | nil =>
      simp only [List.nil_append, List.cons_append, List.cons.injEq] at h
      exact absurd h.1 (fun e => ha (by rw [e]; simp))
    | cons d b =>
      simp only [List.cons_append, List.cons.injEq] at h
      obtain ⟨h1, h2⟩ := ih (b := b) (fun e => ha (List.mem_cons_of_mem _ e))
        (fun e => hb (List.mem_cons_of_mem _ e)) h.2
      exact ⟨by rw [h.1, h1], h2⟩

theorem three_inj {t i z t' i' z' : CStr} (ht : Flat t) (ht' : Flat t') (hi : Flat i) (hi' : Flat i')
    (h : three t i z = three t' i' z') : t = t' ∧ i = i' ∧ z = z' := by
  obtain ⟨h1, h2⟩ := split_at_slash ht ht' h
  exact ⟨h1, split_at_slash hi hi' h2⟩

/-- First components of the conditions about services. -/
def tops : List CStr := ["service".toList, "run".toList, "task".toList]

/-- First components of all other conditions. -/
def others : List CStr :=
  ["pid/".toList, "usr/".toList, "sys/".toList, "net/".toList, "dev/".toList, "boot/".toList,
   "int/".toList, "hook/".toList]

theorem tops_flat {t : CStr} (h : t ∈ tops) : Flat t := by
  revert t; decide

theorem others_len {p : CStr} (h : p ∈ others) : p.length ≤ 5 := by
  revert p; decide

theorem tops_len {t : CStr} (h : t ∈ tops) : 3 ≤ t.length := by
  revert t; decide

theorem others_tops {p t x : CStr} (hp : p ∈ others) (ht : t ∈ tops) : ¬ p <+: t ++ '/' :: x := by
  simp only [others, List.mem_cons, List.not_mem_nil, or_false] at hp
  simp only [tops, List.mem_cons, List.not_mem_nil, or_false] at ht
  rcases hp with rfl | rfl | rfl | rfl | rfl | rfl | rfl | rfl <;> rcases ht with rfl | rfl | rfl <;>
    simp [List.cons_prefix_cons]

/-- The paths of condition files. -/
inductive Shape (f : CStr) : Prop
  | other (p : CStr) (hp : p ∈ others) (h : p <+: f)
  | about (t i z : CStr) (ht : t ∈ tops) (hi : Flat i) (hz : Flat z) (hn : z ≠ []) (e : f = three t i z)

theorem three_length (t i z : CStr) : (three t i z).length = t.length + i.length + z.length + 2 := by
  simp only [three, List.length_append, List.length_cons]; omega

theorem three_count {t i z : CStr} (ht : Flat t) (hi : Flat i) (hz : Flat z) :
    (three t i z).count '/' = 2 := by
  unfold three
  simp [List.count_append, List.count_eq_zero.mpr ht, List.count_eq_zero.mpr hi,
    List.count_eq_zero.mpr hz]

theorem three_last {t i z : CStr} (hz : Flat z) (hn : z ≠ []) : (three t i z).getLast? ≠ some '/' := by
  intro h
  have e : three t i z = (t ++ '/' :: (i ++ ['/'])) ++ z := by simp [three]
  rw [e, List.getLast?_append] at h
  cases hl : z.getLast? with
  | none => rw [List.getLast?_eq_none_iff] at hl; exact hn hl
  | some c =>
    rw [hl] at h
    simp only [Option.some_or, Option.some.injEq] at h
    exact hz (h ▸ List.mem_of_getLast? hl)

theorem under_prefix {p q : CStr} (h : under p q = true) : dirSlash p <+: q := by
  simpa [under] using h

theorem prefix_dirSlash (p : CStr) : p <+: dirSlash p := by
  unfold dirSlash; split
  · exact List.prefix_refl _
  · exact List.prefix_append _ _

theorem three_not_under {f t i z : CStr} (h : Shape f) (ht : t ∈ tops) (hi : Flat i) (hz : Flat z)
    (hn : z ≠ []) : under f (three t i z) = false ∧ under (three t i z) f = false := by
  have hl : 0 < z.length := List.length_pos_iff.mpr hn
  have h3 := tops_len ht
  have hlen := three_length t i z
  cases h with
  | other p hp h =>
    have h5 := others_len hp
    constructor
    · refine Bool.eq_false_iff.mpr fun hu => ?_
      exact others_tops hp ht (h.trans ((prefix_dirSlash f).trans (under_prefix hu)))
    · refine Bool.eq_false_iff.mpr fun hu => ?_
      have hq : three t i z <+: f := (prefix_dirSlash _).trans (under_prefix hu)
      exact others_tops hp ht (List.prefix_of_prefix_length_le h hq (show p.length ≤ (three t i z).length by omega))
  | about t' i' z' ht' hi' hz' hn' e =>
    have c1 := three_count (tops_flat ht) hi hz
    have c2 := three_count (tops_flat ht') hi' hz'
    subst e
    constructor
    · refine Bool.eq_false_iff.mpr fun hu => ?_
      have := (under_prefix hu).sublist.count_le '/'
      rw [dirSlash, if_neg (three_last hz' hn'), List.count_append, c1, c2] at this
      simp at this
    · refine Bool.eq_false_iff.mpr fun hu => ?_
      have := (under_prefix hu).sublist.count_le '/'
      rw [dirSlash, if_neg (three_last hz hn), List.count_append, c1, c2] at this
      simp at this

theorem under_dir {t i t' i' z' : CStr} (ht : Flat t) (ht' : Flat t') (hi : Flat i) (hi' : Flat i')
    (h : under (t ++ '/' :: (i ++ ['/'])) (three t' i' z') = true) : t = t' ∧ i = i' := by
  have h := under_prefix h
  have hl : (t ++ '/' :: (i ++ ['/'])).getLast? = some '/' := by
    rw [show t ++ '/' :: (i ++ ['/']) = (t ++ '/' :: i) ++ ['/'] by simp, List.getLast?_append]
    rfl
  rw [dirSlash, if_pos hl] at h
  obtain ⟨r, e⟩ := h
  have e' : three t i r = three t' i' z' := by rw [← e]; simp [three]
  obtain ⟨h1, h2, _⟩ := three_inj ht ht' hi hi' e'
  exact ⟨h1, h2⟩

/-! ## The condition store -/

/-- One file has been written, or none. -/
def Wrote (st : CondStore) (p : CStr) (st' : CondStore) : Prop := st' = st ∨ ∃ f, st' = st.write p f

theorem setOn_wrote (st : CondStore) (p : CStr) : Wrote st p (st.setOn p).1 := by
  unfold CondStore.setOn
  dsimp only
  split
  · exact .inl rfl
  · split
    · exact .inl rfl
    · dsimp only
      split
      · exact .inl rfl
      · exact .inr ⟨_, rfl⟩
      · split
        · exact .inl rfl
        · exact .inr ⟨_, rfl⟩

theorem set_wrote (st : CondStore) (n : CStr) : Wrote st (condPath n) (st.set n).1 := by
  unfold CondStore.set; split
  · exact .inl rfl
  · exact setOn_wrote _ _

theorem oneshot_wrote (st : CondStore) (n : CStr) : Wrote st (condPath n) (st.oneshot n).1 := by
  unfold CondStore.oneshot; split
  · exact .inl rfl
  · dsimp only; split
    · exact .inl rfl
    · split
      · exact .inl rfl
      · exact .inr ⟨_, rfl⟩

theorem Wrote.lookup {st st' : CondStore} {p q : CStr} (h : Wrote st p st') (hq : q ≠ p) :
    st'.lookup q = st.lookup q := by
  rcases h with rfl | ⟨f, rfl⟩
  · rfl
  · rw [lookup_write, if_neg hq]

theorem Wrote.shape {st st' : CondStore} {p : CStr} (h : Wrote st p st') (hp : Shape p)
    (hs : ∀ e ∈ st.files, Shape e.1) : ∀ e ∈ st'.files, Shape e.1 := by
  rcases h with rfl | ⟨f, rfl⟩
  · exact hs
  · intro e he
    rcases mem_write _ _ _ _ he with h | h
    · rw [h]; exact hp
    · exact hs e h

theorem lookup_unlink (st : CondStore) (p q : CStr) :
    (st.unlink p).lookup q = if q = p then none else st.lookup q := by
  by_cases h : q = p
  · subst h
    rw [if_pos rfl, lookup_eq_none_iff]
    intro e he
    simp only [CondStore.unlink, List.mem_filter] at he
    simpa using he.2
  · rw [if_neg h]
    simp only [CondStore.lookup, CondStore.unlink]
    rw [find_filter_keep]
    intro e he
    have he : e.1 = q := by simpa using he
    simp [he, h]

theorem lookup_mem {st : CondStore} {q : CStr} : (st.lookup q).isSome = true ↔ q ∈ st.files.map (·.1) := by
  rw [Option.isSome_iff_ne_none, Ne, lookup_eq_none_iff]
  simp only [List.mem_map]
  constructor
  · intro h
    simp only [Classical.not_forall, Decidable.not_not] at h
    obtain ⟨e, he, hp⟩ := h
    exact ⟨e, he, hp⟩
  · rintro ⟨e, he, hp⟩ h
    exact h e he hp

/-- A one-shot condition with a proper path is on afterwards. -/
theorem oneshot_there {st : CondStore} {n : CStr} {t i z : CStr} (hs : ∀ e ∈ st.files, Shape e.1)
    (hn : condPath n = three t i z) (ht : t ∈ tops) (hi : Flat i) (hz : Flat z) (hne : z ≠ []) :
    ((st.oneshot n).1.lookup (condPath n)).isSome = true ∧
    (st.lookup (condPath n) = none ∨ st.lookup (condPath n) = some .link →
      (st.oneshot n).1.lookup (condPath n) = some .link) := by
  have hnop : n ≠ nopName := by
    intro e
    rw [e] at hn
    have := congrArg (List.count '/') hn
    rw [three_count (tops_flat ht) hi hz] at this
    revert this; decide
  have h1 : st.checkFails (condPath n) = false := by
    rw [hn]
    refine Bool.eq_false_iff.mpr fun h => ?_
    obtain ⟨e, he, hu⟩ := List.any_eq_true.mp h
    rw [(three_not_under (hs e he) ht hi hz hne).1] at hu; cases hu
  have h2 : st.isDir (condPath n) = false := by
    rw [hn]
    refine Bool.eq_false_iff.mpr fun h => ?_
    obtain ⟨e, he, hu⟩ := List.any_eq_true.mp h
    rw [(three_not_under (hs e he) ht hi hz hne).2] at hu; cases hu
  unfold CondStore.oneshot
  rw [if_neg hnop]
  dsimp only
  rw [if_neg (by rw [h1]; simp)]
  rw [h2]
  simp only [Bool.or_false]
  split
  · rename_i h
    refine ⟨h, fun h3 => ?_⟩
    rcases h3 with h3 | h3
    · rw [h3] at h; cases h
    · exact h3
  · rw [lookup_write, if_pos rfl]
    exact ⟨rfl, fun _ => rfl⟩

end Verif.Sup
