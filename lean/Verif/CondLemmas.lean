import Verif.Cond
import Verif.CStrLemmas

namespace Verif

theorem lookup_eq_none_iff (st : CondStore) (p : CStr) :
    st.lookup p = none ↔ ∀ e ∈ st.files, e.1 ≠ p := by
  simp [CondStore.lookup, List.find?_eq_none]

theorem find_filter_keep {α : Type} (l : List α) (f g : α → Bool) (h : ∀ a, f a = true → g a = true) :
    (l.filter g).find? f = l.find? f := by
  induction l with
  | nil => rfl
  | cons a l ih =>
    by_cases hf : f a = true
    · have := h a hf; simp [hf, this]
    · by_cases hg : g a = true
      · simp [hg, hf, ih]
      · simp [hg, hf, ih]

theorem lookup_setOff (st : CondStore) (p q : CStr) :
    (st.setOff p).1.lookup q = if p = q ∨ under p q = true then none else st.lookup q := by
  by_cases h : p = q ∨ under p q = true
  · rw [if_pos h, lookup_eq_none_iff]
    intro e he
    simp only [CondStore.setOff, List.mem_filter] at he
    intro heq
    rcases h with h | h
    · subst h; simp [heq] at he
    · subst heq; simp [h] at he
  · rw [if_neg h]
    simp only [CondStore.lookup, CondStore.setOff]
    rw [find_filter_keep]
    intro e he
    have he : e.1 = q := by simpa using he
    simp only [not_or] at h
    simp [he, Ne.symm h.1, h.2]

theorem find_map_same (l : List (CStr × CFile)) (p : CStr) (f : CFile) (q : CStr) :
    ((l.map (fun e => if e.1 = p then (p, f) else e)).find? (fun e => decide (e.1 = q))).map (·.2)
      = if q = p then (if l.any (fun e => decide (e.1 = p)) then some f else none)
        else (l.find? (fun e => decide (e.1 = q))).map (·.2) := by
  induction l with
  | nil => simp
  | cons e l ih =>
    by_cases hqp : q = p
    · subst hqp
      by_cases he : e.1 = q
      · simp [he]
      · simp only [List.map_cons, he, if_false, List.find?_cons, decide_false, List.any_cons,
          Bool.false_or]
        simpa using ih
    · simp only [if_neg hqp] at ih ⊢
      by_cases he : e.1 = p
      · have : ¬ p = q := fun h => hqp h.symm
        have h2 : ¬ e.1 = q := by rw [he]; exact this
        simp only [List.map_cons, he, if_true, List.find?_cons, this, decide_false]
        rw [ih]
      · by_cases hq : e.1 = q
        · simp [hq, hqp]
        · simp only [List.map_cons, he, if_false, List.find?_cons, hq, decide_false]
          rw [ih]

theorem lookup_write (st : CondStore) (p q : CStr) (f : CFile) :
    (st.write p f).lookup q = if q = p then some f else st.lookup q := by
  unfold CondStore.write
  split
  · rename_i h
    have hany : st.files.any (fun e => decide (e.1 = p)) = true := by
      rw [Option.isSome_iff_ne_none] at h
      rw [Ne, lookup_eq_none_iff] at h
      simp only [Classical.not_forall, Decidable.not_not] at h
      obtain ⟨e, he, hp⟩ := h
      exact List.any_eq_true.2 ⟨e, he, by simpa using hp⟩
    have := find_map_same st.files p f q
    simp only [CondStore.lookup]
    rw [this, hany]
    simp
  · rename_i h
    have hn : st.lookup p = none := by simpa using h
    simp only [CondStore.lookup, List.find?_append, List.find?_cons, List.find?_nil]
    by_cases hq : q = p
    · subst hq
      have : st.files.find? (fun e => decide (e.1 = q)) = none := by
        simpa [CondStore.lookup] using hn
      simp [this]
    · have : ¬ p = q := fun h => hq h.symm
      simp [hq, this]

theorem mem_write (st : CondStore) (p : CStr) (f : CFile) (e : CStr × CFile)
    (h : e ∈ (st.write p f).files) : e.1 = p ∨ e ∈ st.files := by
  unfold CondStore.write at h
  split at h
  · simp only [List.mem_map] at h
    obtain ⟨a, ha, rfl⟩ := h
    by_cases hp : a.1 = p
    · simp [hp]
    · simp [hp, ha]
  · simp only [List.mem_append, List.mem_singleton] at h
    rcases h with h | h
    · exact Or.inr h
    · left; simp [h]

@[simp] theorem write_rgen (st : CondStore) (p : CStr) (f : CFile) : (st.write p f).rgen = st.rgen := by
  unfold CondStore.write; split <;> rfl

@[simp] theorem setOff_rgen (st : CondStore) (p : CStr) : (st.setOff p).1.rgen = st.rgen := rfl

@[simp] theorem setOn_rgen (st : CondStore) (p : CStr) : (st.setOn p).1.rgen = st.rgen := by
  unfold CondStore.setOn
  simp only
  split
  · rfl
  · split
    · rfl
    · simp only; split
      · rfl
      · simp
      · split <;> simp

theorem aggLoop_off (st : CondStore) (ns : List CStr) : st.aggLoop .off ns = .off := by
  cases ns <;> simp [CondStore.aggLoop]

theorem aggLoop_spec (st : CondStore) (s : CState) (ns : List CStr) :
    st.aggLoop s ns =
      if s = .off ∨ ∃ n ∈ ns, st.get n = .off then .off
      else if s = .flux ∨ ∃ n ∈ ns, st.get n = .flux then .flux else .on := by
  induction ns generalizing s with
  | nil => cases s <;> simp [CondStore.aggLoop]
  | cons n ns ih =>
    simp only [CondStore.aggLoop]
    cases s
    · simp
    · rw [if_neg (by simp), ih]
      cases h : st.get n <;> simp [CState.min, CState.toNat, h]
    · rw [if_neg (by simp), ih]
      cases h : st.get n <;> simp [CState.min, CState.toNat, h]

end Verif
