import Verif.Log

/-!
# C34: syslog priorities

`string_match` belongs to libite, which is not part of the repository.  The theorems hold for both of
its possible meanings: equal but for case, or equal but for case up to the length of the shorter one.
-/

namespace Verif

/-- Equal but for case. -/
def strictMatch (a b : CStr) : Bool := caseEq a b

/-- One is a prefix of the other, but for case. -/
def looseMatch (a b : CStr) : Bool :=
  decide ((lower a).take (lower b).length = (lower b).take (lower a).length)

/-- The facilities a service can log to, syslog(3). -/
def facilities : List (CStr × Int) :=
  [("kern", 0), ("user", 1), ("mail", 2), ("daemon", 3), ("auth", 4), ("syslog", 5), ("lpr", 6), ("news", 7),
   ("uucp", 8), ("cron", 9), ("authpriv", 10), ("ftp", 11), ("local0", 16), ("local1", 17), ("local2", 18),
   ("local3", 19), ("local4", 20), ("local5", 21), ("local6", 22), ("local7", 23)].map
    (fun p => (p.1.toList, p.2 * 8))

/-- The levels, syslog(3). -/
def levels : List (CStr × Int) :=
  [("emerg", 0), ("alert", 1), ("crit", 2), ("err", 3), ("warning", 4), ("notice", 5), ("info", 6),
   ("debug", 7)].map (fun p => (p.1.toList, p.2))

/-- C34 as stated: a part that is left out keeps its default.  It is false. -/
def C34_full (same : CStr → CStr → Bool) : Prop :=
  ∀ f l, (∀ p ∈ facilities, ∀ q ∈ levels, logParse same (p.1 ++ '.' :: q.1) f l = (0, p.2, q.2)) ∧
    (∀ p ∈ facilities, logParse same p.1 f l = (0, p.2, l)) ∧
    (∀ q ∈ levels, logParse same q.1 f l = (0, f, q.2))

/-- `daemon` alone sets the level to -1, and `err` alone sets the facility to -1. -/
theorem C34_default_lost (same : CStr → CStr → Bool) (h : same = strictMatch ∨ same = looseMatch) (f l : Int) :
    logParse same "daemon".toList f l = (0, 24, -1) ∧ logParse same "err".toList f l = (0, -1, 3) ∧
    ¬ C34_full same := by
  have key : logParse same "daemon".toList f l = (0, 24, -1) ∧ logParse same "err".toList f l = (0, -1, 3) := by
    rcases h with rfl | rfl
    · constructor <;> rfl
    · constructor <;> rfl
  refine ⟨key.1, key.2, ?_⟩
  intro hf
  have := (hf f 5).2.1 ("daemon".toList, 24) (by decide)
  rcases h with rfl | rfl
  · exact absurd (this.symm.trans (show _ = ((0 : Int), (24 : Int), (-1 : Int)) from rfl)) (by decide)
  · exact absurd (this.symm.trans (show _ = ((0 : Int), (24 : Int), (-1 : Int)) from rfl)) (by decide)

theorem s2n_lower_strict (s t : CStr) (h : lower s = lower t) (l : List (CStr × Int)) :
    s2n strictMatch s l = s2n strictMatch t l := by
  induction l with
  | nil => rfl
  | cons p ps ih => unfold s2n; rw [ih]; unfold strictMatch caseEq; rw [h]

theorem s2n_lower_loose (s t : CStr) (h : lower s = lower t) (l : List (CStr × Int)) :
    s2n looseMatch s l = s2n looseMatch t l := by
  induction l with
  | nil => rfl
  | cons p ps ih => unfold s2n; rw [ih]; unfold looseMatch; rw [h]

theorem takeWhile_lower (s : CStr) :
    lower (s.takeWhile (· ≠ '.')) = (lower s).takeWhile (· ≠ '.') ∧
    lower (s.dropWhile (· ≠ '.')) = (lower s).dropWhile (· ≠ '.') := by
  have hd : ∀ c : Char, c.toLower = '.' ↔ c = '.' := by
    intro c
    constructor
    · intro h
      unfold Char.toLower at h
      split at h
      · rename_i hc
        exfalso
        have h := congrArg Char.toNat h
        simp only [Char.toNat, ge_iff_le] at h hc
        have h1 := UInt32.le_iff_toNat_le.mp hc.1
        have h2 := UInt32.le_iff_toNat_le.mp hc.2
        have e : ('.' : Char).val.toNat = 46 := rfl
        have ea : ('A' : Char).val.toNat = 65 := rfl
        have ez : ('Z' : Char).val.toNat = 90 := rfl
        rw [e] at h
        simp only [UInt32.toNat_add] at h
        have e32 : (('a' : Char).val - ('A' : Char).val).toNat = 32 := rfl
        rw [e32] at h
        omega
      · exact h
    · rintro rfl; rfl
  induction s with
  | nil => exact ⟨rfl, rfl⟩
  | cons c cs ih =>
    by_cases hc : c = '.'
    · subst hc
      exact ⟨rfl, rfl⟩
    · have hl : c.toLower ≠ '.' := fun h => hc ((hd c).mp h)
      constructor
      · simp only [lower, List.map_cons, List.takeWhile_cons, ne_eq, hc, hl, not_false_eq_true, decide_true, if_true]
        exact congrArg _ ih.1
      · simp only [lower, List.map_cons, List.dropWhile_cons, ne_eq, hc, hl, not_false_eq_true, decide_true, if_true]
        exact ih.2

theorem logParse_lower (same : CStr → CStr → Bool) (h : same = strictMatch ∨ same = looseMatch)
    (s t : CStr) (hs : lower s = lower t) (f l : Int) : logParse same s f l = logParse same t f l := by
  have key : ∀ (a b : CStr) (l : List (CStr × Int)), lower a = lower b → s2n same a l = s2n same b l := by
    intro a b l hab
    rcases h with rfl | rfl
    · exact s2n_lower_strict a b hab l
    · exact s2n_lower_loose a b hab l
  have h1 : lower (s.takeWhile (· ≠ '.')) = lower (t.takeWhile (· ≠ '.')) := by
    rw [(takeWhile_lower s).1, (takeWhile_lower t).1, hs]
  have h2 : lower ((s.dropWhile (· ≠ '.')).drop 1) = lower ((t.dropWhile (· ≠ '.')).drop 1) := by
    unfold lower
    rw [List.map_drop, List.map_drop]
    have e1 := (takeWhile_lower s).2
    have e2 := (takeWhile_lower t).2
    unfold lower at e1 e2 hs
    rw [e1, e2, hs]
  have h3 : (s.dropWhile (· ≠ '.')).drop 1 = [] ↔ (t.dropWhile (· ≠ '.')).drop 1 = [] := by
    have := congrArg List.length h2
    simp only [lower, List.length_map] at this
    rw [← List.length_eq_zero_iff, ← List.length_eq_zero_iff, this]
  simp only [logParse, key _ _ _ h1, key _ _ _ h2, ne_eq, h3]

/-- Missing from the full statement: a facility or a level alone sets the other to -1, and with the
    loose comparison `authpriv` means `auth`.  A facility with a level, in any case, gives exactly
    these. -/
theorem C34_priority_partial (same : CStr → CStr → Bool) (h : same = strictMatch ∨ same = looseMatch)
    (s : CStr) (f l : Int) (p : CStr × Int) (hp : p ∈ facilities) (q : CStr × Int) (hq : q ∈ levels)
    (hn : same = looseMatch → p.1 ≠ "authpriv".toList) (hs : lower s = lower (p.1 ++ '.' :: q.1)) :
    logParse same s f l = (0, p.2, q.2) := by
  rw [logParse_lower same h s _ hs]
  have h1 : ∀ p ∈ facilities, ∀ q ∈ levels, (p.1 ++ '.' :: q.1).takeWhile (· ≠ '.') = p.1 ∧
      ((p.1 ++ '.' :: q.1).dropWhile (· ≠ '.')).drop 1 = q.1 ∧ q.1 ≠ [] ∧ 0 ≤ q.2 ∧ q.2 ≤ 7 ∧ p.2 ≤ 184 := by
    decide +kernel
  obtain ⟨e1, e2, e3, e4, e5, e6⟩ := h1 p hp q hq
  have h2 : s2n same p.1 facilityNames = p.2 ∧ s2n same q.1 priorityNames = q.2 := by
    rcases h with rfl | rfl
    · have a : ∀ p ∈ facilities, s2n strictMatch p.1 facilityNames = p.2 := by decide +kernel
      have b : ∀ q ∈ levels, s2n strictMatch q.1 priorityNames = q.2 := by decide +kernel
      exact ⟨a p hp, b q hq⟩
    · have a : ∀ p ∈ facilities, p.1 ≠ "authpriv".toList → s2n looseMatch p.1 facilityNames = p.2 := by decide +kernel
      have b : ∀ q ∈ levels, s2n looseMatch q.1 priorityNames = q.2 := by decide +kernel
      exact ⟨a p hp (hn rfl), b q hq⟩
  simp only [logParse, e1, e2, h2.1, h2.2]
  rw [if_pos e3, if_neg (by omega : ¬ q.2 < 0), if_neg (by omega), if_pos e6, if_pos e5]

example : logParse strictMatch "Local3.WARNING".toList 24 5 = (0, 152, 4) ∧
    logParse looseMatch "Local3.WARNING".toList 24 5 = (0, 152, 4) := by decide +kernel

/-- With the loose comparison the private log is not used for `authpriv`. -/
theorem C34_authpriv_loose (f l : Int) : logParse looseMatch "authpriv.info".toList f l = (0, 32, 6) := rfl

/-- Whatever the comparison: if the string is rejected the defaults are kept, and it is rejected if
    no part of it compares equal to a name. -/
theorem C34_rejected_keeps_defaults (same : CStr → CStr → Bool) (s : CStr) (f l : Int) :
    ((logParse same s f l).1 ≠ 0 → logParse same s f l = (-1, f, l)) ∧
    ((∀ part, (part = s.takeWhile (· ≠ '.') ∨ part = (s.dropWhile (· ≠ '.')).drop 1) →
        (∀ p ∈ facilityNames, same p.1 part = false) ∧ ∀ p ∈ priorityNames, same p.1 part = false) →
      logParse same s f l = (-1, f, l)) := by
  have none : ∀ (t : List (CStr × Int)) (x : CStr), (∀ p ∈ t, same p.1 x = false) → s2n same x t = -1 := by
    intro t x h
    induction t with
    | nil => rfl
    | cons p ps ih =>
      unfold s2n
      rw [h p (List.mem_cons_self ..)]
      exact ih fun q hq => h q (List.mem_cons_of_mem _ hq)
  constructor
  · intro h
    unfold logParse at h ⊢
    extract_lets fac lvl l1 f1 l2 at h ⊢
    by_cases hc : l2 < 0 ∧ f1 ≤ 0
    · rw [if_pos hc]
    · rw [if_neg hc] at h
      exact absurd rfl h
  · intro h
    have h1 := h _ (.inl rfl)
    have h2 := h _ (.inr rfl)
    simp only [logParse, none _ _ h1.1, none _ _ h1.2, none _ _ h2.2, ite_self]
    rfl

end Verif
