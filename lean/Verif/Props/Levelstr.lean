import Verif.Levelstr
import Verif.Props.Runlevels

/-!
# C112: the runlevels shown by initctl
-/

namespace Verif

/-! ## Specification -/

/-- What a terminal shows: characters, and whether they are bold -/
def rsTerm : Bool → CStr → List (Char × Bool)
  | _, '\x1b' :: '[' :: '1' :: 'm' :: r => rsTerm true r
  | _, '\x1b' :: '[' :: '0' :: 'm' :: r => rsTerm false r
  | b, c :: r => (c, b) :: rsTerm b r
  | _, [] => []

/-- The name of a runlevel -/
def rsName : Nat → Char
  | 0 => '0' | 1 => '1' | 2 => '2' | 3 => '3' | 4 => '4' | 5 => '5' | 6 => '6' | 7 => '7' | 8 => '8' | 9 => '9'
  | _ => 'S'

/-- The claim: for every service, S and 0 to 9 are shown in this order in a column of 13 characters, or `-` for those
    that the service is not for, in bold if it is the current one and colours are wanted; and what is shown is a list of
    the same runlevels if it is used in a configuration. -/
def C112_full : Prop := ∀ plain curr (levels : BitVec 32), (∀ n, levels.getLsbD n = true → n ≤ 10) →
  rsTerm false (rsColumn (rsString plain curr levels)) =
    [('[', false)] ++ ([10, 0, 1, 2, 3, 4, 5, 6, 7, 8, 9].map fun i =>
      (if levels.getLsbD i then rsName i else '-', !plain && levels.getLsbD i && decide (curr = i))) ++
      [(']', false), (' ', false)] ∧
  parseRunlevels (some ((rsTerm false (rsString plain curr levels)).map (·.1))) = levels

/-! ## Lemmas -/

/-- What a round adds -/
def rsPiece (plain : Bool) (curr : Nat) (levels : BitVec 32) (i : Nat) : CStr :=
  if levels.getLsbD i then
    if !plain && curr == i then "\x1b[1m".toList ++ [rsName i] ++ "\x1b[0m".toList else [rsName i]
  else ['-']

theorem rs_strlcat (a b : CStr) (h : a.length + b.length ≤ 31) : strlcat 32 a b = a ++ b := by
  unfold strlcat
  rw [List.take_of_length_le (by omega)]

theorem rsName_eq {i : Nat} (h : i ≤ 10) : (if i = 10 then "S".toList else [Char.ofNat (48 + i)]) = [rsName i] := by
  have : ∀ i : Fin 11, (if i.val = 10 then "S".toList else [Char.ofNat (48 + i.val)]) = [rsName i.val] := by decide
  exact this ⟨i, by omega⟩

theorem rsRound_eq (plain : Bool) (curr : Nat) (levels : BitVec 32) (lvl : CStr) (i : Nat) (hi : i ≤ 10)
    (h : lvl.length + (rsPiece plain curr levels i).length ≤ 31) :
    rsRound plain curr levels lvl i = lvl ++ rsPiece plain curr levels i := by
  unfold rsRound rsPiece at *
  rw [rsName_eq hi]
  split at h
  · rename_i hl
    rw [if_pos hl, if_pos hl]
    by_cases hc : (!plain && curr == i) = true
    · rw [if_pos hc] at h ⊢
      have e1 : "\x1b[1m".toList.length = 4 := rfl
      have e2 : "\x1b[0m".toList.length = 4 := rfl
      simp only [List.length_append, List.length_singleton, e1, e2] at h
      simp only [hc, if_true]
      have s1 : strlcat 32 lvl "\x1b[1m".toList = lvl ++ "\x1b[1m".toList := rs_strlcat _ _ (by rw [e1]; omega)
      have s2 : strlcat 32 (lvl ++ "\x1b[1m".toList) [rsName i] = lvl ++ "\x1b[1m".toList ++ [rsName i] :=
        rs_strlcat _ _ (by simp only [List.length_append, List.length_singleton, e1]; omega)
      rw [s1, s2, rs_strlcat _ _ (by simp only [List.length_append, List.length_singleton, e1, e2]; omega)]
      simp only [List.append_assoc]
    · rw [if_neg hc] at h ⊢
      simp only [hc]
      exact rs_strlcat _ _ h
  · rename_i hl
    rw [if_neg hl, if_neg hl]
    exact rs_strlcat _ _ h

theorem rsPiece_len (plain : Bool) (curr : Nat) (levels : BitVec 32) (i : Nat) :
    (rsPiece plain curr levels i).length ≤ 1 + if curr = i then 8 else 0 := by
  unfold rsPiece
  have e1 : "\x1b[1m".toList.length = 4 := rfl
  have e2 : "\x1b[0m".toList.length = 4 := rfl
  split
  · split
    · rename_i h
      have : curr = i := by simp at h; exact h.2
      rw [if_pos this]
      simp only [List.length_append, List.length_singleton, e1, e2]
      omega
    · simp
  · simp

theorem rsPieces_len (plain : Bool) (curr : Nat) (levels : BitVec 32) : ∀ is : List Nat, is.Nodup →
    (is.flatMap (rsPiece plain curr levels)).length ≤ is.length + if curr ∈ is then 8 else 0 := by
  intro is
  induction is with
  | nil => intro _; simp
  | cons i r ih =>
    intro hn
    have hn' := List.nodup_cons.mp hn
    have h1 := ih hn'.2
    have h2 := rsPiece_len plain curr levels i
    simp only [List.flatMap_cons, List.length_append, List.length_cons]
    by_cases hc : curr = i
    · subst hc
      rw [if_neg hn'.1] at h1
      rw [if_pos rfl] at h2
      rw [if_pos List.mem_cons_self]
      omega
    · rw [if_neg hc] at h2
      by_cases hm : curr ∈ r
      · rw [if_pos hm] at h1
        rw [if_pos (List.mem_cons_of_mem _ hm)]
        omega
      · rw [if_neg hm] at h1
        omega

theorem rsFold (plain : Bool) (curr : Nat) (levels : BitVec 32) : ∀ (is : List Nat) (lvl : CStr), (∀ i ∈ is, i ≤ 10) →
    lvl.length + (is.flatMap (rsPiece plain curr levels)).length ≤ 31 →
    is.foldl (rsRound plain curr levels) lvl = lvl ++ is.flatMap (rsPiece plain curr levels) := by
  intro is
  induction is with
  | nil => intro lvl _ _; simp
  | cons i r ih =>
    intro lvl hi hl
    simp only [List.flatMap_cons, List.length_append] at hl
    rw [List.foldl_cons, rsRound_eq plain curr levels lvl i (hi i List.mem_cons_self) (by omega),
      ih _ (fun j hj => hi j (List.mem_cons_of_mem _ hj)) (by rw [List.length_append]; omega)]
    simp

theorem rsIter_eq : rsIter 100 10 = [10, 0, 1, 2, 3, 4, 5, 6, 7, 8, 9] := by decide

/-- The text -/
theorem rsString_eq (plain : Bool) (curr : Nat) (levels : BitVec 32) :
    rsString plain curr levels =
      '[' :: ([10, 0, 1, 2, 3, 4, 5, 6, 7, 8, 9].flatMap (rsPiece plain curr levels)) ++ [']'] := by
  have hl := rsPieces_len plain curr levels [10, 0, 1, 2, 3, 4, 5, 6, 7, 8, 9] (by decide)
  have hl' : ([10, 0, 1, 2, 3, 4, 5, 6, 7, 8, 9].flatMap (rsPiece plain curr levels)).length ≤ 19 := by
    refine Nat.le_trans hl ?_
    simp only [List.length_cons, List.length_nil]
    split <;> omega
  unfold rsString
  rw [rsIter_eq]
  have e0 : strlcpy 32 "[".toList = ['['] := by decide
  rw [e0, rsFold _ _ _ _ _ (by decide) (by simp only [List.length_singleton]; omega)]
  have e1 : "]".toList = [']'] := by decide
  rw [e1, rs_strlcat _ _ (by simp only [List.length_append, List.length_singleton]; omega)]
  rfl

/-- A character that is not an escape is shown. -/
theorem rsTerm_char (b : Bool) (c : Char) (r : CStr) (h : c ≠ '\x1b') : rsTerm b (c :: r) = (c, b) :: rsTerm b r := by
  rw [rsTerm]
  · intro r' e; exact absurd e h
  · intro r' e; exact absurd e h

theorem rsName_esc (i : Nat) : rsName i ≠ '\x1b' := by
  unfold rsName
  split <;> decide

/-- What a terminal shows of a round -/
theorem rsTerm_piece (plain : Bool) (curr : Nat) (levels : BitVec 32) (i : Nat) (r : CStr) :
    rsTerm false (rsPiece plain curr levels i ++ r) =
      (if levels.getLsbD i then rsName i else '-', !plain && levels.getLsbD i && decide (curr = i)) :: rsTerm false r := by
  unfold rsPiece
  cases hl : levels.getLsbD i with
  | false =>
    show rsTerm false ('-' :: r) = _
    rw [rsTerm_char _ _ _ (by decide)]
    simp
  | true =>
    rw [if_pos rfl]
    by_cases hc : (!plain && curr == i) = true
    · rw [if_pos hc]
      show rsTerm false ('\x1b' :: '[' :: '1' :: 'm' :: rsName i :: '\x1b' :: '[' :: '0' :: 'm' :: r) = _
      have hd : (!plain && true && decide (curr = i)) = true := by simpa using hc
      rw [rsTerm, rsTerm_char _ _ _ (rsName_esc i), rsTerm, hd]
      rfl
    · rw [if_neg hc]
      show rsTerm false (rsName i :: r) = _
      have hd : (!plain && true && decide (curr = i)) = false := by
        rw [← Bool.not_eq_true]; simpa using hc
      rw [rsTerm_char _ _ _ (rsName_esc i), hd]
      rfl

theorem rsTerm_pieces (plain : Bool) (curr : Nat) (levels : BitVec 32) (r : CStr) : ∀ is : List Nat,
    rsTerm false (is.flatMap (rsPiece plain curr levels) ++ r) =
      (is.map fun i => (if levels.getLsbD i then rsName i else '-', !plain && levels.getLsbD i && decide (curr = i))) ++
        rsTerm false r := by
  intro is
  induction is with
  | nil => rfl
  | cons i s ih =>
    rw [List.flatMap_cons, List.append_assoc, rsTerm_piece, ih]
    rfl

theorem rsTerm_string (plain : Bool) (curr : Nat) (levels : BitVec 32) (r : CStr) :
    rsTerm false (rsString plain curr levels ++ r) =
      [('[', false)] ++ ([10, 0, 1, 2, 3, 4, 5, 6, 7, 8, 9].map fun i =>
        (if levels.getLsbD i then rsName i else '-', !plain && levels.getLsbD i && decide (curr = i))) ++
        (']', false) :: rsTerm false r := by
  rw [rsString_eq, List.cons_append, List.cons_append, rsTerm_char _ _ _ (by decide), List.append_assoc, rsTerm_pieces,
    List.singleton_append, rsTerm_char _ _ _ (by decide)]
  simp only [List.cons_append, List.nil_append]

/-- With an escape, there are 21 characters, else 13. -/
theorem rsString_len (plain : Bool) (curr : Nat) (levels : BitVec 32) :
    (rsString plain curr levels).length = if '\x1b' ∈ rsString plain curr levels then 21 else 13 := by
  have e1 : "\x1b[1m".toList.length = 4 := rfl
  have e2 : "\x1b[0m".toList.length = 4 := rfl
  have key : ∀ is : List Nat, is.Nodup →
      (is.flatMap (rsPiece plain curr levels)).length =
        is.length + if '\x1b' ∈ is.flatMap (rsPiece plain curr levels) then 8 else 0 := by
    intro is
    induction is with
    | nil => intro _; simp
    | cons i r ih =>
      intro hn
      have hn' := List.nodup_cons.mp hn
      have h1 := ih hn'.2
      simp only [List.flatMap_cons, List.length_append, List.length_cons, List.mem_append]
      by_cases hb : levels.getLsbD i = true ∧ (!plain && curr == i) = true
      · have hp : rsPiece plain curr levels i = "\x1b[1m".toList ++ [rsName i] ++ "\x1b[0m".toList := by
          unfold rsPiece; rw [if_pos hb.1, if_pos hb.2]
        have hc : curr = i := by have := hb.2; simp at this; exact this.2
        have hr : '\x1b' ∉ r.flatMap (rsPiece plain curr levels) := by
          intro hm
          obtain ⟨j, hj, hm⟩ := List.mem_flatMap.mp hm
          have hne : curr ≠ j := fun e => hn'.1 (hc ▸ e ▸ hj)
          unfold rsPiece at hm
          split at hm
          · split at hm
            · rename_i x; simp at x; exact hne x.2
            · exact rsName_esc j (List.mem_singleton.mp hm).symm
          · exact absurd (List.mem_singleton.mp hm) (by decide)
        rw [if_neg hr] at h1
        have hin : '\x1b' ∈ rsPiece plain curr levels i := by rw [hp]; simp
        rw [if_pos (Or.inl hin), hp]
        simp only [List.length_append, List.length_singleton, e1, e2]
        omega
      · have hp : rsPiece plain curr levels i = [rsName i] ∨ rsPiece plain curr levels i = ['-'] := by
          unfold rsPiece
          split
          · rename_i x
            rw [if_neg (fun y => hb ⟨x, y⟩)]
            exact Or.inl rfl
          · exact Or.inr rfl
        have hnot : '\x1b' ∉ rsPiece plain curr levels i := by
          rcases hp with hp | hp <;> rw [hp]
          · intro h; exact rsName_esc i (List.mem_singleton.mp h).symm
          · intro h; exact absurd (List.mem_singleton.mp h) (by decide)
        have hlen : (rsPiece plain curr levels i).length = 1 := by
          rcases hp with hp | hp <;> rw [hp] <;> rfl
        rw [hlen, h1]
        simp only [hnot, false_or]
        omega
  have k := key [10, 0, 1, 2, 3, 4, 5, 6, 7, 8, 9] (by decide)
  rw [rsString_eq]
  generalize [10, 0, 1, 2, 3, 4, 5, 6, 7, 8, 9].flatMap (rsPiece plain curr levels) = P at k ⊢
  have hm : '\x1b' ∈ '[' :: P ++ [']'] ↔ '\x1b' ∈ P := by simp
  simp only [hm]
  simp only [List.length_append, List.length_cons, List.length_nil] at k ⊢
  rw [k]
  split <;> rfl

/-- Reading the names again -/
theorem rs_parse (levels : BitVec 32) (rest : CStr) : ∀ (is : List Nat) (m : BitVec 32), (∀ i ∈ is, i ≤ 10) →
    ∃ m', rlLoop false m ((is.map fun i => if levels.getLsbD i then rsName i else '-') ++ rest) = rlLoop false m' rest ∧
      ∀ n, m'.getLsbD n = (m.getLsbD n || (decide (n ∈ is) && levels.getLsbD n)) := by
  intro is
  induction is with
  | nil => intro m _; exact ⟨m, rfl, by simp⟩
  | cons i r ih =>
    intro m hi
    have hr : ∀ j ∈ r, j ≤ 10 := fun j hj => hi j (List.mem_cons_of_mem _ hj)
    have h10 := hi i List.mem_cons_self
    cases hl : levels.getLsbD i with
    | false =>
      obtain ⟨m', h1, h2⟩ := ih m hr
      refine ⟨m', ?_, ?_⟩
      · simp only [List.map_cons, List.cons_append, hl]
        exact h1
      · intro n
        rw [h2]
        by_cases hn : n = i
        · subst hn; simp [hl]
        · simp [hn]
    | true =>
      obtain ⟨m', h1, h2⟩ := ih (m ||| bit32 i) hr
      refine ⟨m', ?_, ?_⟩
      · simp only [List.map_cons, List.cons_append, hl, if_true]
        have f1 : ∀ i : Fin 11, rsName i.val ≠ ']' ∧ rsName i.val ≠ '!' ∧ rlLevel (rsName i.val) = some i.val := by decide
        obtain ⟨a1, a2, a3⟩ := f1 ⟨i, by omega⟩
        dsimp only at a1 a2 a3
        rw [rlLoop, if_neg a1, if_neg a2, a3]
        exact h1
      · intro n
        rw [h2, BitVec.getLsbD_or, bit32_get h10]
        by_cases hn : n = i
        · subst hn; simp [hl]
        · simp [hn]

/-! ## Theorems -/

/-- What initctl shows of the runlevels of a service is right, and can be used in a configuration. -/
theorem C112_shown : C112_full := by
  intro plain curr levels hb
  refine ⟨?_, ?_⟩
  · have hl := rsString_len plain curr levels
    have hc : rsColumn (rsString plain curr levels) = rsString plain curr levels ++ [' '] := by
      unfold rsColumn
      dsimp only
      rw [← hl, List.take_of_length_le (Nat.le_refl _), Nat.sub_self]
      simp
    rw [hc, rsTerm_string]
    simp only [rsTerm_char _ ' ' _ (by decide)]
    rfl
  · have h := rsTerm_string plain curr levels []
    rw [List.append_nil] at h
    rw [h]
    unfold parseRunlevels
    simp only [Option.getD_some, List.map_append, List.map_cons, List.map_nil,
      List.cons_append, List.drop_succ_cons, List.drop_zero]
    obtain ⟨m', h1, h2⟩ := rs_parse levels (']' :: (rsTerm false []).map (·.1)) [10, 0, 1, 2, 3, 4, 5, 6, 7, 8, 9] 0#32 (by decide)
    have h3 : rlLoop false m' (']' :: (rsTerm false []).map (·.1)) = m' := by rw [rlLoop, if_pos rfl]
    rw [h3] at h1
    refine Eq.trans h1 ?_
    apply BitVec.eq_of_getLsbD_eq
    intro n _
    rw [h2]
    cases hn : levels.getLsbD n with
    | false => simp
    | true =>
      have h10 := hb n hn
      have : n ∈ [10, 0, 1, 2, 3, 4, 5, 6, 7, 8, 9] := by
        have f : ∀ n : Fin 11, n.val ∈ [10, 0, 1, 2, 3, 4, 5, 6, 7, 8, 9] := by decide
        exact f ⟨n, by omega⟩
      simp only [this, decide_true, Bool.and_self, Bool.or_true]

/-- So it is for the runlevels of any line of a configuration: what is shown means the same as what was written. -/
theorem C112_again (plain : Bool) (curr : Nat) (arg : Option CStr) :
    parseRunlevels (some ((rsTerm false (rsString plain curr (parseRunlevels arg))).map (·.1))) = parseRunlevels arg :=
  (C112_shown plain curr _ (fun n h => by have := C01_no_other_runlevel arg n h; omega)).2

/-! ## Examples -/

example : rsString false 3 (parseRunlevels (some "[234]".toList)) = "[---2\x1b[1m3\x1b[0m4-----]".toList ∧
    rsString true 3 (parseRunlevels (some "[S!016]".toList)) = "[S--2345-789]".toList := by decide +kernel

end Verif
