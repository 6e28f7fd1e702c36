import Verif.Top

/-!
# C111: the figures of initctl top
-/

namespace Verif

/-! ## Specification -/

/-- A file of the kernel: a name and a number on each line -/
def tpFile (entries : List (CStr × Nat)) : List CStr := entries.map fun e => e.1 ++ ' ' :: Nat.toDigits 10 e.2

/-- The number for a name -/
def tpOf (name : String) (entries : List (CStr × Nat)) : Nat :=
  ((entries.filter fun e => e.1 = name.toList).map (·.2)).sum

/-- As the kernel writes them: names of lower case letters and underscores, numbers of 64 bits; none of the names has five
    letters and begins like one of those that are looked for -/
def TpGood (entries : List (CStr × Nat)) : Prop :=
  ∀ e ∈ entries, e.1 ≠ [] ∧ (∀ c ∈ e.1, c.isLower = true ∨ c = '_') ∧ e.1.length ≤ 40 ∧ e.2 < 2 ^ 64 ∧
    (e.1.length = 5 → e.1.take 4 ∉ ["anon".toList, "slab".toList, "sock".toList, "file".toList])

/-- The claim: the memory of a group is that of its processes, of the kernel for it, and of its sockets; its share of the
    memory and of a processor, over the last second, are right to a tenth of a percent. -/
def C111_full : Prop :=
  (∀ entries, TpGood entries →
    (tpMemory (tpFile entries)).1 = (tpOf "anon" entries + tpOf "slab" entries + tpOf "kernel_stack" entries +
      tpOf "pagetables" entries + tpOf "percpu" entries + tpOf "sock" entries) % 2 ^ 64) ∧
  (∀ rss total, 0 < total → rss ≤ total → total < 2 ^ 57 → tpShare rss total = rss * 1000 / total) ∧
  (∀ a b : Nat, 0 < a → a ≤ b → b < 2 ^ 64 →
    tpLoads {} [tpFile [("usage_usec".toList, a)], tpFile [("usage_usec".toList, b)]] = [0, (b - a) / 1000])

/-! ## Lemmas -/

theorem tp_digit {n : Nat} {c : Char} (h : c ∈ Nat.toDigits 10 n) : c.isDigit = true :=
  Nat.isDigit_of_mem_toDigits (by decide) (by decide) h

theorem tp_digits_len {n : Nat} (h : n < 2 ^ 64) : (Nat.toDigits 10 n).length ≤ 20 :=
  (Nat.length_toDigits_le_iff (by decide) (by decide)).mpr (Nat.lt_trans h (by decide))

/-- A number after a blank -/
theorem tpNum_text {n : Nat} (h : n < 2 ^ 64) (p : Nat) :
    tpNum (List.replicate p ' ' ++ Nat.toDigits 10 n) = n := by
  unfold tpNum
  have e0 : (List.replicate p ' ' ++ Nat.toDigits 10 n).dropWhile (· = ' ') = Nat.toDigits 10 n := by
    rw [List.dropWhile_append_of_pos (by intro c hc; simp [List.eq_of_mem_replicate hc])]
    rcases hd : Nat.toDigits 10 n with _ | ⟨c, r⟩
    · exact absurd hd Nat.toDigits_ne_nil
    · have hc : c.isDigit = true := tp_digit (n := n) (by rw [hd]; exact List.mem_cons_self)
      have hn : ¬ c = ' ' := by intro h; rw [h] at hc; exact absurd hc (by decide)
      simp [hn]
  have e1 : (Nat.toDigits 10 n).takeWhile Char.isDigit = Nat.toDigits 10 n := by
    have := List.takeWhile_append_of_pos (p := Char.isDigit) (l₁ := Nat.toDigits 10 n) (l₂ := []) (fun _ h => tp_digit h)
    simpa using this
  rw [e0, e1, Nat.ofDigitChars_ten_toDigits]
  omega

/-- What begins with a letter is no number. -/
theorem tpNum_letter (c : Char) (s : CStr) (h : c.isLower = true ∨ c = '_') : tpNum (c :: s) = 0 := by
  have h1 : ¬ c = ' ' := by
    intro e; subst e; rcases h with h | h <;> exact absurd h (by decide)
  have h2 : c.isDigit = false := by
    rcases h with h | h
    · cases hd : c.isDigit with
      | false => rfl
      | true =>
        unfold Char.isLower at h
        unfold Char.isDigit at hd
        simp only [ge_iff_le, Bool.and_eq_true, decide_eq_true_eq] at h hd
        have a1 := UInt32.le_iff_toNat_le.mp h.1
        have a2 := UInt32.le_iff_toNat_le.mp hd.2
        simp at a1 a2
        omega
    · subst h; rfl
  unfold tpNum
  simp [h1, h2, Nat.ofDigitChars]

/-- Pieces of a short line: the line -/
theorem tpPieces_short (n : Nat) (l : CStr) (h : l.length ≤ n) (hne : l ≠ []) (k : Nat) : tpPieces n l (k + 1) = [l] := by
  have e : tpPieces n l (k + 1) = l.take n :: tpPieces n (l.drop n) k := by
    rw [tpPieces, if_neg hne]
  rw [e, List.take_of_length_le h, List.drop_eq_nil_of_le h]
  cases k <;> simp [tpPieces]

/-- Pieces of what has only digits have only digits. -/
theorem tpPieces_all (n : Nat) (P : Char → Prop) : ∀ (k : Nat) (l : CStr), (∀ c ∈ l, P c) →
    ∀ x ∈ tpPieces n l k, ∀ c ∈ x, P c := by
  intro k
  induction k with
  | zero => intro l _ x hx; simp [tpPieces] at hx
  | succ k ih =>
    intro l hl x hx
    rw [tpPieces] at hx
    split at hx
    · cases hx
    · rcases List.mem_cons.mp hx with rfl | hx
      · intro c hc; exact hl c (List.mem_of_mem_take hc)
      · exact ih _ (fun c hc => hl c (List.mem_of_mem_drop hc)) x hx

/-- Digits are not looked for. -/
theorem tpStat_digits (x : Nat × Nat) (b : CStr) (h : ∀ c ∈ b, c.isDigit = true) : tpStat x b = x := by
  have key : ∀ name : String, ∀ d r, name.toList = d :: r → d.isDigit = false → 0 < name.length → tpIs name b = false := by
    intro name d r hn hd hl
    unfold tpIs
    rw [hn]
    rcases b with _ | ⟨c, s⟩
    · simp
    · have hc := h c List.mem_cons_self
      obtain ⟨k, hk⟩ : ∃ k, name.length = k + 1 := ⟨name.length - 1, by omega⟩
      rw [hk, List.take_succ_cons]
      have : ¬ c = d := by intro e; rw [e, hd] at hc; cases hc
      simp [this]
  unfold tpStat
  rw [key "anon" 'a' "non".toList (by decide) (by decide) (by decide),
    key "slab" 's' "lab".toList (by decide) (by decide) (by decide),
    key "kernel_stack" 'k' "ernel_stack".toList (by decide) (by decide) (by decide),
    key "pagetables" 'p' "agetables".toList (by decide) (by decide) (by decide),
    key "percpu" 'p' "ercpu".toList (by decide) (by decide) (by decide),
    key "sock" 's' "ock".toList (by decide) (by decide) (by decide),
    key "file" 'f' "ile".toList (by decide) (by decide) (by decide),
    key "file_mapped" 'f' "ile_mapped".toList (by decide) (by decide) (by decide)]
  simp

theorem tpStat_digits_all (x : Nat × Nat) (l : List CStr) (h : ∀ b ∈ l, ∀ c ∈ b, c.isDigit = true) :
    l.foldl tpStat x = x := by
  induction l with
  | nil => rfl
  | cons b r ih =>
    rw [List.foldl_cons, tpStat_digits x b (h b List.mem_cons_self)]
    exact ih (fun b hb => h b (List.mem_cons_of_mem _ hb))

/-- `tpIs` for a short name of lower case letters, of a line or the first piece of it: the name of the entry begins so. -/
theorem tpIs_pre (name : String) (e : CStr) (s : CStr) (hb : ' ' ∉ name.toList) :
    tpIs name (e ++ ' ' :: s) = (e.take name.length == name.toList) := by
  unfold tpIs
  have hl : name.toList.length = name.length := String.length_toList
  rcases Nat.lt_or_ge e.length name.length with h | h
  · rw [List.take_append, List.take_of_length_le (Nat.le_of_lt h)]
    obtain ⟨k, hk⟩ : ∃ k, name.length - e.length = k + 1 := ⟨name.length - e.length - 1, by omega⟩
    rw [hk, List.take_succ_cons]
    have h1 : (e == name.toList) = false := by
      apply beq_eq_false_iff_ne.mpr
      intro x
      rw [x] at h
      omega
    have h2 : (e ++ ' ' :: List.take k s == name.toList) = false := by
      apply beq_eq_false_iff_ne.mpr
      intro x
      apply hb
      rw [← x]
      simp
    rw [h1, h2]
  · rw [List.take_append_of_le_length h]

/-- The number read from an entry that is looked for by a name of four letters -/
theorem tpNum_four (e : CStr) (v : Nat) (s : CStr) (hv : v < 2 ^ 64) (name : String) (hn : name.length = 4)
    (hp : e.take 4 = name.toList) (hc : ∀ c ∈ e, c.isLower = true ∨ c = '_') (h5 : e.length ≠ 5)
    (hs : e.length = 4 → s = Nat.toDigits 10 v) :
    tpNum ((e ++ ' ' :: s).drop 5) = if e = name.toList then v else 0 := by
  have hl : name.toList.length = 4 := by rw [String.length_toList]; exact hn
  have hge : 4 ≤ e.length := by
    have := congrArg List.length hp
    rw [List.length_take] at this
    omega
  by_cases h4 : e.length = 4
  · have he : e = name.toList := by rw [← hp, List.take_of_length_le (by omega)]
    rw [if_pos he]
    have : (e ++ ' ' :: s).drop 5 = s := by
      rw [List.drop_append, h4, List.drop_eq_nil_of_le (by omega)]; rfl
    rw [this, hs h4]
    exact tpNum_text hv 0
  · have he : e ≠ name.toList := by intro x; rw [x] at h4; exact h4 hl
    rw [if_neg he, List.drop_append_of_le_length (by omega)]
    rcases hd : e.drop 5 with _ | ⟨c, r⟩
    · have := congrArg List.length hd
      simp at this
      omega
    · rw [List.cons_append]
      exact tpNum_letter c _ (hc c (List.mem_of_mem_drop (by rw [hd]; exact List.mem_cons_self)))

/-- Nothing is read from an entry with a longer name. -/
theorem tpNum_long (e : CStr) (s : CStr) (hc : ∀ c ∈ e, c.isLower = true ∨ c = '_') (h : 6 ≤ e.length) :
    tpNum ((e ++ ' ' :: s).drop 5) = 0 := by
  rw [List.drop_append_of_le_length (by omega)]
  rcases hd : e.drop 5 with _ | ⟨c, r⟩
  · have := congrArg List.length hd
    simp at this
    omega
  · rw [List.cons_append]
    exact tpNum_letter c _ (hc c (List.mem_of_mem_drop (by rw [hd]; exact List.mem_cons_self)))

/-- What a first piece adds -/
theorem tpStat_entry (x : Nat × Nat) (e : CStr) (v : Nat) (s : CStr) (hv : v < 2 ^ 64)
    (hc : ∀ c ∈ e, c.isLower = true ∨ c = '_')
    (h5 : e.length = 5 → e.take 4 ∉ ["anon".toList, "slab".toList, "sock".toList, "file".toList])
    (hs : e.length = 4 → s = Nat.toDigits 10 v) (hx : x.1 < 2 ^ 64 ∧ x.2 < 2 ^ 64) :
    tpStat x (e ++ ' ' :: s) =
      ((x.1 + if e = "anon".toList ∨ e = "slab".toList ∨ e = "sock".toList then v else 0) % 2 ^ 64,
       (x.2 + if e = "file".toList then v else 0) % 2 ^ 64) := by
  have four : ∀ name : String, name.length = 4 →
      name.toList ∈ ["anon".toList, "slab".toList, "sock".toList, "file".toList] → e.take 4 = name.toList →
      tpNum ((e ++ ' ' :: s).drop 5) = if e = name.toList then v else 0 := by
    intro name hn hm hp
    exact tpNum_four e v s hv name hn hp hc (fun h => h5 h (hp ▸ hm)) hs
  have long : ∀ name : String, 6 ≤ name.length → (e.take name.length == name.toList) = true →
      tpNum ((e ++ ' ' :: s).drop 5) = 0 := by
    intro name hl hp
    have := congrArg List.length (beq_iff_eq.mp hp)
    rw [List.length_take, String.length_toList] at this
    exact tpNum_long e s hc (by omega)
  have hx1 : x.1 % 2 ^ 64 = x.1 := Nat.mod_eq_of_lt hx.1
  have hx2 : x.2 % 2 ^ 64 = x.2 := Nat.mod_eq_of_lt hx.2
  have ofT : ∀ name : String, name.length = 4 → e = name.toList → e.take 4 = name.toList := by
    intro name hn h
    rw [h, List.take_of_length_le (by rw [String.length_toList, hn]; exact Nat.le_refl _)]
  have long' : ∀ name : String, 6 ≤ name.length → (e.take name.length == name.toList) = true → 6 ≤ e.length := by
    intro name hl hp
    have := congrArg List.length (beq_iff_eq.mp hp)
    rw [List.length_take, String.length_toList] at this
    omega
  have not4 : 6 ≤ e.length → ∀ name : String, name.length = 4 → e ≠ name.toList := by
    intro h name hn hh
    rw [hh, String.length_toList, hn] at h
    omega
  unfold tpStat
  rw [tpIs_pre "anon" e s (by decide), tpIs_pre "slab" e s (by decide), tpIs_pre "kernel_stack" e s (by decide),
    tpIs_pre "pagetables" e s (by decide), tpIs_pre "percpu" e s (by decide), tpIs_pre "sock" e s (by decide),
    tpIs_pre "file" e s (by decide), tpIs_pre "file_mapped" e s (by decide)]
  have dn : "anon".toList ≠ "slab".toList ∧ "anon".toList ≠ "sock".toList ∧ "anon".toList ≠ "file".toList ∧
      "slab".toList ≠ "sock".toList ∧ "slab".toList ≠ "file".toList ∧ "sock".toList ≠ "file".toList := by decide
  obtain ⟨d1, d2, d3, d4, d5, d6⟩ := dn
  have A := four "anon" rfl (by decide)
  have S := four "slab" rfl (by decide)
  have K := four "sock" rfl (by decide)
  have F := four "file" rfl (by decide)
  have TA := ofT "anon" rfl
  have TS := ofT "slab" rfl
  have TK := ofT "sock" rfl
  have TF := ofT "file" rfl
  have l1 : "anon".length = 4 := rfl
  have l2 : "slab".length = 4 := rfl
  have l3 : "sock".length = 4 := rfl
  have l4 : "file".length = 4 := rfl
  rw [l1, l2, l3, l4]
  have Lk := long "kernel_stack" (by decide)
  have Lp := long "pagetables" (by decide)
  have Lc := long "percpu" (by decide)
  have Mk := long' "kernel_stack" (by decide)
  have Mp := long' "pagetables" (by decide)
  have Mc := long' "percpu" (by decide)
  have Lm := long "file_mapped" (by decide)
  have Mm := long' "file_mapped" (by decide)
  have NA := fun h => not4 h "anon" rfl
  have NS := fun h => not4 h "slab" rfl
  have NK := fun h => not4 h "sock" rfl
  have NF := fun h => not4 h "file" rfl
  generalize "anon".toList = wa at *
  generalize "slab".toList = ws at *
  generalize "sock".toList = wk at *
  generalize "file".toList = wf at *
  generalize (e.take "kernel_stack".length == "kernel_stack".toList) = bk at *
  generalize (e.take "pagetables".length == "pagetables".toList) = bp at *
  generalize (e.take "percpu".length == "percpu".toList) = bc at *
  generalize (e.take "file_mapped".length == "file_mapped".toList) = bm at *
  generalize tpNum ((e ++ ' ' :: s).drop 5) = N at *
  unfold tpAdd
  -- with a long name nothing is added
  have zero : 6 ≤ e.length → N = 0 →
      (((x.1 + N) % 2 ^ 64, x.2) = ((x.1 + if e = wa ∨ e = ws ∨ e = wk then v else 0) % 2 ^ 64,
        (x.2 + if e = wf then v else 0) % 2 ^ 64)) ∧
      ((x.1, (x.2 + N) % 2 ^ 64) = ((x.1 + if e = wa ∨ e = ws ∨ e = wk then v else 0) % 2 ^ 64,
        (x.2 + if e = wf then v else 0) % 2 ^ 64)) := by
    intro hl hN
    have a1 := NA hl
    have a2 := NS hl
    have a3 := NK hl
    have a4 := NF hl
    rw [if_neg (by rintro (h | h | h) <;> contradiction), if_neg a4, hN]
    simp only [Nat.add_zero, hx1, hx2, and_self]
  by_cases ha : e.take 4 = wa
  · have n1 : e ≠ ws := fun h => d1 (ha.symm.trans (TS h))
    have n2 : e ≠ wk := fun h => d2 (ha.symm.trans (TK h))
    have n3 : e ≠ wf := fun h => d3 (ha.symm.trans (TF h))
    rw [if_pos (beq_iff_eq.mpr ha), A ha, if_neg n3]
    simp only [n1, n2, or_false, Nat.add_zero, hx2]
  · have n0 : e ≠ wa := fun h => ha (TA h)
    rw [if_neg (by simpa using ha)]
    by_cases hs' : e.take 4 = ws
    · have n2 : e ≠ wk := fun h => d4 (hs'.symm.trans (TK h))
      have n3 : e ≠ wf := fun h => d5 (hs'.symm.trans (TF h))
      rw [if_pos (beq_iff_eq.mpr hs'), S hs', if_neg n3]
      simp only [n0, n2, or_false, false_or, Nat.add_zero, hx2]
    · have n1 : e ≠ ws := fun h => hs' (TS h)
      rw [if_neg (by simpa using hs')]
      by_cases hk : bk = true
      · rw [if_pos hk]; exact (zero (Mk hk) (Lk hk)).1
      · rw [if_neg hk]
        by_cases hp : bp = true
        · rw [if_pos hp]; exact (zero (Mp hp) (Lp hp)).1
        · rw [if_neg hp]
          by_cases hcp : bc = true
          · rw [if_pos hcp]; exact (zero (Mc hcp) (Lc hcp)).1
          · rw [if_neg hcp]
            by_cases hsk : e.take 4 = wk
            · have n3 : e ≠ wf := fun h => d6 (hsk.symm.trans (TF h))
              rw [if_pos (beq_iff_eq.mpr hsk), K hsk, if_neg n3]
              simp only [n0, n1, false_or, Nat.add_zero, hx2]
            · have n2 : e ≠ wk := fun h => hsk (TK h)
              rw [if_neg (by simpa using hsk)]
              by_cases hf : e.take 4 = wf
              · rw [if_pos (beq_iff_eq.mpr hf), F hf]
                simp only [n0, n1, n2, or_self, if_false, Nat.add_zero, hx1]
              · have n3 : e ≠ wf := fun h => hf (TF h)
                rw [if_neg (by simpa using hf)]
                by_cases hm : bm = true
                · rw [if_pos hm]; exact (zero (Mm hm) (Lm hm)).2
                · rw [if_neg hm]
                  simp only [n0, n1, n2, n3, or_self, if_false, Nat.add_zero, hx1, hx2]

/-- The pieces of a line: the first, and then only digits -/
theorem tpPieces_entry (n : Nat) (e : CStr) (v : Nat) (he : e.length + 1 ≤ n)
    (hc : ∀ c ∈ e, c.isLower = true ∨ c = '_') :
    ∃ s more, (tpPieces n ((e ++ ' ' :: Nat.toDigits 10 v) ++ ['\n']) 20).map (·.filter (· ≠ '\n')) = (e ++ ' ' :: s) :: more ∧
      (∀ b ∈ more, ∀ c ∈ b, c.isDigit = true) ∧ (e.length + 1 + (Nat.toDigits 10 v).length ≤ n → s = Nat.toDigits 10 v) := by
  have hne : (e ++ ' ' :: Nat.toDigits 10 v) ++ ['\n'] ≠ [] := by simp
  have hd : ∀ c ∈ Nat.toDigits 10 v, decide (c ≠ '\n') = true := by
    intro c hc
    have := tp_digit hc
    apply decide_eq_true
    intro x
    rw [x] at this
    exact absurd this (by decide)
  have hen : ∀ c ∈ e, decide (c ≠ '\n') = true := by
    intro c h
    apply decide_eq_true
    intro x
    rw [x] at h
    rcases hc _ h with h | h <;> exact absurd h (by decide)
  have eT : ((e ++ ' ' :: Nat.toDigits 10 v) ++ ['\n']).take n = e ++ ' ' :: (Nat.toDigits 10 v ++ ['\n']).take (n - (e.length + 1)) := by
    rw [List.append_assoc, List.take_append, List.take_of_length_le (by omega), List.cons_append]
    obtain ⟨k, hk⟩ : ∃ k, n - e.length = k + 1 := ⟨n - e.length - 1, by omega⟩
    rw [hk, List.take_succ_cons]
    have : n - (e.length + 1) = k := by omega
    rw [this]
  have eD : ((e ++ ' ' :: Nat.toDigits 10 v) ++ ['\n']).drop n = (Nat.toDigits 10 v ++ ['\n']).drop (n - (e.length + 1)) := by
    rw [List.append_assoc, List.drop_append, List.drop_eq_nil_of_le (by omega), List.cons_append, List.nil_append]
    obtain ⟨k, hk⟩ : ∃ k, n - e.length = k + 1 := ⟨n - e.length - 1, by omega⟩
    rw [hk, List.drop_succ_cons]
    have : n - (e.length + 1) = k := by omega
    rw [this]
  have hp : tpPieces n ((e ++ ' ' :: Nat.toDigits 10 v) ++ ['\n']) 20 =
      (e ++ ' ' :: (Nat.toDigits 10 v ++ ['\n']).take (n - (e.length + 1))) ::
        tpPieces n ((Nat.toDigits 10 v ++ ['\n']).drop (n - (e.length + 1))) 19 := by
    show tpPieces n _ (19 + 1) = _
    rw [tpPieces, if_neg hne, eT, eD]
  refine ⟨((Nat.toDigits 10 v ++ ['\n']).take (n - (e.length + 1))).filter (· ≠ '\n'),
    (tpPieces n ((Nat.toDigits 10 v ++ ['\n']).drop (n - (e.length + 1))) 19).map (·.filter (· ≠ '\n')), ?_, ?_, ?_⟩
  · rw [hp, List.map_cons, List.filter_append, List.filter_eq_self.mpr hen, List.filter_cons_of_pos (by decide)]
  · intro b hb c hcb
    obtain ⟨y, hy, rfl⟩ := List.mem_map.mp hb
    have hy' := tpPieces_all n (fun c => c.isDigit = true ∨ c = '\n') 19 _ (by
      intro c hc
      rcases List.mem_append.mp (List.mem_of_mem_drop hc) with h | h
      · exact Or.inl (tp_digit h)
      · exact Or.inr (List.mem_singleton.mp h)) y hy
    have := List.mem_filter.mp hcb
    rcases hy' c this.1 with h | h
    · exact h
    · exact absurd h (of_decide_eq_true this.2)
  · intro hl
    rw [List.take_append, List.take_of_length_le (by omega), List.filter_append, List.filter_eq_self.mpr hd]
    have : ((['\n'] : CStr).take (n - (e.length + 1) - (Nat.toDigits 10 v).length)).filter (· ≠ '\n') = [] := by
      apply List.filter_eq_nil_iff.mpr
      intro c hc
      have := List.mem_singleton.mp (List.mem_of_mem_take hc)
      rw [this]; decide
    rw [this, List.append_nil]

theorem tpOf_cons (name : String) (e : CStr) (v : Nat) (r : List (CStr × Nat)) :
    tpOf name ((e, v) :: r) = (if e = name.toList then v else 0) + tpOf name r := by
  unfold tpOf
  by_cases h : e = name.toList <;> simp [h]

theorem tpMemory_gen (entries : List (CStr × Nat)) : ∀ x : Nat × Nat, x.1 < 2 ^ 64 → x.2 < 2 ^ 64 → TpGood entries →
    (tpRead 41 (tpFile entries)).foldl tpStat x =
      ((x.1 + (tpOf "anon" entries + tpOf "slab" entries + tpOf "sock" entries)) % 2 ^ 64,
       (x.2 + tpOf "file" entries) % 2 ^ 64) := by
  induction entries with
  | nil =>
    intro x h1 h2 _
    show x = ((x.1 + 0) % 2 ^ 64, (x.2 + 0) % 2 ^ 64)
    rw [Nat.add_zero, Nat.add_zero, Nat.mod_eq_of_lt h1, Nat.mod_eq_of_lt h2]
  | cons ev r ih =>
    intro x h1 h2 hg
    obtain ⟨e, v⟩ := ev
    obtain ⟨g1, g2, g3, g4, g5⟩ := hg (e, v) List.mem_cons_self
    dsimp only at g1 g2 g3 g4 g5
    obtain ⟨s, more, hp, hm, hs⟩ := tpPieces_entry 41 e v (by omega) g2
    have er : tpRead 41 (tpFile ((e, v) :: r)) = (e ++ ' ' :: s) :: (more ++ tpRead 41 (tpFile r)) := by
      show (tpPieces 41 ((e ++ ' ' :: Nat.toDigits 10 v) ++ ['\n']) 20).map (·.filter (· ≠ '\n')) ++ tpRead 41 (tpFile r) = _
      rw [hp]; rfl
    have hl := tp_digits_len g4
    rw [er, List.foldl_cons, List.foldl_append,
      tpStat_entry x e v s g4 g2 g5 (fun h => hs (by omega)) ⟨h1, h2⟩, tpStat_digits_all _ more hm,
      ih _ (Nat.mod_lt _ (by decide)) (Nat.mod_lt _ (by decide)) (fun e he => hg e (List.mem_cons_of_mem _ he))]
    rw [tpOf_cons, tpOf_cons, tpOf_cons, tpOf_cons]
    have dn : "anon".toList ≠ "slab".toList ∧ "anon".toList ≠ "sock".toList ∧ "slab".toList ≠ "sock".toList := by decide
    have hsum : (if e = "anon".toList ∨ e = "slab".toList ∨ e = "sock".toList then v else 0) =
        (if e = "anon".toList then v else 0) + (if e = "slab".toList then v else 0) +
          (if e = "sock".toList then v else 0) := by
      generalize "anon".toList = wa at *
      generalize "slab".toList = ws at *
      generalize "sock".toList = wk at *
      obtain ⟨d1, d2, d3⟩ := dn
      by_cases ha : e = wa
      · subst ha; simp [d1, d2]
      · by_cases hb : e = ws
        · subst hb; simp [ha, d3]
        · simp [ha, hb]
    rw [hsum]
    generalize (if e = "anon".toList then v else 0) = va
    generalize (if e = "slab".toList then v else 0) = vs
    generalize (if e = "sock".toList then v else 0) = vk
    generalize (if e = "file".toList then v else 0) = vf
    congr 1 <;> (dsimp only; omega)

/-- Reading the use of the processor -/
theorem tpCpu_file (c : TpCpu) (v : Nat) (hv : v < 2 ^ 64) (more : List (CStr × Nat)) :
    tpCpu c (tpFile (("usage_usec".toList, v) :: more)) =
      { prev := v, load := if c.prev ≠ 0 then 10 * (100 * ((v + 2 ^ 64 - c.prev) % 2 ^ 64 / 1000000)) else c.load } := by
  obtain ⟨s, rest, hp, _, hs⟩ := tpPieces_entry 63 "usage_usec".toList v (by decide) (by decide)
  have hl := tp_digits_len hv
  have e10 : "usage_usec".toList.length = 10 := rfl
  have hs' := hs (by omega)
  have er : tpRead 63 (tpFile (("usage_usec".toList, v) :: more)) =
      ("usage_usec".toList ++ ' ' :: s) :: (rest ++ tpRead 63 (tpFile more)) := by
    show (tpPieces 63 (("usage_usec".toList ++ ' ' :: Nat.toDigits 10 v) ++ ['\n']) 20).map (·.filter (· ≠ '\n')) ++
      tpRead 63 (tpFile more) = _
    rw [hp]; rfl
  unfold tpCpu
  rw [er, List.find?_cons]
  have h1 : tpIs "usage_usec" ("usage_usec".toList ++ ' ' :: s) = true := by
    rw [tpIs_pre _ _ _ (by decide)]; decide
  have h2 : ("usage_usec".toList ++ ' ' :: s).drop 11 = s := rfl
  have h3 : tpNum s = v := by rw [hs']; exact tpNum_text hv 0
  rw [h1]
  dsimp only
  rw [h2, h3]

/-! ## Theorems -/

/-- The memory shown is that of the processes, of slabs and sockets, and nothing else. -/
theorem C111_partial (entries : List (CStr × Nat)) (h : TpGood entries) :
    (tpMemory (tpFile entries)).1 = (tpOf "anon" entries + tpOf "slab" entries + tpOf "sock" entries) % 2 ^ 64 ∧
    (tpMemory (tpFile entries)).2 = tpOf "file" entries % 2 ^ 64 := by
  have := tpMemory_gen entries (0, 0) (by decide) (by decide) h
  unfold tpMemory
  rw [this]
  simp only [Nat.zero_add, and_self]

/-- Stacks of the kernel, page tables and memory of each processor count for nothing, however large they are. -/
theorem C111_kernel (entries more : List (CStr × Nat)) (h : TpGood (entries ++ more))
    (hm : ∀ e ∈ more, e.1 ∈ ["kernel_stack".toList, "pagetables".toList, "percpu".toList, "file_mapped".toList]) :
    tpMemory (tpFile (entries ++ more)) = tpMemory (tpFile entries) := by
  have h1 := C111_partial _ h
  have h2 := C111_partial entries (fun e he => h e (List.mem_append_left _ he))
  have z : ∀ name : String, name.toList ∉ ["kernel_stack".toList, "pagetables".toList, "percpu".toList, "file_mapped".toList] →
      tpOf name (entries ++ more) = tpOf name entries := by
    intro name hn
    have : more.filter (fun e => e.1 = name.toList) = [] := by
      apply List.filter_eq_nil_iff.mpr
      intro e he hx
      exact hn ((of_decide_eq_true hx) ▸ hm e he)
    unfold tpOf
    rw [List.filter_append, this, List.append_nil]
  rw [z "anon" (by decide), z "slab" (by decide), z "sock" (by decide), z "file" (by decide)] at h1
  exact Prod.ext (h1.1.trans h2.1.symm) (h1.2.trans h2.2.symm)

/-- The share of the memory is shown in whole percents, rounded down. -/
theorem C111_share (rss total : Nat) (ht : 0 < total) (hr : rss ≤ total) (hb : total < 2 ^ 57) :
    tpShare rss total = 10 * (rss * 100 / total) ∧
    tpShare rss total ≤ rss * 1000 / total ∧ rss * 1000 / total < tpShare rss total + 10 := by
  have e : tpShare rss total = 10 * (rss * 100 / total) := by
    unfold tpShare
    rw [Nat.mod_eq_of_lt (by omega)]
  refine ⟨e, ?_, ?_⟩
  · rw [e, Nat.le_div_iff_mul_le ht]
    have := Nat.div_mul_le_self (rss * 100) total
    calc 10 * (rss * 100 / total) * total = 10 * (rss * 100 / total * total) := by rw [Nat.mul_assoc]
      _ ≤ 10 * (rss * 100) := Nat.mul_le_mul_left _ this
      _ = rss * 1000 := by omega
  · rw [e, Nat.div_lt_iff_lt_mul ht]
    have := Nat.lt_mul_div_succ (rss * 100) ht
    have h2 : (10 * (rss * 100 / total) + 10) * total = 10 * (total * (rss * 100 / total + 1)) := by
      rw [← Nat.mul_succ, Nat.mul_assoc, Nat.mul_comm total]
    rw [h2]
    omega

/-- The share of a processor is shown in whole processors, rounded down. -/
theorem C111_cpu (c : TpCpu) (v : Nat) (more : List (CStr × Nat)) (hc : 0 < c.prev) (hv : c.prev ≤ v) (hb : v < 2 ^ 64) :
    (tpCpu c (tpFile (("usage_usec".toList, v) :: more))).load = 1000 * ((v - c.prev) / 1000000) := by
  rw [tpCpu_file c v hb]
  dsimp only
  rw [if_pos (by omega)]
  have : (v + 2 ^ 64 - c.prev) % 2 ^ 64 = v - c.prev := by omega
  rw [this]
  omega

/-- A group that never uses a whole second of a processor in a second is always shown with a load of 0. -/
theorem C111_idle (uses : List Nat) : ∀ c : TpCpu, c.load = 0 →
    (∀ i (hi : i + 1 < uses.length), uses[i] ≤ uses[i + 1] ∧ uses[i + 1] < uses[i] + 1000000) →
    (∀ v ∈ uses, v < 2 ^ 64) → (∀ v ∈ uses.head?, c.prev = 0 ∨ (c.prev ≤ v ∧ v < c.prev + 1000000)) →
    ∀ l ∈ tpLoads c (uses.map fun v => tpFile [("usage_usec".toList, v)]), l = 0 := by
  induction uses with
  | nil => intro c _ _ _ _ l hl; simp [tpLoads] at hl
  | cons v r ih =>
    intro c hc hstep hb hh l hl
    have hv := hb v List.mem_cons_self
    have e := tpCpu_file c v hv []
    have hz : (tpCpu c (tpFile [("usage_usec".toList, v)])).load = 0 := by
      rcases Nat.eq_zero_or_pos c.prev with h0 | h0
      · rw [e]; dsimp only; rw [if_neg (by omega)]; exact hc
      · rcases hh v rfl with h | h
        · omega
        · rw [C111_cpu c v [] h0 h.1 hv, Nat.div_eq_of_lt (by omega)]
    simp only [List.map_cons, tpLoads] at hl
    rcases List.mem_cons.mp hl with hl | hl
    · rw [hl]; exact hz
    · refine ih _ hz ?_ (fun w hw => hb w (List.mem_cons_of_mem _ hw)) ?_ l hl
      · intro i hi
        have := hstep (i + 1) (by simpa using hi)
        simpa using this
      · intro w hw
        rcases r with _ | ⟨w', r⟩
        · cases hw
        · have hw' : w' = w := by simpa using hw
          have := hstep 0 (by simp)
          simp only [List.getElem_cons_zero, List.getElem_cons_succ, Nat.zero_add] at this
          rw [e]
          dsimp only
          rw [← hw']
          exact Or.inr this

/-! ## Examples -/

/-- A group with 4 MB of its own, 1 MB of slabs and 2 MB for page tables -/
def tpDemo : List (CStr × Nat) :=
  [("anon".toList, 4194304), ("file".toList, 8192), ("kernel_stack".toList, 16384), ("pagetables".toList, 2097152),
   ("percpu".toList, 512), ("sock".toList, 4096), ("file_mapped".toList, 4096), ("anon_thp".toList, 2097152),
   ("slab_reclaimable".toList, 7), ("slab".toList, 1048576), ("workingset_restore_anon".toList, 12345678901234567890)]

example : TpGood tpDemo ∧ tpMemory (tpFile tpDemo) = (4194304 + 1048576 + 4096, 8192) := by
  refine ⟨?_, by decide +kernel⟩
  unfold TpGood
  decide +kernel

theorem tpDemo_steps : ∀ i (hi : i + 1 < [500, 1400, 2300].length),
    [500, 1400, 2300][i] ≤ [500, 1400, 2300][i + 1] ∧ [500, 1400, 2300][i + 1] < [500, 1400, 2300][i] + 1000000 := by
  intro i hi
  rcases i with _ | _ | i
  · exact ⟨by show 500 ≤ 1400; omega, by show 1400 < 500 + 1000000; omega⟩
  · exact ⟨by show 1400 ≤ 2300; omega, by show 2300 < 1400 + 1000000; omega⟩
  · exact absurd hi (by simp)

example : ∀ l ∈ tpLoads {} ([500, 1400, 2300].map fun v => tpFile [("usage_usec".toList, v)]), l = 0 :=
  C111_idle [500, 1400, 2300] {} rfl tpDemo_steps (by simp) (fun _ _ => Or.inl rfl)

/-- The claim does not hold: nine tenths of a processor are shown as nothing. -/
theorem C111_full_false : ¬ C111_full := by
  intro h
  have := h.2.2 1 900001 (by decide) (by decide) (by decide)
  revert this
  decide +kernel

end Verif
