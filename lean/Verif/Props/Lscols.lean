import Verif.Lscols

/-!
# C117: initctl ls shows all configuration files in columns that fit the terminal
-/

namespace Verif

/-! ## Specification -/

/-- The names of a row, each filled up with blanks to the given width, with two blanks between them -/
def LsRow (width : Nat) (r : List CStr) : CStr :=
  List.intercalate [' ', ' '] (r.map fun n => n ++ List.replicate (width - n.length) ' ')

/-- The text is made of rows, none of which is empty, with all names in order; the columns have the width of the longest name. -/
structure LsTable (names : List CStr) (width : Nat) (rows : List (List CStr)) (text : CStr) : Prop where
  all : rows.flatten = names
  full : ∀ r ∈ rows, r ≠ []
  wide : (∀ n ∈ names, n.length ≤ width) ∧ ∃ n ∈ names, n.length = width
  text : text = List.intercalate ['\n'] (rows.map (LsRow width)) ++ ['\n', '\n']

/-- The full claim of C117: a terminal that has room for the longest name shows all names, and no row is longer than it. -/
def C117_full : Prop := ∀ cols names, names ≠ [] → (∀ n ∈ names, n ≠ [] ∧ n.length ≤ cols) →
  ∃ width rows text, lsList cols false names = some text ∧ LsTable names width rows text ∧ ∀ r ∈ rows, (LsRow width r).length ≤ cols

/-! ## Lemmas -/

theorem lsWidth_from : ∀ (names : List CStr) (w : Nat),
    let v := names.foldl (fun w n => if n.length > w then n.length else w) w
    w ≤ v ∧ (∀ n ∈ names, n.length ≤ v) ∧ (v = w ∨ ∃ n ∈ names, n.length = v)
  | [], w => ⟨Nat.le_refl _, fun _ h => (nomatch h), .inl rfl⟩
  | n :: ns, w => by
    obtain ⟨h1, h2, h3⟩ := lsWidth_from ns (if n.length > w then n.length else w)
    dsimp only at h1 h2 h3 ⊢
    rw [List.foldl_cons]
    have hw : w ≤ (if n.length > w then n.length else w) ∧ n.length ≤ (if n.length > w then n.length else w) := by split <;> omega
    refine ⟨Nat.le_trans hw.1 h1, fun x hx => ?_, ?_⟩
    · rcases List.mem_cons.mp hx with e | hx
      · rw [e]; exact Nat.le_trans hw.2 h1
      · exact h2 x hx
    · rcases h3 with h3 | ⟨x, hx, e⟩
      · by_cases h : n.length > w
        · rw [if_pos h] at h3 ⊢
          exact .inr ⟨n, List.mem_cons_self, h3.symm⟩
        · rw [if_neg h] at h3 ⊢
          exact .inl h3
      · exact .inr ⟨x, List.mem_cons_of_mem _ hx, e⟩

theorem lsWidth_spec {names : List CStr} (h : names ≠ []) :
    (∀ n ∈ names, n.length ≤ lsWidth names) ∧ ∃ n ∈ names, n.length = lsWidth names := by
  obtain ⟨_, h2, h3⟩ := lsWidth_from names 0
  refine ⟨h2, ?_⟩
  rcases h3 with h3 | h3
  · cases names with
    | nil => exact absurd rfl h
    | cons n ns =>
      have := h2 n List.mem_cons_self
      rw [h3] at this
      exact ⟨n, List.mem_cons_self, by show _ = List.foldl _ _ _; rw [h3]; omega⟩
  · exact h3

theorem ls_intercalate (sep x : CStr) : ∀ xs : List CStr, List.intercalate sep (x :: xs) = x ++ xs.flatMap (sep ++ ·) := by
  intro xs
  induction xs generalizing x with
  | nil => simp [List.intercalate]
  | cons y ys ih =>
    have := ih y
    rw [List.flatMap_cons]
    simp only [List.intercalate, List.intersperse_cons_cons, List.flatten_cons] at this ⊢
    rw [this]
    simp [List.append_assoc]

theorem ls_mod (i num : Nat) (h : 0 < num) : (i + 1) % num = if i % num + 1 = num then 0 else i % num + 1 := by
  have h1 : (i + 1) % num = (i % num + 1) % num := by rw [Nat.mod_add_mod]
  have h2 := Nat.mod_lt i h
  rw [h1]
  split
  · rename_i e; rw [e, Nat.mod_self]
  · exact Nat.mod_eq_of_lt (by omega)

/-- The loop after the first name -/
theorem ls_loop (num width : Nat) (h : 0 < num) : ∀ (ns : List CStr) (i : Nat), 0 < i →
    ∃ (first : List CStr) (rows : List (List CStr)), ns = first ++ rows.flatten ∧ (∀ r ∈ rows, r ≠ [] ∧ r.length ≤ num) ∧
      (i % num + first.length ≤ num ∧ (i % num = 0 → first = [])) ∧
      lsLoop num width false i true ns = some (first.flatMap (fun n => [' ', ' '] ++ lsCell width n) ++
        rows.flatMap (fun r => ['\n'] ++ LsRow width r))
  | [], i, _ => ⟨[], [], rfl, fun _ hr => (nomatch hr), ⟨Nat.le_of_lt (Nat.mod_lt i h), fun _ => rfl⟩, rfl⟩
  | n :: ns, i, hi => by
    obtain ⟨first, rows, h1, h2, h3, h4⟩ := ls_loop num width h ns (i + 1) (by omega)
    have hm := ls_mod i num h
    have hlt := Nat.mod_lt i h
    rw [lsLoop, if_neg (by omega), h4]
    by_cases h0 : i % num = 0
    · refine ⟨[], (n :: first) :: rows, ?_, ?_, ⟨by rw [h0]; simp, fun _ => rfl⟩, ?_⟩
      · rw [h1]; rfl
      · intro r hr
        rcases List.mem_cons.mp hr with e | hr
        · rw [e]
          refine ⟨List.cons_ne_nil _ _, ?_⟩
          rw [List.length_cons]
          split at hm
          · rw [h3.2 hm, List.length_nil]; omega
          · have := h3.1; omega
        · exact h2 r hr
      · dsimp only
        have hd : (decide (0 < i ∧ i % num = 0) && !false) = true := by simp [hi, h0]
        rw [hd]
        have hrow : LsRow width (n :: first) = lsCell width n ++ first.flatMap (fun n => [' ', ' '] ++ lsCell width n) := by
          unfold LsRow
          rw [List.map_cons, ls_intercalate, List.flatMap_map]
          rfl
        rw [List.flatMap_cons, hrow]
        simp [List.append_assoc]
    · refine ⟨n :: first, rows, ?_, h2, ⟨?_, fun e => absurd e h0⟩, ?_⟩
      · rw [h1]; rfl
      · rw [List.length_cons]
        split at hm
        · rw [h3.2 hm, List.length_nil]; omega
        · have := h3.1; omega
      · dsimp only
        have hd : (decide (0 < i ∧ i % num = 0) && !false) = false := by simp [h0]
        rw [hd, List.flatMap_cons]
        simp [List.append_assoc]

theorem lsRow_length (width : Nat) : ∀ r : List CStr, r ≠ [] → (∀ n ∈ r, n.length ≤ width) →
    (LsRow width r).length + 2 = r.length * (width + 2)
  | [], h, _ => absurd rfl h
  | n :: ns, _, hw => by
    have cell : ∀ x : CStr, x.length ≤ width → (x ++ List.replicate (width - x.length) ' ').length = width := by
      intro x hx; rw [List.length_append, List.length_replicate]; omega
    unfold LsRow
    rw [List.map_cons, ls_intercalate, List.length_append, cell n (hw n List.mem_cons_self), List.flatMap_map]
    have hns : ∀ l : List CStr, (∀ x ∈ l, x.length ≤ width) →
        (l.flatMap fun x => [' ', ' '] ++ (x ++ List.replicate (width - x.length) ' ')).length = l.length * (width + 2) := by
      intro l
      induction l with
      | nil => intro _; rw [List.flatMap_nil, List.length_nil, List.length_nil, Nat.zero_mul]
      | cons x l ih =>
        intro hl
        rw [List.flatMap_cons, List.length_append, List.length_append, cell x (hl x List.mem_cons_self),
          ih (fun y hy => hl y (List.mem_cons_of_mem _ hy)), show (x :: l).length = l.length + 1 from rfl, Nat.add_mul]
        simp only [List.length_cons, List.length_nil]
        omega
    rw [hns ns (fun x hx => hw x (List.mem_cons_of_mem _ hx)), List.length_cons, Nat.add_mul]
    omega

/-! ## C117 -/

/-- If the longest name leaves two columns, all names are shown, in order, each once, with at most so many in a row. -/
theorem C117_all (cols : Nat) (names : List CStr) (hne : names ≠ []) (hn : ∀ n ∈ names, n ≠ [] ∧ n.length + 2 ≤ cols) :
    ∃ width rows text, lsList cols false names = some text ∧ LsTable names width rows text ∧
      ∀ r ∈ rows, (LsRow width r).length + 2 ≤ lsNum cols width * (width + 2) := by
  obtain ⟨hw, x, hx, hxw⟩ := lsWidth_spec hne
  have hpos : 0 < lsWidth names := by
    rw [← hxw]; exact List.length_pos_iff.mpr (hn x hx).1
  have hle : lsWidth names + 2 ≤ cols := by rw [← hxw]; exact (hn x hx).2
  have hnum : 0 < lsNum cols (lsWidth names) := by
    unfold lsNum
    dsimp only
    have h1 : 0 < (cols - 2) / lsWidth names := Nat.div_pos (by omega) hpos
    split
    · rename_i h
      rcases Nat.lt_or_ge ((cols - 2) / lsWidth names) 2 with h2 | h2
      · have e : (cols - 2) / lsWidth names = 1 := by omega
        rw [e] at h
        omega
      · omega
    · exact h1
  cases names with
  | nil => exact absurd rfl hne
  | cons n ns =>
    obtain ⟨first, rows, h1, h2, h3, h4⟩ := ls_loop (lsNum cols (lsWidth (n :: ns))) (lsWidth (n :: ns)) hnum ns 1 (by omega)
    have hrow : LsRow (lsWidth (n :: ns)) (n :: first) = lsCell (lsWidth (n :: ns)) n ++ first.flatMap (fun m => [' ', ' '] ++ lsCell (lsWidth (n :: ns)) m) := by
      unfold LsRow
      rw [List.map_cons, ls_intercalate, List.flatMap_map]
      rfl
    have hfl : ((n :: first) :: rows).flatten = n :: ns := by rw [h1]; rfl
    refine ⟨lsWidth (n :: ns), (n :: first) :: rows, _, ?_, ⟨hfl, ?_, ⟨hw, x, hx, hxw⟩, rfl⟩, ?_⟩
    · unfold lsList
      dsimp only
      rw [if_neg (by omega), lsLoop, if_neg (by omega), h4]
      dsimp only
      rw [List.map_cons, ls_intercalate, hrow, List.flatMap_map]
      simp [List.append_assoc]
    · intro r hr
      rcases List.mem_cons.mp hr with e | hr
      · rw [e]; exact List.cons_ne_nil _ _
      · exact (h2 r hr).1
    · intro r hr
      have hsub : ∀ m ∈ r, m.length ≤ lsWidth (n :: ns) := fun m hm => hw m (by
        rw [← hfl]; exact List.mem_flatten.mpr ⟨r, hr, hm⟩)
      have hlen : r ≠ [] ∧ r.length ≤ lsNum cols (lsWidth (n :: ns)) := by
        rcases List.mem_cons.mp hr with e | hr
        · rw [e]
          refine ⟨List.cons_ne_nil _ _, ?_⟩
          rw [List.length_cons]
          rcases Nat.lt_or_ge 1 (lsNum cols (lsWidth (n :: ns))) with h | h
          · have := h3.1
            rw [Nat.mod_eq_of_lt h] at this
            omega
          · have e1 : lsNum cols (lsWidth (n :: ns)) = 1 := by omega
            rw [h3.2 (by rw [e1]), List.length_nil]
            omega
        · exact h2 r hr
      rw [lsRow_length _ r hlen.1 hsub]
      exact Nat.mul_le_mul_right _ hlen.2

/-- The rows fit the terminal if the longest name is not too short for it. -/
theorem C117_partial (cols : Nat) (names : List CStr) (hne : names ≠ []) (hn : ∀ n ∈ names, n ≠ [] ∧ n.length + 2 ≤ cols)
    (hl : ∃ n ∈ names, 2 * cols ≤ n.length * (n.length + 6) + 4) :
    ∃ width rows text, lsList cols false names = some text ∧ LsTable names width rows text ∧ ∀ r ∈ rows, (LsRow width r).length ≤ cols := by
  obtain ⟨width, rows, text, h1, h2, h3⟩ := C117_all cols names hne hn
  refine ⟨width, rows, text, h1, h2, fun r hr => ?_⟩
  have h := h3 r hr
  obtain ⟨m, hm, hml⟩ := hl
  have hmw := h2.wide.1 m hm
  have hpos : 0 < width := Nat.lt_of_lt_of_le (List.length_pos_iff.mpr (hn m hm).1) hmw
  have hml' : 2 * cols ≤ width * (width + 6) + 4 :=
    Nat.le_trans hml (Nat.add_le_add_right (Nat.mul_le_mul hmw (by omega)) 4)
  have hq : (cols - 2) / width * width ≤ cols - 2 := Nat.div_mul_le_self _ _
  have hm2 : m.length + 2 ≤ cols := (hn m hm).2
  have key : lsNum cols width * (width + 2) ≤ cols + 2 := by
    unfold lsNum
    dsimp only
    generalize hN : (cols - 2) / width = N at hq
    rw [Nat.mul_add]
    split
    · rename_i hc
      have hN2 : 2 * N ≤ width + 6 := by
        rcases Nat.lt_or_ge (width + 6) (2 * N) with h4 | h4
        · have h5 : (width + 7) * width ≤ 2 * N * width := Nat.mul_le_mul_right _ h4
          have h6 : (width + 7) * width = width * (width + 6) + width := by
            rw [Nat.add_mul, Nat.mul_add, Nat.mul_comm 7 width]; omega
          have h7 : 2 * N * width = 2 * (N * width) := Nat.mul_assoc _ _ _
          omega
        · exact h4
      have h5 : (N - 1) * width = N * width - width := by rw [Nat.sub_mul, Nat.one_mul]
      have h6 : width ≤ N * width := Nat.le_mul_of_pos_left _ hc.1
      have : (N - 1) * width = N * width - width := h5
      omega
    · rename_i hc
      rcases Nat.lt_or_ge N 1 with h4 | h4
      · have : N = 0 := by omega
        rw [this]; omega
      · have : (N - 1) * 2 + N * width ≤ cols := Nat.le_of_not_lt (fun x => hc ⟨h4, x⟩)
        omega
  omega

/-- On a terminal of 80 columns a name of ten characters or more is long enough. -/
theorem C117_terminal (names : List CStr) (hn : ∀ n ∈ names, n ≠ [] ∧ n.length ≤ 78) (hl : ∃ n ∈ names, 10 ≤ n.length) :
    ∃ width rows text, lsList 80 false names = some text ∧ LsTable names width rows text ∧ ∀ r ∈ rows, (LsRow width r).length ≤ 80 := by
  obtain ⟨m, hm, h10⟩ := hl
  refine C117_partial 80 names (fun e => by rw [e] at hm; cases hm) (fun n h => ⟨(hn n h).1, by have := (hn n h).2; omega⟩) ⟨m, hm, ?_⟩
  have : 10 * 16 ≤ m.length * (m.length + 6) := Nat.mul_le_mul h10 (by omega)
  omega

/-- With two names or more, one of which does not leave two columns of the terminal, the program is ended, also if JSON was asked for. -/
theorem C117_crash (cols : Nat) (json : Bool) (a b : CStr) (ns : List CStr) (h : ∃ n ∈ a :: b :: ns, n ≠ [] ∧ cols < n.length + 2) :
    lsList cols json (a :: b :: ns) = none := by
  obtain ⟨n, hn, hne, hlen⟩ := h
  have hw := (lsWidth_spec (List.cons_ne_nil a (b :: ns))).1 n hn
  have hp : 0 < n.length := List.length_pos_iff.mpr hne
  have hnum : lsNum cols (lsWidth (a :: b :: ns)) = 0 := by
    unfold lsNum
    dsimp only
    have e : (cols - 2) / lsWidth (a :: b :: ns) = 0 := Nat.div_eq_of_lt (by omega)
    rw [e, if_neg (by omega)]
  unfold lsList
  dsimp only
  rw [if_neg (by omega), hnum, lsLoop, if_neg (by omega), lsLoop, if_pos ⟨by omega, rfl⟩]

/-- A single name is shown whatever the terminal. -/
theorem C117_one (cols : Nat) (n : CStr) (h : n ≠ []) :
    lsList cols false [n] = some (n ++ ['\n', '\n']) ∧ lsList cols true [n] = some ('"' :: n ++ ['"', ']']) := by
  have hp : 0 < n.length := List.length_pos_iff.mpr h
  have hw : lsWidth [n] = n.length := if_pos hp
  unfold lsList
  dsimp only
  rw [hw]
  simp [lsCell, lsLoop, h]

example : lsList 3 false ["sshd.conf".toList] = some "sshd.conf\n\n".toList := (C117_one 3 "sshd.conf".toList (by decide)).1

theorem C117_full_false : ¬ C117_full := by
  intro h
  obtain ⟨_, _, text, h1, _⟩ := h 9 ["a.conf".toList, "long.conf".toList] (by decide) (by decide)
  rw [C117_crash 9 false _ _ [] ⟨"long.conf".toList, by decide, by decide, by decide⟩] at h1
  cases h1

/-- Thirteen files with the shortest names there are -/
def lsShort : List CStr := List.replicate 13 "a.conf".toList

/-- On a terminal of 80 columns twelve of them are printed in a row of 94 characters. -/
theorem C117_over : lsList 80 false lsShort =
    some (LsRow 6 (List.replicate 12 "a.conf".toList) ++ ['\n'] ++ "a.conf\n\n".toList) ∧
      (LsRow 6 (List.replicate 12 "a.conf".toList)).length = 94 := by
  unfold lsShort
  decide +kernel

/-! ## Examples -/

example : lsList 30 false ["dnsmasq.conf".toList, "sshd.conf".toList, "x.conf".toList] =
    some "dnsmasq.conf  sshd.conf   \nx.conf      \n\n".toList := by decide +kernel

example : ∃ width rows text, lsList 30 false ["dnsmasq.conf".toList, "sshd.conf".toList, "x.conf".toList] = some text ∧
    LsTable ["dnsmasq.conf".toList, "sshd.conf".toList, "x.conf".toList] width rows text ∧ ∀ r ∈ rows, (LsRow width r).length ≤ 30 :=
  C117_partial 30 _ (by decide) (by decide) ⟨"dnsmasq.conf".toList, by decide, by decide⟩

example : ∃ width rows text, lsList 80 false ["dnsmasq.conf".toList, "x.conf".toList] = some text ∧
    LsTable ["dnsmasq.conf".toList, "x.conf".toList] width rows text ∧ ∀ r ∈ rows, (LsRow width r).length ≤ 80 :=
  C117_terminal _ (by decide) ⟨"dnsmasq.conf".toList, by decide, by decide⟩

end Verif
