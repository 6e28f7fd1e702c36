import Verif.Conf
import Verif.CStrLemmas
import Verif.Props.PidFile

/-!
# C28, C29, C30, C38: environment, templates, file precedence, resource limits
-/

namespace Verif

/-! ## C29 -/

/-- Every `%i` replaced by `name`, read from left to right, nothing else changed. -/
def substI (name : CStr) : CStr → CStr
  | [] => []
  | [c] => [c]
  | c :: d :: r => if c = '%' ∧ d = 'i' then name ++ substI name r else c :: substI name (d :: r)

/-- C29 as stated.  It is false. -/
def C29_full : Prop := ∀ line name, name ≠ [] → instantiate line name = substI name line

theorem substI_cons (name : CStr) (c : Char) (s : CStr) (h : c ≠ '%' ∨ s.head? ≠ some 'i') :
    substI name (c :: s) = c :: substI name s := by
  cases s with
  | nil => simp [substI]
  | cons d r =>
    rw [substI, if_neg]
    · rintro ⟨h1, h2⟩
      rcases h with h | h
      · exact h h1
      · exact h (by rw [h2]; rfl)

theorem substI_free (name x y : CStr) (h : '%' ∉ x) : substI name (x ++ y) = x ++ substI name y := by
  induction x with
  | nil => rfl
  | cons c cs ih =>
    simp only [List.mem_cons, not_or] at h
    rw [List.cons_append, substI_cons _ _ _ (.inl (Ne.symm h.1)), ih h.2]
    rfl

theorem takeDropWhile (p : Char → Bool) (s : CStr) : s.takeWhile p ++ s.dropWhile p = s :=
  List.takeWhile_append_dropWhile

theorem not_mem_takeWhile (c : Char) (s : CStr) : c ∉ s.takeWhile (· ≠ c) := by
  intro h
  have := List.all_eq_true.mp (List.all_takeWhile (p := fun x => decide (x ≠ c)) (l := s)) c h
  simp at this

theorem head_dropWhile {c d : Char} {s r : CStr} (h : s.dropWhile (· ≠ c) = d :: r) : d = c := by
  induction s with
  | nil => cases h
  | cons x xs ih =>
    rw [List.dropWhile_cons] at h
    split at h
    · exact ih h
    · rename_i hx
      have e : x = d := (List.cons.inj h).1
      have hx : x = c := by simpa using hx
      exact e.symm.trans hx

theorem instLoop_ok (name : CStr) (hn : '%' ∉ name) (n : Nat) (a b : CStr) (hf : b.length < n) :
    instLoop name n a.length (a ++ b) = a ++ substI name b := by
  induction n generalizing a b with
  | zero => omega
  | succ n ih =>
    unfold instLoop
    dsimp only
    rw [List.drop_left]
    have hsplit := takeDropWhile (· ≠ '%') b
    have hfree := not_mem_takeWhile '%' b
    split
    · rename_i hd
      rw [hd, List.append_nil] at hsplit
      rw [hsplit] at hfree
      have := substI_free name b [] hfree
      rw [List.append_nil] at this
      rw [this]; simp [substI]
    · rename_i c rest hd
      have hc := head_dropWhile hd
      subst hc
      rw [hd] at hsplit
      generalize b.takeWhile (· ≠ '%') = x at hsplit hfree ⊢
      split
      · rename_i hi
        obtain ⟨post, rfl⟩ : ∃ post, rest = 'i' :: post := by
          cases rest with
          | nil => cases hi
          | cons d r => cases hi; exact ⟨r, rfl⟩
        have e1 : (a ++ b).take (a.length + x.length) = a ++ x := by
          rw [← hsplit, ← List.append_assoc, ← List.length_append, List.take_left]
        have e2 : (a ++ b).drop (a.length + x.length + 2) = post := by
          rw [← hsplit, ← List.append_assoc, ← List.length_append, List.drop_append, List.drop_of_length_le (by omega)]
          simp
        rw [e1, e2]
        -- the part the position skips is free of `%`
        have hlen : (x ++ name).length = x.length + name.length := List.length_append
        have e3 : a ++ x ++ name ++ post = (a ++ (x ++ name).take name.length) ++ ((x ++ name).drop name.length ++ post) := by
          have := List.take_append_drop name.length (x ++ name)
          calc a ++ x ++ name ++ post = a ++ (x ++ name) ++ post := by simp only [List.append_assoc]
            _ = a ++ ((x ++ name).take name.length ++ (x ++ name).drop name.length) ++ post := by rw [this]
            _ = _ := by simp only [List.append_assoc]
        have e4 : a.length + name.length = (a ++ (x ++ name).take name.length).length := by
          rw [List.length_append, List.length_take]; omega
        rw [e3, e4, ih]
        · have hfree2 : '%' ∉ (x ++ name).drop name.length := by
            intro h
            have := List.mem_of_mem_drop h
            simp [hfree, hn] at this
          rw [substI_free _ _ _ hfree2, ← hsplit, substI_free _ _ _ hfree]
          have e5 : substI name ('%' :: 'i' :: post) = name ++ substI name post := by
            rw [substI, if_pos ⟨rfl, rfl⟩]
          rw [e5]
          have := List.take_append_drop name.length (x ++ name)
          calc a ++ (x ++ name).take name.length ++ ((x ++ name).drop name.length ++ substI name post)
              = a ++ ((x ++ name).take name.length ++ (x ++ name).drop name.length) ++ substI name post := by simp only [List.append_assoc]
            _ = a ++ (x ++ name) ++ substI name post := by rw [this]
            _ = _ := by simp only [List.append_assoc]
        · have := congrArg List.length hsplit
          simp only [List.length_append, List.length_cons] at this
          rw [List.length_append, List.length_drop]; omega
      · rename_i hi
        cases x with
        | nil =>
          have hb : b = '%' :: rest := hsplit.symm
          rw [hb, show a ++ '%' :: rest = (a ++ ['%']) ++ rest by simp,
            show a.length + 1 = (a ++ ['%']).length by simp, ih, substI_cons _ _ _ (.inr hi)]
          · simp
          · rw [hb] at hf; simp only [List.length_cons] at hf; omega
        | cons y ys =>
          have hb : b = y :: (ys ++ '%' :: rest) := hsplit.symm
          have hy : y ≠ '%' := by
            intro e; exact hfree (by rw [e]; simp)
          rw [hb, show a ++ y :: (ys ++ '%' :: rest) = (a ++ [y]) ++ (ys ++ '%' :: rest) by simp,
            show a.length + 1 = (a ++ [y]).length by simp, ih, substI_cons _ _ _ (.inl hy)]
          · simp
          · rw [hb] at hf; simp only [List.length_cons] at hf; omega

/-- Missing from the full statement: instance names with a `%` in them. -/
theorem C29_instantiate_partial (line name : CStr) (h0 : name ≠ []) (hn : '%' ∉ name) :
    instantiate line name = substI name line := by
  unfold instantiate
  rw [if_neg h0]
  exact instLoop_ok name hn _ [] line (by omega)

example : instantiate "service :%i dhcp -i %i -- %d 100%%i".toList "eth0".toList =
    "service :eth0 dhcp -i eth0 -- %d 100%eth0".toList := by decide +kernel

/-- A template file does not change. -/
theorem C29_no_instance (line : CStr) : instantiate line [] = line := rfl

/-- A name with `%i` in it is put into itself. -/
theorem C29_name_with_percent : ¬ C29_full ∧
    instantiate "service %i".toList "a%i".toList = "service aaaaa%i".toList := by
  have h : instantiate "service %i".toList "a%i".toList = "service aaaaa%i".toList := by decide +kernel
  refine ⟨?_, h⟩
  intro hf
  have := hf "service %i".toList "a%i".toList (by decide)
  exact absurd (h.symm.trans this) (by decide +kernel)

/-! ## C30 -/

/-- The files called `b` in a list. -/
def called (b : CStr) (l : List CStr) : List CStr := l.filter (fun p => decide (basenm p = b))

/-- C30 as stated: of all files of the same name just the last is used.  It is false. -/
def C30_full : Prop :=
  ∀ dirs sys etc, (∀ p ∈ sys, inSysDir dirs p = true) → (∀ p ∈ etc, inSysDir dirs p = false) →
    ∀ b, called b (confFiles dirs (fun _ => true) (sys ++ etc)) =
      (called b (sys ++ etc)).getLast?.toList

theorem confFiles_etc (dirs : CStr × CStr) (ok : CStr → Bool) (etc : List CStr)
    (h : ∀ p ∈ etc, inSysDir dirs p = false) : confFiles dirs ok etc = etc.filter ok := by
  induction etc with
  | nil => rfl
  | cons p ps ih =>
    have h1 := h p (List.mem_cons_self ..)
    have h2 := ih fun q hq => h q (List.mem_cons_of_mem _ hq)
    unfold confFiles
    rw [h1, h2, Bool.false_and, List.filter_cons]
    rfl

/-- Missing from the full statement: two files of the same name in the two directories of the
    administrator (finit.d and finit.d/enabled) are both used.  For every name of which the
    administrator has at most one file, exactly the last of all files of that name is used (if it can
    be read); and the files are used in the order in which they were found. -/
theorem C30_override_partial (dirs : CStr × CStr) (ok : CStr → Bool) (sys etc : List CStr)
    (hs : ∀ p ∈ sys, inSysDir dirs p = true) (he : ∀ p ∈ etc, inSysDir dirs p = false) :
    List.Sublist (confFiles dirs ok (sys ++ etc)) (sys ++ etc) ∧
    ∀ b, (called b etc).length ≤ 1 →
      called b (confFiles dirs ok (sys ++ etc)) = (called b (sys ++ etc)).getLast?.toList.filter ok := by
  constructor
  · generalize sys ++ etc = l
    induction l with
    | nil => exact List.Sublist.refl _
    | cons p ps ih =>
      unfold confFiles
      split
      · exact ih.cons _
      · split
        · exact ih.cons_cons _
        · exact ih.cons _
  · intro b hb
    induction sys with
    | nil =>
      rw [List.nil_append, confFiles_etc dirs ok etc he]
      unfold called at hb ⊢
      rw [List.filter_filter]
      have e : etc.filter (fun a => decide (basenm a = b) && ok a) =
          (etc.filter (fun p => decide (basenm p = b))).filter ok := by
        rw [List.filter_filter]
        congr 1
        funext a
        rw [Bool.and_comm]
      rw [e]
      generalize etc.filter (fun p => decide (basenm p = b)) = l at hb
      match l, hb with
      | [], _ => rfl
      | [x], _ => rfl
    | cons p ps ih =>
      have hp := hs p (List.mem_cons_self ..)
      have ih := ih fun q hq => hs q (List.mem_cons_of_mem _ hq)
      rw [List.cons_append]
      unfold confFiles
      rw [hp, Bool.true_and]
      -- is p called b ?
      by_cases hpb : basenm p = b
      · by_cases hany : (ps ++ etc).any (fun q => decide (basenm p = basenm q)) = true
        · rw [if_pos hany, ih]
          have hne : called b (ps ++ etc) ≠ [] := by
            obtain ⟨q, hq, hqe⟩ := List.any_eq_true.mp hany
            intro hnil
            have : q ∈ called b (ps ++ etc) := by
              unfold called
              rw [List.mem_filter]
              refine ⟨hq, ?_⟩
              have : basenm p = basenm q := by simpa using hqe
              simp [← this, hpb]
            rw [hnil] at this; cases this
          have e : called b (p :: (ps ++ etc)) = p :: called b (ps ++ etc) := by
            unfold called; rw [List.filter_cons, if_pos (by simpa using hpb)]
          rw [e, List.getLast?_cons_of_ne_nil hne]
        · rw [if_neg hany]
          have hnil : called b (ps ++ etc) = [] := by
            unfold called
            rw [List.filter_eq_nil_iff]
            intro q hq hqb
            apply hany
            rw [List.any_eq_true]
            refine ⟨q, hq, ?_⟩
            have : basenm q = b := by simpa using hqb
            simp [this, hpb]
          have e : called b (p :: (ps ++ etc)) = [p] := by
            have : called b (p :: (ps ++ etc)) = p :: called b (ps ++ etc) := by
              unfold called; rw [List.filter_cons, if_pos (by simpa using hpb)]
            rw [this, hnil]
          rw [hnil] at ih
          rw [e]
          split
          · rename_i ho
            have : called b (p :: confFiles dirs ok (ps ++ etc)) = p :: called b (confFiles dirs ok (ps ++ etc)) := by
              unfold called; rw [List.filter_cons, if_pos (by simpa using hpb)]
            rw [this, ih]
            simp [ho]
          · rename_i ho
            rw [ih]
            simp [ho]
      · have e : called b (p :: (ps ++ etc)) = called b (ps ++ etc) := by
          unfold called; rw [List.filter_cons, if_neg (by simpa using hpb)]
        rw [e, ← ih]
        split
        · rfl
        · split
          · unfold called; rw [List.filter_cons, if_neg (by simpa using hpb)]
          · rfl

/-- The directories of a default build. -/
def sysDirs : CStr × CStr := ("/lib/finit/system".toList, "/run/finit/system".toList)

example : confFiles sysDirs (fun _ => true) (["/lib/finit/system/10-udev.conf", "/lib/finit/system/a.conf",
    "/run/finit/system/a.conf", "/etc/finit.d/10-udev.conf"].map String.toList) =
    ["/run/finit/system/a.conf", "/etc/finit.d/10-udev.conf"].map String.toList := by decide +kernel

/-- `enabled/` does not override `finit.d/`: both are used. -/
theorem C30_enabled_does_not_override : ¬ C30_full := by
  intro h
  have := h sysDirs [] ["/etc/finit.d/a.conf".toList, "/etc/finit.d/enabled/a.conf".toList]
    (by simp) (by decide +kernel) "a.conf".toList
  exact absurd this (by decide +kernel)

/-! ## C28 -/

/-- White space only. -/
def Blank (s : CStr) : Prop := ∀ c ∈ s, isSpace c = true

/-- Does not start with white space. -/
def NoLead (s : CStr) : Prop := ∀ c ∈ s.head?, isSpace c = false

/-- Does not end in white space. -/
def NoTrail (s : CStr) : Prop := ∀ c ∈ s.getLast?, isSpace c = false

/-- `w` is the value `v` as written in a line: as it is, or in quotes. -/
inductive Written : CStr → CStr → Prop
  | plain {v : CStr} (h1 : NoLead v) (h2 : NoTrail v) (h3 : ∀ c ∈ v.head?, c ≠ '"' ∧ c ≠ '\'') : Written v v
  | quoted {v : CStr} {q : Char} (hq : q = '"' ∨ q = '\'') : Written (q :: v ++ [q]) v

/-- A name for a variable: not empty, no white space, no `=`. -/
def KeyOk (k : CStr) : Prop := k ≠ [] ∧ (∀ c ∈ k, isSpace c = false) ∧ '=' ∉ k

/-- The line assigns the value `v` to `k`.  `set` is the keyword with the white space after it. -/
def Assigns (set : CStr) (line k v : CStr) : Prop :=
  ∃ ws0 ws1 ws2 ws3 w, Blank ws0 ∧ Blank ws1 ∧ Blank ws2 ∧ Blank ws3 ∧ Written w v ∧
    line = ws0 ++ (set ++ k ++ ws1 ++ '=' :: (ws2 ++ w ++ ws3))

/-- C28 as stated, for the two forms.  It is false. -/
def C28_full : Prop :=
  ∀ line k v, KeyOk k →
    (Assigns [] line k v → confParseEnv line = some (k, v)) ∧
    (∀ ws, ws ≠ [] → Blank ws → Assigns ("set".toList ++ ws) line k v → confParseEnv line = some (k, v))

theorem getLast_app {a b : CStr} (h : b ≠ []) : (a ++ b).getLast? = b.getLast? := by
  rw [List.getLast?_append]
  cases hb : b.getLast? with
  | none => exact absurd (List.getLast?_eq_none_iff.mp hb) h
  | some c => rfl

theorem skip_blank {ws t : CStr} (h : Blank ws) (ht : NoLead t) : (ws ++ t).dropWhile isSpace = t := by
  induction ws with
  | nil =>
    cases t with
    | nil => rfl
    | cons c cs =>
      have := ht c rfl
      simp [this]
  | cons c cs ih =>
    have hc := h c (List.mem_cons_self ..)
    rw [List.cons_append, List.dropWhile_cons, if_pos hc]
    exact ih fun d hd => h d (List.mem_cons_of_mem _ hd)

theorem trimEnd_blank {ws t : CStr} (h : Blank ws) (ht : NoTrail t) : trimEnd (t ++ ws) = t := by
  unfold trimEnd
  rw [List.reverse_append, skip_blank, List.reverse_reverse]
  · intro c hc; exact h c (List.mem_reverse.mp hc)
  · intro c hc
    rw [List.head?_reverse] at hc
    exact ht c hc

theorem takeWhile_ne {a b : CStr} {c : Char} (h : c ∉ a) :
    (a ++ c :: b).takeWhile (· ≠ c) = a ∧ (a ++ c :: b).dropWhile (· ≠ c) = c :: b := by
  induction a with
  | nil => simp
  | cons x xs ih =>
    simp only [List.mem_cons, not_or] at h
    have hx : decide (x ≠ c) = true := by simpa using Ne.symm h.1
    have := ih h.2
    simp only [List.cons_append, List.takeWhile_cons, List.dropWhile_cons, hx, if_true]
    exact ⟨congrArg _ this.1, this.2⟩

theorem Written.unquote {w v : CStr} (h : Written w v) : unquoteEnd w = v ∧ NoLead w ∧ NoTrail w := by
  cases h with
  | plain h1 h2 h3 =>
    refine ⟨?_, h1, h2⟩
    cases w with
    | nil => rfl
    | cons c cs =>
      have := h3 c rfl
      refine if_neg ?_
      rintro ⟨h | h, _⟩
      · exact this.1 h
      · exact this.2 h
  | @quoted v q hq =>
    have hs : isSpace q = false := by rcases hq with rfl | rfl <;> decide
    refine ⟨?_, ?_, ?_⟩
    · show unquoteEnd (q :: (v ++ [q])) = v
      have hl : (q :: (v ++ [q])).getLast? = some q := List.getLast?_concat (l := q :: v)
      have hd : (v ++ [q]).dropLast = v := by simp
      simp [unquoteEnd, hq, hl, hd]
    · intro c hc; cases hc; exact hs
    · intro c hc
      rw [List.getLast?_append] at hc
      cases hc; exact hs

theorem Blank.append {a b : CStr} (ha : Blank a) (hb : Blank b) : Blank (a ++ b) := by
  intro c hc
  rcases List.mem_append.mp hc with h | h
  · exact ha c h
  · exact hb c h

theorem Blank.eq_free {a : CStr} (ha : Blank a) : '=' ∉ a := by
  intro h
  exact absurd (ha _ h) (by decide)

/-- What the parser sees of an assignment. -/
theorem env_parts {set line k v : CStr} (h : Assigns set line k v) (hk : KeyOk k)
    (hs : set = [] ∨ ∃ ws, ws ≠ [] ∧ Blank ws ∧ set = "set".toList ++ ws) :
    confParseEnv line =
      (let key := if "set".toList.isPrefixOf (set ++ k) then (set ++ k).drop 3 else set ++ k
       let key := key.dropWhile isSpace
       if ∃ c ∈ key, isSpace c = true then none else some (key, v)) := by
  obtain ⟨ws0, ws1, ws2, ws3, w, h0, h1, h2, h3, hw, rfl⟩ := h
  obtain ⟨hu, hl, ht⟩ := hw.unquote
  obtain ⟨hk0, hks, hke⟩ := hk
  obtain ⟨k0, kr, rfl⟩ : ∃ k0 kr, k = k0 :: kr := by
    cases k with
    | nil => exact absurd rfl hk0
    | cons a b => exact ⟨a, b, rfl⟩
  have hkl : NoTrail (set ++ k0 :: kr) := by
    intro c hc
    rw [getLast_app (by simp)] at hc
    exact hks c (List.mem_of_getLast? hc)
  have hlead : NoLead (set ++ (k0 :: kr) ++ ws1 ++ '=' :: (ws2 ++ w ++ ws3)) := by
    intro c hc
    rcases hs with rfl | ⟨ws, _, _, rfl⟩
    · cases hc; exact hks _ (List.mem_cons_self ..)
    · cases hc; decide
  have heq : '=' ∉ set ++ (k0 :: kr) ++ ws1 := by
    have : '=' ∉ set := by
      rcases hs with rfl | ⟨ws, _, hb, rfl⟩
      · simp
      · intro h
        rcases List.mem_append.mp h with h | h
        · exact absurd h (by decide)
        · exact hb.eq_free h
    simp only [List.mem_append, not_or]
    exact ⟨⟨this, hke⟩, h1.eq_free⟩
  -- the trimmed line
  obtain ⟨r, hr, hrd⟩ : ∃ r, trimEnd (set ++ (k0 :: kr) ++ ws1 ++ '=' :: (ws2 ++ w ++ ws3)) =
      set ++ (k0 :: kr) ++ ws1 ++ '=' :: r ∧ r.dropWhile isSpace = w := by
    by_cases hwn : w = []
    · subst hwn
      refine ⟨[], ?_, rfl⟩
      rw [show set ++ (k0 :: kr) ++ ws1 ++ '=' :: (ws2 ++ [] ++ ws3) =
        (set ++ (k0 :: kr) ++ ws1 ++ ['=']) ++ (ws2 ++ ws3) by simp]
      rw [trimEnd_blank (h2.append h3)]
      intro c hc
      rw [getLast_app (by simp)] at hc
      cases hc; decide
    · refine ⟨ws2 ++ w, ?_, skip_blank h2 hl⟩
      rw [show set ++ (k0 :: kr) ++ ws1 ++ '=' :: (ws2 ++ w ++ ws3) =
        (set ++ (k0 :: kr) ++ ws1 ++ '=' :: (ws2 ++ w)) ++ ws3 by simp]
      rw [trimEnd_blank h3]
      intro c hc
      rw [show set ++ (k0 :: kr) ++ ws1 ++ '=' :: (ws2 ++ w) =
        (set ++ (k0 :: kr) ++ ws1 ++ '=' :: ws2) ++ w by simp, getLast_app hwn] at hc
      exact ht c hc
  unfold confParseEnv
  rw [skip_blank h0 hlead]
  simp only [hr, takeWhile_ne heq, List.drop_one, List.tail_cons, hrd, hu, trimEnd_blank h1 hkl]
  rw [if_pos (by simp)]

/-- Missing from the full statement: names that start with `set`, in a line without the keyword (or at
    boot, when the keyword has been removed before).  Otherwise exactly the variable and the value of
    the line are used. -/
theorem C28_env_partial (line k v : CStr) (hk : KeyOk k) :
    (¬ "set".toList <+: k → Assigns [] line k v → confParseEnv line = some (k, v)) ∧
    (∀ ws, ws ≠ [] → Blank ws → Assigns ("set".toList ++ ws) line k v → confParseEnv line = some (k, v)) := by
  have nosp : ¬ ∃ c ∈ k, isSpace c = true := by
    rintro ⟨c, hc, h⟩
    rw [hk.2.1 c hc] at h; cases h
  have lead : NoLead k := by
    intro c hc
    exact hk.2.1 c (List.mem_of_head? hc)
  constructor
  · intro hset h
    rw [env_parts h hk (.inl rfl), List.nil_append]
    dsimp only
    have hkey : (if "set".toList.isPrefixOf k = true then k.drop 3 else k) = k :=
      if_neg (by rw [List.isPrefixOf_iff_prefix]; exact hset)
    rw [hkey]
    have : k.dropWhile isSpace = k := skip_blank (ws := []) (by intro c hc; cases hc) lead
    rw [this, if_neg nosp]
  · intro ws hne hb h
    rw [env_parts h hk (.inr ⟨ws, hne, hb, rfl⟩)]
    dsimp only
    have hkey : (if "set".toList.isPrefixOf ("set".toList ++ ws ++ k) = true then ("set".toList ++ ws ++ k).drop 3
        else "set".toList ++ ws ++ k) = ws ++ k :=
      if_pos (by rw [List.isPrefixOf_iff_prefix, List.append_assoc]; exact List.prefix_append ..)
    rw [hkey, skip_blank hb lead, if_neg nosp]

example : confParseEnv "  set  foo = \"bar baz\"  ".toList = some ("foo".toList, "bar baz".toList) := by decide +kernel

example : Assigns [] "foo = \"bar baz\" ".toList "foo".toList "bar baz".toList :=
  ⟨[], [' '], [' '], [' '], "\"bar baz\"".toList, by simp [Blank], by simp [Blank]; decide, by simp [Blank]; decide,
   by simp [Blank]; decide, .quoted (v := "bar baz".toList) (.inl rfl), by decide⟩

/-- `settings=1` sets the variable `tings`. -/
theorem C28_set_prefix_lost : confParseEnv "settings=1".toList = some ("tings".toList, "1".toList) ∧ ¬ C28_full := by
  have e : confParseEnv "settings=1".toList = some ("tings".toList, "1".toList) := by decide +kernel
  refine ⟨e, ?_⟩
  intro h
  have := (h "settings=1".toList "settings".toList "1".toList ⟨by decide, by decide, by decide⟩).1
    ⟨[], [], [], [], "1".toList, by simp [Blank], by simp [Blank], by simp [Blank], by simp [Blank],
     .plain (by intro c hc; cases hc; decide) (by intro c hc; cases hc; decide) (by intro c hc; cases hc; decide), by decide⟩
  exact absurd (e.symm.trans this) (by decide)

/-- A line without `=`, or with white space inside the name, sets nothing; and no name that is set has
    white space in it. -/
theorem C28_bad_lines (line : CStr) :
    ('=' ∉ line → confParseEnv line = none) ∧
    (∀ k v, confParseEnv line = some (k, v) → ∀ c ∈ k, isSpace c = false) := by
  constructor
  · intro h
    unfold confParseEnv
    rw [if_neg]
    intro hm
    apply h
    unfold trimEnd at hm
    have := (List.dropWhile_sublist isSpace).subset (List.mem_reverse.mp hm)
    exact (List.dropWhile_sublist isSpace).subset (List.mem_reverse.mp this)
  · intro k v h
    unfold confParseEnv at h
    extract_lets l key0 val key1 key2 at h
    split at h
    · split at h
      · cases h
      · rename_i hn
        have h := (Prod.mk.inj (Option.some.inj h)).1
        rw [← h]
        intro c hc
        cases hs : isSpace c with
        | false => rfl
        | true => exact absurd ⟨c, hc, hs⟩ hn
    · cases h

/-! ## C38 -/

/-- `s` is the integer `n`, with optional white space and sign. -/
def IsInt (s : CStr) (n : Int) : Prop :=
  ∃ ws sign ds m, Blank ws ∧ Decimal ds m ∧ s = ws ++ sign ++ ds ∧
    ((sign = [] ∧ n = m) ∨ (sign = ['+'] ∧ n = m) ∨ (sign = ['-'] ∧ n = - (m : Int)))

theorem decimal_of_digits (s : CStr) (h0 : s ≠ []) (h : ∀ c ∈ s, isDigit c = true) : Decimal s (digits s) := by
  have dig : ∀ c : Char, isDigit c = true → c = Char.ofNat (48 + (c.toNat - 48)) ∧ c.toNat - 48 < 10 := by
    intro c hc
    have hc : 48 ≤ c.toNat ∧ c.toNat ≤ 57 := by simpa [isDigit] using hc
    refine ⟨?_, by omega⟩
    rw [show 48 + (c.toNat - 48) = c.toNat by omega, Char.ofNat_toNat]
  obtain ⟨n, hn⟩ : ∃ n, s.length = n := ⟨_, rfl⟩
  induction n generalizing s with
  | zero => exact absurd (List.eq_nil_of_length_eq_zero hn) h0
  | succ n ih =>
    obtain ⟨a, c, rfl⟩ : ∃ a c, s = a ++ [c] := ⟨s.dropLast, s.getLast h0, (List.dropLast_concat_getLast h0).symm⟩
    obtain ⟨e1, e2⟩ := dig c (h c (by simp))
    by_cases ha : a = []
    · subst ha
      have e : digits ([] ++ [c]) = c.toNat - 48 := by simp [digits]
      rw [e]
      have := Decimal.one (c.toNat - 48) e2
      rw [← e1] at this
      exact this
    · have hd := ih a ha (fun d hd => h d (by simp [hd])) (by simpa using hn)
      have := Decimal.snoc (c.toNat - 48) e2 hd
      rw [← e1] at this
      have e : digits (a ++ [c]) = 10 * digits a + (c.toNat - 48) := by
        unfold digits; rw [List.foldl_append]; show _ * 10 + _ = _; omega
      rw [e]; exact this

theorem strtonum_iff (s : CStr) (lo hi n : Int) :
    strtonum s lo hi = some n ↔ IsInt s n ∧ lo ≤ n ∧ n ≤ hi := by
  have body : ∀ (neg : Bool) (ds : CStr), (ds ≠ [] ∧ ∀ c ∈ ds, isDigit c = true) ↔ ∃ m, Decimal ds m := by
    intro _ ds
    constructor
    · rintro ⟨h0, h⟩; exact ⟨_, decimal_of_digits ds h0 h⟩
    · rintro ⟨m, h⟩
      refine ⟨?_, h.digits.1⟩
      cases h <;> simp
  constructor
  · intro h
    refine ⟨?_, strtonum_range h⟩
    unfold strtonum at h
    extract_lets neg ds m at h
    split at h
    · cases h
    · rename_i hd
      have hd : ds ≠ [] ∧ ∀ c ∈ ds, isDigit c = true := by
        refine ⟨fun e => hd (.inl e), ?_⟩
        by_cases hall : ∀ c ∈ ds, isDigit c = true
        · exact hall
        · exact absurd (.inr hall) hd
      split at h
      · cases h
      · have h := Option.some.inj h
        have hw : Blank (s.takeWhile isSpace) := by
          intro c hc
          exact List.all_eq_true.mp (List.all_takeWhile (p := isSpace) (l := s)) c hc
        have hs := takeDropWhile isSpace s
        have hdec := decimal_of_digits ds hd.1 hd.2
        have hm : m = if neg = true then - (digits ds : Int) else digits ds := rfl
        clear_value m
        -- the sign
        have hsign : ∃ sign, s.dropWhile isSpace = sign ++ ds ∧
            ((sign = [] ∧ neg = false) ∨ (sign = ['+'] ∧ neg = false) ∨ (sign = ['-'] ∧ neg = true)) := by
          have e1 : neg = (signOf (s.dropWhile isSpace)).1 := rfl
          have e2 : ds = (signOf (s.dropWhile isSpace)).2 := rfl
          clear_value neg ds
          generalize s.dropWhile isSpace = t at e1 e2
          unfold signOf at e1 e2
          split at e1
          · rename_i ht
            rw [if_pos ht] at e2
            cases t with
            | nil => cases ht
            | cons c cs => cases ht; exact ⟨['-'], by rw [e2]; rfl, .inr (.inr ⟨rfl, e1⟩)⟩
          · rename_i ht
            rw [if_neg ht] at e2
            split at e1
            · rename_i hp
              rw [if_pos hp] at e2
              cases t with
              | nil => cases hp
              | cons c cs => cases hp; exact ⟨['+'], by rw [e2]; rfl, .inr (.inl ⟨rfl, e1⟩)⟩
            · rename_i hp
              rw [if_neg hp] at e2
              exact ⟨[], by rw [e2]; rfl, .inl ⟨rfl, e1⟩⟩
        obtain ⟨sign, es, hsg⟩ := hsign
        refine ⟨s.takeWhile isSpace, sign, ds, digits ds, hw, hdec, ?_, ?_⟩
        · rw [List.append_assoc, ← es, hs]
        · rcases hsg with ⟨h1, h2⟩ | ⟨h1, h2⟩ | ⟨h1, h2⟩
          · left; refine ⟨h1, ?_⟩; rw [← h, hm, h2]; rfl
          · right; left; refine ⟨h1, ?_⟩; rw [← h, hm, h2]; rfl
          · right; right; refine ⟨h1, ?_⟩; rw [← h, hm, h2]; rfl
  · rintro ⟨⟨ws, sign, ds, m, hw, hd, rfl, hsg⟩, h1, h2⟩
    obtain ⟨c, cs, hcs⟩ : ∃ c cs, ds = c :: cs := by
      cases ds with
      | nil =>
        have := ((body true []).mpr ⟨m, hd⟩).1
        exact absurd rfl this
      | cons c cs => exact ⟨c, cs, rfl⟩
    have hdc : isDigit c = true := hd.digits.1 c (by rw [hcs]; simp)
    have hlead : NoLead (sign ++ ds) := by
      intro d hd'
      rcases hsg with ⟨rfl, _⟩ | ⟨rfl, _⟩ | ⟨rfl, _⟩
      · rw [hcs] at hd'
        cases hd'
        have : 48 ≤ c.toNat ∧ c.toNat ≤ 57 := by simpa [isDigit] using hdc
        simp [isSpace]; omega
      · cases hd'; decide
      · cases hd'; decide
    have e1 : (ws ++ sign ++ ds).dropWhile isSpace = sign ++ ds := by
      rw [List.append_assoc]; exact skip_blank hw hlead
    have e2 : signOf (sign ++ ds) = (decide (sign = ['-']), ds) := by
      rcases hsg with ⟨rfl, _⟩ | ⟨rfl, _⟩ | ⟨rfl, _⟩
      · have hm : c ≠ '-' := by rintro rfl; exact absurd hdc (by decide)
        have hp : c ≠ '+' := by rintro rfl; exact absurd hdc (by decide)
        rw [hcs]; simp [signOf, hm, hp]
      · simp [signOf]
      · simp [signOf]
    unfold strtonum
    simp only [e1, e2]
    rw [if_neg (by
      rintro (h | h)
      · rw [hcs] at h; cases h
      · exact h hd.digits.1), hd.digits.2]
    have e3 : (if decide (sign = ['-']) = true then - (m : Int) else m) = n := by
      rcases hsg with ⟨rfl, e⟩ | ⟨rfl, e⟩ | ⟨rfl, e⟩ <;> (rw [e]; rfl)
    rw [e3, if_neg (by omega)]

/-- Resources, setrlimit(2). -/
def resources : List (CStr × Nat) :=
  [("cpu", 0), ("fsize", 1), ("data", 2), ("stack", 3), ("core", 4), ("rss", 5), ("nproc", 6), ("nofile", 7),
   ("memlock", 8), ("as", 9), ("locks", 10), ("sigpending", 11), ("msgqueue", 12), ("nice", 13), ("rtprio", 14),
   ("rttime", 15)].map (fun p => (p.1.toList, p.2))

/-- `val` stands for the limit `v`: a number up to 2^32, or no limit. -/
def LimitIs (val : CStr) (v : Lim) : Prop :=
  (v = .inf ∧ (val = "unlimited".toList ∨ val = "infinity".toList)) ∨
  (∃ n, v = .num n ∧ IsInt val n ∧ 0 ≤ n ∧ n ≤ 4294967296)

/-- The words of a line. -/
def words (line : CStr) : List CStr := tokens (fun c => decide (c = ' ' ∨ c = '\t')) line

/-- The line asks to set the soft (or hard) limit of resource `r` to `v`. -/
def Asks (line : CStr) (soft : Bool) (r : Nat) (v : Lim) : Prop :=
  ∃ res val, (res, r) ∈ resources ∧ LimitIs val v ∧
    (words line = [res, val] ∨
     ∃ level more, words line = level :: res :: val :: more ∧
       (level = (if soft then "soft".toList else "hard".toList) ∨ level = "both".toList))

theorem limitIs_iff (val : CStr) (v : Lim) : limitOf val = some v ↔ LimitIs val v := by
  unfold limitOf
  unfold LimitIs
  split
  · rename_i h
    have hno : ∀ n, ¬ IsInt val n := by
      rintro n ⟨ws, sign, ds, m, _, hd, e, _⟩
      have hne : ds ≠ [] := by cases hd <;> simp
      have hl : val.getLast? = some (ds.getLast hne) := by
        rw [e, getLast_app hne, List.getLast?_eq_some_getLast hne]
      have hdig := hd.digits.1 _ (List.getLast_mem hne)
      generalize ds.getLast hne = c at hl hdig
      rcases h with rfl | rfl <;> (cases hl; exact absurd hdig (by decide))
    constructor
    · intro e; cases e; exact .inl ⟨rfl, h⟩
    · rintro (⟨rfl, _⟩ | ⟨n, _, hi, _⟩)
      · rfl
      · exact absurd hi (hno n)
  · rename_i h
    constructor
    · intro e
      cases hs : strtonum val 0 4294967296 with
      | none => rw [hs] at e; cases e
      | some n =>
        rw [hs] at e
        cases e
        have := (strtonum_iff val 0 4294967296 n).mp hs
        exact .inr ⟨n, rfl, this.1, this.2⟩
    · rintro (⟨_, hi⟩ | ⟨n, rfl, hi, h1, h2⟩)
      · exact absurd hi h
      · rw [(strtonum_iff val 0 4294967296 n).mpr ⟨hi, h1, h2⟩]; rfl

theorem str2rlim_iff (s : CStr) (r : Nat) : str2rlim s = some r ↔ (s, r) ∈ resources := by
  have mem : ∀ p, p ∈ rlimitNames ↔ p ∈ resources := by
    have h1 : ∀ p ∈ rlimitNames, p ∈ resources := by decide +kernel
    have h2 : ∀ p ∈ resources, p ∈ rlimitNames := by decide +kernel
    exact fun p => ⟨h1 p, h2 p⟩
  have uniq : ∀ p ∈ rlimitNames, ∀ q ∈ rlimitNames, p.1 = q.1 → p = q := by decide +kernel
  unfold str2rlim
  constructor
  · intro h
    cases hf : rlimitNames.find? (fun p => decide (p.1 = s)) with
    | none => rw [hf] at h; cases h
    | some p =>
      rw [hf] at h
      cases h
      have h1 := List.mem_of_find?_eq_some hf
      have h2 : p.1 = s := by simpa using List.find?_some hf
      rw [← h2]; exact (mem _).mp h1
  · intro h
    have h := (mem _).mpr h
    cases hf : rlimitNames.find? (fun p => decide (p.1 = s)) with
    | none =>
      rw [List.find?_eq_none] at hf
      have := hf _ h
      simp at this
    | some p =>
      have h1 := List.mem_of_find?_eq_some hf
      have h2 : p.1 = s := by simpa using List.find?_some hf
      have := uniq p h1 _ h h2
      rw [this]; rfl

/-- A limit of a resource becomes exactly what the line asks for; any limit the line does not ask for
    stays as it was. -/
theorem C38_rlimit (line : CStr) (arr : Nat → RLimit) (r : Nat) :
    (∀ v, Asks line true r v → (confParseRlimit line arr r).cur = v) ∧
    (∀ v, Asks line false r v → (confParseRlimit line arr r).max = v) ∧
    ((∀ v, ¬ Asks line true r v) → (confParseRlimit line arr r).cur = (arr r).cur) ∧
    ((∀ v, ¬ Asks line false r v) → (confParseRlimit line arr r).max = (arr r).max) := by
  have hw : (∀ level res val, rlimitWords line = some (level, res, val) ↔
      (words line = [res, val] ∧ level = "both".toList) ∨ ∃ more, words line = level :: res :: val :: more) := by
    intro level res val
    have e : rlimitWords line = match words line with
      | level :: limit :: val :: _ => some (level, limit, val)
      | [limit, val] => some ("both".toList, limit, val)
      | _ => none := rfl
    rw [e]
    generalize words line = l
    match l with
    | [] => simp
    | [a] => simp
    | [a, b] => simp [and_comm, eq_comm]
    | a :: b :: c :: d => simp
  have uniq : ∀ {a b : Nat} {s : CStr}, (s, a) ∈ resources → (s, b) ∈ resources → a = b := by
    intro a b s h1 h2
    have := ((str2rlim_iff s a).mpr h1).symm.trans ((str2rlim_iff s b).mpr h2)
    exact Option.some.inj this
  -- asking for a limit, in terms of the words
  have asks : ∀ soft v, Asks line soft r v ↔ ∃ level res val, rlimitWords line = some (level, res, val) ∧
      str2rlim res = some r ∧ limitOf val = some v ∧
      (level = (if soft then "soft".toList else "hard".toList) ∨ level = "both".toList) := by
    intro soft v
    constructor
    · rintro ⟨res, val, h1, h2, h | ⟨level, more, h, h3⟩⟩
      · exact ⟨"both".toList, res, val, (hw _ _ _).mpr (.inl ⟨h, rfl⟩), (str2rlim_iff _ _).mpr h1,
          (limitIs_iff _ _).mpr h2, .inr rfl⟩
      · exact ⟨level, res, val, (hw _ _ _).mpr (.inr ⟨more, h⟩), (str2rlim_iff _ _).mpr h1,
          (limitIs_iff _ _).mpr h2, h3⟩
    · rintro ⟨level, res, val, h, h1, h2, h3⟩
      refine ⟨res, val, (str2rlim_iff _ _).mp h1, (limitIs_iff _ _).mp h2, ?_⟩
      rcases (hw _ _ _).mp h with ⟨h, _⟩ | ⟨more, h⟩
      · exact .inl h
      · exact .inr ⟨level, more, h, h3⟩
  have ne1 : "hard".toList ≠ "soft".toList := by decide
  have ne2 : "both".toList ≠ "soft".toList := by decide
  have ne3 : "both".toList ≠ "hard".toList := by decide
  refine ⟨?_, ?_, ?_, ?_⟩
  · intro v h
    obtain ⟨level, res, val, h0, h1, h2, h3⟩ := (asks true v).mp h
    simp only [confParseRlimit, h0, h1, h2, if_true]
    rcases h3 with rfl | rfl
    · simp [setLimit]
    · simp [setLimit]
  · intro v h
    obtain ⟨level, res, val, h0, h1, h2, h3⟩ := (asks false v).mp h
    simp only [confParseRlimit, h0, h1, h2, if_true]
    rcases h3 with rfl | rfl
    · simp [setLimit]
    · simp [setLimit]
  · intro h
    rcases h0 : rlimitWords line with _ | ⟨level, res, val⟩
    · simp only [confParseRlimit, h0]
    · rcases h1 : str2rlim res with _ | r' <;> rcases h2 : limitOf val with _ | v <;>
        simp only [confParseRlimit, h0, h1, h2]
      · by_cases hr : r = r'
        · subst hr
          rw [if_pos rfl]
          unfold setLimit
          split
          · rename_i hl
            exact absurd ((asks true v).mpr ⟨level, res, val, h0, h1, h2, .inl hl⟩) (h v)
          · split
            · rfl
            · split
              · rename_i hl
                exact absurd ((asks true v).mpr ⟨level, res, val, h0, h1, h2, .inr hl⟩) (h v)
              · rfl
        · rw [if_neg hr]
  · intro h
    rcases h0 : rlimitWords line with _ | ⟨level, res, val⟩
    · simp only [confParseRlimit, h0]
    · rcases h1 : str2rlim res with _ | r' <;> rcases h2 : limitOf val with _ | v <;>
        simp only [confParseRlimit, h0, h1, h2]
      · by_cases hr : r = r'
        · subst hr
          rw [if_pos rfl]
          unfold setLimit
          split
          · rfl
          · split
            · rename_i hl
              exact absurd ((asks false v).mpr ⟨level, res, val, h0, h1, h2, .inl hl⟩) (h v)
            · split
              · rename_i hl
                exact absurd ((asks false v).mpr ⟨level, res, val, h0, h1, h2, .inr hl⟩) (h v)
              · rfl
        · rw [if_neg hr]

example : Asks "soft nofile 1024".toList true 7 (.num 1024) :=
  ⟨"nofile".toList, "1024".toList, by decide, .inr ⟨1024, rfl, ⟨[], [], "1024".toList, 1024, by simp [Blank],
    decimal_of_digits "1024".toList (by decide) (by decide), rfl, .inl ⟨rfl, rfl⟩⟩, by decide, by decide⟩,
   .inr ⟨"soft".toList, [], by decide +kernel, .inl rfl⟩⟩

example : let arr := confParseRlimit "core infinity".toList (fun _ => ⟨.num 5, .num 6⟩)
    arr 4 = ⟨.inf, .inf⟩ ∧ arr 7 = ⟨.num 5, .num 6⟩ := by decide +kernel

end Verif
