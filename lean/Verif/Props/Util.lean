import Verif.UtilLemmas

/-!
# C31, C32, C33: path clean-up, signal names, sizes
-/

namespace Verif

/-! ## C31 -/

/-- `s` has a component `..`. -/
def HasUp (s : CStr) : Prop := IsMember (· = '/') "..".toList s

/-- C31 as stated: no `..` component is left.  It is false. -/
def C31_full : Prop := ∀ s, ¬ HasUp (deDotdot s)

/-- A path that is just `..`, or one directory followed by `..`, is left as it is. -/
theorem C31_dotdot_can_stay : ¬ C31_full := by
  intro h
  refine h "pid/..".toList ⟨by decide, by decide, "pid/".toList, [], by decide +kernel, ?_, .inl rfl⟩
  exact .inr ⟨"pid".toList, '/', by decide, by decide⟩

/-- Missing from the full statement: the results `..`, `/..` and `x/..`.  In every other result no
    component is `..`; and in these the `..` is the last component, with at most one before it, so
    that no file below it is named. -/
theorem C31_dotdot_removed_partial (s : CStr) (h : HasUp (deDotdot s)) :
    deDotdot s = "..".toList ∨ ∃ x, '/' ∉ x ∧ x ≠ "..".toList ∧ deDotdot s = x ++ "/..".toList :=
  deDotdot_shape s h

example : HasUp (deDotdot "/../../pid/..".toList) :=
  ⟨by decide, by decide, "pid/".toList, [], by decide +kernel,
   .inr ⟨"pid".toList, '/', by decide, by decide⟩, .inl rfl⟩

example : deDotdot "/run/../../etc//./x/../passwd".toList = "etc/passwd".toList := by decide +kernel

/-- A path without `.`, `..` and empty components is not changed. -/
theorem C31_clean_path_unchanged (s : CStr)
    (h1 : ∀ t, s ≠ "./".toList ++ t) (h2 : ∀ t, s ≠ "../".toList ++ t)
    (h3 : ∀ a b, s ≠ a ++ "/./".toList ++ b) (h4 : ∀ a b, s ≠ a ++ "/../".toList ++ b)
    (h5 : ∀ a, s ≠ a ++ "/..".toList) (h6 : ∀ a b, s ≠ a ++ "//".toList ++ b) : deDotdot s = s := by
  have no : ∀ {pat : CStr}, (∀ a b, s ≠ a ++ pat ++ b) → strstr pat s = none := by
    intro pat h
    cases hs : strstr pat s with
    | none => rfl
    | some r => exact absurd (strstr_some (a := r.1) (b := r.2) hs) (h _ _)
  have pre : ∀ {p : CStr} (n : Nat), (∀ t, s ≠ p ++ t) → dropPre p n s = s := by
    intro p n h
    cases n with
    | zero => rfl
    | succ n =>
      unfold dropPre
      refine if_neg fun hp => ?_
      obtain ⟨t, ht⟩ := List.isPrefixOf_iff_prefix.mp hp
      exact h t ht.symm
  have d2 : ∀ n, dropDots n s = s := by
    intro n
    cases n with
    | zero => rfl
    | succ n => simp only [dropDots, no h3]
  have d3 : ∀ n, dropUps n s = s := by
    intro n
    cases n with
    | zero => rfl
    | succ n => simp only [dropUps, pre _ h2, no h4]
  have d4 : ∀ n, dropTail n s = s := by
    intro n
    cases n with
    | zero => rfl
    | succ n =>
      unfold dropTail
      refine if_neg fun hp => ?_
      obtain ⟨t, ht⟩ := List.isSuffixOf_iff_suffix.mp hp.2
      exact h5 t ht.symm
  have d5 : ∀ n, collapse n s = s := by
    intro n
    cases n with
    | zero => rfl
    | succ n => simp only [collapse, no h6]
  simp only [deDotdot, pre _ h1, d2, d3, d4, d5]

example : deDotdot "/var/run/a..b.pid".toList = "/var/run/a..b.pid".toList := by decide +kernel

/-! ## C32 -/

/-- The signals of Linux, signal(7). -/
def linuxSignals : List (Int × CStr) :=
  [(1, "HUP"), (2, "INT"), (3, "QUIT"), (4, "ILL"), (5, "TRAP"), (6, "ABRT"), (7, "BUS"), (8, "FPE"),
   (9, "KILL"), (10, "USR1"), (11, "SEGV"), (12, "USR2"), (13, "PIPE"), (14, "ALRM"), (15, "TERM"),
   (16, "STKFLT"), (17, "CHLD"), (18, "CONT"), (19, "STOP"), (20, "TSTP"), (21, "TTIN"), (22, "TTOU"),
   (23, "URG"), (24, "XCPU"), (25, "XFSZ"), (26, "VTALRM"), (27, "PROF"), (28, "WINCH"), (29, "IO"),
   (30, "PWR"), (31, "SYS")].map (fun p => (p.1, p.2.toList))

/-- Other names of the same signals. -/
def aliases : List (Int × CStr) := [(29, "POLL".toList), (6, "IOT".toList), (17, "CLD".toList)]

/-- `s` is a way to write the signal called `name`. -/
def Spells (s name : CStr) : Prop :=
  lower s = lower name ∨ lower s = lower ("SIG".toList ++ name)

/-- Lookup in a table, ignoring case. -/
def look (t : CStr) : List (Int × CStr) → Int
  | [] => -1
  | p :: ps => if caseEq t p.2 then p.1 else look t ps

theorem look_spec (t : CStr) (l : List (Int × CStr)) :
    (look t l = -1 ∧ ∀ p ∈ l, lower t ≠ lower p.2) ∨ ∃ p ∈ l, look t l = p.1 ∧ lower t = lower p.2 := by
  induction l with
  | nil => left; exact ⟨rfl, by simp⟩
  | cons p ps ih =>
    unfold look
    by_cases h : lower t = lower p.2
    · right
      exact ⟨p, List.mem_cons_self .., by rw [if_pos]; simpa [caseEq] using h, h⟩
    · rw [if_neg (by simpa [caseEq] using h)]
      rcases ih with ⟨h1, h2⟩ | ⟨q, hq, h1⟩
      · left
        refine ⟨h1, ?_⟩
        intro q hq
        rcases List.mem_cons.mp hq with rfl | hq
        · exact h
        · exact h2 q hq
      · right; exact ⟨q, List.mem_cons_of_mem _ hq, h1⟩

/-- A table in which a name has one number, and no number is -1. -/
def Sane (l : List (Int × CStr)) : Prop :=
  (∀ p ∈ l, p.1 ≠ -1) ∧ ∀ p ∈ l, ∀ q ∈ l, lower p.2 = lower q.2 → p.1 = q.1

theorem look_iff {l : List (Int × CStr)} (hl : Sane l) (t : CStr) (n : Int) (hn : n ≠ -1) :
    look t l = n ↔ ∃ name, (n, name) ∈ l ∧ lower t = lower name := by
  rcases look_spec t l with ⟨h1, h2⟩ | ⟨p, hp, h1, h2⟩
  · constructor
    · intro e; exact absurd (e.symm.trans h1) hn
    · rintro ⟨name, hm, e⟩; exact absurd e (h2 _ hm)
  · constructor
    · intro e
      refine ⟨p.2, ?_, h2⟩
      rw [← e, h1]; exact hp
    · rintro ⟨name, hm, e⟩
      rw [h1]
      exact hl.2 p hp _ hm (h2.symm.trans e)

theorem look_none {l : List (Int × CStr)} (hl : Sane l) (t : CStr) :
    look t l = -1 ↔ ∀ p ∈ l, lower t ≠ lower p.2 := by
  rcases look_spec t l with ⟨h1, h2⟩ | ⟨p, hp, h1, h2⟩
  · exact ⟨fun _ => h2, fun _ => h1⟩
  · constructor
    · intro e; exact absurd (h1.symm.trans e) (hl.1 p hp)
    · intro h; exact absurd h2 (h p hp)

theorem str2sigLoop_look (t : CStr) (i : Nat) (l : List CStr) :
    str2sigLoop t i l = look t ((l.zipIdx i).map (fun p => ((p.2 : Int), p.1))) := by
  induction l generalizing i with
  | nil => rfl
  | cons a as ih => simp only [str2sigLoop, List.zipIdx_cons, List.map_cons, look, ih]

theorem sigNumLoop_look (t : CStr) (off : Nat) (l : List (Int × CStr)) :
    sigNumLoop t off l = look t (l.map (fun p => (p.1, p.2.drop off))) := by
  induction l with
  | nil => rfl
  | cons a as ih => simp only [sigNumLoop, List.map_cons, look, ih]

theorem lower_take (n : Nat) (s : CStr) : lower (s.take n) = (lower s).take n := List.map_take

theorem lower_drop (n : Nat) (s : CStr) : lower (s.drop n) = (lower s).drop n := List.map_drop

theorem lower_append (a b : CStr) : lower (a ++ b) = lower a ++ lower b := List.map_append

/-- `s` starts with SIG, in any case. -/
theorem sig_split (s name : CStr) :
    caseEq (s.take 3) "SIG".toList = true →
    (lower (s.drop 3) = lower name ↔ lower s = lower ("SIG".toList ++ name)) := by
  intro h
  have h : (lower s).take 3 = lower "SIG".toList := by simpa [caseEq, lower_take] using h
  rw [lower_drop, lower_append, ← h]
  constructor
  · intro e; rw [← e, List.take_append_drop]
  · intro e
    have := congrArg (List.drop 3) e
    rw [this, h]
    have h3 : (lower "SIG".toList).length = 3 := by decide
    rw [← h3, List.drop_left]

theorem sig_no_split (s name : CStr) (h : caseEq (s.take 3) "SIG".toList = false) :
    lower s ≠ lower ("SIG".toList ++ name) := by
  intro e
  have h : (lower s).take 3 ≠ lower "SIG".toList := by simpa [caseEq, lower_take] using h
  apply h
  rw [e, lower_append]
  have h3 : (lower "SIG".toList).length = 3 := by decide
  rw [← h3, List.take_left]

theorem not_sig {s name : CStr} (h : caseEq (s.take 3) "SIG".toList = true)
    (hn : (lower name).take 3 ≠ lower "SIG".toList) : lower s ≠ lower name := by
  intro e
  have h : (lower s).take 3 = lower "SIG".toList := by simpa [caseEq, lower_take] using h
  exact hn (e ▸ h)

theorem names_not_sig : ∀ p ∈ linuxSignals ++ aliases, (lower p.2).take 3 ≠ lower "SIG".toList := by
  decide +kernel

/-- `initctl signal` and friends: the number of a name is that of signal(7), however the name is
    written. -/
theorem C32_name_to_number (s : CStr) (n : Int) (hn : n ≠ -1) :
    str2sig s = n ↔ ∃ name, (n, name) ∈ linuxSignals ∧ Spells s name := by
  have hl : ((sigTable.drop 1).zipIdx 1).map (fun p => ((p.2 : Int), p.1)) = linuxSignals := by
    decide +kernel
  have sane : Sane linuxSignals := by unfold Sane; decide +kernel
  unfold str2sig
  simp only [str2sigLoop_look, hl]
  cases hc : caseEq (s.take 3) "SIG".toList with
  | true =>
    rw [if_pos rfl, look_iff sane _ _ hn]
    constructor
    · rintro ⟨name, hm, e⟩
      exact ⟨name, hm, .inr ((sig_split s name hc).mp e)⟩
    · rintro ⟨name, hm, e | e⟩
      · exact absurd e (not_sig hc (names_not_sig _ (List.mem_append_left _ hm)))
      · exact ⟨name, hm, (sig_split s name hc).mpr e⟩
  | false =>
    rw [if_neg (by simp), look_iff sane _ _ hn]
    constructor
    · rintro ⟨name, hm, e⟩; exact ⟨name, hm, .inl e⟩
    · rintro ⟨name, hm, e | e⟩
      · exact ⟨name, hm, e⟩
      · exact absurd e (sig_no_split s name hc)

example : str2sig "sigTerm".toList = 15 ∧ str2sig "usr1".toList = 10 ∧ str2sig "SIGSIGHUP".toList = -1 := by
  decide +kernel

/-- The number of a name in the configuration (`halt:`, `reload:` ...), with the old names too. -/
theorem C32_config_name_to_number (s : CStr) (n : Int) (hn : n ≠ -1) :
    sigNum s = n ↔ ∃ name, (n, name) ∈ linuxSignals ++ aliases ∧ Spells s name := by
  have hl : ∀ p, p ∈ sigMap.map (fun p => (p.1, p.2.drop 3)) ↔ p ∈ linuxSignals ++ aliases := by
    have h1 : ∀ p ∈ sigMap.map (fun p => (p.1, p.2.drop 3)), p ∈ linuxSignals ++ aliases := by decide +kernel
    have h2 : ∀ p ∈ linuxSignals ++ aliases, p ∈ sigMap.map (fun p => (p.1, p.2.drop 3)) := by decide +kernel
    exact fun p => ⟨h1 p, h2 p⟩
  have hf : ∀ p ∈ sigMap, p.2 = "SIG".toList ++ p.2.drop 3 := by decide +kernel
  have sane0 : Sane (sigMap.map (fun p => (p.1, p.2.drop 0))) := by unfold Sane; decide +kernel
  have sane3 : Sane (sigMap.map (fun p => (p.1, p.2.drop 3))) := by unfold Sane; decide +kernel
  unfold sigNum
  rw [sigNumLoop_look]
  cases hc : caseEq (s.take 3) "SIG".toList with
  | true =>
    rw [if_pos rfl, look_iff sane0 _ _ hn]
    constructor
    · rintro ⟨full, hm, e⟩
      obtain ⟨p, hp, hpe⟩ := List.mem_map.mp hm
      cases hpe
      refine ⟨p.2.drop 3, (hl _).mp (List.mem_map.mpr ⟨p, hp, rfl⟩), .inr ?_⟩
      rw [← hf p hp]; exact e
    · rintro ⟨name, hm, e | e⟩
      · exact absurd e (not_sig hc (names_not_sig _ hm))
      · obtain ⟨p, hp, hpe⟩ := List.mem_map.mp ((hl _).mpr hm)
        cases hpe
        refine ⟨p.2, List.mem_map.mpr ⟨p, hp, rfl⟩, ?_⟩
        rw [e, ← hf p hp]
  | false =>
    rw [if_neg (by simp), look_iff sane3 _ _ hn]
    constructor
    · rintro ⟨name, hm, e⟩; exact ⟨name, (hl _).mp hm, .inl e⟩
    · rintro ⟨name, hm, e | e⟩
      · exact ⟨name, (hl _).mpr hm, e⟩
      · exact absurd e (sig_no_split s name hc)

example : sigNum "SIGPOLL".toList = 29 ∧ sigNum "cld".toList = 17 ∧ sigNum "9".toList = -1 := by
  decide +kernel

/-- Whatever is not a way to write a signal is rejected. -/
theorem C32_unknown_rejected (s : CStr) :
    ((∀ p ∈ linuxSignals, ¬ Spells s p.2) → str2sig s = -1) ∧
    ((∀ p ∈ linuxSignals ++ aliases, ¬ Spells s p.2) → sigNum s = -1) := by
  constructor
  · intro h
    by_cases hn : str2sig s = -1
    · exact hn
    · obtain ⟨name, hm, e⟩ := (C32_name_to_number s _ hn).mp rfl
      exact absurd e (h _ hm)
  · intro h
    by_cases hn : sigNum s = -1
    · exact hn
    · obtain ⟨name, hm, e⟩ := (C32_config_name_to_number s _ hn).mp rfl
      exact absurd e (h _ hm)

/-- From a number to its name and back. -/
theorem C32_number_to_name (n : Int) :
    (∀ name, (n, name) ∈ linuxSignals →
      sig2str n = name ∧ str2sig (sig2str n) = n ∧ sigNum (sigName n) = n) ∧
    ((∀ name, (n, name) ∉ linuxSignals) → sig2str n = [] ∧ sigName n = "SIGUNKOWN".toList) := by
  constructor
  · intro name h
    have : ∀ p ∈ linuxSignals, sig2str p.1 = p.2 ∧ str2sig (sig2str p.1) = p.1 ∧ sigNum (sigName p.1) = p.1 := by
      decide +kernel
    exact this _ h
  · intro h
    have key : ¬ (1 ≤ n ∧ n ≤ 31) := by
      intro hr
      have : ∀ k : Fin 31, ∃ p ∈ linuxSignals, p.1 = ((k : Nat) : Int) + 1 := by decide +kernel
      obtain ⟨p, hp, e⟩ := this ⟨(n - 1).toNat, by omega⟩
      have : p.1 = n := by rw [e]; simp only; omega
      exact h p.2 (this ▸ hp)
    constructor
    · unfold sig2str
      have hlen : sigTable.length = 32 := by decide
      rw [if_pos (by rw [hlen]; omega)]
    · unfold sigName
      have : sigMap.find? (fun p => decide (p.1 = n)) = none := by
        rw [List.find?_eq_none]
        intro p hp
        have hr : ∀ p ∈ sigMap, 1 ≤ p.1 ∧ p.1 ≤ 31 := by decide +kernel
        have := hr p hp
        simp only [decide_eq_true_eq]
        omega
      rw [this]

example : sigName 15 = "SIGTERM".toList ∧ sig2str 64 = [] := by decide +kernel

/-! ## C33 -/

/-- `s` is the number `n` in decimal. -/
inductive Decimal : CStr → Nat → Prop
  | one (d : Nat) (h : d < 10) : Decimal [Char.ofNat (48 + d)] d
  | snoc {s : CStr} {n : Nat} (d : Nat) (h : d < 10) (hs : Decimal s n) :
      Decimal (s ++ [Char.ofNat (48 + d)]) (10 * n + d)

/-- `s` is a size of `n` bytes. -/
inductive IsSize : CStr → Nat → Prop
  | plain {s : CStr} {n : Nat} (h : Decimal s n) : IsSize s n
  | kilo {s : CStr} {n : Nat} (h : Decimal s n) : IsSize (s ++ ['k']) (n * 1000)
  | mega {s : CStr} {n : Nat} (h : Decimal s n) : IsSize (s ++ ['M']) (n * 1000000)
  | giga {s : CStr} {n : Nat} (h : Decimal s n) : IsSize (s ++ ['G']) (n * 1000000000)

/-- C33 as stated: a size that fits is converted, anything else is rejected.  It is false. -/
def C33_full : Prop :=
  ∀ s, (∀ n, IsSize s n → n ≤ intMax → strtobytes s = .val n) ∧
    ((¬ ∃ n, IsSize s n ∧ n ≤ intMax) → strtobytes s = .bad)

theorem ofNat_digit (d : Nat) (h : d < 10) : (Char.ofNat (48 + d)).toNat = 48 + d := by
  have : ∀ d : Fin 10, (Char.ofNat (48 + d)).toNat = 48 + d := by decide
  exact this ⟨d, h⟩

theorem isDigit_ofNat (d : Nat) (h : d < 10) : isDigit (Char.ofNat (48 + d)) = true := by
  unfold isDigit
  rw [ofNat_digit d h]
  simp; omega

theorem Decimal.digits {s : CStr} {n : Nat} (h : Decimal s n) :
    (∀ c ∈ s, isDigit c = true) ∧ Verif.digits s = n := by
  induction h with
  | one d h =>
    refine ⟨?_, ?_⟩
    · intro c hc
      rw [List.mem_singleton.mp hc]; exact isDigit_ofNat d h
    · show 0 * 10 + ((Char.ofNat (48 + d)).toNat - 48) = d
      rw [ofNat_digit d h]; omega
  | snoc d h _ ih =>
    refine ⟨?_, ?_⟩
    · intro c hc
      rcases List.mem_append.mp hc with hc | hc
      · exact ih.1 c hc
      · rw [List.mem_singleton.mp hc]; exact isDigit_ofNat d h
    · unfold Verif.digits at ih ⊢
      rw [List.foldl_append, ih.2]
      show _ * 10 + ((Char.ofNat (48 + d)).toNat - 48) = _
      rw [ofNat_digit d h]; omega

theorem takeWhile_digits {s t : CStr} (h : ∀ c ∈ s, isDigit c = true)
    (ht : ∀ c ∈ t.head?, isDigit c = false) :
    (s ++ t).takeWhile isDigit = s ∧ (s ++ t).dropWhile isDigit = t := by
  induction s with
  | nil =>
    cases t with
    | nil => exact ⟨rfl, rfl⟩
    | cons c cs =>
      have := ht c (by simp)
      simp [this]
  | cons c cs ih =>
    have hc := h c (List.mem_cons_self ..)
    have := ih (fun d hd => h d (List.mem_cons_of_mem _ hd))
    simp [hc, this.1, this.2]

/-- Missing from the full statement: strings with more after the suffix, strings without a digit,
    and sizes over INT_MAX are not rejected.  A size that can be represented is converted exactly,
    and a string with anything but k, M or G after its digits is rejected. -/
theorem C33_sizes_partial (s : CStr) :
    (∀ n, IsSize s n → n ≤ intMax → strtobytes s = .val n) ∧
    (∀ ds c rest, s = ds ++ c :: rest → (∀ d ∈ ds, isDigit d = true) → isDigit c = false →
      c ∉ ['k', 'M', 'G'] → strtobytes s = .bad) := by
  constructor
  · intro n h hn
    cases h with
    | plain h =>
      obtain ⟨h1, h2⟩ := h.digits
      obtain ⟨e1, e2⟩ := takeWhile_digits (t := []) h1 (by simp)
      rw [List.append_nil] at e1 e2
      simp only [strtobytes, e1, e2, h2, mulLoop]
      rw [if_neg (by omega)]
    | @kilo s m h =>
      obtain ⟨h1, h2⟩ := h.digits
      obtain ⟨e1, e2⟩ := takeWhile_digits (t := ['k']) h1 (by decide)
      simp only [strtobytes, e1, e2, h2]
      simp only [Char.reduceEq, if_true, if_false, mulLoop]
      rw [if_neg (by omega), if_neg (by omega)]
    | @mega s m h =>
      obtain ⟨h1, h2⟩ := h.digits
      obtain ⟨e1, e2⟩ := takeWhile_digits (t := ['M']) h1 (by decide)
      simp only [strtobytes, e1, e2, h2]
      simp only [Char.reduceEq, if_true, if_false, mulLoop]
      rw [if_neg (by omega), if_neg (by omega), if_neg (by omega), Nat.mul_assoc]
    | @giga s m h =>
      obtain ⟨h1, h2⟩ := h.digits
      obtain ⟨e1, e2⟩ := takeWhile_digits (t := ['G']) h1 (by decide)
      simp only [strtobytes, e1, e2, h2]
      simp only [if_true, mulLoop]
      rw [if_neg (by omega), if_neg (by omega), if_neg (by omega), if_neg (by omega), Nat.mul_assoc, Nat.mul_assoc]
  · intro ds c rest e h hc hk
    obtain ⟨_, e2⟩ := takeWhile_digits (t := c :: rest) h (by simpa using hc)
    subst e
    simp only [List.mem_cons, List.not_mem_nil, or_false, not_or] at hk
    simp only [strtobytes, e2, if_neg hk.1, if_neg hk.2.1, if_neg hk.2.2]

example : IsSize "10k".toList 10000 :=
  .kilo (s := "10".toList) (n := 10) (.snoc (s := "1".toList) (n := 1) 0 (by decide) (.one 1 (by decide)))

example : strtobytes "10k".toList = .val 10000 ∧ strtobytes "10x".toList = .bad := by decide

theorem IsSize.last {s : CStr} {n : Nat} (h : IsSize s n) :
    ∃ c, s.getLast? = some c ∧ (isDigit c = true ∨ c ∈ ['k', 'M', 'G']) := by
  cases h with
  | plain h =>
    cases h with
    | one _ h => exact ⟨_, rfl, .inl (isDigit_ofNat _ h)⟩
    | snoc d h _ => exact ⟨Char.ofNat (48 + d), by simp, .inl (isDigit_ofNat d h)⟩
  | kilo h => exact ⟨'k', by simp, .inr (by decide)⟩
  | mega h => exact ⟨'M', by simp, .inr (by decide)⟩
  | giga h => exact ⟨'G', by simp, .inr (by decide)⟩

/-- `10kx` is taken for 10000 bytes, the empty string for 0, and 3G overflows an int. -/
theorem C33_not_every_bad_size_rejected : ¬ C33_full ∧
    strtobytes "10kx".toList = .val 10000 ∧ strtobytes [] = .val 0 ∧ strtobytes "3G".toList = .ub := by
  refine ⟨?_, by decide, by decide, by decide⟩
  intro h
  have := (h "10kx".toList).2 (by
    rintro ⟨n, hs, _⟩
    obtain ⟨c, hc, hd⟩ := hs.last
    cases hc
    exact absurd hd (by decide))
  exact absurd this (by decide)

end Verif
