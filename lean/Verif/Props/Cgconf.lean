import Verif.Cgconf
import Verif.Props.Environ
import Verif.Props.Top

/-!
# C115: initctl cgroup shows the settings of each group
-/

namespace Verif

/-! ## Specification -/

/-- A size limit: none at all, or bytes -/
inductive CcLimit
  | max
  | bytes (n : Nat)
  deriving DecidableEq, Repr

/-- The settings of a group.  Controllers may be off: then a group has no such file. -/
structure CcGroup where
  current : Option Nat
  min : Option Nat
  max : Option CcLimit
  set : Option CStr
  weight : Option Nat
  cpuMax : Option CcLimit

/-- The kernel's file for a setting: the text, and a line feed or a blank and more -/
def CcFile (text : Option CStr) (file : Option (List Char)) : Prop :=
  match text with
  | none => file = none
  | some w => ∃ r, file = some (w ++ '\n' :: r) ∨ file = some (w ++ ' ' :: r)

def CcLimit.text : CcLimit → CStr
  | .max => "max".toList
  | .bytes n => Nat.toDigits 10 n

structure CcIs (g : CcGroup) (f : CcFiles) : Prop where
  current : CcFile (g.current.map (Nat.toDigits 10)) f.current
  min : CcFile (g.min.map (Nat.toDigits 10)) f.min
  max : CcFile (g.max.map CcLimit.text) f.max
  set : CcFile g.set f.set
  weight : CcFile (g.weight.map (Nat.toDigits 10)) f.weight
  cpuMax : CcFile (g.cpuMax.map CcLimit.text) f.cpuMax

/-- What the kernel can say: sets of CPUs are digits, commas and dashes, numbers have 64 bits. -/
structure CcGroup.Good (g : CcGroup) : Prop where
  current : ∀ n, g.current = some n → n < 2 ^ 61
  min : ∀ n, g.min = some n → n < 2 ^ 64
  max : ∀ n, g.max = some (.bytes n) → n < 2 ^ 61
  set : ∀ w, g.set = some w → ∀ c ∈ w, c.isDigit = true ∨ c = ',' ∨ c = '-'
  weight : ∀ n, g.weight = some n → n < 2 ^ 64
  cpuMax : ∀ n, g.cpuMax = some (.bytes n) → n < 2 ^ 64

/-- A column of six with all of a text, or with blanks if there is no setting -/
def ccCol (left : Bool) (s : Option CStr) : CStr :=
  let s := s.getD []
  if left then s ++ List.replicate (6 - s.length) ' ' else List.replicate (6 - s.length) ' ' ++ s

/-- Sizes are shown as in C110. -/
def CcLimit.size : CcLimit → CStr
  | .max => "max".toList
  | .bytes n => (szColumn n).dropWhile (· = ' ')

/-- The columns for a group -/
def CcGroup.row (g : CcGroup) : CStr :=
  '\r' :: szColumn (g.current.getD 0) ++ " [".toList ++ ccCol true (g.min.map (Nat.toDigits 10)) ++
    ccCol false (g.max.map CcLimit.size) ++ "] ".toList ++ ccCol false g.set ++ " [".toList ++
    ccCol true (g.weight.map (Nat.toDigits 10)) ++ ccCol false (g.cpuMax.map CcLimit.text) ++ "] ".toList

/-- The files of a list of groups -/
inductive CcAre : List CcGroup → List CcFiles → Prop
  | nil : CcAre [] []
  | cons {g f gs fs} : CcIs g f → CcAre gs fs → CcAre (g :: gs) (f :: fs)

/-- The full claim of C115 -/
def C115_full : Prop := ∀ gs fs, (∀ g ∈ gs, g.Good) → CcAre gs fs → ccShow fs = gs.map CcGroup.row

/-- All settings are there and none is longer than its column. -/
structure CcGroup.Whole (g : CcGroup) : Prop where
  min : ∃ n, g.min = some n ∧ n < 10 ^ 6
  set : ∃ w, g.set = some w ∧ w.length ≤ 6
  weight : ∃ n, g.weight = some n ∧ n < 10 ^ 6
  cpuMax : ∃ l, g.cpuMax = some l ∧ ∀ n, l = .bytes n → n < 10 ^ 6

/-! ## Lemmas -/

theorem cc_fgets : ∀ {k : Nat} {w s : List Char}, '\n' ∉ w → w.length ≤ k → (fgetsOne k (w ++ s)).1 = w ++ (fgetsOne (k - w.length) s).1
  | k, [], s, _, _ => rfl
  | 0, c :: w, s, _, h => absurd h (Nat.not_succ_le_zero _)
  | k + 1, c :: w, s, h, hl => by
    have hc : c ≠ '\n' := fun e => h (e ▸ List.mem_cons_self)
    rw [List.cons_append, fgetsOne, if_neg hc, cc_fgets (fun h' => h (List.mem_cons_of_mem _ h')) (Nat.le_of_succ_le_succ hl),
      List.length_cons, Nat.add_sub_add_right]
    rfl

theorem cc_stop {w s : List Char} (h : ∀ c ∈ w, isBlank c = false) (hs : s = [] ∨ ∃ r, s = ' ' :: r) :
    (w ++ s).takeWhile (fun c => !isBlank c) = w := by
  rw [List.takeWhile_append_of_pos (fun c hc => by rw [h c hc]; rfl)]
  rcases hs with e | ⟨r, e⟩
  · rw [e, List.takeWhile_nil, List.append_nil]
  · rw [e, List.takeWhile_cons, if_neg (by decide), List.append_nil]

theorem cc_chomp_word {w : List Char} (h : '\n' ∉ w) : chompLine w = w := by
  unfold chompLine
  rw [if_neg (fun e => h (List.mem_of_getLast? e))]

theorem ccVal_file {w : CStr} {file : Option (List Char)} {len : Nat} (h : CcFile (some w) file) (hw : ∀ c ∈ w, isBlank c = false ∧ c ≠ '\n')
    (hl : w.length < len) : ccVal len file = some w := by
  have hnl : '\n' ∉ w := fun hm => (hw _ hm).2 rfl
  have hb : ∀ c ∈ w, isBlank c = false := fun c hc => (hw c hc).1
  have key : ∀ d r, (d = '\n' ∨ d = ' ') → (chompLine (fgetsOne (len - 1) (w ++ d :: r)).1).takeWhile (fun c => !isBlank c) = w := by
    intro d r hd
    rw [cc_fgets hnl (by omega)]
    cases hk : len - 1 - w.length with
    | zero =>
      rw [fgetsOne, List.append_nil, cc_chomp_word hnl]
      have := cc_stop (s := []) hb (.inl rfl)
      rwa [List.append_nil] at this
    | succ j =>
      rcases hd with e | e
      · subst e
        rw [fgetsOne, if_pos rfl, chomp_line]
        have := cc_stop (s := []) hb (.inl rfl)
        rwa [List.append_nil] at this
      · subst e
        rw [fgetsOne, if_neg (by decide)]
        dsimp only
        unfold chompLine
        split
        · rw [List.dropLast_append_of_ne_nil (List.cons_ne_nil _ _)]
          refine cc_stop hb ?_
          cases (fgetsOne j r).1 with
          | nil => exact .inl rfl
          | cons x y => exact .inr ⟨_, rfl⟩
        · exact cc_stop hb (.inr ⟨_, rfl⟩)
  have hne : ∀ d r, ccVal len (some (w ++ d :: r)) = some ((chompLine (fgetsOne (len - 1) (w ++ d :: r)).1).takeWhile fun c => !isBlank c) := by
    intro d r
    cases hh : w ++ d :: r with
    | nil => simp at hh
    | cons x y => rfl
  obtain ⟨r, e | e⟩ := h
  · rw [e, hne, key _ _ (.inl rfl)]
  · rw [e, hne, key _ _ (.inr rfl)]

theorem ccVal_none {file : Option (List Char)} {len : Nat} (h : CcFile none file) : ccVal len file = none := by
  have e : file = none := h
  rw [e]; rfl

theorem cc_digit {n : Nat} : ∀ c ∈ Nat.toDigits 10 n, isBlank c = false ∧ c ≠ '\n' := by
  intro c hc
  have hd := Nat.isDigit_of_mem_toDigits (by decide) (by decide) hc
  constructor
  · cases hb : isBlank c with
    | false => rfl
    | true =>
      rcases (of_decide_eq_true hb : c = ' ' ∨ c = '\t') with e | e <;> (subst e; exact absurd hd (by decide))
  · intro e; subst e; exact absurd hd (by decide)

theorem cc_len {n k : Nat} (hk : 0 < k) (h : n < 10 ^ k) : (Nat.toDigits 10 n).length ≤ k :=
  (Nat.length_toDigits_le_iff (by decide) hk).mpr h

theorem cc_limit (l : CcLimit) : ∀ c ∈ l.text, isBlank c = false ∧ c ≠ '\n' := by
  cases l with
  | max =>
    show ∀ c ∈ "max".toList, _
    decide
  | bytes n => exact cc_digit

theorem cc_limit_len (l : CcLimit) (k : Nat) (hk : 3 ≤ k) (h : ∀ n, l = .bytes n → n < 10 ^ k) : l.text.length ≤ k := by
  cases l with
  | max => exact hk
  | bytes n => exact cc_len (by omega) (h n rfl)

theorem cc_set {w : CStr} (h : ∀ c ∈ w, c.isDigit = true ∨ c = ',' ∨ c = '-') : ∀ c ∈ w, isBlank c = false ∧ c ≠ '\n' := by
  intro c hc
  constructor
  · cases hb : isBlank c with
    | false => rfl
    | true =>
      rcases (of_decide_eq_true hb : c = ' ' ∨ c = '\t') with e | e <;> (subst e; exact absurd (h _ hc) (by decide))
  · intro e; subst e; exact absurd (h _ hc) (by decide)

theorem cc_num {g : Option Nat} {file : Option (List Char)} (h : CcFile (g.map (Nat.toDigits 10)) file) (hn : ∀ n, g = some n → n < 2 ^ 61) :
    ccNum file = g.getD 0 := by
  unfold ccNum
  cases g with
  | none => rw [ccVal_none h]; rfl
  | some n =>
    have := hn n rfl
    rw [ccVal_file (len := 42) h cc_digit (Nat.lt_of_le_of_lt (cc_len (k := 20) (by decide) (by omega)) (by decide))]
    exact tpNum_text (by omega) 0

theorem cc_digits_max (n : Nat) : Nat.toDigits 10 n ≠ "max".toList := by
  intro e
  have := Nat.isDigit_of_mem_toDigits (b := 10) (n := n) (c := 'm') (by decide) (by decide) (by rw [e]; decide)
  exact absurd this (by decide)

/-- The column of a size -/
theorem cc_size (n : Nat) : ccRight (szMem 32 n) = szColumn n := rfl

/-- A size does not begin with a blank. -/
theorem cc_size_first (n : Nat) : ((szMem 32 n).take 6).dropWhile (· = ' ') = (szMem 32 n).take 6 := by
  have key : ∀ (x : Nat) (s : CStr), ((strlcpy 32 (Nat.toDigits 10 x ++ s)).take 6).dropWhile (· = ' ') = (strlcpy 32 (Nat.toDigits 10 x ++ s)).take 6 := by
    intro x s
    cases hd : Nat.toDigits 10 x with
    | nil => exact absurd hd Nat.toDigits_ne_nil
    | cons c r =>
      have hc := Nat.isDigit_of_mem_toDigits (b := 10) (n := x) (c := c) (by decide) (by decide) (by rw [hd]; exact List.mem_cons_self)
      have hn : ¬ c = ' ' := by intro e; rw [e] at hc; exact absurd hc (by decide)
      show (List.take 6 (c :: List.take 30 (r ++ s))).dropWhile _ = _
      rw [List.take_succ_cons, List.dropWhile_cons, if_neg (by simpa using hn)]
      rfl
  unfold szMem
  split
  · decide
  · dsimp only
    split
    · rw [List.append_assoc]; exact key _ _
    · split
      · rw [List.append_assoc]; exact key _ _
      · rw [List.append_assoc]; exact key _ _

theorem cc_max {g : Option CcLimit} {file : Option (List Char)} (h : CcFile (g.map CcLimit.text) file)
    (hn : ∀ n, g = some (.bytes n) → n < 2 ^ 61) : ccRight (ccMemval 32 file) = ccCol false (g.map CcLimit.size) := by
  unfold ccMemval
  cases g with
  | none => rw [ccVal_none h]; rfl
  | some l =>
    cases l with
    | max =>
      rw [ccVal_file (len := 42) h (cc_limit .max) (by decide)]
      rfl
    | bytes n =>
      have hb := hn n rfl
      rw [ccVal_file (len := 42) h (cc_limit (.bytes n)) (Nat.lt_of_le_of_lt (cc_len (k := 20) (by decide) (by omega)) (by decide))]
      dsimp only
      rw [if_neg (show ¬ CcLimit.text (.bytes n) = "max".toList from cc_digits_max n), show CcLimit.text (.bytes n) = List.replicate 0 ' ' ++ Nat.toDigits 10 n from rfl,
        tpNum_text (by omega) 0, cc_size]
      have hs : CcLimit.size (.bytes n) = (szMem 32 n).take 6 := by
        show (List.replicate _ ' ' ++ (szMem 32 n).take 6).dropWhile (· = ' ') = _
        rw [List.dropWhile_append_of_pos (by intro c hc; simp [List.eq_of_mem_replicate hc]), cc_size_first]
      show _ = ccCol false (some (CcLimit.size (.bytes n)))
      rw [hs]
      rfl

theorem cc_left {s : CStr} (h : s.length ≤ 6) : ccLeft s = ccCol true (some s) := by
  unfold ccLeft
  rw [List.take_of_length_le h]
  rfl

theorem cc_right {s : CStr} (h : s.length ≤ 6) : ccRight s = ccCol false (some s) := by
  unfold ccRight
  rw [List.take_of_length_le h]
  rfl

/-! ## C115 -/

theorem cc_row_whole {g : CcGroup} {f : CcFiles} (hg : g.Good) (hw : g.Whole) (hi : CcIs g f) (cg : CcConf) (top : Bool) :
    ccRow top (ccConf cg f) = g.row := by
  obtain ⟨n, e1, h1⟩ := hw.min
  obtain ⟨w, e2, h2⟩ := hw.set
  obtain ⟨m, e3, h3⟩ := hw.weight
  obtain ⟨l, e4, h4⟩ := hw.cpuMax
  have i1 := hi.min
  have i2 := hi.set
  have i3 := hi.weight
  have i4 := hi.cpuMax
  rw [e1] at i1; rw [e2] at i2; rw [e3] at i3; rw [e4] at i4
  have l1 := cc_len (k := 6) (by decide) h1
  have l3 := cc_len (k := 6) (by decide) h3
  have l4 := cc_limit_len l 6 (by decide) h4
  have v1 := ccVal_file (len := 32) i1 cc_digit (by omega)
  have v2 := ccVal_file (len := 16) i2 (cc_set (hg.set w e2)) (by omega)
  have v3 := ccVal_file (len := 32) i3 cc_digit (by omega)
  have v4 := ccVal_file (len := 32) i4 (cc_limit l) (by omega)
  unfold ccRow CcGroup.row ccConf
  dsimp only
  rw [v1, v2, v3, v4, cc_num hi.current hg.current, cc_max hi.max hg.max, e1, e2, e3, e4]
  dsimp only [Option.getD_some, Option.map_some]
  rw [cc_left l1, cc_left l3, cc_right l4, cc_right h2]
  cases top <;> rfl

theorem cc_rows_whole : ∀ {gs : List CcGroup} {fs : List CcFiles}, (∀ g ∈ gs, g.Good ∧ g.Whole) → CcAre gs fs →
    ∀ cg top, ccRows top cg fs = gs.map CcGroup.row
  | [], _, _, .nil, _, _ => rfl
  | g :: gs, _, h, .cons (fs := fs) hi hr, cg, top => by
    obtain ⟨h1, h2⟩ := h g List.mem_cons_self
    rw [ccRows, cc_row_whole h1 h2 hi, List.map_cons,
      cc_rows_whole (fun x hx => h x (List.mem_cons_of_mem _ hx)) hr]

/-- If all groups have all settings, and none is longer than its column, every row shows those of its group. -/
theorem C115_partial (gs : List CcGroup) (fs : List CcFiles) (h : ∀ g ∈ gs, g.Good ∧ g.Whole) (hf : CcAre gs fs) :
    ccShow fs = gs.map CcGroup.row := cc_rows_whole h hf {} true

/-- What is shown for a setting that a group does not have is that of the group shown before it, and so on; nothing if no group
    before it has one.  The memory used and its limit are always those of the group.  It does not have a setting if there is no such file, or
    the file is empty. -/
theorem C115_stale (before : List CcFiles) (f : CcFiles) :
    let old := before.foldl ccConf {}
    let now := (before ++ [f]).foldl ccConf {}
    (f.min.getD [] = [] → now.min = old.min) ∧ (f.weight.getD [] = [] → now.weight = old.weight) ∧
    (f.cpuMax.getD [] = [] → now.cpuMax = old.cpuMax) ∧ (f.set.getD [] = [] → now.set = old.set) ∧
    (f.max.getD [] = [] → now.max = []) ∧ (f.current.getD [] = [] → now.vmsize = 0) ∧
    (ccShow (before ++ [f])).getLast? = some (ccRow (before.isEmpty) now) := by
  have hno : ∀ (len : Nat) (x : Option (List Char)), x.getD [] = [] → ccVal len x = none := by
    intro len x hx
    match x, hx with
    | none, _ => rfl
    | some [], _ => rfl
  have hlast : ∀ (fs : List CcFiles) (cg : CcConf) (top : Bool),
      (ccRows top cg (fs ++ [f])).getLast? = some (ccRow (top && fs.isEmpty) ((fs ++ [f]).foldl ccConf cg)) := by
    intro fs
    induction fs with
    | nil => intro cg top; cases top <;> rfl
    | cons x fs ih =>
      intro cg top
      rw [List.cons_append, ccRows]
      have hne : ccRows false (ccConf cg x) (fs ++ [f]) ≠ [] := by
        intro e
        have := ih (ccConf cg x) false
        rw [e] at this
        cases this
      rw [List.getLast?_cons_of_ne_nil hne, ih]
      simp
  dsimp only
  rw [List.foldl_append, List.foldl_cons, List.foldl_nil]
  refine ⟨fun e => ?_, fun e => ?_, fun e => ?_, fun e => ?_, fun e => ?_, fun e => ?_, ?_⟩
  · show (ccVal 32 f.min).getD _ = _; rw [hno _ _ e]; rfl
  · show (ccVal 32 f.weight).getD _ = _; rw [hno _ _ e]; rfl
  · show (ccVal 32 f.cpuMax).getD _ = _; rw [hno _ _ e]; rfl
  · show (ccVal 16 f.set).getD _ = _; rw [hno _ _ e]; rfl
  · show ccMemval 32 f.max = _; unfold ccMemval; rw [hno _ _ e]
  · show ccNum f.current = _; unfold ccNum; rw [hno _ _ e]
  · have := hlast before {} true
    rw [List.foldl_append, List.foldl_cons, List.foldl_nil, Bool.true_and] at this
    exact this

/-- The memory that is reserved is shown in bytes, and of a million bytes or more only the first six digits: too small a number. -/
theorem C115_min (n : Nat) (h : 10 ^ 6 ≤ n) (hb : n < 2 ^ 64) (cg : CcConf) (f : CcFiles) (hf : CcFile (some (Nat.toDigits 10 n)) f.min) :
    ccLeft (ccConf cg f).min = (Nat.toDigits 10 n).take 6 ∧ Nat.ofDigitChars 10 ((Nat.toDigits 10 n).take 6) 0 < n := by
  have hv : (ccConf cg f).min = Nat.toDigits 10 n := by
    show (ccVal 32 f.min).getD _ = _
    rw [ccVal_file (len := 32) hf cc_digit (Nat.lt_of_le_of_lt (cc_len (k := 20) (by decide) (by omega)) (by decide))]
    rfl
  have hlen : 6 < (Nat.toDigits 10 n).length := by
    apply Nat.lt_of_not_le
    intro hle
    have := (Nat.length_toDigits_le_iff (b := 10) (by decide) (by decide)).mp hle
    omega
  constructor
  · rw [hv]
    unfold ccLeft
    rw [List.length_take, Nat.min_eq_left (by omega)]
    simp
  · have hd : ∀ c ∈ (Nat.toDigits 10 n).take 6, c.isDigit = true := fun c hc =>
      Nat.isDigit_of_mem_toDigits (by decide) (by decide) (List.mem_of_mem_take hc)
    have hle : ((Nat.toDigits 10 n).take 6).length ≤ 6 := by rw [List.length_take]; omega
    have bound : ∀ (s : List Char) (a : Nat), (∀ c ∈ s, c.isDigit = true) → Nat.ofDigitChars 10 s a < (a + 1) * 10 ^ s.length := by
      intro s
      induction s with
      | nil => intro a _; rw [Nat.ofDigitChars_nil]; simp
      | cons c s ih =>
        intro a hs
        have hc := hs c List.mem_cons_self
        have h9 : c.toNat - '0'.toNat ≤ 9 := by
          unfold Char.isDigit at hc
          simp only [Bool.and_eq_true, decide_eq_true_eq] at hc
          have h2 : c.toNat ≤ 57 := hc.2
          have : '0'.toNat = 48 := rfl
          omega
        rw [Nat.ofDigitChars_cons, List.length_cons, Nat.pow_succ]
        refine Nat.lt_of_lt_of_le (ih _ (fun x hx => hs x (List.mem_cons_of_mem _ hx))) ?_
        rw [Nat.mul_comm (10 ^ s.length) 10, ← Nat.mul_assoc]
        refine Nat.mul_le_mul_right _ ?_
        omega
    have hb := bound _ 0 hd
    have hp : 10 ^ ((Nat.toDigits 10 n).take 6).length ≤ 10 ^ 6 := Nat.pow_le_pow_right (by decide) hle
    omega

/-- A group with all settings, and one without the controllers -/
def ccA : CcGroup := ⟨some 4096, some 0, some .max, some "0-3".toList, some 100, some .max⟩
def ccB : CcGroup := ⟨none, none, none, none, none, none⟩
def ccAFiles : CcFiles :=
  ⟨some "0\n".toList, some "max\n".toList, some "100\n".toList, some "max 100000\n".toList, some "0-3\n".toList, some "4096\n".toList⟩
def ccBFiles : CcFiles := ⟨none, none, none, none, none, none⟩

theorem ccA_is : CcIs ccA ccAFiles :=
  ⟨⟨[], .inl (by decide +kernel)⟩, ⟨[], .inl (by decide +kernel)⟩, ⟨[], .inl (by decide +kernel)⟩, ⟨[], .inl (by decide +kernel)⟩,
    ⟨[], .inl (by decide +kernel)⟩, ⟨"100000\n".toList, .inr (by decide +kernel)⟩⟩

theorem ccB_is : CcIs ccB ccBFiles := ⟨rfl, rfl, rfl, rfl, rfl, rfl⟩

theorem ccA_good : ccA.Good :=
  ⟨fun n h => (by cases h; decide), fun n h => (by cases h; decide), fun n h => (by cases h),
    fun w h => (by cases h; decide), fun n h => (by cases h; decide), fun n h => (by cases h)⟩

theorem ccB_good : ccB.Good :=
  ⟨fun n h => (by cases h), fun n h => (by cases h), fun n h => (by cases h), fun w h => (by cases h), fun n h => (by cases h), fun n h => (by cases h)⟩

/-- The full claim is false: a group without the cpu controller is shown with the weight and the CPUs of the group above it. -/
theorem C115_full_false : ¬ C115_full := by
  intro h
  have := h [ccA, ccB] [ccAFiles, ccBFiles]
    (by intro g hg
        rcases List.mem_cons.mp hg with e | hg
        · subst e; exact ccA_good
        · rw [List.mem_singleton] at hg; subst hg; exact ccB_good)
    (.cons ccA_is (.cons ccB_is .nil))
  revert this
  decide +kernel

/-! ## Examples -/

theorem ccA_whole : ccA.Whole :=
  ⟨⟨0, rfl, by decide⟩, ⟨_, rfl, by decide⟩, ⟨100, rfl, by decide⟩, ⟨_, rfl, fun n h => by cases h⟩⟩

example : ccShow [ccAFiles, ccAFiles] = ["\r  4.0k [0        max]    0-3 [100      max] ".toList, "\r  4.0k [0        max]    0-3 [100      max] ".toList] := by
  rw [C115_partial [ccA, ccA] _ (by intro g hg; have : g = ccA := by simpa using hg
                                    subst this; exact ⟨ccA_good, ccA_whole⟩) (.cons ccA_is (.cons ccA_is .nil))]
  decide +kernel

example : ([ccAFiles] ++ [ccBFiles]).foldl ccConf {} = { min := "0".toList, weight := "100".toList, cpuMax := "max".toList, set := "0-3".toList } := by
  decide +kernel

/-- 16 MiB are shown as 167772. -/
example : ccLeft (ccConf {} { ccBFiles with min := some "16777216\n".toList }).min = "167772".toList := by
  rw [(C115_min 16777216 (by decide) (by decide) {} _ ⟨[], .inl (by decide +kernel)⟩).1]
  decide +kernel

end Verif
