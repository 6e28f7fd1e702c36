import Verif.Initrc

/-!
# C116: initctl uses the configuration that Finit uses
-/

namespace Verif

/-! ## Specification -/

/-- A name that is not empty and is not special to the readers of the file: it begins with neither `=` nor a quote, and has no `#` or `\` -/
structure IrPlain (n : CStr) : Prop where
  full : n ≠ []
  first : n.head? ≠ some '=' ∧ n.head? ≠ some '"' ∧ n.head? ≠ some '\''
  chars : '#' ∉ n ∧ '\\' ∉ n

/-- The directory Finit is to use: that of the last `rcsd` line of all lines, or the default -/
def IrDir (drcsd : CStr) (lines : List CStr) (d : CStr) : Prop :=
  (∃ a l b, lines = a ++ l :: b ∧ rcsdOf l = some d ∧ ∀ x ∈ b, rcsdOf x = none) ∨ ((∀ x ∈ lines, rcsdOf x = none) ∧ d = drcsd)

/-- The full claim of C116 -/
def C116_full : Prop := ∀ conf dconf drcsd main others d, IrDir drcsd (main ++ others) d →
  (irBoot conf drcsd main others).2 = (conf, d) ∧ irSource (some (irBoot conf drcsd main others).1) dconf drcsd = some (conf, d)

/-! ## Lemmas -/

theorem irCut_plain : ∀ (s : CStr) (e : Bool), '#' ∉ s → irCut e s = s
  | [], _, _ => rfl
  | c :: r, e, h => by
    have hc : ¬ (c = '#' ∧ e = false) := fun x => h (x.1 ▸ List.mem_cons_self)
    rw [irCut, if_neg hc, irCut_plain r _ (fun x => h (List.mem_cons_of_mem _ x))]

theorem irCut_comment : ∀ (a b : CStr), '#' ∉ a → '\\' ∉ a → irCut false (a ++ '#' :: b) = a
  | [], b, _, _ => by rw [List.nil_append, irCut, if_pos ⟨rfl, rfl⟩]
  | c :: a, b, h, h2 => by
    have hc : ¬ (c = '#' ∧ false = false) := fun x => h (x.1 ▸ List.mem_cons_self)
    have hb : c ≠ '\\' := fun x => h2 (x ▸ List.mem_cons_self)
    rw [List.cons_append, irCut, if_neg hc, decide_eq_false hb, Bool.false_and,
      irCut_comment a b (fun x => h (List.mem_cons_of_mem _ x)) (fun x => h2 (List.mem_cons_of_mem _ x))]

theorem irJoins_plain {s : CStr} (h : '\\' ∉ s) : irJoins s = false := by
  unfold irJoins
  have : s.reverse.takeWhile (fun c => decide (c = '\\')) = [] := by
    cases hr : s.reverse with
    | nil => rfl
    | cons c r =>
      have hc : c ∈ s := List.mem_reverse.mp (by rw [hr]; exact List.mem_cons_self)
      rw [List.takeWhile_cons, if_neg (by simpa using fun e : c = '\\' => h (e ▸ hc))]
  rw [this]
  rfl

theorem irParse_line {l : CStr} (ls : List CStr) (h1 : irJoins (irCut false l) = false) (h2 : irCut false l ≠ []) :
    irParse none (l :: ls) = irCut false l :: irParse none ls := by
  rw [irParse]
  · rw [h1, if_neg (by decide), if_neg (fun x => h2 x.1)]
    rfl

theorem ir_key {key v : CStr} (hk : '=' ∉ key) (c : Char) (hc : c ≠ '=') (hq : c ≠ '"' ∧ c ≠ '\'') :
    fgetVal (key ++ '=' :: c :: v) key (· = '=') = .val (c :: v) := by
  have hp : ∀ x ∈ key, (!decide (x = '=')) = true := fun x hx => by
    have : x ≠ '=' := fun e => hk (e ▸ hx)
    simp [this]
  unfold fgetVal
  have h1 : (key ++ '=' :: c :: v).takeWhile (fun c => !decide (c = '=')) = key := by
    rw [List.takeWhile_append_of_pos hp, List.takeWhile_cons, if_neg (by decide), List.append_nil]
  have h2 : (key ++ '=' :: c :: v).dropWhile (fun c => !decide (c = '=')) = '=' :: c :: v := by
    rw [List.dropWhile_append_of_pos hp, List.dropWhile_cons, if_neg (by decide)]
  rw [if_neg (fun h => h h1), h2, List.dropWhile_cons, if_pos (by decide), List.dropWhile_cons, if_neg (by simpa using hc)]
  dsimp only
  unfold unquoteVal
  dsimp only
  rw [if_neg (fun h => h.elim hq.1 hq.2)]

theorem ir_other {key line : CStr} (h : line.takeWhile (fun c => !decide (c = '=')) ≠ key) : fgetVal line key (· = '=') = .none := by
  unfold fgetVal
  rw [if_pos h]

theorem ir_word {k v : CStr} (hk : '=' ∉ k) : (k ++ '=' :: v).takeWhile (fun c => !decide (c = '=')) = k := by
  rw [List.takeWhile_append_of_pos (fun x hx => by
    have : x ≠ '=' := fun e => hk (e ▸ hx)
    simp [this]), List.takeWhile_cons, if_neg (by decide), List.append_nil]

/-- The lines with no name in them -/
theorem ir_tail (st : Option CStr × Option CStr) :
    (irParse none ["FINIT_CGPATH=/sys/fs/cgroup".toList, "INIT_SOCKET=/run/finit/socket".toList, "INIT_MAGIC=0x03091969".toList]).foldl irLine
      (some st) = some st := by
  have e : irParse none ["FINIT_CGPATH=/sys/fs/cgroup".toList, "INIT_SOCKET=/run/finit/socket".toList, "INIT_MAGIC=0x03091969".toList] =
      ["FINIT_CGPATH=/sys/fs/cgroup".toList, "INIT_SOCKET=/run/finit/socket".toList, "INIT_MAGIC=0x03091969".toList] := by decide +kernel
  rw [e]
  obtain ⟨a, b⟩ := st
  have one : ∀ l : CStr, fgetVal l "FINIT_CONF".toList (· = '=') = .none → fgetVal l "FINIT_RCSD".toList (· = '=') = .none →
      irLine (some (a, b)) l = some (a, b) := by
    intro l h1 h2
    unfold irLine
    dsimp only
    rw [h1, h2]
  rw [List.foldl_cons, one _ (by decide +kernel) (by decide +kernel), List.foldl_cons, one _ (by decide +kernel) (by decide +kernel),
    List.foldl_cons, one _ (by decide +kernel) (by decide +kernel), List.foldl_nil]

/-- The line with the main file -/
theorem ir_conf (st : Option CStr × Option CStr) (x : CStr) (h : IrPlain x) : irLine (some st) ("FINIT_CONF=".toList ++ x) = some (some x, st.2) := by
  obtain ⟨a, b⟩ := st
  cases x with
  | nil => exact absurd rfl h.full
  | cons c r =>
    have h1 : fgetVal ("FINIT_CONF=".toList ++ c :: r) "FINIT_CONF".toList (· = '=') = .val (c :: r) :=
      ir_key (key := "FINIT_CONF".toList) (by decide) c (fun e => h.first.1 (by rw [e]; rfl))
        ⟨fun e => h.first.2.1 (by rw [e]; rfl), fun e => h.first.2.2 (by rw [e]; rfl)⟩
    have h2 : fgetVal ("FINIT_CONF=".toList ++ c :: r) "FINIT_RCSD".toList (· = '=') = .none :=
      ir_other (by
        have := ir_word (k := "FINIT_CONF".toList) (v := c :: r) (by decide)
        have e : "FINIT_CONF=".toList ++ c :: r = "FINIT_CONF".toList ++ '=' :: c :: r := rfl
        rw [e, this]; decide)
    unfold irLine
    dsimp only
    rw [h1, h2]

/-- The line with the directory -/
theorem ir_rcsd (st : Option CStr × Option CStr) (x : CStr) (h : IrPlain x) : irLine (some st) ("FINIT_RCSD=".toList ++ x) = some (st.1, some x) := by
  obtain ⟨a, b⟩ := st
  cases x with
  | nil => exact absurd rfl h.full
  | cons c r =>
    have h1 : fgetVal ("FINIT_RCSD=".toList ++ c :: r) "FINIT_RCSD".toList (· = '=') = .val (c :: r) :=
      ir_key (key := "FINIT_RCSD".toList) (by decide) c (fun e => h.first.1 (by rw [e]; rfl))
        ⟨fun e => h.first.2.1 (by rw [e]; rfl), fun e => h.first.2.2 (by rw [e]; rfl)⟩
    have h2 : fgetVal ("FINIT_RCSD=".toList ++ c :: r) "FINIT_CONF".toList (· = '=') = .none :=
      ir_other (by
        have := ir_word (k := "FINIT_RCSD".toList) (v := c :: r) (by decide)
        have e : "FINIT_RCSD=".toList ++ c :: r = "FINIT_RCSD".toList ++ '=' :: c :: r := rfl
        rw [e, this]; decide)
    unfold irLine
    dsimp only
    rw [h2, h1]

theorem ir_notin {p n : CStr} {c : Char} (hp : c ∉ p) (hn : c ∉ n) : c ∉ p ++ n := fun h =>
  (List.mem_append.mp h).elim hp hn

theorem irParse_plain (key x : CStr) (hk : '#' ∉ key ∧ '\\' ∉ key ∧ key ≠ []) (h : '#' ∉ x ∧ '\\' ∉ x) (ls : List CStr) :
    irParse none ((key ++ x) :: ls) = (key ++ x) :: irParse none ls := by
  have hc := irCut_plain (key ++ x) false (ir_notin hk.1 h.1)
  rw [irParse_line ls (by rw [hc]; exact irJoins_plain (ir_notin hk.2.1 h.2)) (by rw [hc]; simp [hk.2.2]), hc]

theorem irSource_saved (conf rcsd dconf drcsd : CStr) (hc : IrPlain conf) (hr : IrPlain rcsd) :
    irSource (some (irSave conf rcsd)) dconf drcsd = some (conf, rcsd) := by
  unfold irSource irSave
  dsimp only
  rw [irParse_plain "FINIT_CONF=".toList conf (by decide) hc.chars, irParse_plain "FINIT_RCSD=".toList rcsd (by decide) hr.chars,
    List.foldl_cons, ir_conf _ _ hc, List.foldl_cons, ir_rcsd _ _ hr, ir_tail]
  rfl

/-- The directory is that of the last line. -/
theorem irRcsd_dir : ∀ (lines : List CStr) (d0 : CStr), IrDir d0 lines (irRcsd d0 lines)
  | [], d0 => .inr ⟨fun x hx => (nomatch hx), rfl⟩
  | l :: ls, d0 => by
    have ih := irRcsd_dir ls ((rcsdOf l).getD d0)
    show IrDir d0 (l :: ls) (irRcsd ((rcsdOf l).getD d0) ls)
    rcases ih with ⟨a, x, b, h1, h2, h3⟩ | ⟨h1, h2⟩
    · exact .inl ⟨l :: a, x, b, by rw [h1]; rfl, h2, h3⟩
    · rw [h2]
      cases hl : rcsdOf l with
      | none =>
        refine .inr ⟨fun x hx => ?_, rfl⟩
        rcases List.mem_cons.mp hx with e | hx
        · exact e ▸ hl
        · exact h1 x hx
      | some d => exact .inl ⟨[], l, ls, rfl, hl, h1⟩

theorem irRcsd_quiet : ∀ (lines : List CStr) (d : CStr), (∀ x ∈ lines, rcsdOf x = none) → irRcsd d lines = d
  | [], _, _ => rfl
  | l :: ls, d, h => by
    show irRcsd ((rcsdOf l).getD d) ls = d
    rw [h l List.mem_cons_self]
    exact irRcsd_quiet ls d (fun x hx => h x (List.mem_cons_of_mem _ hx))

theorem irRcsd_append (a b : List CStr) (d : CStr) : irRcsd d (a ++ b) = irRcsd (irRcsd d a) b := by
  unfold irRcsd; rw [List.foldl_append]

theorem irRcsd_any {lines : List CStr} {d : CStr} (e : CStr) {a : List CStr} {l : CStr} {b : List CStr} (h1 : lines = a ++ l :: b)
    (h2 : rcsdOf l = some d) (h3 : ∀ x ∈ b, rcsdOf x = none) : irRcsd e lines = d := by
  rw [h1, irRcsd_append]
  show irRcsd ((rcsdOf l).getD _) b = d
  rw [h2]
  exact irRcsd_quiet b d h3

theorem irDir_eq {d0 d : CStr} {lines : List CStr} (h : IrDir d0 lines d) : irRcsd d0 lines = d := by
  rcases h with ⟨a, l, b, h1, h2, h3⟩ | ⟨h1, h2⟩
  · exact irRcsd_any d0 h1 h2 h3
  · rw [irRcsd_quiet lines d0 h1, h2]

theorem irRcsd_twice (main : List CStr) (d : CStr) : irRcsd (irRcsd d main) main = irRcsd d main := by
  rcases irRcsd_dir main d with ⟨a, l, b, h1, h2, h3⟩ | ⟨h1, h2⟩
  · exact irRcsd_any _ h1 h2 h3
  · exact irRcsd_quiet main _ h1

/-! ## C116 -/

/-- Finit uses the directory of the last `rcsd` line. -/
theorem C116_dir (conf drcsd : CStr) (main others : List CStr) (d : CStr) (h : IrDir drcsd (main ++ others) d) :
    (irBoot conf drcsd main others).2 = (conf, d) := by
  unfold irBoot
  dsimp only
  rw [irRcsd_twice, ← irRcsd_append, irDir_eq h]

/-- initctl uses the same main file and directory, if the names are plain and only the main file has `rcsd` lines. -/
theorem C116_partial (conf dconf drcsd : CStr) (main others : List CStr) (d : CStr) (h : IrDir drcsd (main ++ others) d)
    (ho : ∀ x ∈ others, rcsdOf x = none) (hc : IrPlain conf) (hd : IrPlain d) :
    (irBoot conf drcsd main others).2 = (conf, d) ∧ irSource (some (irBoot conf drcsd main others).1) dconf drcsd = some (conf, d) := by
  refine ⟨C116_dir conf drcsd main others d h, ?_⟩
  have e : irRcsd drcsd main = d := by
    have := irDir_eq h
    rwa [irRcsd_append, irRcsd_quiet others _ ho] at this
  unfold irBoot
  dsimp only
  rw [e]
  exact irSource_saved conf d dconf drcsd hc hd

/-- Without the file initctl uses what it was built with. -/
theorem C116_default (dconf drcsd : CStr) : irSource none dconf drcsd = some (dconf, drcsd) := rfl

/-- A name with `#` is cut there by initctl, and not by Finit. -/
theorem C116_comment (a b d dconf drcsd : CStr) (ha : IrPlain a) (hd : IrPlain d) :
    irSource (some (irSave (a ++ '#' :: b) d)) dconf drcsd = some (a, d) := by
  have hcut : irCut false ("FINIT_CONF=".toList ++ (a ++ '#' :: b)) = "FINIT_CONF=".toList ++ a := by
    rw [← List.append_assoc]
    exact irCut_comment _ b (ir_notin (by decide) ha.chars.1) (ir_notin (by decide) ha.chars.2)
  unfold irSource irSave
  dsimp only
  rw [irParse_line _ (by rw [hcut]; exact irJoins_plain (ir_notin (by decide) ha.chars.2)) (by rw [hcut]; simp), hcut,
    irParse_plain "FINIT_RCSD=".toList d (by decide) hd.chars,
    List.foldl_cons, ir_conf _ _ ha, List.foldl_cons, ir_rcsd _ _ hd, ir_tail]
  rfl

/-- With `finit.config=` on the command line of the kernel every call of initctl crashes. -/
theorem C116_crash (d dconf drcsd : CStr) : irSource (some (irSave [] d)) dconf drcsd = none := by
  have dead : ∀ ls : List CStr, ls.foldl irLine none = none := by
    intro ls
    induction ls with
    | nil => rfl
    | cons l ls ih => exact ih
  have h1 : irLine (some (none, none)) "FINIT_CONF=".toList = none := by decide +kernel
  unfold irSource irSave
  dsimp only
  rw [irParse_plain "FINIT_CONF=".toList [] (by decide) (by decide), List.append_nil, List.foldl_cons, h1, dead]

/-- An `rcsd` line in another file is used by Finit, but not told to initctl. -/
theorem C116_late (conf dconf drcsd : CStr) (main others : List CStr) (d e : CStr) (h : IrDir drcsd main d) (hc : IrPlain conf)
    (hd : IrPlain d) (h2 : IrDir drcsd (main ++ others) e) :
    irSource (some (irBoot conf drcsd main others).1) dconf drcsd = some (conf, d) ∧ (irBoot conf drcsd main others).2 = (conf, e) := by
  refine ⟨?_, C116_dir conf drcsd main others e h2⟩
  unfold irBoot
  dsimp only
  rw [irDir_eq h]
  exact irSource_saved conf d dconf drcsd hc hd

theorem C116_full_false : ¬ C116_full := by
  intro h
  have := (h [] "/etc/finit.conf".toList "/etc/finit.d".toList [] [] "/etc/finit.d".toList (.inr ⟨fun x hx => (nomatch hx), rfl⟩)).2
  rw [show (irBoot [] "/etc/finit.d".toList [] []).1 = irSave [] "/etc/finit.d".toList from rfl, C116_crash] at this
  cases this

/-! ## Examples -/

theorem irEtc : IrPlain "/etc/finit.conf".toList := ⟨by decide, by decide, by decide⟩

theorem irMy : IrPlain "/etc/my.d".toList := ⟨by decide, by decide, by decide⟩

theorem irMain : IrDir "/etc/finit.d".toList (["hostname x".toList, "rcsd /etc/my.d".toList] ++ ["task true".toList]) "/etc/my.d".toList :=
  .inl ⟨["hostname x".toList], "rcsd /etc/my.d".toList, ["task true".toList], rfl, by decide, by decide⟩

example : irSource (some (irBoot "/etc/finit.conf".toList "/etc/finit.d".toList ["hostname x".toList, "rcsd /etc/my.d".toList] ["task true".toList]).1)
    "/etc/finit.conf".toList "/etc/finit.d".toList = some ("/etc/finit.conf".toList, "/etc/my.d".toList) :=
  (C116_partial _ _ _ _ _ _ irMain (by decide) irEtc irMy).2

example : irSource (some (irSave "/etc/a#b".toList "/etc/my.d".toList)) [] [] = some ("/etc/a".toList, "/etc/my.d".toList) :=
  C116_comment "/etc/a".toList "b".toList "/etc/my.d".toList [] [] ⟨by decide, by decide, by decide⟩ irMy

example : irSource (some (irBoot "/etc/finit.conf".toList "/etc/finit.d".toList ["rcsd /etc/my.d".toList] ["rcsd /etc/other.d".toList]).1) [] "/etc/finit.d".toList =
      some ("/etc/finit.conf".toList, "/etc/my.d".toList) ∧
    (irBoot "/etc/finit.conf".toList "/etc/finit.d".toList ["rcsd /etc/my.d".toList] ["rcsd /etc/other.d".toList]).2 =
      ("/etc/finit.conf".toList, "/etc/other.d".toList) :=
  C116_late _ _ _ _ _ _ _ (.inl ⟨[], "rcsd /etc/my.d".toList, [], rfl, by decide, by decide⟩) irEtc irMy
    (.inl ⟨["rcsd /etc/my.d".toList], "rcsd /etc/other.d".toList, [], rfl, by decide, by decide⟩)

end Verif
