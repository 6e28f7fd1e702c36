import Verif.Output
import Verif.CStrLemmas
import Verif.Props.Util
import Verif.Props.Notify
import Verif.Props.Sulogin
import Verif.Props.Rotate

/-!
# C87: What a service prints is logged as configured
-/

namespace Verif

/-! ## Specification -/

/-- A line of output: one that begins with `<N>`, N from 0 to 7, has that level; any other has the default level. -/
inductive LineSays (dflt : Nat) : CStr → Nat → CStr → Prop
  | marked (d : Nat) (h : d < 8) (t : CStr) : LineSays dflt ('<' :: Char.ofNat (48 + d) :: '>' :: t) d t
  | plain (t : CStr) (h : ∀ d < 8, ∀ r, t ≠ '<' :: Char.ofNat (48 + d) :: '>' :: r) : LineSays dflt t dflt t

/-- The messages of the lines, in their order: each with the tag, the facility and the level it should have -/
inductive Logged (tag : CStr) (fac lvl : Nat) : List CStr → List LogMsg → Prop
  | nil : Logged tag fac lvl [] []
  | cons {line : CStr} {n : Nat} {t : CStr} {ls : List CStr} {ms : List LogMsg} (h : LineSays lvl line n t)
      (hs : Logged tag fac lvl ls ms) :
      Logged tag fac lvl (line :: ls) ({ tag := tag, pri := fac + n, text := t ++ ['\n'] } :: ms)

/-- What the line says about priorities: `prio:F.L` gives the codes of the facility and the level, none gives `daemon.info`.
    The codes are those of <syslog.h>. -/
def PrioSays (l : LogCfg) (fac lvl : Nat) : Prop :=
  (l.prio = [] ∧ fac = 24 ∧ lvl = 6) ∨
  ∃ F L, l.prio = F ++ '.' :: L ∧ '.' ∉ F ∧ (F, (fac : Int)) ∈ facilityNames ∧ (L, (lvl : Int)) ∈ priorityNames

/-- One setting of a `log` line -/
inductive LogPart
  | size (v : CStr) (n : Nat)
  | count (v : CStr) (n : Nat)

/-- As it is written, with `:` -/
def LogPart.text : LogPart → CStr
  | .size v _ => "size:".toList ++ v
  | .count v _ => "count:".toList ++ v

/-- The value is a number or a size, see C33 -/
def LogPart.Ok : LogPart → Prop
  | .size v n | .count v n => IsSize v n ∧ n ≤ intMax

/-- The settings for all that is started from now on -/
def LogPart.set (s : Int × Int) : LogPart → Int × Int
  | .size _ n => (n, s.2)
  | .count _ n => (s.1, n)

/-- The `static` variables never disagree with the settings in use -/
def LogSet.Ok (s : LogSet) : Prop := (s.size < 0 ∨ s.size = s.sizeMax) ∧ (s.count < 0 ∨ s.count = s.countMax)

/-- A service that logs, but not to the console or nowhere -/
def LogCfg.Real (l : LogCfg) : Prop := l.enabled = true ∧ l.null = false ∧ l.console = false

/-- The full claim: whatever program there is for it, the output of a service with a log file goes to that file, with the size and
    the number of versions set; and that of one without a file to the system log, with its tag, facility and level. -/
def C87_full : Prop :=
  ∀ (E : OutEnv) (ident : CStr) (notify : LNotify) (l : LogCfg), E.pty = true → 0 ≤ E.sizeMax → E.sizeMax ≤ intMax →
    0 ≤ E.countMax → E.countMax ≤ intMax → E.sysklogd = false → l.Real →
    (l.file.head? = some '/' → ∃ argv cfg, redirect E ident notify l = .prog logitPath argv ∧ E.logit = true ∧
      logitArgs argv.tail {} = some cfg ∧ cfg.file = some l.file ∧ cfg.size = E.sizeMax ∧ cfg.num = E.countMax) ∧
    (l.file = [] → ∀ fac lvl, PrioSays l fac lvl → ∃ argv cfg, redirect E ident notify l = .prog logitPath argv ∧
      logitArgs argv.tail {} = some cfg ∧ cfg.file = none ∧
      ∀ user lines, (∀ x ∈ lines, '\n' ∉ x ∧ x.length < 511) →
        Logged (if l.ident ≠ [] then l.ident else ident) fac lvl lines
          (logitRun user cfg (lines.flatMap (· ++ ['\n']))))

/-! ## Numbers -/

theorem digits_toDigits (n : Nat) : digits (Nat.toDigits 10 n) = n := by
  have h := decVal_toDigits n
  unfold decVal at h
  unfold digits
  rw [show (fun (n : Nat) (c : Char) => n * 10 + (c.toNat - 48)) = (fun v c => 10 * v + (c.toNat - 48)) from by
    funext v c; omega]
  exact h

theorem toDigits_isDigit {n : Nat} {c : Char} (h : c ∈ Nat.toDigits 10 n) : isDigit c = true := by
  have := Nat.isDigit_of_mem_toDigits (by decide) (by decide) h
  unfold Char.isDigit at this
  unfold isDigit
  simp only [Bool.and_eq_true, decide_eq_true_eq, UInt32.le_iff_toNat_le] at this
  simp only [decide_eq_true_eq]
  exact this

theorem atoi_toDigits (n : Nat) (h : n ≤ intMax) : atoi (Nat.toDigits 10 n) = n := by
  have hd : ∀ c ∈ Nat.toDigits 10 n, isDigit c = true := fun c hc => toDigits_isDigit hc
  have hne : Nat.toDigits 10 n ≠ [] := Nat.toDigits_ne_nil
  have hs : (Nat.toDigits 10 n).dropWhile isSpace = Nat.toDigits 10 n := by
    cases hx : Nat.toDigits 10 n with
    | nil => rfl
    | cons c cs =>
      have hc := hd c (hx ▸ List.mem_cons_self)
      rw [List.dropWhile_cons_of_neg]
      unfold isDigit at hc
      rw [decide_eq_true_eq] at hc
      unfold isSpace
      rw [decide_eq_true_eq]
      omega
  have hsg : signOf (Nat.toDigits 10 n) = (false, Nat.toDigits 10 n) := by
    cases hx : Nat.toDigits 10 n with
    | nil => rfl
    | cons c cs =>
      have hc := hd c (hx ▸ List.mem_cons_self)
      have h1 : c ≠ '-' := fun e => absurd (e ▸ hc) (by decide)
      have h2 : c ≠ '+' := fun e => absurd (e ▸ hc) (by decide)
      unfold signOf
      rw [if_neg (by simpa using h1), if_neg (by simpa using h2)]
  have ht : (Nat.toDigits 10 n).takeWhile isDigit = Nat.toDigits 10 n := by
    have := (takeWhile_digits (t := []) hd (by simp)).1
    rwa [List.append_nil] at this
  unfold atoi
  rw [hs, hsg]
  dsimp only
  rw [ht, digits_toDigits, if_neg (by decide)]
  unfold intMax at h
  omega

theorem intText_nat {i : Int} (h : 0 ≤ i) : intText i = Nat.toDigits 10 i.toNat := by
  obtain ⟨n, rfl⟩ := Int.eq_ofNat_of_zero_le h
  rfl

theorem atoi_intText {i : Int} {k : Nat} (h : 0 ≤ i) (h' : i ≤ intMax) (hk : i.toNat < 10 ^ k) (h0 : 0 < k) (m : Nat) (hm : k < m) :
    atoi (strlcpy m (intText i)) = i := by
  rw [intText_nat h]
  have hl := toDigits_length k i.toNat h0 hk
  unfold strlcpy
  rw [List.take_of_length_le (by omega), atoi_toDigits _ (by unfold intMax at *; omega)]
  omega

/-! ## The arguments of logit -/

theorem logitArgs_opt {c : Char} {v : CStr} {rest : List CStr} {cfg : LogitCfg} (hc : c ∈ ['f', 'n', 'p', 'r', 't']) :
    logitArgs (['-', c] :: v :: rest) cfg = (logitOpt c v cfg).bind (logitArgs rest) := by
  have h1 : ['-', c] ≠ "--".toList := by
    intro h
    have : c = '-' := by injection h with _ h; injection h
    subst this
    exact absurd hc (by decide)
  have h2 : logitLetters [c] cfg = .wants c cfg := by
    unfold logitLetters
    rw [if_neg (by rintro rfl; exact absurd hc (by decide)), if_pos hc, if_pos rfl]
  rw [logitArgs, if_neg h1, if_pos ⟨rfl, by simp⟩]
  rw [show (['-', c] : CStr).tail = [c] from rfl, h2]
  dsimp only
  cases logitOpt c v cfg <;> rfl

theorem logitArgs_debug (E : OutEnv) (cfg : LogitCfg) :
    logitArgs (debugFlag E) cfg = some (if E.debug then { cfg with stderr := true } else cfg) := by
  unfold debugFlag
  split
  · have h : logitArgs ["-s".toList] cfg = match logitLetters ['s'] cfg with
        | .done cfg => some cfg
        | _ => none := rfl
    rw [h]; rfl
  · rfl

theorem prioLookup_of {names : List (CStr × Int)} {s : CStr} {n : Int} (hn : ∀ p ∈ names, ∀ q ∈ names, p.1 = q.1 → p = q)
    (h : (s, n) ∈ names) : prioLookup names s = some n := by
  unfold prioLookup
  cases hf : names.find? fun p => decide (p.1 = s) with
  | none => exact absurd (List.find?_eq_none.1 hf _ h) (by simp)
  | some p =>
    have h1 := List.find?_some hf
    have h2 := List.mem_of_find?_eq_some hf
    rw [decide_eq_true_eq] at h1
    rw [hn p h2 _ h h1]
    rfl

theorem facility_names : ∀ p ∈ facilityNames, ∀ q ∈ facilityNames, p.1 = q.1 → p = q := by decide +kernel
theorem priority_names : ∀ p ∈ priorityNames, ∀ q ∈ priorityNames, p.1 = q.1 → p = q := by decide +kernel

theorem parsePrio_of {F L : CStr} {f l : Int} {cfg : LogitCfg} (hF : '.' ∉ F) (hf : (F, f) ∈ facilityNames)
    (hl : (L, l) ∈ priorityNames) : parsePrio (F ++ '.' :: L) cfg = some { cfg with fac := f, lvl := l } := by
  have h1 : (F ++ '.' :: L).takeWhile (fun c => decide (c ≠ '.')) = F := by
    rw [List.takeWhile_append_of_pos (fun c hc => by
      rw [decide_eq_true_eq]; rintro rfl; exact hF hc), List.takeWhile_cons_of_neg (by simp), List.append_nil]
  have h2 : (F ++ '.' :: L).dropWhile (fun c => decide (c ≠ '.')) = '.' :: L := by
    rw [List.dropWhile_append_of_pos (fun c hc => by
      rw [decide_eq_true_eq]; rintro rfl; exact hF hc), List.dropWhile_cons_of_neg (by simp)]
  unfold parsePrio
  rw [if_pos (by simp), h1, h2, prioLookup_of facility_names hf]
  dsimp only
  rw [show ('.' :: L).drop 1 = L from rfl, prioLookup_of priority_names hl]

/-! ## The lines -/

theorem fgetsLog_lines : ∀ (lines : List CStr), (∀ x ∈ lines, '\n' ∉ x ∧ x.length < 511) →
    fgetsLog (lines.flatMap (· ++ ['\n'])) = lines.map (· ++ ['\n'])
  | [], _ => by rw [List.flatMap_nil, fgetsLog]; rfl
  | x :: xs, h => by
    have hx := h x List.mem_cons_self
    have ih := fgetsLog_lines xs fun y hy => h y (List.mem_cons_of_mem _ hy)
    have hone := fgetsOne_line (s := xs.flatMap (· ++ ['\n'])) hx.1 hx.2
    rw [List.flatMap_cons, List.append_assoc, List.singleton_append]
    obtain ⟨c, cs, hcs⟩ : ∃ c cs, x ++ '\n' :: xs.flatMap (· ++ ['\n']) = c :: cs := by
      cases x with
      | nil => exact ⟨_, _, rfl⟩
      | cons c cs => exact ⟨_, _, rfl⟩
    rw [hcs] at hone ⊢
    rw [fgetsLog, hone, ih]
    rfl

theorem level_char {d : Char} (h : 48 ≤ d.toNat ∧ d.toNat ≤ 55) : d = Char.ofNat (48 + (d.toNat - 48)) := by
  rw [show 48 + (d.toNat - 48) = d.toNat from by omega, Char.ofNat_toNat]

theorem markLevel_says (dflt : Nat) (hd : dflt < 8) (line : CStr) :
    ∃ n t, LineSays dflt line n t ∧ markLevel dflt (line ++ ['\n']) = (n, t ++ ['\n']) ∧ n < 8 := by
  have other : ∀ t : CStr, (∀ d m, t ++ ['\n'] = '<' :: d :: '>' :: m → ¬ (48 ≤ d.toNat ∧ d.toNat ≤ 55)) →
      ∃ n r, LineSays dflt t n r ∧ markLevel dflt (t ++ ['\n']) = (n, r ++ ['\n']) ∧ n < 8 := by
    intro t ht
    refine ⟨dflt, t, .plain t ?_, ?_, hd⟩
    · rintro d hd r rfl
      refine ht (Char.ofNat (48 + d)) (r ++ ['\n']) rfl ?_
      rw [ofNat_digit d (by omega)]; omega
    · unfold markLevel
      split
      · rename_i heq
        rw [if_neg (ht _ _ heq), heq]
      · rfl
  match line with
  | [] => exact other [] (by rintro d m h; exact absurd h (by simp))
  | [a] => exact other [a] (by rintro d m h; exact absurd h (by simp))
  | [a, b] =>
    refine other [a, b] ?_
    rintro d m h
    injection h with _ h
    injection h with _ h
    injection h with h
    exact absurd h (by decide)
  | a :: b :: c :: m =>
    by_cases h1 : a = '<'
    · by_cases h2 : c = '>'
      · subst h1 h2
        revert b; intro d
        by_cases hc : 48 ≤ d.toNat ∧ d.toNat ≤ 55
        · refine ⟨d.toNat - 48, m, ?_, ?_, by omega⟩
          · have := LineSays.marked (dflt := dflt) (d.toNat - 48) (by omega) m
            rwa [← level_char hc] at this
          · show markLevel dflt ('<' :: d :: '>' :: (m ++ ['\n'])) = _
            rw [markLevel, if_pos hc, Nat.div_eq_of_lt hd, Nat.zero_mul, Nat.zero_add]
        · refine other _ ?_
          rintro d' m' h
          injection h with _ h
          injection h with h
          rwa [← h]
      · exact other _ (by
          rintro d m' h
          injection h with _ h
          injection h with _ h
          injection h with h
          exact absurd h h2)
    · exact other _ (by
        rintro d m' h
        injection h with h
        exact absurd h h1)

theorem sysPri_of {fac n : Nat} (hf : fac ≠ 0) (hn : n < 8) : sysPri fac n = fac + n := by
  unfold sysPri openFac
  rw [if_pos (Nat.div_eq_of_lt hn), if_neg hf, Nat.add_comm]

theorem logged_of {tag user : CStr} {fac lvl : Nat} {cfg : LogitCfg} (hf : fac ≠ 0) (hl : lvl < 8) (ht : cfg.ident = some tag)
    (h1 : cfg.fac = fac) (h2 : cfg.lvl = lvl) : ∀ (lines : List CStr), (∀ x ∈ lines, '\n' ∉ x ∧ x.length < 511) →
    Logged tag fac lvl lines (logitRun user cfg (lines.flatMap (· ++ ['\n']))) := by
  intro lines hx
  unfold logitRun
  rw [fgetsLog_lines lines hx, ht, h1, h2]
  clear hx
  induction lines with
  | nil => exact .nil
  | cons x xs ih =>
    obtain ⟨n, t, hs, he, hn⟩ := markLevel_says lvl hl x
    rw [List.map_cons, List.map_cons, Int.toNat_natCast, Int.toNat_natCast, he]
    rw [Int.toNat_natCast, Int.toNat_natCast] at ih
    rw [sysPri_of hf hn]
    exact .cons hs ih

/-! ## The theorems -/

/-- **C87, files.**  With Finit's own `logit`, a service with a log file has what it prints read by a `logit` that writes to that file,
    with the size and the number of versions set.  Missing from the full claim: numbers of versions over 99, and `logit` must be
    installed. -/
theorem C87_file_partial (E : OutEnv) (ident : CStr) (notify : LNotify) (l : LogCfg) (hp : E.pty = true) (hk : E.sysklogd = false)
    (hi : E.logit = true) (hl : l.Real) (hf : l.file.head? = some '/') (hs : 0 ≤ E.sizeMax) (hs' : E.sizeMax ≤ intMax)
    (hc : 0 ≤ E.countMax) (hc' : E.countMax < 100) :
    ∃ argv cfg, redirect E ident notify l = .prog logitPath argv ∧ logitArgs argv.tail {} = some cfg ∧ cfg.file = some l.file ∧
      cfg.size = E.sizeMax ∧ cfg.num = E.countMax ∧ cfg.words = [] := by
  obtain ⟨h1, h2, h3⟩ := hl
  have hr : redirect E ident notify l = .prog logitPath (["logit".toList, "-f".toList, l.file, "-n".toList,
      strlcpy 20 (intText E.sizeMax), "-r".toList, strlcpy 3 (intText E.countMax)] ++ debugFlag E) := by
    unfold redirect lredirect
    rw [h1, h2, h3, hp, hk, hi, hf]
    rfl
  have ha : logitArgs ("-f".toList :: l.file :: "-n".toList :: strlcpy 20 (intText E.sizeMax) :: "-r".toList ::
      strlcpy 3 (intText E.countMax) :: debugFlag E) {} =
      some (if E.debug then { file := some l.file, size := atoi (strlcpy 20 (intText E.sizeMax)),
                              num := atoi (strlcpy 3 (intText E.countMax)), stderr := true }
            else { file := some l.file, size := atoi (strlcpy 20 (intText E.sizeMax)),
                   num := atoi (strlcpy 3 (intText E.countMax)) }) := by
    refine (logitArgs_opt (c := 'f') (by decide)).trans ?_
    rw [show logitOpt 'f' l.file {} = some { file := some l.file } from rfl, Option.bind_some]
    refine (logitArgs_opt (c := 'n') (by decide)).trans ?_
    rw [show logitOpt 'n' (strlcpy 20 (intText E.sizeMax)) { file := some l.file } =
      some { file := some l.file, size := atoi (strlcpy 20 (intText E.sizeMax)) } from rfl, Option.bind_some]
    refine (logitArgs_opt (c := 'r') (by decide)).trans ?_
    rw [show ∀ n, logitOpt 'r' (strlcpy 3 (intText E.countMax)) { file := some l.file, size := n } =
      some { file := some l.file, size := n, num := atoi (strlcpy 3 (intText E.countMax)) } from fun _ => rfl, Option.bind_some]
    exact logitArgs_debug E _
  refine ⟨_, _, hr, ha, ?_⟩
  have e1 := atoi_intText (k := 10) hs hs' (by unfold intMax at hs'; omega) (by decide) 20 (by decide)
  have e2 := atoi_intText (k := 2) hc (by unfold intMax; omega) (by omega) (by decide) 3 (by decide)
  split <;> exact ⟨rfl, e1, e2, rfl⟩

/-- **C87, files, from end to end.**  What such a service prints is in that log without a hole, see C56, and no more is dropped than
    was set. -/
theorem C87_kept (E : OutEnv) (ident : CStr) (notify : LNotify) (l : LogCfg) (hp : E.pty = true) (hk : E.sysklogd = false)
    (hi : E.logit = true) (hl : l.Real) (hf : l.file.head? = some '/') (hs : 0 ≤ E.sizeMax) (hs' : E.sizeMax ≤ intMax)
    (hc : 0 ≤ E.countMax) (hc' : E.countMax < 100) (works : Bool) (hw : E.countMax ≠ 2 ∨ works = false) :
    ∃ argv cfg, redirect E ident notify l = .prog logitPath argv ∧ logitArgs argv.tail {} = some cfg ∧ cfg.file = some l.file ∧
      ∀ ins : List LogIn, LogFine E.countMax.toNat E.sizeMax.toNat (ins.flatMap LogIn.text)
        (flogit works cfg.num.toNat cfg.size.toNat ins {}) := by
  obtain ⟨argv, cfg, h1, h2, h3, h4, h5, -⟩ := C87_file_partial E ident notify l hp hk hi hl hf hs hs' hc hc'
  refine ⟨argv, cfg, h1, h2, h3, fun ins => ?_⟩
  rw [h4, h5]
  exact C56_partial works _ _ (hw.imp (fun h => by omega) id) ins

/-- **C87, system log.**  With Finit's own `logit`, the lines a service prints go to the system log, one message each, in their order,
    under its tag (or its name), and with the facility and the level its line names, or the level at the start of the line.
    Missing from the full claim: the facility `kern`, the level `none`, priorities that are no `facility.level`, and `logit` must
    be installed. -/
theorem C87_syslog_partial (E : OutEnv) (ident : CStr) (notify : LNotify) (l : LogCfg) (hp : E.pty = true)
    (hk : E.sysklogd = false ∨ notify = .systemd) (hi : E.logit = true) (hl : l.Real) (hf : l.file.head? ≠ some '/') (fac lvl : Nat)
    (hs : PrioSays l fac lvl) (h0 : fac ≠ 0) (h8 : lvl < 8) :
    ∃ argv cfg, redirect E ident notify l = .prog logitPath argv ∧ logitArgs argv.tail {} = some cfg ∧ cfg.file = none ∧
      cfg.words = [] ∧ ∀ user lines, (∀ x ∈ lines, '\n' ∉ x ∧ x.length < 511) →
        Logged (if l.ident ≠ [] then l.ident else ident) fac lvl lines
          (logitRun user cfg (lines.flatMap (· ++ ['\n']))) := by
  obtain ⟨h1, h2, h3⟩ := hl
  refine ⟨["logit".toList, "-t".toList, if l.ident ≠ [] then l.ident else ident, "-p".toList,
    if l.prio ≠ [] then l.prio else "daemon.info".toList] ++ debugFlag E, ?_⟩
  have hr : redirect E ident notify l = .prog logitPath (["logit".toList, "-t".toList, if l.ident ≠ [] then l.ident else ident,
      "-p".toList, if l.prio ≠ [] then l.prio else "daemon.info".toList] ++ debugFlag E) := by
    unfold redirect lredirect
    rw [h1, h2, h3, hp, hi]
    dsimp only
    rw [if_pos rfl, if_neg (by decide), if_neg (by decide), if_neg (by decide), if_neg (by simp), if_neg hf, if_neg ?_]
    rcases hk with hk | hk <;> simp [hk]
  have hprio : ∀ cfg : LogitCfg, parsePrio (if l.prio ≠ [] then l.prio else "daemon.info".toList) cfg =
      some { cfg with fac := fac, lvl := lvl } := by
    intro cfg
    rcases hs with ⟨h, rfl, rfl⟩ | ⟨F, L, h, hF, hf, hl⟩
    · rw [if_neg (by simp [h])]
      exact parsePrio_of (F := "daemon".toList) (L := "info".toList) (by decide) (by decide) (by decide)
    · rw [if_pos (by rw [h]; simp), h]
      exact parsePrio_of hF hf hl
  have ha : logitArgs ("-t".toList :: (if l.ident ≠ [] then l.ident else ident) :: "-p".toList ::
      (if l.prio ≠ [] then l.prio else "daemon.info".toList) :: debugFlag E) {} =
      some (if E.debug then { ident := some (if l.ident ≠ [] then l.ident else ident), fac := fac, lvl := lvl, stderr := true }
            else { ident := some (if l.ident ≠ [] then l.ident else ident), fac := fac, lvl := lvl }) := by
    refine (logitArgs_opt (c := 't') (by decide)).trans ?_
    rw [show ∀ v, logitOpt 't' v {} = some { ident := some v } from fun _ => rfl, Option.bind_some]
    refine (logitArgs_opt (c := 'p') (by decide)).trans ?_
    rw [show ∀ v cfg, logitOpt 'p' v cfg = parsePrio v cfg from fun _ _ => rfl, hprio, Option.bind_some]
    exact logitArgs_debug E _
  refine ⟨_, hr, ha, ?_⟩
  split
  · exact ⟨rfl, rfl, fun user lines hx => logged_of h0 h8 rfl rfl rfl lines hx⟩
  · exact ⟨rfl, rfl, fun user lines hx => logged_of h0 h8 rfl rfl rfl lines hx⟩

/-- **C87, the rest.**  `log:null` leads to /dev/null, `log:console` to the console, whatever else is set; without a `log` option
    the output is that of PID 1, but for the build option and debug mode. -/
theorem C87_where (E : OutEnv) (ident : CStr) (notify : LNotify) (l : LogCfg) (ho : ∀ p, E.opens p = true) :
    (l.enabled = true → l.null = true → redirect E ident notify l = .file "/dev/null".toList) ∧
    (l.enabled = true → l.null = false → l.console = true → redirect E ident notify l = .file E.console) ∧
    (l.enabled = false → E.debug = false →
      redirect E ident notify l = if E.redirectOutput then .file "/dev/null".toList else .inherited) ∧
    (l.enabled = false → E.debug = true → redirect E ident notify l = .file E.console) := by
  unfold redirect fredirect
  rw [ho, ho]
  refine ⟨fun h1 h2 => by rw [h1, h2]; rfl, fun h1 h2 h3 => by rw [h1, h2, h3]; rfl, fun h1 h2 => by rw [h1, h2]; rfl,
    fun h1 h2 => by rw [h1, h2]; rfl⟩

/-- **C87, sysklogd.**  With sysklogd's `logger`, that program gets the file, the tag, the priority, the PID of the service, and the size
    and the number of versions set, all in full. -/
theorem C87_sysklogd (E : OutEnv) (ident : CStr) (notify : LNotify) (l : LogCfg) (hp : E.pty = true) (hk : E.sysklogd = true)
    (hd : E.debug = false) (hl : l.Real) (hs : 0 ≤ E.sizeMax) (hs' : E.sizeMax ≤ intMax)
    (hc : 0 ≤ E.countMax) (hc' : E.countMax ≤ intMax) (hpid : E.pid ≤ 4194304) (tag prio : CStr)
    (ht : tag = if l.ident ≠ [] then l.ident else ident) (hpr : prio = if l.prio ≠ [] then l.prio else "daemon.info".toList) :
    (l.file.head? = some '/' → redirect E ident notify l = .prog "logger".toList
      ["logger".toList, "-f".toList, l.file, "-b".toList, "-t".toList, tag, "-p".toList, prio, "-I".toList, Nat.toDigits 10 E.pid,
       "-r".toList, Nat.toDigits 10 E.sizeMax.toNat ++ ':' :: Nat.toDigits 10 E.countMax.toNat]) ∧
    (l.file.head? ≠ some '/' → notify ≠ .systemd → redirect E ident notify l = .prog "logger".toList
      ["logger".toList, "-t".toList, tag, "-p".toList, prio, "-I".toList, Nat.toDigits 10 E.pid]) := by
  obtain ⟨h1, h2, h3⟩ := hl
  have hpd : strlcpy 16 (intText (E.pid : Int)) = Nat.toDigits 10 E.pid := by
    rw [intText_nat (by omega), Int.toNat_natCast]
    have := toDigits_length 7 E.pid (by decide) (by omega)
    exact List.take_of_length_le (by omega)
  have hrot : strlcpy 25 (intText E.sizeMax ++ ':' :: intText E.countMax) =
      Nat.toDigits 10 E.sizeMax.toNat ++ ':' :: Nat.toDigits 10 E.countMax.toNat := by
    rw [intText_nat hs, intText_nat hc]
    have e1 := toDigits_length 10 E.sizeMax.toNat (by decide) (by unfold intMax at hs'; omega)
    have e2 := toDigits_length 10 E.countMax.toNat (by decide) (by unfold intMax at hc'; omega)
    refine List.take_of_length_le ?_
    rw [List.length_append, List.length_cons]
    omega
  subst ht hpr
  constructor
  · intro hf
    unfold redirect lredirect
    rw [h1, h2, h3, hp, hk]
    dsimp only
    rw [if_pos rfl, if_neg (by decide), if_neg (by decide), if_neg (by decide), if_neg (by simp), if_pos hf, if_pos rfl, hpd, hrot]
    unfold debugFlag
    rw [hd]
    rfl
  · intro hf hn
    unfold redirect lredirect
    rw [h1, h2, h3, hp, hk]
    dsimp only
    rw [if_pos rfl, if_neg (by decide), if_neg (by decide), if_neg (by decide), if_neg (by simp), if_neg hf, if_pos (by simp [hn]), hpd]
    unfold debugFlag
    rw [hd]
    rfl

/-! ## The settings -/

theorem size_chars {s : CStr} {n : Nat} (h : IsSize s n) : s ≠ [] ∧ ∀ c ∈ s, isLogMark c = false := by
  have dec : ∀ {s : CStr} {n : Nat}, Decimal s n → s ≠ [] ∧ ∀ c ∈ s, isLogMark c = false := by
    intro s n h
    refine ⟨by cases h <;> simp, fun c hc => ?_⟩
    have := h.digits.1 c hc
    unfold isDigit at this
    rw [decide_eq_true_eq] at this
    unfold isLogMark
    have h1 : c ≠ ':' := by rintro rfl; exact absurd this (by decide)
    have h2 : c ≠ '=' := by rintro rfl; exact absurd this (by decide)
    have h3 : c ≠ ' ' := by rintro rfl; exact absurd this (by decide)
    simp [h1, h2, h3]
  have suf : ∀ {s : CStr} {n : Nat} (x : Char), isLogMark x = false → Decimal s n → s ++ [x] ≠ [] ∧ ∀ c ∈ s ++ [x], isLogMark c = false := by
    intro s n x hx h
    refine ⟨by simp, fun c hc => ?_⟩
    rcases List.mem_append.1 hc with hc | hc
    · exact (dec h).2 c hc
    · rw [List.mem_singleton.1 hc]; exact hx
  cases h with
  | plain h => exact dec h
  | kilo h => exact suf 'k' (by decide) h
  | mega h => exact suf 'M' (by decide) h
  | giga h => exact suf 'G' (by decide) h

theorem tokens_logWord {w : CStr} (h0 : w ≠ []) (h : ∀ c ∈ w, isLogMark c = false) (d : Char) (hd : isLogMark d = true) (s : CStr) :
    tokens isLogMark (w ++ d :: s) = w :: tokens isLogMark s := by
  unfold tokens
  rw [tokensAux_append_nosep _ w [] _ h]
  rw [tokensAux, if_pos hd, if_neg (by simpa using h0)]
  simp

theorem tokens_logLast {w : CStr} (h0 : w ≠ []) (h : ∀ c ∈ w, isLogMark c = false) : tokens isLogMark w = [w] := by
  unfold tokens
  have := tokensAux_append_nosep isLogMark w [] [] h
  rw [List.append_nil] at this
  rw [this]
  unfold tokensAux
  rw [if_neg (by simpa using h0)]
  simp

/-- The two words of a setting -/
def LogPart.pair : LogPart → List CStr
  | .size v _ => ["size".toList, v]
  | .count v _ => ["count".toList, v]

theorem tokens_parts : ∀ (ps : List LogPart), (∀ p ∈ ps, p.Ok) →
    tokens isLogMark (List.intercalate [' '] (ps.map LogPart.text)) = ps.flatMap LogPart.pair
  | [], _ => by simp [tokens_nil]
  | [p], h => by
    have hp := h p List.mem_cons_self
    rw [List.map_cons, List.map_nil, List.intercalate_singleton, List.flatMap_cons, List.flatMap_nil, List.append_nil]
    cases p with
    | size v n =>
      exact (tokens_logWord (w := "size".toList) (by decide) (by decide) ':' (by decide) v).trans
        (by rw [tokens_logLast (size_chars hp.1).1 (size_chars hp.1).2]; rfl)
    | count v n =>
      exact (tokens_logWord (w := "count".toList) (by decide) (by decide) ':' (by decide) v).trans
        (by rw [tokens_logLast (size_chars hp.1).1 (size_chars hp.1).2]; rfl)
  | p :: q :: ps, h => by
    have hp := h p List.mem_cons_self
    have ih := tokens_parts (q :: ps) fun x hx => h x (List.mem_cons_of_mem _ hx)
    rw [List.map_cons, List.map_cons, List.intercalate_cons_cons, List.flatMap_cons, ← ih, List.append_assoc, List.singleton_append]
    rw [← List.map_cons]
    cases p with
    | size v n =>
      exact (tokens_logWord (w := "size".toList) (by decide) (by decide) ':' (by decide)
        (v ++ ' ' :: List.intercalate [' '] (List.map LogPart.text (q :: ps)))).trans
        (by rw [tokens_logWord (size_chars hp.1).1 (size_chars hp.1).2 ' ' (by decide)]; rfl)
    | count v n =>
      exact (tokens_logWord (w := "count".toList) (by decide) (by decide) ':' (by decide)
        (v ++ ' ' :: List.intercalate [' '] (List.map LogPart.text (q :: ps)))).trans
        (by rw [tokens_logWord (size_chars hp.1).1 (size_chars hp.1).2 ' ' (by decide)]; rfl)

theorem logWords_parts : ∀ (ps : List LogPart), (∀ p ∈ ps, p.Ok) → ∀ s : LogSet, ∃ s',
    logWords s (ps.flatMap LogPart.pair) = some s' ∧ s'.sizeMax = s.sizeMax ∧ s'.countMax = s.countMax ∧
    (s'.size, s'.count) = ps.foldl LogPart.set (s.size, s.count)
  | [], _, s => ⟨s, rfl, rfl, rfl, rfl⟩
  | .size v n :: ps, h, s => by
    have hp := h _ List.mem_cons_self
    have e := (C33_sizes_partial v).1 n hp.1 hp.2
    obtain ⟨s', h1, h2, h3, h4⟩ := logWords_parts ps (fun x hx => h x (List.mem_cons_of_mem _ hx)) { s with size := n }
    refine ⟨s', ?_, h2, h3, h4⟩
    rw [List.flatMap_cons]
    show logWords s ("size".toList :: v :: ps.flatMap LogPart.pair) = _
    rw [logWords, if_pos (by decide)]
    unfold logNum
    dsimp only
    rw [e]
    exact h1
  | .count v n :: ps, h, s => by
    have hp := h _ List.mem_cons_self
    have e := (C33_sizes_partial v).1 n hp.1 hp.2
    obtain ⟨s', h1, h2, h3, h4⟩ := logWords_parts ps (fun x hx => h x (List.mem_cons_of_mem _ hx)) { s with count := n }
    refine ⟨s', ?_, h2, h3, h4⟩
    rw [List.flatMap_cons]
    show logWords s ("count".toList :: v :: ps.flatMap LogPart.pair) = _
    rw [logWords, if_neg (by decide), if_pos (by decide)]
    unfold logNum
    dsimp only
    rw [e]
    exact h1

/-- Whatever `log` lines were read, the two copies of the settings agree. -/
theorem C87_settings_agree (s s' : LogSet) (x : CStr) (hx : logLine s x = some s') : s'.Ok := by
  unfold logLine at hx
  split at hx
  · cases hx
  · injection hx with hx
    subst hx
    unfold LogSet.Ok
    dsimp only
    split <;> split <;> omega

/-- **C87, settings.**  A `log` line sets the size and the number of versions it gives, and leaves what it does not give. -/
theorem C87_settings_partial (s : LogSet) (h : s.Ok) (ps : List LogPart) (hp : ∀ p ∈ ps, p.Ok) :
    ∃ s', logLine s (List.intercalate [' '] (ps.map LogPart.text)) = some s' ∧ s'.Ok ∧
      (s'.sizeMax, s'.countMax) = ps.foldl LogPart.set (s.sizeMax, s.countMax) := by
  obtain ⟨t, h1, h2, h3, h4⟩ := logWords_parts ps hp s
  have key : ∀ (ps : List LogPart) (a b : Int × Int), ((a.1 < 0 ∧ b.1 = s.sizeMax) ∨ (0 ≤ a.1 ∧ b.1 = a.1)) →
      ((a.2 < 0 ∧ b.2 = s.countMax) ∨ (0 ≤ a.2 ∧ b.2 = a.2)) →
      (((ps.foldl LogPart.set a).1 < 0 ∧ (ps.foldl LogPart.set b).1 = s.sizeMax) ∨
        (0 ≤ (ps.foldl LogPart.set a).1 ∧ (ps.foldl LogPart.set b).1 = (ps.foldl LogPart.set a).1)) ∧
      (((ps.foldl LogPart.set a).2 < 0 ∧ (ps.foldl LogPart.set b).2 = s.countMax) ∨
        (0 ≤ (ps.foldl LogPart.set a).2 ∧ (ps.foldl LogPart.set b).2 = (ps.foldl LogPart.set a).2)) := by
    intro ps
    induction ps with
    | nil => exact fun a b h1 h2 => ⟨h1, h2⟩
    | cons p ps ih =>
      intro a b h1 h2
      rw [List.foldl_cons, List.foldl_cons]
      refine ih _ _ ?_ ?_
      · cases p with
        | size v n => exact .inr ⟨Int.natCast_nonneg n, rfl⟩
        | count v n => exact h1
      · cases p with
        | size v n => exact h2
        | count v n => exact .inr ⟨Int.natCast_nonneg n, rfl⟩
  have hk := key ps (s.size, s.count) (s.sizeMax, s.countMax) (by have := h.1; dsimp only; omega) (by have := h.2; dsimp only; omega)
  rw [← h4] at hk
  dsimp only at hk
  have hx : logLine s (List.intercalate [' '] (ps.map LogPart.text)) = some { t with
      sizeMax := if 0 ≤ t.size then t.size else t.sizeMax
      countMax := if 0 ≤ t.count then t.count else t.countMax } := by
    unfold logLine
    rw [tokens_parts ps hp, h1]
  refine ⟨_, hx, C87_settings_agree s _ _ hx, ?_⟩
  refine Prod.ext ?_ ?_
  · dsimp only
    split <;> omega
  · dsimp only
    split <;> omega

/-! ## What is not so -/

/-- With `log count:100`, ten versions are kept: the number is cut to two digits. -/
theorem C87_count : ∃ argv cfg, redirect { countMax := 100 } "foo".toList .none { enabled := true, file := "/var/log/foo".toList } =
      .prog logitPath argv ∧ logitArgs argv.tail {} = some cfg ∧ cfg.num = 10 :=
  ⟨_, _, rfl, rfl, by decide +kernel⟩

/-- With a priority that is a facility only, or in capitals, `logit` prints how it should be used and ends; nothing is logged. -/
theorem C87_prio : ∀ prio ∈ ["local0".toList, "Daemon.Info".toList, "daemon.".toList, "3".toList],
    ∃ argv, redirect {} "foo".toList .none { enabled := true, prio := prio } = .prog logitPath argv ∧
      logitArgs argv.tail {} = none := by
  have : ∀ prio ∈ ["local0".toList, "Daemon.Info".toList, "daemon.".toList, "3".toList],
      logitArgs ["-t".toList, "foo".toList, "-p".toList, prio] {} = none := by decide +kernel
  intro prio hp
  refine ⟨["logit".toList, "-t".toList, "foo".toList, "-p".toList, prio], ?_, this prio hp⟩
  simp only [List.mem_cons, List.not_mem_nil, or_false] at hp
  rcases hp with rfl | rfl | rfl | rfl <;> rfl

/-- With `prio:user.none` all is logged as an emergency of the mail system: the code of `none` is that of `mail.emerg`. -/
theorem C87_none : ∃ cfg, logitArgs ["-t".toList, "foo".toList, "-p".toList, "user.none".toList] {} = some cfg ∧
    logitRun [] cfg "hello\n".toList = [{ tag := "foo".toList, pri := 16, text := "hello\n".toList }] :=
  ⟨_, rfl, by decide +kernel⟩

/-- With `prio:kern.err` all is logged as `user.err`: openlog(3) does not take the facility 0. -/
theorem C87_kern : ∃ cfg, logitArgs ["-t".toList, "foo".toList, "-p".toList, "kern.err".toList] {} = some cfg ∧
    logitRun [] cfg "hello\n".toList = [{ tag := "foo".toList, pri := 8 + 3, text := "hello\n".toList }] :=
  ⟨_, rfl, by decide +kernel⟩

/-- Without `logit` and sysklogd's `logger`, the log file is forgotten and all goes to the system log. -/
theorem C87_fallback : redirect { logit := false } "foo".toList .none { enabled := true, file := "/var/log/foo".toList } =
    .finitlog "foo".toList 24 6 := by decide +kernel

/-- With sysklogd's `logger` but without `logit`, a service that notifies as systemd's do is connected to a program that is not
    there. -/
theorem C87_missing : ∃ argv, redirect { sysklogd := true, logit := false } "foo".toList .systemd { enabled := true } =
    .prog logitPath argv := ⟨_, rfl⟩

/-- If the console cannot be opened, `log:console` and `log:null` change nothing. -/
theorem C87_noopen (l : LogCfg) (h : l.enabled = true) (h' : l.null = true ∨ l.console = true) :
    redirect { opens := fun _ => false } "foo".toList .none l = .inherited := by
  unfold redirect fredirect
  rw [if_pos h]
  split
  · rfl
  · rw [if_pos (by rcases h' with h' | h'; contradiction; exact h')]; rfl

/-- The settings are not those of the configuration: a `log` line that is removed is still in force after a reload. -/
theorem C87_reload : ∃ s, logLine {} "size:1M count:9".toList = some s ∧
    logLine s "count:3".toList = some { size := 1000000, count := 3, sizeMax := 1000000, countMax := 3 } ∧
    logLine {} "count:3".toList = some { size := 200000, count := 3, sizeMax := 200000, countMax := 3 } :=
  ⟨{ size := 1000000, count := 9, sizeMax := 1000000, countMax := 9 }, by decide +kernel, by decide +kernel, by decide +kernel⟩

/-- What follows a comma is of no effect. -/
theorem C87_comma : logLine {} "size:1M,count:9".toList = some { size := 1000000 , sizeMax := 1000000 } := by decide +kernel

theorem C87_full_false : ¬ C87_full := by
  intro h
  obtain ⟨argv, cfg, h1, -, h2, -, -, h3⟩ := (h { countMax := 100 } "foo".toList .none
    { enabled := true, file := "/var/log/foo".toList } rfl (by decide) (by decide) (by decide) (by decide) rfl ⟨rfl, rfl, rfl⟩).1 rfl
  obtain ⟨argv', cfg', h1', h2', h3'⟩ := C87_count
  rw [h1] at h1'
  injection h1' with _ h1'
  subst h1'
  rw [h2] at h2'
  injection h2' with h2'
  subst h2'
  rw [h3'] at h3
  exact absurd h3 (by decide)

/-! ## Examples -/

/-- The hypotheses can be met, and what comes of it -/
example : PrioSays { enabled := true, prio := "user.warn".toList, ident := "ntpd".toList } 8 4 ∧
    ∃ cfg, logitArgs ["-t".toList, "ntpd".toList, "-p".toList, "user.warn".toList] {} = some cfg ∧
      logitRun [] cfg "hello\n<3>bad\n".toList =
        [{ tag := "ntpd".toList, pri := 12, text := "hello\n".toList }, { tag := "ntpd".toList, pri := 11, text := "bad\n".toList }] :=
  ⟨.inr ⟨"user".toList, "warn".toList, rfl, by decide, by decide, by decide⟩, _, rfl, by decide +kernel⟩

example : (LogPart.size "10M".toList 10000000).Ok ∧ (LogPart.count "7".toList 7).Ok ∧
    List.intercalate [' '] ([LogPart.size "10M".toList 10000000, .count "7".toList 7].map LogPart.text) = "size:10M count:7".toList ∧
    ({} : LogSet).Ok :=
  ⟨⟨.mega (s := "10".toList) (.snoc 0 (by decide) (.one 1 (by decide))), by decide⟩, ⟨.plain (.one 7 (by decide)), by decide⟩,
    by decide +kernel, .inr rfl, .inr rfl⟩

end Verif
