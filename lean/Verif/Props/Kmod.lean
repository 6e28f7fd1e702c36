import Verif.Kmod
import Verif.Props.Sulogin
import Verif.Props.Cgset
import Verif.Props.Files

/-!
# C113: Modules of the configuration are loaded at boot, with their arguments, unless they are loaded
-/

namespace Verif

/-! ## Specification -/

/-- A `module` line: the keyword in any case, blanks, the name, the arguments with blanks before each, blanks and a comment -/
structure KmDef where
  key : CStr
  pad : CStr
  name : CStr
  args : List (CStr × CStr)
  trail : CStr
  comment : Option CStr

/-- What the line says apart from the keyword and the comment -/
def KmDef.body (d : KmDef) : CStr := d.name ++ spaced d.args d.trail

def KmDef.text (d : KmDef) : CStr :=
  d.key ++ (d.pad ++ (d.body ++ (match d.comment with | none => [] | some c => '#' :: c)))

/-- Characters of names and arguments that mean nothing to a shell -/
def KmWord (w : CStr) : Prop := w ≠ [] ∧ ∀ c ∈ w, shPlain c = true ∨ c = '='

structure KmDef.Good (d : KmDef) : Prop where
  key : lower d.key = lower "module ".toList
  pad : ∀ c ∈ d.pad, isBlank c = true
  name : KmWord d.name
  args : ∀ x ∈ d.args, KmWord x.2 ∧ x.1 ≠ [] ∧ ∀ c ∈ x.1, isBlank c = true
  trail : ∀ c ∈ d.trail, isBlank c = true

/-- What the user wants to be run -/
def KmDef.argv (d : KmDef) : List CStr := "modprobe".toList :: d.name :: d.args.map Prod.snd

/-- The text of /proc/modules with these modules: a line for each, with the name and a blank first -/
def KmListing (names : List CStr) (text : List Char) : Prop :=
  ∃ lines : List (CStr × CStr), names = lines.map Prod.fst ∧ text = lines.flatMap (fun x => x.1 ++ ' ' :: (x.2 ++ ['\n'])) ∧
    ∀ x ∈ lines, x.1 ≠ [] ∧ x.1.length ≤ 63 ∧ (∀ c ∈ x.1, isBlank c = false ∧ c ≠ '\x00' ∧ c ≠ '\n') ∧ '\n' ∉ x.2

/-- The same with lines that are not too long -/
def KmShort (names : List CStr) (text : List Char) : Prop :=
  ∃ lines : List (CStr × CStr), names = lines.map Prod.fst ∧ text = lines.flatMap (fun x => x.1 ++ ' ' :: (x.2 ++ ['\n'])) ∧
    ∀ x ∈ lines, x.1 ≠ [] ∧ x.1.length ≤ 63 ∧ (∀ c ∈ x.1, isBlank c = false ∧ c ≠ '\x00' ∧ c ≠ '\n') ∧ '\n' ∉ x.2 ∧
      x.1.length + x.2.length < 254

/-- What is to be run at boot for the lines, one after the other, if `listed` are the modules there are -/
def kmWanted {W : Type} (listed : W → CStr → Prop) [∀ w n, Decidable (listed w n)] (probe : List CStr → W → W) :
    List KmDef → W → List (List CStr)
  | [], _ => []
  | d :: ds, w => if listed w d.name then kmWanted listed probe ds w else d.argv :: kmWanted listed probe ds (probe d.argv w)

/-- The kernel lists a module with `_` for `-` -/
def kmKernelName (n : CStr) : CStr := n.map fun c => if c = '-' then '_' else c

/-- The full claim of C113: modprobe(8) is run for the modules that are not there, and with their arguments -/
def C113_full : Prop := ∀ (W : Type) (proc : W → List Char) (names : W → List CStr) (sh : CStr → W → W) (probe : List CStr → W → W)
  (ds : List KmDef) (w : W), (∀ w, KmShort (names w) (proc w)) → (∀ cmd argv, kmShell cmd = some argv → sh cmd = probe argv) →
  (∀ d ∈ ds, d.Good) →
  (kmBoot (fun w => some (proc w)) sh 10 (ds.map KmDef.text) w).1.map kmShell =
    (kmWanted (fun w n => kmKernelName n ∈ names w) probe ds w).map some

/-! ## Lemmas -/

theorem km_shPlain {c : Char} (h : shPlain c = true ∨ c = '=') : isBlank c = false ∧ c ≠ '#' ∧ c ≠ '\n' := by
  have key : ∀ x : Char, (isBlank x = true ∨ x = '#' ∨ x = '\n') → ¬ (shPlain x = true ∨ x = '=') := by
    intro x hx
    have : x = ' ' ∨ x = '\t' ∨ x = '#' ∨ x = '\n' := by
      rcases hx with hx | hx | hx
      · have := of_decide_eq_true hx
        rcases this with h | h
        · exact .inl h
        · exact .inr (.inl h)
      · exact .inr (.inr (.inl hx))
      · exact .inr (.inr (.inr hx))
    rcases this with e | e | e | e <;> subst e <;> decide
  refine ⟨?_, fun e => key c (.inr (.inl e)) h, fun e => key c (.inr (.inr e)) h⟩
  cases hb : isBlank c with
  | false => rfl
  | true => exact absurd h (key c (.inl hb))

theorem KmWord.cg {w : CStr} (h : KmWord w) : CgWord w := ⟨h.1, fun c hc => (km_shPlain (h.2 c hc)).1⟩

theorem km_spaced_chars {P : Char → Prop} : ∀ {ws : List (CStr × CStr)} {t : CStr}, (∀ x ∈ ws, (∀ c ∈ x.1, P c) ∧ ∀ c ∈ x.2, P c) → (∀ c ∈ t, P c) →
    ∀ c ∈ spaced ws t, P c
  | [], _, _, ht, c, hc => ht c hc
  | x :: ws, t, h, ht, c, hc => by
    obtain ⟨h1, h2⟩ := h x List.mem_cons_self
    rw [spaced, List.mem_append, List.mem_append] at hc
    rcases hc with hc | hc | hc
    · exact h1 c hc
    · exact h2 c hc
    · exact km_spaced_chars (fun y hy => h y (List.mem_cons_of_mem _ hy)) ht c hc

theorem KmDef.Good.chars {d : KmDef} (h : d.Good) : ∀ c ∈ d.body, (shPlain c = true ∨ c = '=') ∨ isBlank c = true := by
  intro c hc
  rw [KmDef.body, List.mem_append] at hc
  rcases hc with hc | hc
  · exact .inl (h.name.2 c hc)
  · exact km_spaced_chars (P := fun c => (shPlain c = true ∨ c = '=') ∨ isBlank c = true)
      (fun x hx => ⟨fun c hc => .inr ((h.args x hx).2.2 c hc), fun c hc => .inl ((h.args x hx).1.2 c hc)⟩)
      (fun c hc => .inr (h.trail c hc)) c hc

theorem km_takeWhile_stop {p : Char → Bool} {a b : List Char} (h : ∀ c ∈ a, p c = true) (hb : b = [] ∨ ∃ x r, b = x :: r ∧ p x = false) :
    (a ++ b).takeWhile p = a := by
  rw [List.takeWhile_append_of_pos h]
  rcases hb with e | ⟨x, r, e, hx⟩
  · rw [e, List.takeWhile_nil, List.append_nil]
  · rw [e, List.takeWhile_cons, hx, if_neg (by decide), List.append_nil]

theorem KmDef.Good.strip {d : KmDef} (h : d.Good) : (matchRp "module ".toList d.text).map stripLine = some d.body := by
  have hbody := h.chars
  unfold KmDef.text
  rw [matchRp_key h.key, Option.map_some]
  congr 1
  unfold stripLine
  have hn : ∃ x r, d.body = x :: r ∧ isBlank x = false := by
    unfold KmDef.body
    have hc := h.name
    cases hh : d.name with
    | nil => exact absurd hh hc.1
    | cons x r => exact ⟨x, _, rfl, (km_shPlain (hc.2 x (by rw [hh]; exact List.mem_cons_self))).1⟩
  obtain ⟨x, r, e, hx⟩ := hn
  rw [List.dropWhile_append_of_pos h.pad, e, List.cons_append, List.dropWhile_cons, hx, if_neg (by decide), ← List.cons_append, ← e]
  refine km_takeWhile_stop (fun c hc => ?_) ?_
  · rcases hbody c hc with hp | hp
    · simpa using (km_shPlain hp).2.1
    · have := of_decide_eq_true hp
      rcases this with e | e <;> subst e <;> decide
  · cases d.comment with
    | none => exact .inl rfl
    | some c => exact .inr ⟨'#', c, rfl, by decide⟩

/-- The arguments begin with a blank. -/
theorem KmDef.Good.rest {d : KmDef} (h : d.Good) : spaced d.args d.trail = [] ∨ ∃ x r, spaced d.args d.trail = x :: r ∧ isBlank x = true := by
  cases ha : d.args with
  | nil =>
    rw [spaced]
    cases ht : d.trail with
    | nil => exact .inl rfl
    | cons x r => exact .inr ⟨x, r, rfl, h.trail x (by rw [ht]; exact List.mem_cons_self)⟩
  | cons y ys =>
    obtain ⟨_, h2, h3⟩ := h.args y (by rw [ha]; exact List.mem_cons_self)
    obtain ⟨b, w⟩ := y
    rw [spaced]
    cases b with
    | nil => exact absurd rfl h2
    | cons x r => exact .inr ⟨x, _, rfl, h3 x List.mem_cons_self⟩

theorem KmDef.Good.cut {d : KmDef} (h : d.Good) (hl : d.name.length ≤ 63) : kmCut (strlcpy 64 d.body) = some d.name := by
  have hw : ∀ c ∈ d.name, isBlank c = false := h.name.cg.2
  have ht : strlcpy 64 d.body = d.name ++ (spaced d.args d.trail).take (63 - d.name.length) := by
    unfold strlcpy KmDef.body
    rw [show 64 - 1 = 63 from rfl, List.take_append, List.take_of_length_le hl]
  have hr : (spaced d.args d.trail).take (63 - d.name.length) = [] ∨
      ∃ x r, (spaced d.args d.trail).take (63 - d.name.length) = x :: r ∧ isBlank x = true := by
    rcases h.rest with e | ⟨x, r, e, hx⟩
    · exact .inl (by rw [e, List.take_nil])
    · rw [e]
      cases 63 - d.name.length with
      | zero => exact .inl rfl
      | succ k => exact .inr ⟨x, _, rfl, hx⟩
  have hfirst : ∀ s, (d.name ++ s).takeWhile isBlank = [] := by
    intro s
    cases hn : d.name with
    | nil => exact absurd hn h.name.1
    | cons x r => rw [List.cons_append, List.takeWhile_cons, hw x (by rw [hn]; exact List.mem_cons_self), if_neg (by decide)]
  rw [ht]
  unfold kmCut
  rw [hfirst]
  rcases hr with e | ⟨x, r, e, hx⟩
  · rw [e, List.append_nil, strtok_last h.name.1 hw]; rfl
  · rw [e, strtok_word h.name.1 hw hx]; rfl

theorem km_fgetsOne_long : ∀ {k : Nat} {l s : List Char}, '\n' ∉ l → k ≤ l.length → fgetsOne k (l ++ s) = (l.take k, l.drop k ++ s)
  | 0, l, s, _, _ => by rw [fgetsOne]; rfl
  | k + 1, [], s, _, h => absurd h (Nat.not_succ_le_zero k)
  | k + 1, c :: l, s, h, hl => by
    have hc : c ≠ '\n' := fun e => h (e ▸ List.mem_cons_self)
    rw [List.cons_append, fgetsOne, if_neg hc, km_fgetsOne_long (fun h' => h (List.mem_cons_of_mem _ h')) (Nat.le_of_succ_le_succ hl)]
    rfl

/-- However long a line is, a piece begins with it and with what follows it. -/
theorem km_pieces : ∀ (n : Nat) (l s : List Char), l.length ≤ n → '\n' ∉ l →
    ∃ ps, fgetsAll (l ++ '\n' :: s) = (l ++ ['\n']).take 255 :: (ps ++ fgetsAll s)
  | n, l, s, hn, h => by
    by_cases hl : l.length < 255
    · have hone := fgetsOne_line (s := s) h hl
      refine ⟨[], ?_⟩
      have hne : l ++ '\n' :: s ≠ [] := by simp
      rw [List.take_of_length_le (by simp; omega), List.nil_append]
      cases hh : l ++ '\n' :: s with
      | nil => exact absurd hh hne
      | cons c r => rw [fgetsAll, ← hh, hone]
    · cases n with
      | zero => omega
      | succ n =>
        have hone := km_fgetsOne_long (k := 255) (s := '\n' :: s) h (by omega)
        have hd : (l.drop 255).length ≤ n := by rw [List.length_drop]; omega
        obtain ⟨ps, hp⟩ := km_pieces n (l.drop 255) s hd (fun hm => h (List.mem_of_mem_drop hm))
        refine ⟨(l.drop 255 ++ ['\n']).take 255 :: ps, ?_⟩
        have hne : l ++ '\n' :: s ≠ [] := by simp
        rw [List.take_append_of_le_length (by omega)]
        cases hh : l ++ '\n' :: s with
        | nil => exact absurd hh hne
        | cons c r => rw [fgetsAll, ← hh, hone, hp]; rfl

theorem km_first {n s : List Char} (h0 : n ≠ []) (h : ∀ c ∈ n, isBlank c = false ∧ c ≠ '\x00' ∧ c ≠ '\n') :
    (strtok isBlank (toCStr (n ++ ' ' :: s))).map Prod.fst = some n := by
  unfold toCStr
  rw [List.takeWhile_append_of_pos (fun c hc => decide_eq_true (h c hc).2.1), List.takeWhile_cons, if_pos (by decide),
    strtok_word h0 (fun c hc => (h c hc).1) (by decide)]
  rfl

theorem km_listed : ∀ {lines : List (CStr × CStr)}, (∀ x ∈ lines, x.1 ≠ [] ∧ x.1.length ≤ 63 ∧
      (∀ c ∈ x.1, isBlank c = false ∧ c ≠ '\x00' ∧ c ≠ '\n') ∧ '\n' ∉ x.2) → ∀ n ∈ lines.map Prod.fst,
    kmExists (some (lines.flatMap fun x => x.1 ++ ' ' :: (x.2 ++ ['\n']))) n = true
  | [], _, n, hn => by cases hn
  | x :: xs, h, n, hn => by
    obtain ⟨h1, h2, h3, h4⟩ := h x List.mem_cons_self
    have hnl : '\n' ∉ x.1 ++ ' ' :: x.2 := by
      intro hm
      rcases List.mem_append.mp hm with hm | hm
      · exact (h3 _ hm).2.2 rfl
      · rcases List.mem_cons.mp hm with hm | hm
        · exact absurd hm (by decide)
        · exact h4 hm
    obtain ⟨ps, hp⟩ := km_pieces _ (x.1 ++ ' ' :: x.2) (xs.flatMap fun x => x.1 ++ ' ' :: (x.2 ++ ['\n'])) (Nat.le_refl _) hnl
    have hsh : (x :: xs).flatMap (fun x => x.1 ++ ' ' :: (x.2 ++ ['\n'])) =
        (x.1 ++ ' ' :: x.2) ++ '\n' :: xs.flatMap (fun x => x.1 ++ ' ' :: (x.2 ++ ['\n'])) := by simp [List.flatMap_cons]
    unfold kmExists
    dsimp only
    rw [hsh, hp, List.any_cons, List.any_append]
    rw [List.map_cons, List.mem_cons] at hn
    rcases hn with e | hn
    · have hpc : (x.1 ++ ' ' :: x.2 ++ ['\n']).take 255 = x.1 ++ ' ' :: (x.2 ++ ['\n']).take (254 - x.1.length) := by
        rw [List.append_assoc, List.take_append, List.take_of_length_le (by omega), List.cons_append,
          show 255 - x.1.length = 254 - x.1.length + 1 by omega, List.take_succ_cons]
      rw [hpc, km_first h1 h3, e, decide_eq_true rfl, Bool.true_or]
    · have ih := km_listed (fun y hy => h y (List.mem_cons_of_mem _ hy)) n hn
      unfold kmExists at ih
      dsimp only at ih
      rw [ih, Bool.or_true, Bool.or_true]

theorem km_short {lines : List (CStr × CStr)} (h : ∀ x ∈ lines, x.1 ≠ [] ∧ x.1.length ≤ 63 ∧
      (∀ c ∈ x.1, isBlank c = false ∧ c ≠ '\x00' ∧ c ≠ '\n') ∧ '\n' ∉ x.2 ∧ x.1.length + x.2.length < 254) (n : CStr) :
    kmExists (some (lines.flatMap fun x => x.1 ++ ' ' :: (x.2 ++ ['\n']))) n = decide (n ∈ lines.map Prod.fst) := by
  by_cases hn : n ∈ lines.map Prod.fst
  · rw [decide_eq_true hn]
    exact km_listed (fun x hx => ⟨(h x hx).1, (h x hx).2.1, (h x hx).2.2.1, (h x hx).2.2.2.1⟩) n hn
  · rw [decide_eq_false hn]
    have hf : TextFile (lines.map fun x => x.1 ++ ' ' :: x.2) (lines.flatMap fun x => x.1 ++ ' ' :: (x.2 ++ ['\n'])) := by
      constructor
      · rw [List.flatMap_map]; simp
      · intro l hl
        obtain ⟨x, hx, e⟩ := List.mem_map.mp hl
        obtain ⟨_, _, h3, h4, h5⟩ := h x hx
        subst e
        refine ⟨fun hm => ?_, by simp; omega⟩
        rcases List.mem_append.mp hm with hm | hm
        · exact (h3 _ hm).2.2 rfl
        · rcases List.mem_cons.mp hm with hm | hm
          · exact absurd hm (by decide)
          · exact h4 hm
    unfold kmExists
    dsimp only
    rw [fgetsAll_file hf, List.map_map, List.any_map, List.any_eq_false]
    intro x hx he
    obtain ⟨h1, _, h3, _⟩ := h x hx
    have e := of_decide_eq_true he
    simp only [Function.comp, List.append_assoc, List.cons_append] at e
    rw [km_first h1 h3] at e
    exact hn (List.mem_map.mpr ⟨x, hx, Option.some.inj e⟩)

theorem KmDef.Good.shell {d : KmDef} (h : d.Good) : kmShell ("modprobe ".toList ++ d.body) = some d.argv := by
  have hall : ("modprobe ".toList ++ d.body).all (fun c => shPlain c || decide (c = '=') || isBlank c) = true := by
    rw [List.all_append, Bool.and_eq_true]
    refine ⟨by decide, List.all_eq_true.mpr fun c hc => ?_⟩
    rcases h.chars c hc with (hp | hp) | hp
    · rw [hp]; rfl
    · rw [decide_eq_true hp, Bool.or_true, Bool.true_or]
    · rw [hp, Bool.or_true]
  unfold kmShell
  rw [if_pos hall]
  have ht := tokens_spaced (([' '], d.name) :: d.args) d.trail "modprobe".toList [] (by
      intro x hx
      rcases List.mem_cons.mp hx with e | hx
      · subst e; exact ⟨h.name.cg, List.cons_ne_nil _ _, fun c hc => by rw [List.mem_singleton.mp hc]; rfl⟩
      · exact ⟨(h.args x hx).1.cg, (h.args x hx).2⟩) h.trail (by decide) ⟨by decide, by decide⟩
  rw [spaced, List.nil_append] at ht
  exact congrArg some ht

/-! ## C113 -/

/-- At boot a `module` line runs modprobe(8) with the name and the arguments of the line, if the module is not listed in /proc/modules,
    and nothing else; if /proc/modules cannot be read it is run as well. -/
theorem C113_partial (d : KmDef) (hg : d.Good) (hl : d.name.length ≤ 63) (hfit : d.body.length ≤ 1014) :
    (∀ names text, KmShort names text →
      (kmLine 10 (some text) d.text).map kmShell = if d.name ∈ names then none else some (some d.argv)) ∧
    (kmLine 10 none d.text).map kmShell = some (some d.argv) := by
  have hs := hg.strip
  have hcat : strlcat 1024 "modprobe ".toList d.body = "modprobe ".toList ++ d.body := by
    unfold strlcat
    rw [List.take_of_length_le (by simpa using hfit)]
  have hline : ∀ proc, kmLine 10 proc d.text = if kmExists proc d.name then none else some ("modprobe ".toList ++ d.body) := by
    intro proc
    unfold kmLine
    rw [if_pos rfl]
    cases hm : matchRp "module ".toList d.text with
    | none => rw [hm] at hs; cases hs
    | some x =>
      rw [hm] at hs
      have hx : stripLine x = d.body := Option.some.inj hs
      dsimp only
      unfold kmLoad
      rw [hx, if_neg (by decide), hg.cut hl, hcat]
  constructor
  · rintro names text ⟨lines, rfl, rfl, h⟩
    rw [hline, km_short h]
    by_cases hn : d.name ∈ lines.map Prod.fst
    · rw [if_pos hn, decide_eq_true hn, if_pos rfl]; rfl
    · rw [if_neg hn, decide_eq_false hn, if_neg (by decide), Option.map_some, hg.shell]
  · rw [hline]
    show (some _ : Option CStr).map kmShell = _
    rw [Option.map_some, hg.shell]

/-- However long the lines of /proc/modules are, no module that is listed under its name is loaded again. -/
theorem C113_loaded (d : KmDef) (hg : d.Good) (names : List CStr) (text : List Char) (h : KmListing names text) (hn : d.name ∈ names) :
    kmLine 10 (some text) d.text = none := by
  obtain ⟨lines, rfl, rfl, h⟩ := h
  have hl : d.name.length ≤ 63 := by
    obtain ⟨x, hx, e⟩ := List.mem_map.mp hn
    exact e ▸ (h x hx).2.1
  have hs := hg.strip
  unfold kmLine
  rw [if_pos rfl]
  cases hm : matchRp "module ".toList d.text with
  | none => rfl
  | some x =>
    rw [hm] at hs
    have hx : stripLine x = d.body := Option.some.inj hs
    dsimp only
    unfold kmLoad
    rw [hx, if_neg (by decide), hg.cut hl]
    dsimp only
    rw [km_listed h _ hn, if_pos rfl]

/-- For a whole configuration, whatever the commands do: modprobe(8) is run in the order of the lines for those modules that are not
    there when their line is reached, also if a command before has loaded them. -/
theorem C113_boot {W : Type} (proc : W → List Char) (names : W → List CStr) (sh : CStr → W → W) (probe : List CStr → W → W)
    (hproc : ∀ w, KmShort (names w) (proc w)) (hsh : ∀ cmd argv, kmShell cmd = some argv → sh cmd = probe argv) :
    ∀ (ds : List KmDef), (∀ d ∈ ds, d.Good ∧ d.name.length ≤ 63 ∧ d.body.length ≤ 1014) → ∀ w,
    (kmBoot (fun w => some (proc w)) sh 10 (ds.map KmDef.text) w).1.map kmShell =
      (kmWanted (fun w n => n ∈ names w) probe ds w).map some
  | [], _, _ => rfl
  | d :: ds, h, w => by
    obtain ⟨hg, hl, hf⟩ := h d List.mem_cons_self
    have ih := C113_boot proc names sh probe hproc hsh ds (fun x hx => h x (List.mem_cons_of_mem _ hx))
    have h1 := (C113_partial d hg hl hf).1 _ _ (hproc w)
    rw [List.map_cons, kmBoot, kmWanted]
    by_cases hn : d.name ∈ names w
    · rw [if_pos hn] at h1 ⊢
      cases hk : kmLine 10 (some (proc w)) d.text with
      | none => exact ih w
      | some c => rw [hk] at h1; cases h1
    · rw [if_neg hn] at h1 ⊢
      cases hk : kmLine 10 (some (proc w)) d.text with
      | none => rw [hk] at h1; cases h1
      | some c =>
        rw [hk] at h1
        have hc : kmShell c = some d.argv := Option.some.inj h1
        dsimp only
        rw [List.map_cons, List.map_cons, hc, hsh c _ hc, ih]

/-- After boot no `module` line does anything. -/
theorem C113_later {W : Type} (proc : W → Option (List Char)) (sh : CStr → W → W) (level : Int) (h : level ≠ 10) :
    ∀ (lines : List CStr) (w : W), kmBoot proc sh level lines w = ([], w)
  | [], _ => rfl
  | l :: ls, w => by
    rw [kmBoot, show kmLine level (proc w) l = none from if_neg h]
    exact C113_later proc sh level h ls w

/-- A line that is too long is not refused: modprobe(8) is run with the first 1014 characters, and with the last argument cut. -/
theorem C113_cut (d : KmDef) (hg : d.Good) (hl : d.name.length ≤ 63) (proc : Option (List Char)) (c : CStr)
    (h : kmLine 10 proc d.text = some c) : c = "modprobe ".toList ++ d.body.take 1014 ∧ c.length ≤ 1023 := by
  have hs := hg.strip
  unfold kmLine at h
  rw [if_pos rfl] at h
  cases hm : matchRp "module ".toList d.text with
  | none => rw [hm] at h; cases h
  | some x =>
    rw [hm] at h hs
    have hx : stripLine x = d.body := Option.some.inj hs
    dsimp only at h
    unfold kmLoad at h
    rw [hx, if_neg (by decide), hg.cut hl] at h
    dsimp only at h
    split at h
    · cases h
    · have e := (Option.some.inj h).symm
      constructor
      · rw [e]; rfl
      · rw [e]
        unfold strlcat
        rw [List.length_append, List.length_take]
        have : "modprobe ".toList.length = 9 := rfl
        omega

/-- `module snd-pcm` -/
def kmDash : KmDef := ⟨"module ".toList, [], "snd-pcm".toList, [], [], none⟩

theorem kmDash_good : kmDash.Good :=
  ⟨by decide, by decide, ⟨by decide, by decide⟩, by unfold KmWord; decide, by decide⟩

theorem kmDash_short : ∀ _ : Unit, KmShort ["snd_pcm".toList] "snd_pcm 118784 0 - Live 0x0\n".toList :=
  fun _ => ⟨[("snd_pcm".toList, "118784 0 - Live 0x0".toList)], rfl, by decide, by decide⟩

/-- The full claim is false: the kernel lists `snd-pcm` as `snd_pcm`, so it is not found. -/
theorem C113_full_false : ¬ C113_full := by
  intro h
  have := h Unit (fun _ => "snd_pcm 118784 0 - Live 0x0\n".toList) (fun _ => ["snd_pcm".toList]) (fun _ w => w) (fun _ w => w) [kmDash] ()
    kmDash_short (fun _ _ _ => rfl)
    (by intro d hd; rw [List.mem_singleton] at hd; subst hd; exact kmDash_good)
  rw [C113_boot _ (fun _ => ["snd_pcm".toList]) _ (fun _ w => w) kmDash_short (fun _ _ _ => rfl) [kmDash]
    (by intro d hd; rw [List.mem_singleton] at hd; subst hd; exact ⟨kmDash_good, by decide, by decide⟩)] at this
  revert this
  decide

/-! ## Examples -/

/-- `Module   e1000  debug=16 	# the network` -/
def kmDemo : KmDef :=
  ⟨"Module ".toList, "  ".toList, "e1000".toList, [("  ".toList, "debug=16".toList)], " \t".toList, some " the network".toList⟩

theorem kmDemo_good : kmDemo.Good :=
  ⟨by decide, by decide, ⟨by decide, by decide⟩, by unfold KmWord; decide, by decide⟩

def kmDemoText : List Char := "ext4 970752 1 - Live 0x0\nmbcache 16384 1 ext4, Live 0x0\n".toList

theorem kmDemo_short : KmShort ["ext4".toList, "mbcache".toList] kmDemoText :=
  ⟨[("ext4".toList, "970752 1 - Live 0x0".toList), ("mbcache".toList, "16384 1 ext4, Live 0x0".toList)], by decide, by decide, by decide⟩

example : (kmLine 10 (some kmDemoText) kmDemo.text).map kmShell = some (some ["modprobe".toList, "e1000".toList, "debug=16".toList]) :=
  (C113_partial kmDemo kmDemo_good (by decide) (by decide)).1 _ _ kmDemo_short

def kmDemo2 : KmDef := ⟨"module ".toList, [], "ext4".toList, [], [], none⟩

theorem kmDemo2_good : kmDemo2.Good := ⟨by decide, by decide, ⟨by decide, by decide⟩, by unfold KmWord; decide, by decide⟩

example : kmLine 10 (some kmDemoText) kmDemo2.text = none :=
  C113_loaded kmDemo2 kmDemo2_good ["ext4".toList, "mbcache".toList] _
    ⟨[("ext4".toList, "970752 1 - Live 0x0".toList), ("mbcache".toList, "16384 1 ext4, Live 0x0".toList)], by decide, by decide, by decide⟩
    (by decide)

/-- The world is whether e1000 has been loaded: it is loaded once for two lines. -/
example : (kmBoot (fun w : Bool => some (if w then "e1000 1 0 - Live 0x0\n".toList else [])) (fun _ _ => true) 10
    [kmDemo.text, kmDemo.text] false).1.map kmShell = [some ["modprobe".toList, "e1000".toList, "debug=16".toList]] :=
  C113_boot (fun w : Bool => if w then "e1000 1 0 - Live 0x0\n".toList else []) (fun w => if w then ["e1000".toList] else [])
    (fun _ _ => true) (fun _ _ => true)
    (fun w => by
      cases w
      · exact ⟨[], rfl, rfl, by decide⟩
      · exact ⟨[("e1000".toList, "1 0 - Live 0x0".toList)], rfl, by decide, by decide⟩)
    (fun _ _ _ => rfl) [kmDemo, kmDemo]
    (by intro d hd
        have : d = kmDemo := by simpa using hd
        subst this
        exact ⟨kmDemo_good, by decide, by decide⟩) false

example : kmBoot (fun _ : Nat => none) (fun _ w => w + 1) 2 [kmDemo.text] 0 = ([], 0) := C113_later _ _ 2 (by decide) _ 0

/-- An argument of 2000 characters -/
def kmDemo3 : KmDef := ⟨"module ".toList, [], "e1000".toList, [(" ".toList, List.replicate 2000 'a')], [], none⟩

example : ∀ c, kmLine 10 none kmDemo3.text = some c → c.length ≤ 1023 := fun c h =>
  (C113_cut kmDemo3 ⟨by decide, by decide, ⟨by decide, by decide⟩,
    (by intro x hx
        have : x = (" ".toList, List.replicate 2000 'a') := List.mem_singleton.mp hx
        subst this
        exact ⟨⟨(List.replicate_succ (n := 1999) ▸ List.cons_ne_nil _ _ : List.replicate (1999 + 1) 'a' ≠ []), fun c hc => .inl (by rw [(List.mem_replicate.mp hc).2]; decide)⟩, by decide, by decide⟩), by decide⟩
    (by decide) none c h).2

end Verif
