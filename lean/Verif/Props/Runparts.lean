import Verif.CStrLemmas
import Verif.Runparts

/-!
# C64: start scripts, and C65: hook scripts
-/

namespace Verif

/-! ## Specification -/

/-- The entries of a directory: names differ, are not empty and have no '/'. -/
def IsDir (es : List PEntry) : Prop :=
  (es.map (·.name)).Nodup ∧ ∀ e ∈ es, e.name ≠ [] ∧ '/' ∉ e.name

/-- Scripts of SysV init: `SNNname` or `KNNname`. -/
def SysvName (n : CStr) : Prop :=
  ∃ c d r, n = c :: d :: r ∧ (c = 'S' ∨ c = 'K') ∧ '0' ≤ d ∧ d ≤ '9'

/-- The scripts that are to be run: executable files but no backups, and with `sysv` only scripts of SysV init. -/
def WantPart (sysv : Bool) (e : PEntry) : Prop :=
  e.kind = .file true ∧ (¬ ∃ r, e.name = r ++ ['~']) ∧ (sysv = true → SysvName e.name)

/-- A file in a directory. -/
def inDir (dir name : CStr) : CStr := if dir.getLast? = some '/' then dir ++ name else dir ++ '/' :: name

/-- How a script is to be called. -/
def partArgv (dir name : CStr) : List CStr :=
  inDir dir name :: match name with
    | c :: d :: _ =>
      if '0' ≤ d ∧ d ≤ '9' then
        if c = 'S' then ["start".toList] else if c = 'K' then ["stop".toList] else []
      else []
    | _ => []

/-- The scripts in alphabetical order. -/
def ByName (l : List PEntry) : Prop := l.Pairwise (fun a b => a.name < b.name)

/-- A `runparts` line, as documented. -/
def rpLine (progress sysv : Bool) (dir : CStr) : CStr :=
  (if progress then "progress ".toList else []) ++ (if sysv then "sysv ".toList else []) ++ dir

/-- The full claim of C64. -/
def C64_full : Prop :=
  (∀ progress sysv dir, dir.head? = some '/' → '#' ∉ dir →
    parseRunparts (rpLine progress sysv dir) = ⟨dir, progress, sysv⟩) ∧
  ∀ dir sysv ends es l, IsDir es → ByName l → (∀ e, e ∈ l ↔ e ∈ es ∧ WantPart sysv e) →
    (runParts dir none sysv ends es).1.map shRuns = l.map (fun e => some (partArgv dir e.name)) ∧
    (runpartsExit dir sysv ends es = 0 ↔ ∀ t ∈ (runParts dir none sysv ends es).1, ends t = .exited 0)

/-! ## Sorting -/

theorem insertPart_perm (e : PEntry) (l : List PEntry) : (insertPart e l).Perm (e :: l) := by
  induction l with
  | nil => exact .refl _
  | cons f l ih =>
    unfold insertPart
    split
    · exact .refl _
    · exact (ih.cons f).trans (.swap ..)

theorem sortParts_perm (l : List PEntry) : (sortParts l).Perm l := by
  induction l with
  | nil => exact .refl _
  | cons e l ih => exact (insertPart_perm e _).trans (ih.cons e)

theorem insertPart_sorted (e : PEntry) {l : List PEntry} (h : l.Pairwise (fun a b => a.name ≤ b.name)) :
    (insertPart e l).Pairwise (fun a b => a.name ≤ b.name) := by
  induction l with
  | nil => simp [insertPart]
  | cons f l ih =>
    unfold insertPart
    have hc := List.pairwise_cons.mp h
    split
    · rename_i hle
      refine List.pairwise_cons.mpr ⟨fun a ha => ?_, h⟩
      rcases List.mem_cons.mp ha with rfl | ha
      · exact hle
      · exact List.le_trans hle (hc.1 a ha)
    · rename_i hle
      refine List.pairwise_cons.mpr ⟨fun a ha => ?_, ih hc.2⟩
      rcases List.mem_cons.mp ((insertPart_perm e l).mem_iff.mp ha) with rfl | ha
      · rcases List.le_total f.name a.name with h | h
        · exact h
        · exact absurd h hle
      · exact hc.1 a ha

theorem sortParts_sorted (l : List PEntry) : (sortParts l).Pairwise (fun a b => a.name ≤ b.name) := by
  induction l with
  | nil => exact .nil
  | cons e l ih => exact insertPart_sorted e ih

/-- There is one way to sort by names that differ. -/
theorem byName_unique {l m : List PEntry} (hl : ByName l) (hm : ByName m) (h : ∀ e, e ∈ l ↔ e ∈ m) : l = m := by
  have nd : ∀ l : List PEntry, ByName l → l.Nodup := by
    intro l hl
    refine List.Pairwise.imp ?_ hl
    rintro a b hlt rfl
    exact List.lt_irrefl _ hlt
  refine List.Perm.eq_of_pairwise (le := fun a b : PEntry => a.name < b.name) ?_ (l₁ := l) (l₂ := m) hl hm
    ((List.perm_ext_iff_of_nodup (nd l hl) (nd m hm)).mpr (fun e => h e))
  intro a b _ _ h1 h2
  exact absurd (List.lt_trans h1 h2) (List.lt_irrefl _)

theorem sorted_byName {l : List PEntry} (h : l.Pairwise (fun a b => a.name ≤ b.name))
    (hn : (l.map (·.name)).Nodup) : ByName l := by
  unfold ByName
  rw [List.Nodup, List.pairwise_map] at hn
  refine (h.and hn).imp ?_
  intro a b ⟨h1, h2⟩
  rcases List.le_iff_lt_or_eq.mp h1 with h | h
  · exact h
  · exact absurd h h2

/-! ## What is given to the shell -/

theorem isDigit_iff (c : Char) : isDigit c = true ↔ '0' ≤ c ∧ c ≤ '9' := by
  unfold isDigit
  rw [decide_eq_true_iff]
  exact Iff.rfl

theorem pasteBuf_eq {n : Nat} {dir name : CStr} (h : '/' ∉ name) (hn : dir.length + name.length + 2 ≤ n) :
    pasteBuf n dir name = inDir dir name := by
  have h0 : name.head? ≠ some '/' := fun e => h (List.mem_of_mem_head? e)
  unfold pasteBuf inDir
  rw [if_neg h0]
  split
  · rw [List.append_nil, List.take_of_length_le (by simp; omega)]
  · rw [List.take_of_length_le (by simp; omega)]
    simp

theorem inDir_length (dir name : CStr) : (inDir dir name).length ≤ dir.length + name.length + 1 := by
  unfold inDir
  split <;> simp <;> omega

theorem strlcat_eq {n : Nat} {a b : CStr} (h : a.length + b.length < n) : strlcat n a b = a ++ b := by
  unfold strlcat
  rw [List.take_of_length_le (by omega)]

/-- The argument of a script. -/
def partArg (name : CStr) : CStr :=
  match name with
  | c :: d :: _ =>
    if '0' ≤ d ∧ d ≤ '9' then
      if c = 'S' then " start".toList else if c = 'K' then " stop".toList else []
    else []
  | _ => []

/-- What is given to the shell, nothing cut off. -/
theorem partText_eq (dir : CStr) (sysv : Bool) {e : PEntry} (h : '/' ∉ e.name) :
    partText dir none sysv e =
      if e.kind = .file true ∧ e.name.getLast? ≠ some '~' ∧
        (sysv = true → e.name.head? = some 'S' ∨ e.name.head? = some 'K')
      then some (inDir dir e.name ++ partArg e.name) else none := by
  unfold partText
  dsimp only
  rw [pasteBuf_eq h (by omega)]
  have hl := inDir_length dir e.name
  have s1 : strlcat (dir.length + e.name.length + 3 + 5) (inDir dir e.name) " start".toList =
      inDir dir e.name ++ " start".toList := strlcat_eq (by simp; omega)
  have s2 : strlcat (dir.length + e.name.length + 3 + 5) (inDir dir e.name) " stop".toList =
      inDir dir e.name ++ " stop".toList := strlcat_eq (by simp; omega)
  rw [s1, s2]
  by_cases h1 : e.name.getLast? = some '~'
  · simp [h1]
  rw [if_neg h1]
  cases hk : e.kind with
  | dir => simp
  | broken => simp
  | file x =>
    dsimp only
    cases x with
    | false => simp
    | true =>
      rw [if_neg (by decide)]
      by_cases h2 : sysv = true ∧ e.name.head? ≠ some 'S' ∧ e.name.head? ≠ some 'K'
      · rw [if_pos h2, if_neg]
        rintro ⟨_, _, h3⟩
        rcases h3 h2.1 with h | h
        · exact h2.2.1 h
        · exact h2.2.2 h
      · have hc : PKind.file true = PKind.file true ∧ e.name.getLast? ≠ some '~' ∧
            (sysv = true → e.name.head? = some 'S' ∨ e.name.head? = some 'K') := by
          refine ⟨rfl, h1, fun hs => ?_⟩
          by_cases h3 : e.name.head? = some 'S'
          · exact .inl h3
          · by_cases h4 : e.name.head? = some 'K'
            · exact .inr h4
            · exact absurd ⟨hs, h3, h4⟩ h2
        rw [if_neg h2, if_pos hc]
        · unfold partArg
          generalize e.name = n
          match n with
          | [] => simp
          | [c] => simp
          | c :: d :: r =>
            by_cases hd : '0' ≤ d ∧ d ≤ '9'
            · by_cases h3 : c = 'S'
              · simp [h3, hd, (isDigit_iff d).mpr hd]
              · by_cases h4 : c = 'K'
                · simp [h4, hd, (isDigit_iff d).mpr hd]
                · simp [h3, h4, hd]
            · have : isDigit d = false := by
                cases e : isDigit d
                · rfl
                · exact absurd ((isDigit_iff d).mp e) hd
              simp [this, hd]

theorem partsLoop_eq (dir : CStr) (sysv : Bool) (ends : CStr → PEnd) (l : List PEntry) :
    partsLoop dir none sysv ends l =
      (l.filterMap (partText dir none sysv), ((l.filterMap (partText dir none sysv)).map fun t => endCode (ends t)).sum) := by
  induction l with
  | nil => rfl
  | cons e l ih =>
    unfold partsLoop
    cases h : partText dir none sysv e with
    | none => dsimp only; rw [List.filterMap_cons_none h]; exact ih
    | some t => dsimp only; rw [List.filterMap_cons_some h, ih]; rfl

theorem tokens_one {w : CStr} (h0 : w ≠ []) (h : ∀ c ∈ w, isBlank c = false) : tokens isBlank w = [w] := by
  unfold tokens
  have := tokensAux_append_nosep isBlank w [] [] h
  rw [List.append_nil] at this
  rw [this]
  simp [tokensAux, h0]

theorem tokens_two {w v : CStr} (h0 : w ≠ []) (h : ∀ c ∈ w, isBlank c = false) (hv : v ≠ [])
    (hv' : ∀ c ∈ v, isBlank c = false) : tokens isBlank (w ++ ' ' :: v) = [w, v] := by
  have := tokens_one hv hv'
  unfold tokens at this ⊢
  rw [tokensAux_append_nosep isBlank w [] _ h]
  have hb : isBlank ' ' = true := by decide
  simp [tokensAux, h0, hb, this]

theorem not_blank {c : Char} (h : shPlain c = true) : isBlank c = false := by
  cases hb : isBlank c with
  | false => rfl
  | true =>
    unfold isBlank at hb
    rw [decide_eq_true_iff] at hb
    rcases hb with rfl | rfl
    · exact absurd h (by decide)
    · exact absurd h (by decide)

theorem inDir_ne (dir name : CStr) : inDir dir name ≠ [] := by
  unfold inDir
  split
  · rename_i h; rintro e; rw [(List.append_eq_nil_iff.mp e).1] at h; cases h
  · simp

theorem shRuns_part {dir name : CStr} (hd : dir.all shPlain = true) (hn : name.all shPlain = true) :
    shRuns (inDir dir name ++ partArg name) = some (partArgv dir name) := by
  have hp : ∀ c ∈ inDir dir name, shPlain c = true := by
    intro c hc
    unfold inDir at hc
    split at hc
    · rcases List.mem_append.mp hc with h | h
      · exact List.all_eq_true.mp hd c h
      · exact List.all_eq_true.mp hn c h
    · rcases List.mem_append.mp hc with h | h
      · exact List.all_eq_true.mp hd c h
      · rcases List.mem_cons.mp h with rfl | h
        · decide
        · exact List.all_eq_true.mp hn c h
  have hb : ∀ c ∈ inDir dir name, isBlank c = false := fun c hc => not_blank (hp c hc)
  have h0 := inDir_ne dir name
  have one : shRuns (inDir dir name ++ []) = some [inDir dir name] := by
    unfold shRuns
    rw [List.append_nil, if_pos (List.all_eq_true.mpr fun c hc => by rw [hp c hc]; rfl), tokens_one h0 hb]
  have two : ∀ v : CStr, v ≠ [] → (∀ c ∈ v, shPlain c = true) →
      shRuns (inDir dir name ++ ' ' :: v) = some [inDir dir name, v] := by
    intro v hv hv'
    unfold shRuns
    rw [if_pos, tokens_two h0 hb hv (fun c hc => not_blank (hv' c hc))]
    refine List.all_eq_true.mpr fun c hc => ?_
    rcases List.mem_append.mp hc with h | h
    · rw [hp c h]; rfl
    · rcases List.mem_cons.mp h with rfl | h
      · rfl
      · rw [hv' c h]; rfl
  unfold partArgv partArg
  generalize inDir dir name = p at *
  match name with
  | [] => exact one
  | [c] => exact one
  | c :: d :: r =>
    dsimp only
    by_cases h1 : '0' ≤ d ∧ d ≤ '9'
    · rw [if_pos h1, if_pos h1]
      by_cases h2 : c = 'S'
      · rw [if_pos h2, if_pos h2]
        exact two "start".toList (by decide) (by decide)
      · rw [if_neg h2, if_neg h2]
        by_cases h3 : c = 'K'
        · rw [if_pos h3, if_pos h3]
          exact two "stop".toList (by decide) (by decide)
        · rw [if_neg h3, if_neg h3]; exact one
    · rw [if_neg h1, if_neg h1]; exact one

/-! ## C64 -/

theorem mem_part {dir : CStr} {sysv : Bool} {es : List PEntry} (hd : IsDir es) {e : PEntry} (he : e ∈ es)
    (hs : sysv = true → e.kind = .file true → (e.name.head? = some 'S' ∨ e.name.head? = some 'K') → SysvName e.name) :
    partText dir none sysv e = some (inDir dir e.name ++ partArg e.name) ∧ WantPart sysv e ∨
    partText dir none sysv e = none ∧ ¬ WantPart sysv e := by
  rw [partText_eq dir sysv (hd.2 e he).2]
  have hb : (¬ ∃ r, e.name = r ++ ['~']) ↔ e.name.getLast? ≠ some '~' := by
    rw [Ne, List.getLast?_eq_some_iff]
  split
  · rename_i h
    exact .inl ⟨rfl, h.1, hb.mpr h.2.1, fun hv => hs hv h.1 (h.2.2 hv)⟩
  · rename_i h
    refine .inr ⟨rfl, fun hw => h ⟨hw.1, hb.mp hw.2.1, fun hv => ?_⟩⟩
    obtain ⟨c, d, r, e, h1, _⟩ := hw.2.2 hv
    rw [e]
    rcases h1 with rfl | rfl
    · exact .inl rfl
    · exact .inr rfl

/-- **C64, scripts, partial.**  In a directory of any files whose names have no character that means something to the
    shell, every executable file that is no backup is run once, one after the other and in alphabetical order,
    `S01name` with `start` and `K01name` with `stop`.

    Missing: names with blanks and other characters that mean something to the shell, and with `sysv` scripts whose
    names begin with S or K, but without a digit (for both it is false). -/
theorem C64_scripts_partial {dir : CStr} {sysv : Bool} {es l : List PEntry} (ends : CStr → PEnd) (hd : IsDir es)
    (hl : ByName l) (hm : ∀ e, e ∈ l ↔ e ∈ es ∧ WantPart sysv e) (h1 : dir.all shPlain = true)
    (h2 : ∀ e ∈ es, WantPart sysv e → e.name.all shPlain = true)
    (h3 : sysv = true → ∀ e ∈ es, e.kind = .file true → (e.name.head? = some 'S' ∨ e.name.head? = some 'K') →
      SysvName e.name) :
    (runParts dir none sysv ends es).1.map shRuns = l.map (fun e => some (partArgv dir e.name)) := by
  unfold runParts
  rw [partsLoop_eq]
  dsimp only
  have hp := sortParts_perm es
  have hsort : ByName (sortParts es) :=
    sorted_byName (sortParts_sorted es) ((hp.map _).nodup_iff.mpr hd.1)
  -- what is run are the wanted ones
  have e1 : l = (sortParts es).filter (fun e => (partText dir none sysv e).isSome) := by
    refine byName_unique hl (List.Pairwise.filter _ hsort) (fun e => ?_)
    rw [hm, List.mem_filter, hp.mem_iff]
    refine and_congr_right fun he => ?_
    rcases mem_part hd (dir := dir) he (fun hs => h3 hs e he) with ⟨h, hw⟩ | ⟨h, hw⟩
    · rw [h]; simp [hw]
    · rw [h]; simp [hw]
  have key : ∀ m : List PEntry, (∀ e ∈ m, e ∈ es) →
      (m.filterMap (partText dir none sysv)).map shRuns =
      (m.filter (fun e => (partText dir none sysv e).isSome)).map (fun e => some (partArgv dir e.name)) := by
    intro m
    induction m with
    | nil => intro _; rfl
    | cons e m ih =>
      intro hmem
      have ih := ih fun x hx => hmem x (List.mem_cons_of_mem _ hx)
      have he := hmem e List.mem_cons_self
      rcases mem_part hd (dir := dir) he (fun hs => h3 hs e he) with ⟨h, hw⟩ | ⟨h, _⟩
      · rw [List.filterMap_cons_some h, List.filter_cons_of_pos (by rw [h]; rfl), List.map_cons, List.map_cons, ih,
          shRuns_part h1 (h2 e he hw)]
      · rw [List.filterMap_cons_none h, List.filter_cons_of_neg (by rw [h]; simp), ih]
  rw [key _ (fun e he => hp.mem_iff.mp he), ← e1]

theorem sum_zero {l : List Nat} : l.sum = 0 ↔ ∀ n ∈ l, n = 0 := by
  induction l with
  | nil => simp
  | cons a l ih => simp [ih]

/-- **C64, failures, partial.**  The sum of exit codes is 0 if, and only if, all scripts succeeded; the exit code of
    `runparts` is, if that sum is below 256.

    Missing: larger sums (where it is false). -/
theorem C64_failures_partial (dir : CStr) (sysv : Bool) (ends : CStr → PEnd) (es : List PEntry) :
    ((runParts dir none sysv ends es).2 = 0 ↔ ∀ t ∈ (runParts dir none sysv ends es).1, ends t = .exited 0) ∧
    ((runParts dir none sysv ends es).2 < 256 →
      (runpartsExit dir sysv ends es = 0 ↔ ∀ t ∈ (runParts dir none sysv ends es).1, ends t = .exited 0)) := by
  have h : (runParts dir none sysv ends es).2 = 0 ↔ ∀ t ∈ (runParts dir none sysv ends es).1, ends t = .exited 0 := by
    unfold runParts
    rw [partsLoop_eq]
    dsimp only
    rw [sum_zero]
    constructor
    · intro h t ht
      have := h _ (List.mem_map_of_mem ht)
      unfold endCode at this
      split at this
      · rename_i n e; rw [e, this]
      · cases this
    · intro h n hn
      obtain ⟨t, ht, rfl⟩ := List.mem_map.mp hn
      rw [h t ht]; rfl
  refine ⟨h, fun hl => ?_⟩
  unfold runpartsExit
  rw [Nat.mod_eq_of_lt hl, h]

theorem matchRp_slash {word : CStr} {s : CStr} (hw : word.head? ≠ none) (hs : s.head? = some '/')
    (h : (lower word).head? ≠ some '/') : matchRp word s = none := by
  unfold matchRp
  rw [if_neg]
  intro e
  match s, word with
  | c :: s, d :: w =>
    simp only [List.head?_cons, Option.some.injEq] at hs
    subst hs
    unfold lower at e h
    simp only [List.length_cons, List.take_succ_cons, List.map_cons, List.cons.injEq] at e
    refine h ?_
    rw [List.map_cons, List.head?_cons, ← e.1]
    rfl
  | [], _ => cases hs
  | _, [] => exact hw rfl

theorem stripLine_slash {dir : CStr} (h1 : dir.head? = some '/') (h2 : '#' ∉ dir) : stripLine dir = dir := by
  unfold stripLine
  have : dir.dropWhile isBlank = dir := by
    match dir with
    | [] => rfl
    | c :: d =>
      simp only [List.head?_cons, Option.some.injEq] at h1
      subst h1
      rfl
  rw [this]
  have gen : ∀ d : CStr, '#' ∉ d → d.takeWhile (· ≠ '#') = d := by
    intro d
    induction d with
    | nil => intro _; rfl
    | cons c d ih =>
      intro h
      rw [List.takeWhile_cons_of_pos, ih (fun hm => h (List.mem_cons_of_mem _ hm))]
      simpa using fun e : c = '#' => h (e ▸ List.mem_cons_self)
  exact gen dir h2

theorem stripLine_blank (s : CStr) : stripLine (' ' :: s) = stripLine s := by
  unfold stripLine
  rw [List.dropWhile_cons_of_pos (by decide)]

/-- **C64, the line, partial.**  A `runparts` line with at most one option names the directory and the option.

    Missing: both options (where it is false), and a comment after the directory (where it is false). -/
theorem C64_line_partial (progress sysv : Bool) {dir : CStr} (h1 : dir.head? = some '/') (h2 : '#' ∉ dir)
    (h3 : progress = false ∨ sysv = false) : parseRunparts (rpLine progress sysv dir) = ⟨dir, progress, sysv⟩ := by
  have m1 : matchRp "progress".toList dir = none := matchRp_slash (by decide) h1 (by decide)
  have m2 : matchRp "sysv".toList dir = none := matchRp_slash (by decide) h1 (by decide)
  have b1 : matchRp "progress".toList (' ' :: dir) = none := by
    unfold matchRp lower
    rw [if_neg]
    intro e
    have := congrArg List.head? e
    revert this
    simp
  have b2 : matchRp "sysv".toList (' ' :: dir) = none := by
    unfold matchRp lower
    rw [if_neg]
    intro e
    have := congrArg List.head? e
    revert this
    simp
  unfold parseRunparts
  match progress, sysv, h3 with
  | false, false, _ =>
    show (let r := rpLoop (dir.length + 1) { dir := dir }; ({ r with dir := stripLine r.dir } : RpConf)) = _
    unfold rpLoop
    dsimp only
    rw [m1]; dsimp only
    rw [m2]; dsimp only
    rw [stripLine_slash h1 h2]
  | true, false, _ =>
    have e : rpLine true false dir = "progress ".toList ++ dir := by simp [rpLine]
    have m : matchRp "progress".toList ("progress ".toList ++ dir) = some (' ' :: dir) := by
      unfold matchRp
      rw [show ("progress ".toList ++ dir) = "progress".toList ++ ' ' :: dir by simp]
      rw [List.take_left, List.drop_left, if_pos rfl]
    rw [e]
    have : (("progress ".toList ++ dir).length + 1) = dir.length + 8 + 1 + 1 := by simp
    rw [this]
    unfold rpLoop
    dsimp only
    rw [m]; dsimp only
    unfold rpLoop
    dsimp only
    rw [b1]; dsimp only
    rw [b2]; dsimp only
    rw [stripLine_blank, stripLine_slash h1 h2]
  | false, true, _ =>
    have e : rpLine false true dir = "sysv ".toList ++ dir := by simp [rpLine]
    have m : matchRp "sysv".toList ("sysv ".toList ++ dir) = some (' ' :: dir) := by
      unfold matchRp
      rw [show ("sysv ".toList ++ dir) = "sysv".toList ++ ' ' :: dir by simp]
      rw [List.take_left, List.drop_left, if_pos rfl]
    have m0 : matchRp "progress".toList ("sysv ".toList ++ dir) = none := by
      unfold matchRp lower
      rw [if_neg]
      intro e
      have := congrArg List.head? e
      revert this
      simp
    rw [e]
    have : (("sysv ".toList ++ dir).length + 1) = dir.length + 4 + 1 + 1 := by simp
    rw [this]
    unfold rpLoop
    dsimp only
    rw [m0]; dsimp only
    rw [m]; dsimp only
    unfold rpLoop
    dsimp only
    rw [b1]; dsimp only
    rw [b2]; dsimp only
    rw [stripLine_blank, stripLine_slash h1 h2]

/-- **C64, options.**  All options get through to the program; the buffer of 10 bytes is just enough. -/
theorem C64_options (debug progress sysv : Bool) :
    tokens isBlank (rpArgs debug progress sysv) =
      (if debug then ["-d".toList] else []) ++ (if progress then ["-p".toList] else []) ++
      (if sysv then ["-s".toList] else []) := by
  cases debug <;> cases progress <;> cases sysv <;> decide +kernel

/-! ## Where C64 is false -/

/-- **C64 is false** of both options together: the second is taken for the beginning of the directory's name, there is no
    such directory, and no script is run. -/
theorem C64_both_options : parseRunparts (rpLine true true "/etc/rc.d".toList) =
    ⟨"sysv /etc/rc.d".toList, true, false⟩ := by decide +kernel

/-- The blank before a comment becomes a part of the directory's name (the comment itself is taken away when the line is
    read). -/
theorem C64_comment : (parseRunparts "/etc/rc.d ".toList).dir = "/etc/rc.d ".toList := by decide +kernel

/-- A script whose name has a blank is not run; another one may be, and with an argument. -/
theorem C64_blank : ∃ es, IsDir es ∧
    (runParts "/etc/rc.d".toList none false (fun _ => .exited 0) es).1.map shRuns =
      [some ["/etc/rc.d/S01a".toList, "b".toList, "start".toList]] ∧
    es = [⟨"S01a b".toList, .file true⟩] :=
  ⟨_, ⟨by decide +kernel, by decide +kernel⟩, by decide +kernel, rfl⟩

/-- With `sysv`, a file whose name begins with S is run though it is no script of SysV init. -/
theorem C64_sysv : (runParts "/etc/rc.d".toList none true (fun _ => .exited 0) [⟨"Setup".toList, .file true⟩]).1 =
    ["/etc/rc.d/Setup".toList] ∧ ¬ SysvName "Setup".toList := by
  refine ⟨by decide +kernel, ?_⟩
  rintro ⟨c, d, r, e, _, h1, h2⟩
  have : d = 'e' := by
    have := congrArg (fun l => l[1]?) e
    simpa using this.symm
  subst this
  exact absurd h2 (by decide)

/-- Two scripts fail, and `runparts` succeeds. -/
theorem C64_sum : runpartsExit "/etc/rc.d".toList false (fun _ => .exited 128)
      [⟨"S01a".toList, .file true⟩, ⟨"S02b".toList, .file true⟩] = 0 ∧
    (runParts "/etc/rc.d".toList none false (fun _ => .exited 128)
      [⟨"S01a".toList, .file true⟩, ⟨"S02b".toList, .file true⟩]).1 =
      ["/etc/rc.d/S01a start".toList, "/etc/rc.d/S02b start".toList] := by decide +kernel

/-- **C64 is false.** -/
theorem C64_full_false : ¬ C64_full := by
  intro h
  have := h.1 true true "/etc/rc.d".toList (by decide) (by decide)
  rw [C64_both_options] at this
  cases this

/-- Not vacuous: of six files three are run. -/
example :
    let es : List PEntry := [⟨"S10net".toList, .file true⟩, ⟨"K05old".toList, .file true⟩, ⟨"README".toList, .file false⟩,
      ⟨"S10net~".toList, .file true⟩, ⟨"lib".toList, .dir⟩, ⟨"01-mine".toList, .file true⟩]
    IsDir es ∧ (runParts "/etc/rc.d/".toList none false (fun _ => .exited 0) es).1 =
      ["/etc/rc.d/01-mine".toList, "/etc/rc.d/K05old stop".toList, "/etc/rc.d/S10net start".toList] ∧
    (∀ e ∈ es, e.name.all shPlain = true ∨ e.name.getLast? = some '~') ∧
    partArgv "/etc/rc.d/".toList "S10net".toList = ["/etc/rc.d/S10net".toList, "start".toList] := by
  refine ⟨⟨by decide +kernel, by decide +kernel⟩, by decide +kernel, by decide +kernel, by decide +kernel⟩

example : parseRunparts (rpLine true false "/etc/rc.d".toList) = ⟨"/etc/rc.d".toList, true, false⟩ := by decide +kernel

/-! ## C65 -/

/-- The documented directory of hook scripts, below the configured one, doc/plugins.md. -/
def hookDir : Hook → Option CStr
  | .banner => some "/sys/banner".toList
  | .rootfsUp => some "/mount/root".toList
  | .mountError => some "/mount/error".toList
  | .mountPost => some "/mount/post".toList
  | .basefsUp => some "/mount/all".toList
  | .svcPlugin => some "/svc/plugin".toList
  | .networkUp => some "/net/up".toList
  | .svcUp => some "/svc/up".toList
  | .systemUp => some "/sys/up".toList
  | .svcReconf => none
  | .runlevelChange => none
  | .networkDn => some "/net/down".toList
  | .shutdown => some "/sys/shutdown".toList
  | .svcDn => some "/svc/down".toList
  | .sysDn => some "/sys/down".toList

/-- The documented word for the way the system goes down. -/
def downWord : ShutOp → CStr
  | .reboot => "reboot".toList
  | .halt => "halt".toList
  | .off => "poweroff".toList

/-- What is to be run at a hook point: the scripts of its directory once, with the documented environment. -/
def wantHook (root : CStr) (op : ShutOp) (h : Hook) : List HookRun :=
  match hookDir h with
  | none => []
  | some d => [⟨root ++ d, ("FINIT_HOOK_NAME".toList, "hook".toList ++ d) ::
      (if h = .shutdown ∨ h = .svcDn ∨ h = .sysDn then [("FINIT_SHUTDOWN".toList, downWord op)] else [])⟩]

/-- The life of a system: plugins are loaded; the hooks up to the mounting of file systems; conditions become available;
    any hooks; and the system goes down. -/
def hookLife (early late : List Hook) : List HookStep :=
  .init :: early.map .hook ++ .conds :: late.map .hook ++ [.down]

/-- The full claim of C65: at every hook point the scripts of its directory are run, once. -/
def C65_full : Prop := ∀ ext root op early late,
  (∀ h ∈ early, h = .banner ∨ h = .rootfsUp ∨ h = .mountError ∨ h = .mountPost ∨ h = .basefsUp) →
  (∀ h ∈ late, h ≠ .svcDn ∧ h ≠ .sysDn) →
  hookRuns root op { ext := ext } (hookLife early late) =
    (early ++ late ++ [Hook.svcDn, Hook.sysDn]).flatMap (wantHook root op)

theorem scriptRun_eq (root : CStr) (op : ShutOp) (h : Hook) : scriptRun root op h = wantHook root op h := by
  cases h <;> cases op <;> rfl

theorem hookRuns_append (root : CStr) (op : ShutOp) : ∀ (a b : List HookStep) (s : HookState),
    hookRuns root op s (a ++ b) = hookRuns root op s a ++
      hookRuns root op (a.foldl (fun s x => (hookStep root op s x).2) s) b := by
  intro a
  induction a with
  | nil => intro b s; rfl
  | cons x a ih => intro b s; simp [hookRuns, ih]

theorem hooks_run (root : CStr) (op : ShutOp) (s : HookState) : ∀ l : List Hook,
    hookRuns root op s (l.map .hook) = l.flatMap (runHook root op s) ∧
    (l.map HookStep.hook).foldl (fun s x => (hookStep root op s x).2) s = s := by
  intro l
  induction l with
  | nil => exact ⟨rfl, rfl⟩
  | cons h l ih =>
    refine ⟨?_, ih.2⟩
    rw [List.map_cons, hookRuns, List.flatMap_cons]
    show runHook root op s h ++ hookRuns root op s (l.map .hook) = _
    rw [ih.1]

theorem life_runs (ext : Bool) (root : CStr) (op : ShutOp) (early late : List Hook) :
    hookRuns root op { ext := ext } (hookLife early late) =
      early.flatMap (runHook root op { ext := ext, loaded := ext, plugin := true }) ++
      (late.flatMap (runHook root op { ext := ext, loaded := ext, plugin := true, conds := true }) ++
       (wantHook root op .svcDn ++ wantHook root op .sysDn)) := by
  unfold hookLife
  rw [List.cons_append, List.cons_append, hookRuns]
  show [] ++ _ = _
  rw [List.nil_append]
  show hookRuns root op { ext := ext, loaded := ext, plugin := true } _ = _
  rw [List.append_assoc, hookRuns_append, (hooks_run root op _ early).1, (hooks_run root op _ early).2]
  refine congrArg _ ?_
  rw [List.cons_append, hookRuns]
  show [] ++ hookRuns root op { ext := ext, loaded := ext, plugin := true, conds := true } _ = _
  rw [List.nil_append, hookRuns_append, (hooks_run root op _ late).1, (hooks_run root op _ late).2]
  refine congrArg _ ?_
  rw [hookRuns]
  show scriptRun root op .svcDn ++ scriptRun root op .sysDn ++ [] = _
  rw [List.append_nil, scriptRun_eq, scriptRun_eq]

/-- **C65, partial.**  With a path for external plugins, as by default: at every hook point but hook/svc/plugin and
    hook/net/down the scripts of its directory are run once, in the order of the hook points, with the documented
    environment; nothing else is run.

    Missing: those two hook points, and finit built without a path for external plugins (for both it is false). -/
theorem C65_once_partial (root : CStr) (op : ShutOp) {early late : List Hook}
    (h1 : ∀ h ∈ early, h = .banner ∨ h = .rootfsUp ∨ h = .mountError ∨ h = .mountPost ∨ h = .basefsUp)
    (h2 : ∀ h ∈ late, h ≠ .svcDn ∧ h ≠ .sysDn ∧ h ≠ .svcPlugin ∧ h ≠ .networkDn) :
    hookRuns root op { ext := true } (hookLife early late) =
      (early ++ late ++ [Hook.svcDn, Hook.sysDn]).flatMap (wantHook root op) := by
  rw [life_runs, List.flatMap_append, List.flatMap_append, List.append_assoc]
  have key : ∀ (c : Bool) (l : List Hook),
      (∀ h ∈ l, h ≠ .svcDn ∧ h ≠ .sysDn ∧ h ≠ .svcPlugin ∧ h ≠ .networkDn) →
      l.flatMap (runHook root op { ext := true, loaded := true, plugin := true, conds := c }) =
      l.flatMap (wantHook root op) := by
    intro c l hl
    induction l with
    | nil => rfl
    | cons h l ih =>
      rw [List.flatMap_cons, List.flatMap_cons, ih fun x hx => hl x (List.mem_cons_of_mem _ hx)]
      refine congrArg (· ++ _) ?_
      obtain ⟨a1, a2, a3, a4⟩ := hl h List.mem_cons_self
      unfold runHook
      rw [scriptRun_eq]
      cases h <;> first | rfl | exact absurd rfl a1 | exact absurd rfl a2 | exact absurd rfl a3 | exact absurd rfl a4 | skip
      all_goals cases c <;> rfl
  rw [key false early (fun h hh => by rcases h1 h hh with rfl | rfl | rfl | rfl | rfl <;> decide), key true late h2]
  simp

/-- Scripts in hook/net/down and hook/svc/plugin are never run, whatever hook points are reached. -/
theorem C65_never (ext : Bool) (root : CStr) (op : ShutOp) {early late : List Hook}
    (h1 : ∀ h ∈ early, h = .banner ∨ h = .rootfsUp ∨ h = .mountError ∨ h = .mountPost ∨ h = .basefsUp)
    (r : HookRun) (hr : r ∈ hookRuns root op { ext := ext } (hookLife early late)) :
    r.path ≠ root ++ "/net/down".toList ∧ r.path ≠ root ++ "/svc/plugin".toList := by
  have one : ∀ h : Hook, h ≠ .networkDn → h ≠ .svcPlugin → ∀ r ∈ wantHook root op h,
      r.path ≠ root ++ "/net/down".toList ∧ r.path ≠ root ++ "/svc/plugin".toList := by
    intro h n1 n2 r hr
    unfold wantHook at hr
    split at hr
    · cases hr
    · rename_i d hd
      rw [List.mem_singleton] at hr
      subst hr
      dsimp only
      rw [Ne, List.append_cancel_left_eq, Ne, List.append_cancel_left_eq]
      revert hd
      revert d
      cases h <;> first | exact absurd rfl n1 | exact absurd rfl n2 | skip
      all_goals
        intro d hd
        first | (cases hd; done) | (rw [← Option.some.inj hd]; decide)
  rw [life_runs, List.mem_append, List.mem_append, List.mem_append, List.mem_flatMap, List.mem_flatMap] at hr
  rcases hr with ⟨h, hh, hr⟩ | ⟨h, hh, hr⟩ | hr | hr
  · have : h ≠ .networkDn ∧ h ≠ .svcPlugin := by rcases h1 h hh with rfl | rfl | rfl | rfl | rfl <;> decide
    refine one h this.1 this.2 r ?_
    unfold runHook at hr
    rw [scriptRun_eq] at hr
    rcases List.mem_append.mp hr with h | h
    · split at h
      · exact h
      · cases h
    · split at h
      · exact h
      · cases h
  · unfold runHook at hr
    rw [scriptRun_eq, if_neg (fun hc => nomatch hc.1), List.nil_append] at hr
    split at hr
    · rename_i hp
      refine one h ?_ ?_ r hr
      · rintro rfl; exact absurd hp.2 (by decide)
      · rintro rfl; exact absurd hp.2 (by decide)
    · cases hr
  · exact one _ (by decide) (by decide) r hr
  · exact one _ (by decide) (by decide) r hr

/-- Built without a path for external plugins, the scripts of every hook before conditions become available are run
    twice. -/
theorem C65_twice (root : CStr) (op : ShutOp) : ∃ r, hookRuns root op { ext := false } (hookLife [.rootfsUp] []) =
      [r, r] ++ hookRuns root op { ext := false } (hookLife [] []) ∧
    wantHook root op .rootfsUp = [r] := by
  refine ⟨_, ?_, rfl⟩
  rw [life_runs, life_runs]
  rfl

/-- **C65 is false.** -/
theorem C65_full_false : ¬ C65_full := by
  intro h
  have := h true "/hook".toList .reboot [] [.networkDn] (fun _ h => nomatch h)
    (fun h hh => by rw [List.mem_singleton.mp hh]; decide)
  revert this
  decide +kernel

/-- Not vacuous: a boot, and poweroff. -/
example : (hookRuns "/hook".toList .off { ext := true }
      (hookLife [.banner, .rootfsUp, .mountPost, .basefsUp] [.networkUp, .svcUp, .systemUp, .runlevelChange, .shutdown])).map
        (·.path) =
    ["/hook/sys/banner".toList, "/hook/mount/root".toList, "/hook/mount/post".toList, "/hook/mount/all".toList,
     "/hook/net/up".toList, "/hook/svc/up".toList, "/hook/sys/up".toList, "/hook/sys/shutdown".toList,
     "/hook/svc/down".toList, "/hook/sys/down".toList] := by decide +kernel

end Verif
