import Verif.Coldplug
import Verif.Props.Sulogin
import Verif.Props.Files

/-!
# C93: The modules of all devices found at boot are loaded
-/

namespace Verif

/-! ## Specification -/

/-- The lines of a file, of any length -/
def HasLines (lines : List CStr) (text : List Char) : Prop := text = lines.flatMap (· ++ ['\n']) ∧ ∀ l ∈ lines, '\n' ∉ l

/-- A file that can be read tells that a device needs the module `a`: its name is uevent and this is in its first line of this kind, or its name is
    modalias and this is its first line. -/
def TellsAlias (f : CpFile) (a : CStr) : Prop :=
  f.reg = true ∧ ∃ dir text lines, f.text = some text ∧ HasLines lines text ∧
    ((f.path = dir ++ "/uevent".toList ∧ ∃ pre post, lines = pre ++ ("MODALIAS=".toList ++ a) :: post ∧ ∀ l ∈ pre, ¬ "MODALIAS=".toList <+: l) ∨
      (f.path = dir ++ "/modalias".toList ∧ ∃ post, lines = a :: post))

/-- All files consist of lines, of less than `n` characters. -/
def CpShort (n : Nat) (files : List CpFile) : Prop :=
  ∀ f ∈ files, ∀ text, f.text = some text → ∃ lines, HasLines lines text ∧ ∀ l ∈ lines, l.length < n

/-- The full claim: modprobe is started once for each alias that a file tells, with nothing else, and init itself goes on. -/
def C93_full : Prop :=
  ∀ (files : List CpFile) (turn : Nat → CpTurn) (n : Nat), CpShort n files → (∀ k, turn k ≠ .noFork) →
    let r := coldplug ⟨true, true, some files, turn⟩
    (∀ a, a ∈ r.ran ↔ ∃ f ∈ files, TellsAlias f a) ∧ r.ran.Nodup ∧ r.depth = 0

/-! ## Lemmas -/

theorem hasLines_inj : ∀ {ls ms : List CStr} {text : List Char}, HasLines ls text → HasLines ms text → ls = ms
  | [], [], _, _, _ => rfl
  | [], m :: ms, text, h, g => by
    have := h.1.symm.trans g.1
    rw [List.flatMap_nil, List.flatMap_cons] at this
    cases m <;> cases this
  | l :: ls, [], text, h, g => by
    have := g.1.symm.trans h.1
    rw [List.flatMap_nil, List.flatMap_cons] at this
    cases l <;> cases this
  | l :: ls, m :: ms, text, h, g => by
    have e := h.1.symm.trans g.1
    rw [List.flatMap_cons, List.flatMap_cons, List.append_assoc, List.append_assoc] at e
    have key : ∀ (a b : CStr) (u v : List Char), '\n' ∉ a → '\n' ∉ b → a ++ '\n' :: u = b ++ '\n' :: v → a = b ∧ u = v := by
      intro a
      induction a with
      | nil =>
        intro b u v _ hb e
        cases b with
        | nil => exact ⟨rfl, (List.cons.inj e).2⟩
        | cons c b => exact absurd ((List.cons.inj e).1 ▸ List.mem_cons_self) hb
      | cons c a ih =>
        intro b u v ha hb e
        cases b with
        | nil => exact absurd ((List.cons.inj e).1 ▸ List.mem_cons_self) ha
        | cons d b =>
          obtain ⟨e1, e2⟩ := List.cons.inj e
          obtain ⟨h1, h2⟩ := ih b u v (fun h => ha (List.mem_cons_of_mem _ h)) (fun h => hb (List.mem_cons_of_mem _ h)) e2
          exact ⟨by rw [e1, h1], h2⟩
    obtain ⟨h1, h2⟩ := key l m _ _ (h.2 l List.mem_cons_self) (g.2 m List.mem_cons_self) e
    rw [h1, hasLines_inj (ls := ls) (ms := ms) ⟨rfl, fun x hx => h.2 x (List.mem_cons_of_mem _ hx)⟩
      ⟨h2, fun x hx => g.2 x (List.mem_cons_of_mem _ hx)⟩]

theorem chompLine_line (l : CStr) : chompLine (l ++ ['\n']) = l := by
  unfold chompLine
  rw [List.getLast?_concat, if_pos rfl, List.dropLast_concat]

theorem prefix_line {p l : CStr} (hp : '\n' ∉ p) : p <+: l ++ ['\n'] ↔ p <+: l := by
  constructor
  · rintro ⟨t, ht⟩
    rcases List.eq_nil_or_concat t with e | ⟨t', c, e⟩
    · rw [e, List.append_nil] at ht
      exact absurd (by rw [ht]; simp) hp
    · rw [e, List.concat_eq_append, ← List.append_assoc] at ht
      exact ⟨t', (List.append_inj' ht rfl).1⟩
  · exact fun h => h.trans (List.prefix_append _ _)

theorem cpUevent_iff {a : CStr} : ∀ {lines : List CStr}, cpUevent (lines.map (· ++ ['\n'])) = some a ↔
    ∃ pre post, lines = pre ++ ("MODALIAS=".toList ++ a) :: post ∧ ∀ l ∈ pre, ¬ "MODALIAS=".toList <+: l
  | [] => by
    constructor
    · exact fun h => nomatch h
    · rintro ⟨pre, post, h, -⟩
      cases pre <;> cases h
  | l :: ls => by
    rw [List.map_cons, cpUevent]
    by_cases hp : "MODALIAS=".toList <+: l
    · rw [if_pos (List.isPrefixOf_iff_prefix.2 ((prefix_line (by decide)).2 hp)), chompLine_line]
      obtain ⟨t, ht⟩ := hp
      constructor
      · intro h
        refine ⟨[], ls, ?_, fun l hl => nomatch hl⟩
        rw [← ht] at h ⊢
        rw [← Option.some.inj h]
        rfl
      · rintro ⟨pre, post, h, hn⟩
        cases pre with
        | nil =>
          rw [(List.cons.inj h).1]
          rfl
        | cons x pre => exact absurd ⟨t, by rw [← (List.cons.inj h).1]; exact ht⟩ (hn x List.mem_cons_self)
    · rw [if_neg (fun h => hp ((prefix_line (by decide)).1 (List.isPrefixOf_iff_prefix.1 h))), cpUevent_iff]
      constructor
      · rintro ⟨pre, post, h, hn⟩
        refine ⟨l :: pre, post, by rw [h]; rfl, fun x hx => ?_⟩
        rcases List.mem_cons.1 hx with e | hx
        · rw [e]; exact hp
        · exact hn x hx
      · rintro ⟨pre, post, h, hn⟩
        cases pre with
        | nil => exact absurd ⟨a, (List.cons.inj h).1.symm⟩ hp
        | cons x pre => exact ⟨pre, post, (List.cons.inj h).2, fun y hy => hn y (List.mem_cons_of_mem _ hy)⟩

/-- The alias of one file -/
def cpAlias (f : CpFile) : Option CStr :=
  if f.reg then
    match cpOpen "uevent".toList f with
    | some text => cpUevent (fgetsAll text)
    | none =>
      match cpOpen "modalias".toList f with
      | some text => cpModalias (fgetsAll text)
      | none => none
  else none

theorem cpScan_eq (al : List CStr) (f : CpFile) : cpScan al f = cpAdd al (cpAlias f) := by
  unfold cpScan cpAlias
  cases f.reg with
  | false => rfl
  | true =>
    rw [if_pos rfl, if_pos rfl]
    cases cpOpen "uevent".toList f with
    | some text => rfl
    | none =>
      dsimp only
      cases cpOpen "modalias".toList f <;> rfl

theorem cpScan_mem {a : CStr} : ∀ {files : List CpFile} {al : List CStr}, a ∈ files.foldl cpScan al ↔ a ∈ al ∨ ∃ f ∈ files, cpAlias f = some a
  | [], al => by simp
  | f :: fs, al => by
    rw [List.foldl_cons, cpScan_mem, cpScan_eq]
    have : a ∈ cpAdd al (cpAlias f) ↔ a ∈ al ∨ cpAlias f = some a := by
      cases cpAlias f with
      | none => simp [cpAdd]
      | some b =>
        rw [cpAdd]
        split
        · rename_i hb
          constructor
          · exact Or.inl
          · rintro (h | h)
            · exact h
            · exact Option.some.inj h ▸ hb
        · rw [List.mem_append, List.mem_singleton]
          constructor
          · rintro (h | h)
            · exact Or.inl h
            · exact Or.inr (by rw [h])
          · rintro (h | h)
            · exact Or.inl h
            · exact Or.inr (Option.some.inj h).symm
    rw [this]
    simp [or_assoc]

theorem cpScan_nodup : ∀ {files : List CpFile} {al : List CStr}, al.Nodup → (files.foldl cpScan al).Nodup
  | [], _, h => h
  | f :: fs, al, h => by
    rw [List.foldl_cons, cpScan_eq]
    refine cpScan_nodup ?_
    cases cpAlias f with
    | none => exact h
    | some b =>
      rw [cpAdd]
      split
      · exact h
      · rename_i hb
        rw [List.nodup_append]
        refine ⟨h, by simp, fun x hx y hy e => ?_⟩
        rw [List.mem_singleton] at hy
        exact hb (by rw [← hy, ← e]; exact hx)

theorem basenm_split (p : CStr) : p = basenm p ∨ ∃ dir, p = dir ++ '/' :: basenm p := by
  have h := List.takeWhile_append_dropWhile (p := fun c => decide (c ≠ '/')) (l := p.reverse)
  cases hd : p.reverse.dropWhile (fun c => decide (c ≠ '/')) with
  | nil =>
    left
    rw [hd, List.append_nil] at h
    unfold basenm
    rw [h, List.reverse_reverse]
  | cons c r =>
    right
    have hc : c = '/' := by
      have := List.head?_dropWhile_not (p := fun c => decide (c ≠ '/')) (l := p.reverse)
      rw [hd] at this
      simpa using this
    refine ⟨r.reverse, ?_⟩
    rw [hd, hc] at h
    have := congrArg List.reverse h
    rw [List.reverse_append, List.reverse_cons, List.reverse_reverse, List.append_assoc] at this
    exact this.symm

theorem cpOpen_iff {file : CStr} {f : CpFile} {text : CStr} (hf : '/' ∉ file) :
    cpOpen file f = some text ↔ f.text = some text ∧ ∃ dir, f.path = dir ++ '/' :: file := by
  unfold cpOpen
  constructor
  · intro h
    split at h
    · cases h
    rename_i h1
    split at h
    · cases h
    rename_i h2
    refine ⟨h, ?_⟩
    have h2' : file = basenm f.path := Decidable.of_not_not h2
    rcases basenm_split f.path with e | ⟨dir, e⟩
    · exact absurd e.symm h1
    · exact ⟨dir, by rw [h2']; exact e⟩
  · rintro ⟨h, dir, e⟩
    have hb : basenm f.path = file := by rw [e]; exact basenm_path dir hf
    rw [if_neg, if_neg (by rw [hb]; simp), h]
    rw [hb, e]
    intro e'
    exact hf (by rw [e']; simp)

theorem cpAlias_iff {f : CpFile} {a : CStr} (h : ∀ text, f.text = some text → ∃ lines, TextFile lines text) :
    cpAlias f = some a ↔ TellsAlias f a := by
  unfold cpAlias TellsAlias
  cases hr : f.reg with
  | false => simp
  | true =>
    rw [if_pos rfl]
    cases hu : cpOpen "uevent".toList f with
    | some text =>
      dsimp only
      obtain ⟨ht, dir, hd⟩ := (cpOpen_iff (by decide)).1 hu
      obtain ⟨lines, hl⟩ := h text ht
      have hl' : HasLines lines text := ⟨hl.1, fun l hm => (hl.2 l hm).1⟩
      rw [fgetsAll_file hl, cpUevent_iff]
      constructor
      · intro hx
        exact ⟨rfl, dir, text, lines, ht, hl', Or.inl ⟨hd, hx⟩⟩
      · rintro ⟨-, dir', text', lines', ht', hl2, hx⟩
        rw [ht] at ht'
        cases ht'
        rw [← hasLines_inj hl' hl2] at hx
        rcases hx with ⟨-, hx⟩ | ⟨hp, -⟩
        · exact hx
        · exfalso
          rw [hd] at hp
          have e1 := basenm_path dir (n := "uevent".toList) (by decide)
          have e2 := basenm_path dir' (n := "modalias".toList) (by decide)
          have hp' : dir ++ '/' :: "uevent".toList = dir' ++ '/' :: "modalias".toList := hp
          rw [hp', e2] at e1
          exact absurd e1 (by decide)
    | none =>
      dsimp only
      have hnu : ∀ text dir, f.text = some text → f.path = dir ++ "/uevent".toList → False := by
        intro text dir ht hp
        have := (cpOpen_iff (file := "uevent".toList) (f := f) (by decide)).2 ⟨ht, dir, hp⟩
        rw [hu] at this
        cases this
      cases hm : cpOpen "modalias".toList f with
      | some text =>
        dsimp only
        obtain ⟨ht, dir, hd⟩ := (cpOpen_iff (by decide)).1 hm
        obtain ⟨lines, hl⟩ := h text ht
        have hl' : HasLines lines text := ⟨hl.1, fun l hm => (hl.2 l hm).1⟩
        rw [fgetsAll_file hl]
        have hq : cpModalias (lines.map (· ++ ['\n'])) = some a ↔ ∃ post, lines = a :: post := by
          unfold cpModalias
          cases lines with
          | nil => simp
          | cons l ls =>
            rw [List.map_cons, List.head?_cons, Option.map_some, chompLine_line]
            constructor
            · intro e; exact ⟨ls, by rw [Option.some.inj e]⟩
            · rintro ⟨post, e⟩; rw [(List.cons.inj e).1]
        rw [hq]
        constructor
        · intro hx
          exact ⟨rfl, dir, text, lines, ht, hl', Or.inr ⟨hd, hx⟩⟩
        · rintro ⟨-, dir', text', lines', ht', hl2, hx⟩
          rcases hx with ⟨hp, -⟩ | ⟨-, hx⟩
          · exact (hnu text' dir' ht' hp).elim
          · rw [ht] at ht'
            cases ht'
            rw [hasLines_inj hl' hl2]
            exact hx
      | none =>
        dsimp only
        constructor
        · exact fun hx => nomatch hx
        · rintro ⟨-, dir', text', lines', ht', hl2, hx⟩
          rcases hx with ⟨hp, -⟩ | ⟨hp, -⟩
          · exact (hnu text' dir' ht' hp).elim
          · have := (cpOpen_iff (file := "modalias".toList) (f := f) (by decide)).2 ⟨ht', dir', hp⟩
            rw [hm] at this
            cases this

theorem cpProbe_run {turn : Nat → CpTurn} : ∀ (as : List CStr) (n : Nat), (∀ k, turn k ≠ .missing) →
    (cpProbe turn n as).depth = 0 ∧ (cpProbe turn n as).ran.Sublist as ∧ (cpProbe turn n as).ran.length + (cpProbe turn n as).rc = as.length
  | [], n, _ => ⟨rfl, List.Sublist.refl _, rfl⟩
  | a :: as, n, h => by
    obtain ⟨i1, i2, i3⟩ := cpProbe_run as (n + 1) h
    rw [cpProbe]
    cases ht : turn n with
    | missing => exact absurd ht (h n)
    | noFork => exact ⟨i1, i2.cons a, by simp only [List.length_cons]; omega⟩
    | run => exact ⟨i1, i2.cons_cons a, by simp only [List.length_cons]; omega⟩

/-! ## The property -/

/-- **C93, part.** If modprobe is installed and no line has more than 254 characters, modprobe is started once for each alias that a file tells and
    for nothing else, and init itself goes on; for each alias left out because init could not fork, the result counts one failure.  Missing:
    longer lines, and systems without modprobe. -/
theorem C93_all_partial {files : List CpFile} {turn : Nat → CpTurn} (hs : CpShort 255 files) (ht : ∀ k, turn k ≠ .missing) :
    let r := coldplug ⟨true, true, some files, turn⟩
    r.depth = 0 ∧ r.ran.Nodup ∧ (∀ a ∈ r.ran, ∃ f ∈ files, TellsAlias f a) ∧ (r.rc = 0 → ∀ a, (∃ f ∈ files, TellsAlias f a) → a ∈ r.ran) ∧
      ((∀ k, turn k ≠ .noFork) → r.rc = 0) := by
  have hf : ∀ f ∈ files, ∀ a, cpAlias f = some a ↔ TellsAlias f a := by
    intro f hm a
    refine cpAlias_iff fun text htx => ?_
    obtain ⟨lines, hl, hlen⟩ := hs f hm text htx
    exact ⟨lines, hl.1, fun l hx => ⟨hl.2 l hx, hlen l hx⟩⟩
  have hmem : ∀ a, a ∈ files.foldl cpScan [] ↔ ∃ f ∈ files, TellsAlias f a := by
    intro a
    rw [cpScan_mem]
    simp only [List.not_mem_nil, false_or]
    constructor
    · rintro ⟨f, h1, h2⟩; exact ⟨f, h1, (hf f h1 a).1 h2⟩
    · rintro ⟨f, h1, h2⟩; exact ⟨f, h1, (hf f h1 a).2 h2⟩
  obtain ⟨i1, i2, i3⟩ := cpProbe_run (files.foldl cpScan []) 0 ht
  have hfork : ∀ (as : List CStr) (n : Nat), (∀ k, turn k ≠ .noFork) → (cpProbe turn n as).rc = 0 := by
    intro as
    induction as with
    | nil => intro n _; rfl
    | cons a as ih =>
      intro n h
      rw [cpProbe]
      cases htn : turn n with
      | noFork => exact absurd htn (h n)
      | run => exact ih (n + 1) h
      | missing => exact ih (n + 1) h
  refine ⟨i1, i2.nodup (cpScan_nodup List.nodup_nil), fun a ha => (hmem a).1 (i2.subset ha), fun h0 a ha => ?_, hfork _ 0⟩
  have h0' : (cpProbe turn 0 (files.foldl cpScan [])).rc = 0 := h0
  rw [h0', Nat.add_zero] at i3
  have e := i2.eq_of_length i3
  show a ∈ (cpProbe turn 0 (files.foldl cpScan [])).ran
  rw [e]
  exact (hmem a).2 ha

/-- Two devices with the same alias, one told twice, and a file that is not readable -/
def demoDevs : List CpFile :=
  [⟨"/sys/devices/a/uevent".toList, true, some "DRIVER=x\nMODALIAS=usb:v1\n".toList⟩,
   ⟨"/sys/devices/a/modalias".toList, true, some "usb:v1\n".toList⟩,
   ⟨"/sys/devices/b/uevent".toList, false, some "MODALIAS=no\n".toList⟩,
   ⟨"/sys/devices/c/modalias".toList, true, some "pci:v2\n".toList⟩]

theorem demoDevs_short : CpShort 255 demoDevs := by
  intro f hf text ht
  simp only [demoDevs, List.mem_cons, List.not_mem_nil, or_false] at hf
  rcases hf with e | e | e | e
  · rw [e] at ht; cases ht
    exact ⟨["DRIVER=x".toList, "MODALIAS=usb:v1".toList], ⟨by decide, by decide⟩, by decide⟩
  · rw [e] at ht; cases ht
    exact ⟨["usb:v1".toList], ⟨by decide, by decide⟩, by decide⟩
  · rw [e] at ht; cases ht
    exact ⟨["MODALIAS=no".toList], ⟨by decide, by decide⟩, by decide⟩
  · rw [e] at ht; cases ht
    exact ⟨["pci:v2".toList], ⟨by decide, by decide⟩, by decide⟩

example : "pci:v2".toList ∈ (coldplug ⟨true, true, some demoDevs, fun _ => .run⟩).ran := by
  have h := C93_all_partial (turn := fun _ => .run) demoDevs_short (by simp)
  refine h.2.2.2.1 (h.2.2.2.2 (by simp)) _ ⟨demoDevs[3], by simp [demoDevs], rfl, "/sys/devices/c".toList, _, ["pci:v2".toList], rfl,
    ⟨by decide, by decide⟩, Or.inr ⟨by decide, [], rfl⟩⟩

/-- **C93, no modprobe.** If modprobe cannot be run, init waits for its first child for good, and the boot goes on in a process as many generations
    below as there are aliases. -/
theorem C93_missing {files : List CpFile} {turn : Nat → CpTurn} (ht : ∀ k, turn k = .missing) :
    coldplug ⟨true, true, some files, turn⟩ = ⟨[], 0, (files.foldl cpScan []).length⟩ := by
  have key : ∀ (as : List CStr) (n : Nat), cpProbe turn n as = ⟨[], 0, as.length⟩ := by
    intro as
    induction as with
    | nil => intro n; rfl
    | cons a as ih =>
      intro n
      rw [cpProbe, ht n, ih]
      rfl
  exact key _ 0

/-- **C93, no modprobe, in the words of the claim.** If modprobe cannot be run and a file tells an alias, it is not init that goes on. -/
theorem C93_forked {files : List CpFile} {turn : Nat → CpTurn} (hs : CpShort 255 files) (ht : ∀ k, turn k = .missing) {f : CpFile} {a : CStr}
    (hf : f ∈ files) (ha : TellsAlias f a) : (coldplug ⟨true, true, some files, turn⟩).depth ≠ 0 := by
  rw [C93_missing ht]
  have : a ∈ files.foldl cpScan [] := by
    rw [cpScan_mem]
    refine Or.inr ⟨f, hf, (cpAlias_iff fun text htx => ?_).2 ha⟩
    obtain ⟨lines, hl, hlen⟩ := hs f hf text htx
    exact ⟨lines, hl.1, fun l hx => ⟨hl.2 l hx, hlen l hx⟩⟩
  intro h
  have h' : (files.foldl cpScan []).length = 0 := h
  rw [List.length_eq_zero_iff.1 h'] at this
  cases this

example : (coldplug ⟨true, true, some demoDevs, fun _ => .missing⟩).depth ≠ 0 :=
  C93_forked (f := demoDevs[3]) (a := "pci:v2".toList) demoDevs_short (fun _ => rfl) (by simp [demoDevs])
    ⟨rfl, "/sys/devices/c".toList, _, ["pci:v2".toList], rfl, ⟨by decide, by decide⟩, Or.inr ⟨by decide, [], rfl⟩⟩

theorem fgetsOne_take : ∀ {k : Nat} {s : List Char}, '\n' ∉ s.take k → (fgetsOne k s).1 = s.take k
  | 0, s, _ => by cases s <;> rfl
  | k + 1, [], _ => rfl
  | k + 1, c :: s, h => by
    rw [List.take_succ_cons] at h ⊢
    have hc : c ≠ '\n' := fun e => h (by rw [e]; exact List.mem_cons_self)
    rw [fgetsOne, if_neg hc, fgetsOne_take fun hx => h (List.mem_cons_of_mem _ hx)]

/-- **C93, long lines.** Of an alias of 246 characters or more in uevent, the first 246 are used. -/
theorem C93_long {dir a : CStr} {post : List Char} {turn : Nat → CpTurn} (ht : ∀ k, turn k = .run) (hn : '\n' ∉ a) (hl : 246 ≤ a.length) :
    (coldplug ⟨true, true, some [⟨dir ++ "/uevent".toList, true, some ("MODALIAS=".toList ++ a ++ '\n' :: post)⟩], turn⟩).ran = [a.take 246] := by
  have ho : cpOpen "uevent".toList ⟨dir ++ "/uevent".toList, true, some ("MODALIAS=".toList ++ a ++ '\n' :: post)⟩ =
      some ("MODALIAS=".toList ++ a ++ '\n' :: post) := (cpOpen_iff (by decide)).2 ⟨rfl, dir, rfl⟩
  have htk : ("MODALIAS=".toList ++ a ++ '\n' :: post).take 255 = "MODALIAS=".toList ++ a.take 246 := by
    rw [List.append_assoc, List.take_append, List.take_append_of_le_length (by rw [show "MODALIAS=".toList.length = 9 from rfl]; exact hl)]
    rfl
  have hnn : '\n' ∉ "MODALIAS=".toList ++ a.take 246 := by
    rw [List.mem_append]
    rintro (h | h)
    · exact absurd h (by decide)
    · exact hn (List.mem_of_mem_take h)
  have hone := fgetsOne_take (k := 255) (s := "MODALIAS=".toList ++ a ++ '\n' :: post) (by rw [htk]; exact hnn)
  rw [htk] at hone
  have hall : ∃ rest, fgetsAll ("MODALIAS=".toList ++ a ++ '\n' :: post) = ("MODALIAS=".toList ++ a.take 246) :: rest := by
    generalize hs : "MODALIAS=".toList ++ a ++ '\n' :: post = s at hone
    cases s with
    | nil => cases hs
    | cons c s =>
      rw [fgetsAll, hone]
      exact ⟨_, rfl⟩
  obtain ⟨rest, hall⟩ := hall
  have hch : chompLine ("MODALIAS=".toList ++ a.take 246) = "MODALIAS=".toList ++ a.take 246 := by
    unfold chompLine
    rw [if_neg]
    intro h
    exact hnn (List.mem_of_getLast? h)
  have hal : cpAlias ⟨dir ++ "/uevent".toList, true, some ("MODALIAS=".toList ++ a ++ '\n' :: post)⟩ = some (a.take 246) := by
    unfold cpAlias
    rw [if_pos rfl, ho]
    dsimp only
    rw [hall, cpUevent, if_pos (List.isPrefixOf_iff_prefix.2 (List.prefix_append _ _)), hch]
    rfl
  show (cpProbe turn 0 ([_].foldl cpScan [])).ran = _
  rw [List.foldl_cons, cpScan_eq, hal]
  show (cpProbe turn 0 [a.take 246]).ran = _
  rw [cpProbe, ht 0]
  rfl

example : (coldplug ⟨true, true, some [⟨"/sys/devices/i/uevent".toList, true, some ("MODALIAS=".toList ++ List.replicate 300 'e' ++ ['\n'])⟩],
    fun _ => .run⟩).ran = [(List.replicate 300 'e').take 246] :=
  C93_long (dir := "/sys/devices/i".toList) (post := []) (fun _ => rfl) (fun h => absurd (List.eq_of_mem_replicate h) (by decide))
    (by rw [List.length_replicate]; decide)

/-- **C93, full claim.** It is false. -/
theorem C93_full_false : ¬ C93_full := by
  intro h
  have hd := (h demoDevs (fun _ => .missing) 255 demoDevs_short (by simp)).2.2
  exact C93_forked (f := demoDevs[3]) (a := "pci:v2".toList) demoDevs_short (fun _ => rfl) (by simp [demoDevs])
    ⟨rfl, "/sys/devices/c".toList, _, ["pci:v2".toList], rfl, ⟨by decide, by decide⟩, Or.inr ⟨by decide, [], rfl⟩⟩ hd

end Verif
