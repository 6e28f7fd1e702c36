import Verif.Tty
import Verif.LineLemmas

/-!
# C71: a tty line gives a login on the terminal it names
-/

namespace Verif

/-! ## Specification -/

/-- Words of a tty line that are options -/
def ttyOptions : List CStr :=
  ["noclear".toList, "nowait".toList, "nologin".toList, "notty".toList, "passenv".toList, "rescue".toList]

/-- Words that are not -/
def notOption (w : CStr) : Bool := decide (w ∉ ttyOptions)

/-- Names of terminals -/
def DevName (w : CStr) : Prop := w = "console".toList ∨ "/dev".toList <+: w ∨ "tty".toList <+: w

/-- A name means a device: it is its path, or the path without `/dev/`.  It need not exist, but if it does it is one. -/
def DevPath (E : TtyEnv) (dev path : CStr) : Prop :=
  ((dev = path ∧ "/dev/".toList <+: dev) ∨ (path = "/dev/".toList ++ dev ∧ E.stat dev = none ∧ ¬ "/dev/".toList <+: dev)) ∧
  E.stat path ≠ some false ∧ path.length < 32

/-- Words without quotes that are no programs -/
def TtyPlain (E : TtyEnv) (w : CStr) : Prop := E.which w = false ∧ w.length < 256 ∧ w.head?.any isQuote = false

/-- The line `DEV [BAUD] [TERM]`, with options anywhere -/
structure BuiltinLine (E : TtyEnv) (words : List CStr) (dev : CStr) (baud term : Option CStr) : Prop where
  shape : words.filter notOption = dev :: (baud.toList ++ term.toList)
  login : "notty".toList ∉ words ∧ "rescue".toList ∉ words
  plain : ∀ w ∈ dev :: (baud.toList ++ term.toList), TtyPlain E w
  others : "@console".toList ∉ baud.toList ++ term.toList

/-- A service for a device, in place of the one there was for it, or else after all others -/
def PutFor (dev : CStr) (s : TtySvc) (before after : List TtySvc) : Prop :=
  s.dev = dev ∧ ((after = before ++ [s] ∧ ∀ x ∈ before, x.dev ≠ dev) ∨
    ∃ a x b, before = a ++ x :: b ∧ x.dev = dev ∧ (∀ y ∈ a, y.dev ≠ dev) ∧ after = a ++ s :: b)

/-- The full claim of C71: getty is told the terminal, the speed and the type of the terminal that the line says. -/
def C71_full : Prop := ∀ E words dev path baud term st svcs, BuiltinLine E words dev baud term → DevName dev → DevPath E dev path →
  E.which E.getty = true → "nologin".toList ∉ words → ∃ s argv, PutFor path s svcs (ttyRegister E words st svcs).2 ∧
    ttyExec E (fun d => decide (d = path)) s =
      .exec path E.getty argv (decide ("noclear".toList ∈ words)) (decide ("nowait".toList ∈ words)) ∧
    gettyMain argv = some { passenv := decide ("passenv".toList ∈ words), tty := dev, speed := atoi (baud.getD ['0']), term := term }

/-! ## Lemmas -/

theorem ttyWord_option {E : TtyEnv} {t : Tty} {w : CStr} (h : w ∈ ttyOptions) : ttyWord E t w =
    { t with
      noclear := t.noclear || decide ("noclear".toList = w)
      nowait := t.nowait || decide ("nowait".toList = w)
      nologin := t.nologin || decide ("nologin".toList = w)
      notty := t.notty || decide ("notty".toList = w)
      passenv := t.passenv || decide ("passenv".toList = w)
      rescue := t.rescue || decide ("rescue".toList = w) } := by
  unfold ttyOptions at h
  simp only [List.mem_cons, List.not_mem_nil, or_false] at h
  rcases h with h | h | h | h | h | h <;> subst h <;> simp [ttyWord]

theorem ttyWord_other {E : TtyEnv} {t : Tty} {w : CStr} (h : w ∉ ttyOptions) : ttyWord E t w =
    if t.cmd = none ∧ E.which w = true then { t with cmd := some w } else { t with args := t.args ++ [w] } := by
  unfold ttyOptions at h
  simp only [List.mem_cons, List.not_mem_nil, or_false, not_or] at h
  obtain ⟨h1, h2, h3, h4, h5, h6⟩ := h
  unfold ttyWord
  rw [if_neg h1, if_neg h2, if_neg h3, if_neg h4, if_neg h5, if_neg h6]

theorem ttyWords_eq (E : TtyEnv) : ∀ (words : List CStr) (t : Tty),
    (∀ w ∈ words, w ∉ ttyOptions → t.cmd ≠ none ∨ E.which w = false) →
    t.args.length + (words.filter notOption).length < 64 →
    ttyWords E t words = { t with
      args := t.args ++ words.filter notOption
      noclear := t.noclear || decide ("noclear".toList ∈ words)
      nowait := t.nowait || decide ("nowait".toList ∈ words)
      nologin := t.nologin || decide ("nologin".toList ∈ words)
      notty := t.notty || decide ("notty".toList ∈ words)
      passenv := t.passenv || decide ("passenv".toList ∈ words)
      rescue := t.rescue || decide ("rescue".toList ∈ words) } := by
  intro words
  induction words with
  | nil =>
    intro t _ _
    simp only [ttyWords, List.filter_nil, List.append_nil, List.not_mem_nil, decide_false, Bool.or_false]
  | cons w ws ih =>
    intro t h hl
    have hm : ∀ x : CStr, decide (x ∈ w :: ws) = (decide (x = w) || decide (x ∈ ws)) := by
      intro x; rw [← Bool.decide_or]; exact decide_eq_decide.mpr List.mem_cons
    simp only [hm]
    rw [ttyWords]
    by_cases hw : w ∈ ttyOptions
    · have hf : (w :: ws).filter notOption = ws.filter notOption := List.filter_cons_of_neg (by unfold notOption; simp [hw])
      rw [hf] at hl
      rw [hf, ttyWord_option hw, if_pos (by dsimp only; omega), ih]
      · simp only [Bool.or_assoc]
      · exact fun x hx => h x (List.mem_cons_of_mem _ hx)
      · exact hl
    · have hf : (w :: ws).filter notOption = w :: ws.filter notOption := List.filter_cons_of_pos (by unfold notOption; simp [hw])
      rw [hf, List.length_cons] at hl
      have hno : ∀ f ∈ ttyOptions, decide (f = w) = false := fun f hf => decide_eq_false (fun e => hw (e ▸ hf))
      have hc : ¬ (t.cmd = none ∧ E.which w = true) := by
        rintro ⟨h1, h2⟩
        rcases h w List.mem_cons_self hw with h | h
        · exact h h1
        · rw [h] at h2; cases h2
      rw [hf, ttyWord_other hw, if_neg hc, if_pos (by dsimp only; rw [List.length_append, List.length_singleton]; omega), ih]
      · have m : ∀ f, f ∈ ttyOptions → ∀ a b : Bool, (a || (decide (f = w) || b)) = (a || b) := by
          intro f hf a b; rw [hno f hf]; rfl
        unfold ttyOptions at m
        rw [m "noclear".toList (by simp), m "nowait".toList (by simp), m "nologin".toList (by simp), m "notty".toList (by simp),
          m "passenv".toList (by simp), m "rescue".toList (by simp)]
        simp only [List.append_assoc, List.singleton_append]
      · exact fun x hx => h x (List.mem_cons_of_mem _ hx)
      · dsimp only; rw [List.length_append, List.length_singleton]; omega

theorem cmdLoop_tty : ∀ (ws : List CStr) (i : Nat), (∀ w ∈ ws, w.length < 256 ∧ w.head?.any isQuote = false) → i + ws.length ≤ 63 →
    cmdLoop ws none [] i = (ws, []) := by
  intro ws
  induction ws with
  | nil => intro i _ _; rfl
  | cons w ws ih =>
    intro i h hl
    obtain ⟨h1, h2⟩ := h w List.mem_cons_self
    rw [List.length_cons] at hl
    rw [cmdLoop, if_neg (by omega)]
    dsimp only
    rw [h2]
    simp only [Option.isNone_none, if_true, Bool.false_eq_true, if_false, Option.isSome_none, Bool.false_and]
    rw [ih (i + 1) (fun x hx => h x (List.mem_cons_of_mem _ hx)) (by omega)]
    unfold strlcat
    simp [List.take_of_length_le (show w.length ≤ 255 by omega)]

theorem isDevWord_of {w : CStr} (h : DevName w) : isDevWord w = true := by
  unfold isDevWord
  rcases h with h | h | h
  · rw [decide_eq_true h, Bool.or_true]
  · rw [List.isPrefixOf_iff_prefix.mpr h]; simp
  · rw [List.isPrefixOf_iff_prefix.mpr h]; simp

theorem DevName.not_at {w : CStr} (h : DevName w) : w ≠ "@console".toList := by
  intro e; subst e
  unfold DevName at h
  revert h; decide

theorem devPath_canon {E : TtyEnv} {dev path : CStr} (h : DevPath E dev path) (hat : dev ≠ "@console".toList) : ttyCanon E dev = some path := by
  obtain ⟨h1, h2, h3⟩ := h
  unfold ttyCanon
  rw [if_neg hat]
  rcases h1 with ⟨e, hp⟩ | ⟨e, hs, hp⟩
  · subst e
    rw [List.take_of_length_le (by omega)]
    cases hst : E.stat dev with
    | some b =>
      cases b with
      | true => rfl
      | false => exact absurd hst h2
    | none =>
      dsimp only
      rw [if_pos (List.isPrefixOf_iff_prefix.mpr hp)]
  · have hl : dev.length ≤ 79 := by
      rw [e, List.length_append] at h3
      omega
    rw [List.take_of_length_le hl, hs]
    dsimp only
    rw [if_neg (fun h => hp (List.isPrefixOf_iff_prefix.mp h)), ← e, List.take_of_length_le (by omega)]
    cases hst : E.stat path with
    | some b =>
      cases b with
      | true => rfl
      | false => exact absurd hst h2
    | none => rfl

theorem DevPath.self {E : TtyEnv} {dev path : CStr} (h : DevPath E dev path) : DevPath E path path := by
  obtain ⟨h1, h2, h3⟩ := h
  refine ⟨.inl ⟨rfl, ?_⟩, h2, h3⟩
  rcases h1 with ⟨e, hp⟩ | ⟨e, -, -⟩
  · exact e ▸ hp
  · rw [e]; exact List.prefix_append _ _

theorem DevPath.not_at {E : TtyEnv} {dev path : CStr} (h : DevPath E dev path) : path ≠ "@console".toList := by
  intro e
  have := h.self.1
  rcases this with ⟨-, hp⟩ | ⟨-, -, hp⟩
  · rw [e] at hp; revert hp; decide
  · rcases h.1 with ⟨e1, hp1⟩ | ⟨e1, -, -⟩
    · exact hp (e1 ▸ hp1)
    · exact hp (e1 ▸ List.prefix_append _ _)

theorem ttyPut_for {path : CStr} {s : TtySvc} (hs : s.dev = path) : ∀ (svcs : List TtySvc),
    PutFor path s svcs (ttyPut (some path) s svcs) := by
  intro svcs
  refine ⟨hs, ?_⟩
  induction svcs with
  | nil => exact .inl ⟨rfl, nofun⟩
  | cons x xs ih =>
    rw [ttyPut]
    by_cases hx : x.dev = path
    · rw [if_pos (by rw [hx])]
      exact .inr ⟨[], x, xs, rfl, hx, nofun, rfl⟩
    · rw [if_neg (by intro e; injection e with e; exact hx e.symm)]
      rcases ih with ⟨e, h⟩ | ⟨a, y, b, e1, h1, h2, e2⟩
      · refine .inl ⟨by rw [e]; rfl, fun z hz => ?_⟩
        rcases List.mem_cons.mp hz with hz | hz
        · subst hz; exact hx
        · exact h z hz
      · refine .inr ⟨x :: a, y, b, by rw [e1]; rfl, h1, fun z hz => ?_, by rw [e2]; rfl⟩
        rcases List.mem_cons.mp hz with hz | hz
        · subst hz; exact hx
        · exact h2 z hz

/-- What is stored for a line -/
def lineSvc (cmd : CStr) (args words : List CStr) (path : CStr) : TtySvc :=
  { cmd := cmd, args := strlcpy 256 cmd :: args, dev := path, noclear := decide ("noclear".toList ∈ words),
    nowait := decide ("nowait".toList ∈ words), nologin := decide ("nologin".toList ∈ words), notty := false, rescue := false }

theorem builtin_parse {E : TtyEnv} {words : List CStr} {dev : CStr} {baud term : Option CStr} (h : BuiltinLine E words dev baud term)
    (hd : isDevWord dev = true) : ttyParse E words = (ttyCanon E dev).map (fun d => { (
      { args := (if "passenv".toList ∈ words then ["-p".toList] else []) ++ dev :: (baud.toList ++ term.toList)
        noclear := decide ("noclear".toList ∈ words), nowait := decide ("nowait".toList ∈ words)
        nologin := decide ("nologin".toList ∈ words), passenv := decide ("passenv".toList ∈ words) } : Tty) with
        dev := some d, cmd := some E.getty }) := by
  have hlen : (dev :: (baud.toList ++ term.toList)).length ≤ 3 := by
    cases baud <;> cases term <;> simp
  unfold ttyParse
  rw [ttyWords_eq E words {} (fun w hw ho => .inr ?_) (by rw [h.shape]; simp only [List.length_nil]; omega)]
  · dsimp only
    rw [decide_eq_false h.login.1, decide_eq_false h.login.2]
    simp only [Bool.or_false, Bool.false_eq_true, if_false, List.nil_append, Bool.false_or]
    rw [h.shape, List.find?_cons_of_pos hd]
    dsimp only [Option.bind_some]
    cases ttyCanon E dev with
    | none => rfl
    | some d =>
      dsimp only [Option.map_some, Option.getD_none]
      by_cases hp : "passenv".toList ∈ words
      · rw [if_pos ⟨trivial, decide_eq_true hp, by omega⟩, if_pos hp]; rfl
      · rw [if_neg (fun h => hp (of_decide_eq_true h.2.1)), if_neg hp]; rfl
  · refine (h.plain w ?_).1
    rw [← h.shape]
    exact List.mem_filter.mpr ⟨hw, by unfold notOption; exact decide_eq_true ho⟩

theorem svc_args {l : List CStr} (d : CStr) (hp : ∀ w ∈ l, w.length < 256 ∧ w.head?.any isQuote = false) (hl : l.length ≤ 62)
    (hn : "@console".toList ∉ l) : (cmdLoop l none [] 1).1.map (fun a => if a = "@console".toList then d else a) = l := by
  rw [cmdLoop_tty l 1 hp (by omega)]
  dsimp only
  conv => rhs; rw [← List.map_id l]
  refine List.map_congr_left (fun a ha => ?_)
  rw [if_neg (fun e => hn (by rw [← e]; exact ha))]
  rfl

theorem strlcpy_dev {d : CStr} (h : d.length < 32) : strlcpy 32 d = d := by
  unfold strlcpy
  exact List.take_of_length_le (by omega)

/-- The arguments of a line for the bundled getty -/
def builtinArgs (words : List CStr) (dev : CStr) (baud term : Option CStr) : List CStr :=
  (if "passenv".toList ∈ words then ["-p".toList] else []) ++ dev :: (baud.toList ++ term.toList)

theorem builtinArgs_length (words : List CStr) (dev : CStr) (baud term : Option CStr) : (builtinArgs words dev baud term).length ≤ 4 := by
  unfold builtinArgs
  cases baud <;> cases term <;> split <;> simp

theorem BuiltinLine.args {E : TtyEnv} {words : List CStr} {dev : CStr} {baud term : Option CStr} (h : BuiltinLine E words dev baud term) :
    ∀ w ∈ builtinArgs words dev baud term, w.length < 256 ∧ w.head?.any isQuote = false := by
  intro w hw
  unfold builtinArgs at hw
  rcases List.mem_append.mp hw with hw | hw
  · split at hw
    · rw [List.mem_singleton.mp hw]; decide
    · cases hw
  · exact (h.plain w hw).2

theorem builtin_next {E : TtyEnv} {words : List CStr} {dev path : CStr} {baud term : Option CStr} (h : BuiltinLine E words dev baud term)
    (hd : DevName dev) (hp : DevPath E dev path) (hw : E.which E.getty = true) (st : Option (List CStr)) (svcs : List TtySvc) :
    ttyRegister E words st svcs =
      (st, ttyPut (some path) (lineSvc E.getty (builtinArgs words dev baud term) words path) svcs) := by
  have hn : "@console".toList ∉ builtinArgs words dev baud term := by
    unfold builtinArgs
    intro hm
    rcases List.mem_append.mp hm with hm | hm
    · split at hm
      · exact absurd (List.mem_singleton.mp hm) (by decide)
      · cases hm
    · rcases List.mem_cons.mp hm with hm | hm
      · exact hd.not_at hm.symm
      · exact h.others hm
  unfold ttyRegister
  rw [builtin_parse h (isDevWord_of hd), devPath_canon hp hd.not_at]
  dsimp only [Option.map_some]
  have hna : ¬ (some path = some "@console".toList) := fun e => hp.not_at (by injection e)
  rw [if_neg hna, ttyNext]
  unfold ttyCmd
  dsimp only [Option.getD_some]
  rw [if_neg (by rw [hw]; decide), if_neg hna]
  congr 2
  unfold ttySvc ttyCmd lineSvc
  dsimp only [Option.getD_some]
  rw [strlcpy_dev hp.2.2]
  congr 2
  have := builtinArgs_length words dev baud term
  exact svc_args path h.args (Nat.le_trans this (by decide)) hn

/-! ## C71 -/

/-- A line `DEV [BAUD] [TERM]` gives one service for the device, which is started as told: the bundled getty, or a shell, on that
    device; all words of the line that are no options follow. -/
theorem C71_partial {E : TtyEnv} {words : List CStr} {dev path : CStr} {baud term : Option CStr} (h : BuiltinLine E words dev baud term)
    (hd : DevName dev) (hp : DevPath E dev path) (hw : E.which E.getty = true) (st : Option (List CStr)) (svcs : List TtySvc) :
    (ttyRegister E words st svcs).1 = st ∧
    ∃ s, PutFor path s svcs (ttyRegister E words st svcs).2 ∧ ∀ exist : CStr → Bool, exist path = true →
      ttyExec E exist s =
        if "nologin".toList ∈ words then .shell path (decide ("noclear".toList ∈ words)) (decide ("nowait".toList ∈ words))
        else .exec path E.getty
          ((if "passenv".toList ∈ words then ["-p".toList] else []) ++ dev :: (baud.toList ++ term.toList))
          (decide ("noclear".toList ∈ words)) (decide ("nowait".toList ∈ words)) := by
  rw [builtin_next h hd hp hw]
  refine ⟨rfl, lineSvc E.getty (builtinArgs words dev baud term) words path, ttyPut_for rfl svcs, fun exist he => ?_⟩
  unfold ttyExec lineSvc
  dsimp only
  rw [if_neg (by decide), devPath_canon hp.self hp.not_at]
  dsimp only
  rw [he, if_neg (by decide)]
  by_cases hl : "nologin".toList ∈ words
  · rw [if_pos hl, decide_eq_true hl, if_pos rfl]
  · rw [if_neg hl, decide_eq_false hl, if_neg (by decide)]
    rfl

/-- Registering a line again, as when the configuration is read again, makes no other service. -/
theorem C71_again {E : TtyEnv} {words : List CStr} {dev path : CStr} {baud term : Option CStr} (h : BuiltinLine E words dev baud term)
    (hd : DevName dev) (hp : DevPath E dev path) (hw : E.which E.getty = true) (st : Option (List CStr)) (svcs : List TtySvc) :
    ttyRegister E words (ttyRegister E words st svcs).1 (ttyRegister E words st svcs).2 = ttyRegister E words st svcs := by
  rw [builtin_next h hd hp hw, builtin_next h hd hp hw]
  congr 1
  have hs : (lineSvc E.getty (builtinArgs words dev baud term) words path).dev = path := rfl
  generalize lineSvc E.getty (builtinArgs words dev baud term) words path = s at hs
  induction svcs with
  | nil => rw [ttyPut, ttyPut, if_pos (by rw [hs])]
  | cons x xs ih =>
    rw [ttyPut]
    by_cases hx : some path = some x.dev
    · rw [if_pos hx, ttyPut, if_pos (by rw [hs])]
    · rw [if_neg hx, ttyPut, if_neg hx, ih]

/-- With `passenv` and a speed, getty is told the right terminal, speed and type (but not to pass the environment). -/
theorem C71_passenv {words : List CStr} {dev b : CStr} {term : Option CStr} (hd : DevName dev) (hp : "passenv".toList ∈ words) :
    gettyMain ((if "passenv".toList ∈ words then ["-p".toList] else []) ++ dev :: ((some b).toList ++ term.toList)) =
      some { passenv := false, tty := dev, speed := atoi b, term := term } := by
  have hne : dev ≠ "-p".toList := by
    intro e; subst e; unfold DevName at hd; revert hd; decide
  have hh : dev.head? ≠ some '-' := by
    intro e
    cases dev with
    | nil => cases e
    | cons c cs =>
      injection e with e; subst e
      rcases hd with h | ⟨t, h⟩ | ⟨t, h⟩
      · cases congrArg List.head? h
      · have := congrArg List.head? h; simp at this
      · have := congrArg List.head? h; simp at this
  rw [if_pos hp]
  unfold gettyMain
  simp only [List.singleton_append, List.drop_succ_cons, List.drop_zero, Option.toList_some]
  rw [List.dropWhile_cons, if_neg (by simpa using hne)]
  dsimp only
  rw [if_neg hh, List.head?_cons]
  have : decide (some dev = some "-p".toList) = false := decide_eq_false (fun e => hne (by injection e))
  rw [this]
  cases term <;> rfl

/-- Without it, whatever the line says, getty never hears of the terminal: it takes the speed for it, and the type for the
    speed. -/
theorem C71_shifted {words : List CStr} {dev b : CStr} {term : Option CStr} (hp : "passenv".toList ∉ words) (hb : b.head? ≠ some '-') :
    gettyMain ((if "passenv".toList ∈ words then ["-p".toList] else []) ++ dev :: ((some b).toList ++ term.toList)) =
      some { passenv := false, tty := b, speed := atoi (term.getD ['0']), term := none } := by
  have hne : b ≠ "-p".toList := by
    intro e; subst e; exact hb rfl
  rw [if_neg hp]
  unfold gettyMain
  simp only [List.nil_append, List.singleton_append, List.drop_succ_cons, List.drop_zero, Option.toList_some]
  rw [List.dropWhile_cons, if_neg (by simpa using hne)]
  dsimp only
  rw [if_neg hb, List.head?_cons]
  have : decide (some b = some "-p".toList) = false := decide_eq_false (fun e => hne (by injection e))
  rw [this]
  cases term <;> rfl

/-- With the terminal only, getty does not run at all. -/
theorem C71_usage {words : List CStr} {dev : CStr} (hp : "passenv".toList ∉ words) :
    gettyMain ((if "passenv".toList ∈ words then ["-p".toList] else []) ++
      dev :: ((none : Option CStr).toList ++ (none : Option CStr).toList)) = none := by
  rw [if_neg hp]
  rfl

/-! ### Other programs -/

/-- The line `CMD ARGS`, with options anywhere after the program -/
structure ExternalLine (E : TtyEnv) (cmd : CStr) (rest args : List CStr) (dev : CStr) : Prop where
  shape : rest.filter notOption = args
  cmd : E.which cmd = true ∧ cmd ∉ ttyOptions
  login : "notty".toList ∉ rest ∧ "rescue".toList ∉ rest
  plain : ∀ w ∈ args, w.length < 256 ∧ w.head?.any isQuote = false
  few : args.length ≤ 62
  dev : ∃ pre post, args = pre ++ dev :: post ∧ DevName dev ∧ ∀ w ∈ pre, ¬ DevName w
  others : "@console".toList ∉ args

theorem isDevWord_iff (w : CStr) : isDevWord w = true ↔ w = "@console".toList ∨ DevName w := by
  constructor
  · intro h
    unfold isDevWord at h
    simp only [Bool.or_eq_true, decide_eq_true_eq, List.isPrefixOf_iff_prefix] at h
    unfold DevName
    rcases h with ((h | h) | h) | h
    · exact .inl h
    · exact .inr (.inr (.inl h))
    · exact .inr (.inr (.inr h))
    · exact .inr (.inl h)
  · rintro (h | h)
    · subst h; rfl
    · exact isDevWord_of h

/-- A line `CMD ARGS` gives one service for the first device among the arguments, and all arguments follow. -/
theorem C71_external_partial {E : TtyEnv} {cmd : CStr} {rest args : List CStr} {dev path : CStr} (h : ExternalLine E cmd rest args dev)
    (hp : DevPath E dev path) (st : Option (List CStr)) (svcs : List TtySvc) :
    (ttyRegister E (cmd :: rest) st svcs).1 = st ∧
    ∃ s, PutFor path s svcs (ttyRegister E (cmd :: rest) st svcs).2 ∧ ∀ exist : CStr → Bool, exist path = true →
      ttyExec E exist s =
        if "nologin".toList ∈ rest then .shell path (decide ("noclear".toList ∈ rest)) (decide ("nowait".toList ∈ rest))
        else .exec path cmd args (decide ("noclear".toList ∈ rest)) (decide ("nowait".toList ∈ rest)) := by
  obtain ⟨pre, post, hargs, hd, hpre⟩ := h.dev
  have hfind : args.find? isDevWord = some dev := by
    rw [hargs, List.find?_append, List.find?_cons_of_pos (isDevWord_of hd)]
    have : pre.find? isDevWord = none := by
      rw [List.find?_eq_none]
      intro w hw hx
      rcases (isDevWord_iff w).mp hx with e | e
      · exact h.others (by rw [hargs, ← e]; exact List.mem_append_left _ hw)
      · exact hpre w hw e
    rw [this]; rfl
  have hparse : ttyParse E (cmd :: rest) = some { (
      { cmd := some cmd, args := args, noclear := decide ("noclear".toList ∈ rest), nowait := decide ("nowait".toList ∈ rest)
        nologin := decide ("nologin".toList ∈ rest), passenv := decide ("passenv".toList ∈ rest) } : Tty) with dev := some path } := by
    have hfew := h.few
    have hfirst : ttyWords E {} (cmd :: rest) = ttyWords E { cmd := some cmd } rest := by
      have hwd : ttyWord E {} cmd = { cmd := some cmd } := by rw [ttyWord_other h.cmd.2]; exact if_pos ⟨rfl, h.cmd.1⟩
      rw [ttyWords, hwd]; rfl
    unfold ttyParse
    rw [hfirst, ttyWords_eq E rest { cmd := some cmd } (fun _ _ _ => .inl (by simp)) (by rw [h.shape]; simp only [List.length_nil]; omega)]
    dsimp only
    rw [decide_eq_false h.login.1, decide_eq_false h.login.2]
    simp only [Bool.or_false, Bool.false_eq_true, if_false, List.nil_append, Bool.false_or]
    rw [h.shape, hfind]
    dsimp only [Option.bind_some]
    rw [devPath_canon hp hd.not_at]
    rfl
  have hna : ¬ (some path = some "@console".toList) := fun e => hp.not_at (by injection e)
  have hreg : ttyRegister E (cmd :: rest) st svcs = (st, ttyPut (some path) (lineSvc cmd args rest path) svcs) := by
    unfold ttyRegister
    rw [hparse]
    dsimp only
    rw [if_neg hna, ttyNext]
    unfold ttyCmd
    dsimp only [Option.getD_some]
    rw [if_neg (by rw [h.cmd.1]; decide), if_neg hna]
    congr 2
    unfold ttySvc ttyCmd lineSvc
    dsimp only [Option.getD_some]
    rw [strlcpy_dev hp.2.2]
    congr 2
    exact svc_args path h.plain h.few h.others
  rw [hreg]
  refine ⟨rfl, lineSvc cmd args rest path, ttyPut_for rfl svcs, fun exist he => ?_⟩
  unfold ttyExec lineSvc
  dsimp only
  rw [if_neg (by decide), devPath_canon hp.self hp.not_at]
  dsimp only
  rw [he, if_neg (by decide)]
  by_cases hl : "nologin".toList ∈ rest
  · rw [if_pos hl, decide_eq_true hl, if_pos rfl]
  · rw [if_neg hl, decide_eq_false hl, if_neg (by decide)]
    rfl

/-! ### All consoles -/

theorem ttyNext_console {E : TtyEnv} {t : Tty} (ht : t.dev = some "@console".toList) (hw : E.which (ttyCmd t) = true) :
    ∀ (ds : List CStr) (n : Nat) (d : CStr) (svcs : List TtySvc), ds.length < n →
      ttyNext E t n (some d) (some ds) svcs =
        (none, (d :: ds).foldl (fun svcs d => ttyPut (some d) (ttySvc t (some d)) svcs) svcs) := by
  intro ds
  induction ds with
  | nil =>
    intro n d svcs hn
    cases n with
    | zero => cases hn
    | succ n => rw [ttyNext, if_neg (by rw [hw]; decide), if_pos ht]; rfl
  | cons e ds ih =>
    intro n d svcs hn
    cases n with
    | zero => cases hn
    | succ n =>
      rw [ttyNext, if_neg (by rw [hw]; decide), if_pos ht]
      have : ttyAtcon E (some (e :: ds)) = (some e, some ds) := rfl
      rw [this]
      dsimp only
      rw [ih n e _ (by simpa using hn)]
      rfl

theorem ttyPut_fresh {d : CStr} {s : TtySvc} : ∀ {svcs : List TtySvc}, (∀ x ∈ svcs, x.dev ≠ d) → ttyPut (some d) s svcs = svcs ++ [s] := by
  intro svcs
  induction svcs with
  | nil => intro _; rfl
  | cons x xs ih =>
    intro h
    rw [ttyPut, if_neg (fun e => h x List.mem_cons_self (by injection e with e; exact e.symm)),
      ih (fun y hy => h y (List.mem_cons_of_mem _ hy))]
    rfl

theorem puts_fresh {f : CStr → TtySvc} (hf : ∀ d, d.length < 32 → (f d).dev = d) : ∀ (ds : List CStr) (svcs : List TtySvc),
    ds.Nodup → (∀ d ∈ ds, d.length < 32 ∧ ∀ x ∈ svcs, x.dev ≠ d) →
    ds.foldl (fun svcs d => ttyPut (some d) (f d) svcs) svcs = svcs ++ ds.map f := by
  intro ds
  induction ds with
  | nil => intro svcs _ _; simp
  | cons d ds ih =>
    intro svcs hnd h
    rw [List.foldl_cons, ttyPut_fresh (h d List.mem_cons_self).2, ih _ (List.nodup_cons.mp hnd).2]
    · simp
    · intro e he
      refine ⟨(h e (List.mem_cons_of_mem _ he)).1, fun x hx => ?_⟩
      rcases List.mem_append.mp hx with hx | hx
      · exact (h e (List.mem_cons_of_mem _ he)).2 x hx
      · rw [List.mem_singleton.mp hx, hf d (h d List.mem_cons_self).1]
        intro e'; subst e'
        exact (List.nodup_cons.mp hnd).1 he

/-- A line `@console [BAUD] [TERM]` gives one service for each console, which is started as told. -/
theorem C71_console_partial {E : TtyEnv} {words : List CStr} {baud term : Option CStr}
    (h : BuiltinLine E words "@console".toList baud term) (hw : E.which E.getty = true) {svcs : List TtySvc}
    (hc : E.consoles ≠ []) (hnd : E.consoles.Nodup)
    (hfresh : ∀ d ∈ E.consoles, d.length < 32 ∧ d ≠ "@console".toList ∧ ∀ x ∈ svcs, x.dev ≠ d) :
    ∃ f : CStr → TtySvc, ttyRegister E words none svcs = (none, svcs ++ E.consoles.map f) ∧
      ∀ d ∈ E.consoles, (f d).dev = d ∧ ∀ path, DevPath E d path → ∀ exist : CStr → Bool, exist path = true →
        ttyExec E exist (f d) =
          if "nologin".toList ∈ words then .shell path (decide ("noclear".toList ∈ words)) (decide ("nowait".toList ∈ words))
          else .exec path E.getty
            ((if "passenv".toList ∈ words then ["-p".toList] else []) ++ d :: (baud.toList ++ term.toList))
            (decide ("noclear".toList ∈ words)) (decide ("nowait".toList ∈ words)) := by
  refine ⟨fun d => lineSvc E.getty (builtinArgs words d baud term) words d, ?_, fun d hd => ⟨rfl, fun path hp exist he => ?_⟩⟩
  · have hargs : ∀ d : CStr, ((cmdLoop (builtinArgs words "@console".toList baud term) none [] 1).1.map
        (fun a => if a = "@console".toList then d else a)) = builtinArgs words d baud term := by
      intro d
      rw [cmdLoop_tty _ 1 h.args (by have := builtinArgs_length words "@console".toList baud term; omega)]
      dsimp only
      unfold builtinArgs
      rw [List.map_append, List.map_cons, if_pos rfl]
      congr 1
      · split
        · rw [List.map_singleton, if_neg (by decide)]
        · rfl
      · congr 1
        conv => rhs; rw [← List.map_id (baud.toList ++ term.toList)]
        refine List.map_congr_left (fun a ha => ?_)
        rw [if_neg (fun e => h.others (by rw [← e]; exact ha))]
        rfl
    unfold ttyRegister
    rw [builtin_parse h (by rfl)]
    have hcan : ttyCanon E "@console".toList = some "@console".toList := by unfold ttyCanon; rw [if_pos rfl]
    rw [hcan]
    dsimp only [Option.map_some]
    rw [if_pos rfl]
    cases hcs : E.consoles with
    | nil => exact absurd hcs hc
    | cons d ds =>
      have hat : ttyAtcon E none = (some d, some ds) := by
        unfold ttyAtcon
        dsimp only [Option.getD_none]
        rw [hcs]
      rw [hat]
      dsimp only
      rw [ttyNext_console rfl hw ds _ d svcs (by simp)]
      congr 1
      rw [hcs] at hnd hfresh
      have hsvc : ∀ x : CStr, x.length < 32 → ttySvc { (
          { args := builtinArgs words "@console".toList baud term
            noclear := decide ("noclear".toList ∈ words), nowait := decide ("nowait".toList ∈ words)
            nologin := decide ("nologin".toList ∈ words), passenv := decide ("passenv".toList ∈ words) } : Tty) with
            dev := some "@console".toList, cmd := some E.getty } (some x) = lineSvc E.getty (builtinArgs words x baud term) words x := by
        intro x hx
        unfold ttySvc lineSvc ttyCmd
        dsimp only [Option.getD_some]
        rw [strlcpy_dev hx, hargs x]
      rw [← puts_fresh (fun d _ => rfl) (d :: ds) svcs hnd (fun e he => ⟨(hfresh e he).1, (hfresh e he).2.2⟩)]
      have hall : ∀ e ∈ d :: ds, e.length < 32 := fun e he => (hfresh e he).1
      generalize d :: ds = l at hall
      clear hat hcs hnd hfresh
      induction l generalizing svcs with
      | nil => rfl
      | cons y ys ih =>
        rw [List.foldl_cons, List.foldl_cons]
        have := hsvc y (hall y List.mem_cons_self)
        unfold builtinArgs at this ⊢
        rw [this]
        exact ih (fun e he => hall e (List.mem_cons_of_mem _ he))
  · unfold ttyExec lineSvc
    dsimp only
    rw [if_neg (by decide), devPath_canon hp (hfresh d hd).2.1]
    dsimp only
    rw [he, if_neg (by decide)]
    by_cases hl : "nologin".toList ∈ words
    · rw [if_pos hl, decide_eq_true hl, if_pos rfl]
    · rw [if_neg hl, decide_eq_false hl, if_neg (by decide)]
      rfl

/-! ### Where the claim fails -/

/-- A system with some programs, devices and consoles -/
def ttyDemo (progs : List String) : TtyEnv :=
  { which := fun w => decide (w ∈ progs.map String.toList)
    stat := fun p => if p ∈ ["/dev/ttyS0".toList, "/dev/ttyAMA0".toList, "/dev/tty1".toList] then some true else none
    getty := "/libexec/finit/getty".toList
    consoles := ["tty1".toList, "ttyS0".toList] }

/-- A line, by its words -/
def ttyLine (ws : List String) : List CStr := ws.map String.toList

/-- What getty is told by the services -/
def ttyTold (E : TtyEnv) (svcs : List TtySvc) : List (Option GettyArgs) :=
  svcs.map fun s => match ttyExec E (fun _ => true) s with
    | .exec _ _ argv _ _ => gettyMain argv
    | _ => none

/-- The example of the manual: getty is told that the terminal is `115200`, to keep the speed, and nothing of `vt220`. -/
theorem C71_manual : let E := ttyDemo ["/libexec/finit/getty"]
    ttyTold E (ttyRegister E (ttyLine ["/dev/ttyAMA0", "115200", "noclear", "vt220"]) none []).2 =
      [some { passenv := false, tty := "115200".toList, speed := 0, term := none }] := by
  decide +kernel

/-- The other example of the manual, with two consoles -/
theorem C71_manual_console : let E := ttyDemo ["/libexec/finit/getty"]
    ttyTold E (ttyRegister E (ttyLine ["@console", "noclear", "vt220"]) none []).2 =
      List.replicate 2 (some { passenv := false, tty := "vt220".toList, speed := 0, term := none }) := by
  decide +kernel

/-- A type of terminal that is also a program: that is run instead of getty. -/
theorem C71_program : let E := ttyDemo ["/libexec/finit/getty", "screen"]
    (ttyRegister E (ttyLine ["/dev/ttyS0", "115200", "screen"]) none []).2.map TtySvc.cmd = ["screen".toList] := by
  decide +kernel

/-- A device with a long name: the name is cut, so that it does not exist, and each time the configuration is read there is one
    service more. -/
theorem C71_long : let E := ttyDemo ["/libexec/finit/getty"]
    let line := ttyLine ["/dev/serial/by-id/usb-FTDI_FT232R_USB_UART"]
    let svcs := (ttyRegister E line none []).2
    svcs.map TtySvc.dev = ["/dev/serial/by-id/usb-FTDI_FT23".toList] ∧ (ttyRegister E line none svcs).2.length = 2 := by
  decide +kernel

/-- A line with `rescue` asks for no device: it gives the rescue shell.  One with `notty` gives a shell. -/
theorem C71_rescue {E : TtyEnv} {words : List CStr} (hw : "rescue".toList ∈ words ∨ "notty".toList ∈ words)
    (hp : ∀ w ∈ words, w ∉ ttyOptions → E.which w = false) (hl : (words.filter notOption).length < 64)
    (ht : E.which "tty".toList = true) (st : Option (List CStr)) (svcs : List TtySvc) :
    ∃ s, ttyRegister E words st svcs = (st, svcs ++ [s]) ∧
      ∀ exist, ttyExec E exist s = if "rescue".toList ∈ words then .rescue else .bare := by
  have hput : ∀ (s : TtySvc) (svcs : List TtySvc), ttyPut none s svcs = svcs ++ [s] := by
    intro s svcs
    induction svcs with
    | nil => rfl
    | cons x xs ih => rw [ttyPut, if_neg (by simp), ih]; rfl
  have hparse : ∃ t, ttyParse E words = some t ∧ t.dev = none ∧ t.cmd = none ∧ t.notty = true ∧
      t.rescue = decide ("rescue".toList ∈ words) := by
    unfold ttyParse
    rw [ttyWords_eq E words {} (fun w hw ho => .inr (hp w hw ho)) (by simp only [List.length_nil]; omega)]
    by_cases hr : "rescue".toList ∈ words
    · simp only [Bool.false_or, hr, decide_true, if_true]
      exact ⟨_, rfl, rfl, rfl, rfl, rfl⟩
    · have hn := hw.resolve_left hr
      simp only [Bool.false_or, hr, hn, decide_true, decide_false, Bool.false_eq_true, if_false, if_true]
      exact ⟨_, rfl, rfl, rfl, rfl, rfl⟩
  obtain ⟨t, h1, h2, h3, h4, h5⟩ := hparse
  refine ⟨ttySvc t none, ?_, fun exist => ?_⟩
  · unfold ttyRegister
    rw [h1]
    dsimp only
    rw [h2, if_neg (by simp), ttyNext, if_neg (by unfold ttyCmd; rw [h3]; simpa using ht), h2]
    dsimp only
    rw [if_neg (by simp), hput]
  · unfold ttyExec
    have e1 : (ttySvc t none).notty = true := h4
    have e2 : (ttySvc t none).rescue = decide ("rescue".toList ∈ words) := h5
    rw [e1, if_pos rfl, e2]
    by_cases hr : "rescue".toList ∈ words <;> simp

/-- What is no device is never opened as a terminal. -/
theorem C71_device {E : TtyEnv} (exist : CStr → Bool) (s : TtySvc) (dev : CStr)
    (h : (∃ a b, ttyExec E exist s = .shell dev a b) ∨ ∃ c v a b, ttyExec E exist s = .exec dev c v a b) :
    exist dev = true ∧ (dev = "@console".toList ∨ E.stat dev ≠ some false) := by
  have hc : ttyCanon E s.dev = some dev ∧ exist dev = true := by
    unfold ttyExec at h
    by_cases hn : s.notty = true
    · rw [if_pos hn] at h
      rcases h with ⟨a, b, h⟩ | ⟨c, v, a, b, h⟩ <;> split at h <;> cases h
    · rw [if_neg hn] at h
      cases hd : ttyCanon E s.dev with
      | none => rw [hd] at h; rcases h with ⟨a, b, h⟩ | ⟨c, v, a, b, h⟩ <;> cases h
      | some d =>
        rw [hd] at h
        dsimp only at h
        by_cases he : exist d = false
        · rw [if_pos he] at h; rcases h with ⟨a, b, h⟩ | ⟨c, v, a, b, h⟩ <;> cases h
        · rw [if_neg he] at h
          have he' : exist d = true := by simpa using he
          rcases h with ⟨a, b, h⟩ | ⟨c, v, a, b, h⟩ <;> split at h <;> first
            | cases h; exact ⟨rfl, he'⟩
            | cases h
  refine ⟨hc.2, ?_⟩
  have hc := hc.1
  unfold ttyCanon at hc
  split at hc
  · rename_i e
    left
    rw [← Option.some.inj hc]
    exact e
  · right
    split at hc
    · rename_i chr hs
      split at hc
      · rename_i hchr
        rw [← Option.some.inj hc, hs, hchr]
        simp
      · cases hc
    · rename_i hs
      split at hc
      · rw [← Option.some.inj hc, hs]; simp
      · split at hc
        · rename_i chr hs2
          split at hc
          · rename_i hchr
            rw [← Option.some.inj hc, hs2, hchr]
            simp
          · cases hc
        · rename_i hs2
          rw [← Option.some.inj hc, hs2]; simp

/-- A line for the bundled getty that names what is no device is left out. -/
theorem C71_refused {E : TtyEnv} {words : List CStr} {dev : CStr} {baud term : Option CStr} (h : BuiltinLine E words dev baud term)
    (hd : DevName dev) (hl : dev.length < 32)
    (hs : E.stat dev = some false ∨ (E.stat dev = none ∧ ¬ "/dev/".toList <+: dev ∧ E.stat ("/dev/".toList ++ dev) = some false))
    (st : Option (List CStr)) (svcs : List TtySvc) : ttyRegister E words st svcs = (st, svcs) := by
  have hc : ttyCanon E dev = none := by
    have h1 : dev.take 79 = dev := List.take_of_length_le (by omega)
    have h2 : ("/dev/".toList ++ dev).take 79 = "/dev/".toList ++ dev :=
      List.take_of_length_le (by rw [List.length_append]; change 5 + dev.length ≤ 79; omega)
    unfold ttyCanon
    rw [if_neg hd.not_at, h1]
    rcases hs with hs | ⟨hs, hp, hs2⟩
    · rw [hs]; rfl
    · rw [hs]
      dsimp only
      rw [if_neg (by rw [List.isPrefixOf_iff_prefix]; exact hp), h2, hs2]
      rfl
  unfold ttyRegister
  rw [builtin_parse h (isDevWord_of hd), hc]
  rfl

/-- A shell without device is registered once more each time the configuration is read, and only if there is a program called
    `tty`. -/
theorem C71_bare : let E := ttyDemo ["tty"]
    let line := ttyLine ["notty"]
    (ttyRegister E line none (ttyRegister E line none []).2).2.length = 2 ∧
      (ttyRegister (ttyDemo []) line none []).2 = [] := by
  decide +kernel

/-- If getty is not installed, a later line for all consoles gets all but the first. -/
theorem C71_stale : let E := ttyDemo ["/sbin/agetty"]
    let a := ttyRegister E (ttyLine ["@console"]) none []
    (ttyRegister E (ttyLine ["/sbin/agetty", "@console", "115200"]) a.1 a.2).2.map TtySvc.dev = ["ttyS0".toList] := by
  decide +kernel

theorem ttyDemo_line : BuiltinLine (ttyDemo ["/libexec/finit/getty"]) (ttyLine ["/dev/ttyAMA0", "115200", "noclear", "vt220"])
    "/dev/ttyAMA0".toList (some "115200".toList) (some "vt220".toList) := by
  refine ⟨by decide +kernel, by decide +kernel, ?_, by decide +kernel⟩
  unfold TtyPlain
  decide +kernel

theorem ttyDemo_dev : DevName "/dev/ttyAMA0".toList ∧ DevPath (ttyDemo ["/libexec/finit/getty"]) "/dev/ttyAMA0".toList "/dev/ttyAMA0".toList := by
  refine ⟨.inr (.inl ⟨"/ttyAMA0".toList, by decide⟩), .inl ⟨rfl, ⟨"ttyAMA0".toList, by decide⟩⟩, by decide +kernel, by decide⟩

theorem C71_full_false : ¬ C71_full := fun h => by
  obtain ⟨s, argv, ⟨-, hput⟩, hx, hg⟩ :=
    h _ _ _ _ _ _ none [] ttyDemo_line ttyDemo_dev.1 ttyDemo_dev.2 (by decide +kernel) (by decide +kernel)
  rcases hput with ⟨e, -⟩ | ⟨a, x, b, e, -⟩
  · have ht : ttyTold (ttyDemo ["/libexec/finit/getty"]) [s] =
        [some { passenv := false, tty := "115200".toList, speed := 0, term := none }] := by
      have := C71_manual
      dsimp only at this
      rw [e] at this
      exact this
    have hany : ttyExec (ttyDemo ["/libexec/finit/getty"]) (fun _ => true) s =
        .exec "/dev/ttyAMA0".toList "/libexec/finit/getty".toList argv true false := by
      unfold ttyExec at hx ⊢
      split at hx
      · split at hx <;> cases hx
      · rename_i hn
        rw [if_neg hn]
        cases hc : ttyCanon (ttyDemo ["/libexec/finit/getty"]) s.dev with
        | none => rw [hc] at hx; cases hx
        | some d =>
          rw [hc] at hx
          dsimp only at hx ⊢
          split at hx
          · cases hx
          · rw [if_neg (by decide)]
            exact hx
    unfold ttyTold at ht
    rw [List.map_singleton, hany] at ht
    dsimp only at ht
    rw [hg] at ht
    revert ht
    decide +kernel
  · cases a <;> cases e

/-! ### Examples -/

example : ExternalLine (ttyDemo ["/sbin/agetty"]) "/sbin/agetty".toList (ttyLine ["-L", "ttyS0", "115200", "vt100", "nowait"])
    (ttyLine ["-L", "ttyS0", "115200", "vt100"]) "ttyS0".toList := by
  refine ⟨by decide +kernel, by decide +kernel, by decide +kernel, by decide +kernel, by decide, ?_, by decide +kernel⟩
  refine ⟨ttyLine ["-L"], ttyLine ["115200", "vt100"], by decide +kernel, .inr (.inr ⟨"S0".toList, by decide⟩), fun w hw => ?_⟩
  rw [List.mem_singleton.mp hw]
  unfold DevName
  decide

example : DevPath (ttyDemo []) "ttyS0".toList "/dev/ttyS0".toList := by
  refine ⟨.inr ⟨rfl, by decide +kernel, by decide⟩, by decide +kernel, by decide⟩

example : BuiltinLine (ttyDemo ["/libexec/finit/getty"]) (ttyLine ["nowait", "@console", "115200", "passenv", "vt220"])
    "@console".toList (some "115200".toList) (some "vt220".toList) := by
  refine ⟨by decide +kernel, by decide +kernel, ?_, by decide +kernel⟩
  unfold TtyPlain
  decide +kernel

/-- Hypotheses of `C71_rescue` and `C71_refused` that can be met -/
example : "rescue".toList ∈ ttyLine ["rescue", "nowait"] ∧ (∀ w ∈ ttyLine ["rescue", "nowait"], w ∉ ttyOptions → (ttyDemo ["tty"]).which w = false) ∧
    ((ttyLine ["rescue", "nowait"]).filter notOption).length < 64 ∧ (ttyDemo ["tty"]).which "tty".toList = true := by
  decide +kernel

example : let E : TtyEnv := { ttyDemo [] with stat := fun p => if p = "/dev/ttyAMA0".toList then some false else none }
    BuiltinLine E (ttyLine ["/dev/ttyAMA0", "115200"]) "/dev/ttyAMA0".toList (some "115200".toList) none ∧
    E.stat "/dev/ttyAMA0".toList = some false := by
  refine ⟨⟨by decide +kernel, by decide +kernel, ?_, by decide +kernel⟩, by decide +kernel⟩
  unfold TtyPlain
  decide +kernel

end Verif
