import Verif.Environ
import Verif.Props.Conf
import Verif.Props.LineArgs

/-!
# C80: the environment of a service
-/

namespace Verif

/-! ## Specification -/

/-- The line sets a variable, with or without the keyword `set`; a name that begins with `set` needs the keyword, and at bootstrap
    it cannot be set at all. -/
def EnvSays (boot : Bool) (line k v : CStr) : Prop :=
  KeyOk k ∧ lower k ≠ "set".toList ∧
  ((Assigns [] line k v ∧ ¬ "set".toList <+: k) ∨
    ∃ ws, ws ≠ [] ∧ Blank ws ∧ Assigns ("set".toList ++ ws) line k v ∧ (boot = true → ¬ "set".toList <+: k))

/-- What a line of the configuration says: a name and a value, or nothing -/
inductive EnvItem (boot : Bool) : CStr → Option (CStr × CStr) → Prop
  | says {line k v : CStr} : EnvSays boot line k v → EnvItem boot line (some (k, v))
  | nothing {line : CStr} : '=' ∉ line → EnvItem boot line none

/-- What a configuration says, line by line -/
inductive EnvConf (boot : Bool) : List CStr → List (Option (CStr × CStr)) → Prop
  | nil : EnvConf boot [] []
  | cons {l : CStr} {i : Option (CStr × CStr)} {ls : List CStr} {is : List (Option (CStr × CStr))} :
      EnvItem boot l i → EnvConf boot ls is → EnvConf boot (l :: ls) (i :: is)

/-- The last that is said of a variable -/
def LastSays (is : List (Option (CStr × CStr))) (k v : CStr) : Prop :=
  ∃ a b, is = a ++ some (k, v) :: b ∧ ∀ w, some (k, w) ∉ b

/-- Nothing is said of a variable. -/
def Silent (is : List (Option (CStr × CStr))) (k : CStr) : Prop := ∀ w, some (k, w) ∉ is

/-- The defaults -/
def EnvDefault (base : VarEnv) (k v : CStr) : Prop :=
  (k = "PATH".toList ∧ v = (base k).getD stdPath) ∨ (k = "SHELL".toList ∧ v = (base k).getD binSh) ∨
  ((k = "LOGNAME".toList ∨ k = "USER".toList) ∧ v = "root".toList)

/-- Full statement of C80 (false of the code, see below): the variables are those of the configuration that was read last,
    whatever was read before, at bootstrap or later. -/
def C80_full : Prop :=
  ∀ (base : VarEnv) (before before' : List (Bool × List CStr)) (b b' : Bool) (lines : List CStr),
    (varRun base (before ++ [(b, lines)])).env = (varRun base (before' ++ [(b', lines)])).env

/-- The lines of a file, each with a line feed, and none too long for the buffer -/
def EnvText (lines : List CStr) (text : List Char) : Prop :=
  text = lines.flatMap (· ++ ['\n']) ∧ ∀ l ∈ lines, '\n' ∉ l ∧ l.length ≤ 1022

/-- What a line of the file says: as in the configuration, but there are comments -/
inductive FileItem : CStr → Option (CStr × CStr) → Prop
  | says {line k v : CStr} : EnvSays false line k v → (∀ c ∈ k.head?, c ≠ '#' ∧ c ≠ ';') → FileItem line (some (k, v))
  | nothing {line : CStr} : '=' ∉ line → FileItem line none
  | comment {ws s : CStr} {c : Char} : Blank ws → c = '#' ∨ c = ';' → FileItem (ws ++ c :: s) none

/-- What a file says, line by line -/
inductive FileConf : List CStr → List (Option (CStr × CStr)) → Prop
  | nil : FileConf [] []
  | cons {l : CStr} {i : Option (CStr × CStr)} {ls : List CStr} {is : List (Option (CStr × CStr))} :
      FileItem l i → FileConf ls is → FileConf (l :: ls) (i :: is)

/-- The value a variable gets: the words of the shell's expansion with a blank between, or the value as it is if it cannot be
    expanded -/
def ValSays (raw : CStr) (words : Option (List CStr)) (v : CStr) : Prop :=
  (words = none ∧ v = raw) ∨ ∃ ws, words = some ws ∧ v = List.intercalate [' '] ws ∧ v.length ≤ 1023

/-- What becomes of the variables, one after the other, with what each stands for at that time -/
inductive Sources (expand : VarEnv → CStr → Option (List CStr)) : VarEnv → List (Option (CStr × CStr)) → VarEnv → Prop
  | nil {e : VarEnv} : Sources expand e [] e
  | skip {e e' : VarEnv} {is : List (Option (CStr × CStr))} : Sources expand e is e' → Sources expand e (none :: is) e'
  | set {e e' : VarEnv} {k raw v : CStr} {is : List (Option (CStr × CStr))} : ValSays raw (expand e raw) v →
      Sources expand (fun x => if x = k then some v else e x) is e' → Sources expand e (some (k, raw) :: is) e'

/-! ## Lemmas -/

theorem matchCmd_set {line x : CStr} (h : matchCmd "set " line = some x) :
    ∃ a b c d, a.toLower = 's' ∧ b.toLower = 'e' ∧ c.toLower = 't' ∧ d.toLower = ' ' ∧ line = a :: b :: c :: d :: x := by
  unfold matchCmd at h
  split at h
  · rename_i hl
    cases h
    match line, hl with
    | [], hl => exact absurd (congrArg List.length hl) (by decide)
    | [_], hl => exact absurd (congrArg List.length hl) (by simp [lower]; decide)
    | [_, _], hl => exact absurd (congrArg List.length hl) (by simp [lower]; decide)
    | [_, _, _], hl => exact absurd (congrArg List.length hl) (by simp [lower]; decide)
    | a :: b :: c :: d :: r, hl =>
      have hp : [a.toLower, b.toLower, c.toLower, d.toLower] = ['s', 'e', 't', ' '] := hl
      injection hp with ha hp
      injection hp with hb hp
      injection hp with hc hp
      injection hp with hd _
      exact ⟨a, b, c, d, ha, hb, hc, hd, rfl⟩
  · cases h

theorem key_varSet {k v : CStr} {e : VarEnv} (hk : KeyOk k) : varSet k v e = fun x => if x = k then some v else e x := if_neg hk.1

theorem toLower_space {c d : Char} (h : isSpace c = true ∨ c = '=') (e : c.toLower = d) (hd : d = 's' ∨ d = 'e' ∨ d = 't') : False := by
  have hl : c.toNat ≤ 61 := by
    rcases h with h | h
    · unfold isSpace at h
      have := of_decide_eq_true h
      omega
    · subst h; decide
  unfold Char.toLower at e
  split at e
  · rename_i hc
    have h1 : 65 ≤ c.val.toNat := hc.1
    have : c.toNat = c.val.toNat := rfl
    omega
  · subst e
    rcases hd with rfl | rfl | rfl <;> revert hl <;> decide

theorem head_ws {ws r t : CStr} {c : Char} (hw : Blank ws) (h : ws ++ '=' :: r = c :: t) : isSpace c = true ∨ c = '=' := by
  cases ws with
  | nil => injection h with h1 _; exact .inr h1.symm
  | cons w ws => injection h with h1 _; subst h1; exact .inl (hw _ List.mem_cons_self)

theorem toLower_blank {c : Char} (e : c.toLower = ' ') : c = ' ' := by
  unfold Char.toLower at e
  split at e
  · rename_i hc
    exfalso
    have hv := congrArg (fun c : Char => c.val.toNat) e
    have h1 : 65 ≤ c.val.toNat := hc.1
    have h2 : c.val.toNat ≤ 90 := hc.2
    simp only [UInt32.toNat_add] at hv
    have h4 : ('a'.val - 'A'.val).toNat = 32 := rfl
    have h5 : ' '.val.toNat = 32 := rfl
    omega
  · exact e

/-- A line without the keyword does not begin with it. -/
theorem not_set {line k v : CStr} (hk : KeyOk k) (hs : lower k ≠ "set".toList) (h : Assigns [] line k v) : matchCmd "set " line = none := by
  cases hm : matchCmd "set " line with
  | none => rfl
  | some x =>
    exfalso
    obtain ⟨a, b, c, d, ha, hb, hc, hd, e⟩ := matchCmd_set hm
    obtain ⟨ws0, ws1, ws2, ws3, w, h0, h1, _, _, _, el⟩ := h
    rw [el] at e
    have hd := toLower_blank hd
    cases ws0 with
    | cons y ws0 =>
      injection e with e _
      subst e
      exact toLower_space (.inl (h0 _ List.mem_cons_self)) ha (.inl rfl)
    | nil =>
      simp only [List.nil_append, List.append_assoc] at e
      match k, hk, hs, e with
      | [], hk, _, _ => exact hk.1 rfl
      | [k1], _, _, e =>
        injection e with _ e
        exact toLower_space (head_ws h1 e) hb (.inr (.inl rfl))
      | [k1, k2], _, _, e =>
        injection e with _ e
        injection e with _ e
        exact toLower_space (head_ws h1 e) hc (.inr (.inr rfl))
      | [k1, k2, k3], _, hs, e =>
        injection e with e1 e
        injection e with e2 e
        injection e with e3 e
        refine hs ?_
        rw [e1, e2, e3]
        show [a.toLower, b.toLower, c.toLower] = _
        rw [ha, hb, hc]
        rfl
      | k1 :: k2 :: k3 :: k4 :: kr, hk, _, e =>
        injection e with _ e
        injection e with _ e
        injection e with _ e
        injection e with e _
        have := hk.2.1 k4 (by simp)
        rw [e, hd] at this
        exact absurd this (by decide)

/-- At bootstrap the keyword is taken off before. -/
theorem boot_set {line k v ws x : CStr} (hne : ws ≠ []) (hb : Blank ws) (h : Assigns ("set".toList ++ ws) line k v) (hm : matchCmd "set " line = some x) :
    Assigns [] x k v := by
  obtain ⟨a, b, c, d, ha, _, _, hd, e⟩ := matchCmd_set hm
  obtain ⟨ws0, ws1, ws2, ws3, w, h0, h1, h2, h3, hw, el⟩ := h
  rw [el] at e
  cases ws0 with
  | cons y ws0 =>
    injection e with e _
    subst e
    exact (toLower_space (.inl (h0 _ List.mem_cons_self)) ha (.inl rfl)).elim
  | nil =>
    cases ws with
    | nil => exact absurd rfl hne
    | cons y ws =>
      refine ⟨ws, ws1, ws2, ws3, w, fun c hc => hb c (List.mem_cons_of_mem _ hc), h1, h2, h3, hw, ?_⟩
      have e' : 's' :: 'e' :: 't' :: y :: (ws ++ (k ++ ws1 ++ '=' :: (ws2 ++ w ++ ws3))) = a :: b :: c :: d :: x := by
        simpa using e
      injection e' with _ e'
      injection e' with _ e'
      injection e' with _ e'
      injection e' with _ e'
      rw [← e', List.nil_append]

/-- What a line does -/
theorem varLine_says {boot : Bool} {line k v : CStr} (h : EnvSays boot line k v) (s : VarSt) :
    varLine boot s line = { env := fun x => if x = k then some v else s.env x, tracked := k :: s.tracked } := by
  obtain ⟨hk, hs, h⟩ := h
  have key : ∀ l, confParseEnv l = some (k, v) →
      varParse s l = { env := fun x => if x = k then some v else s.env x, tracked := k :: s.tracked } := by
    intro l hl
    unfold varParse
    rw [hl]
    dsimp only
    rw [key_varSet hk]
  unfold varLine
  rcases h with ⟨ha, hn⟩ | ⟨ws, hne, hb, ha, hn⟩
  · rw [not_set hk hs ha]
    dsimp only
    rw [key _ ((C28_env_partial line k v hk).1 hn ha)]
    simp
  · have h2 := key _ ((C28_env_partial line k v hk).2 ws hne hb ha)
    cases boot with
    | false => exact h2
    | true =>
      rw [if_pos rfl]
      cases hm : matchCmd "set " line with
      | none => exact h2
      | some x => exact key x ((C28_env_partial x k v hk).1 (hn rfl) (boot_set hne hb ha hm))

theorem varLine_nothing {boot : Bool} {line : CStr} (h : '=' ∉ line) (s : VarSt) : varLine boot s line = s := by
  have key : ∀ l : CStr, '=' ∉ l → varParse s l = s := by
    intro l hl
    unfold varParse
    rw [(C28_bad_lines l).1 hl]
  unfold varLine
  split
  · split
    · rename_i x hm
      obtain ⟨a, b, c, d, _, _, _, _, rfl⟩ := matchCmd_set hm
      exact key x (fun h' => h (by simp [h']))
    · exact key _ h
  · exact key _ h

/-- What a configuration does -/
theorem lines_says {boot : Bool} {ls : List CStr} {is : List (Option (CStr × CStr))} (h : EnvConf boot ls is) (s : VarSt) (k : CStr) :
    (∀ v, LastSays is k v → (ls.foldl (varLine boot) s).env k = some v) ∧
    (Silent is k → (ls.foldl (varLine boot) s).env k = s.env k ∧ (k ∈ (ls.foldl (varLine boot) s).tracked ↔ k ∈ s.tracked)) ∧
    (¬ Silent is k → k ∈ (ls.foldl (varLine boot) s).tracked) ∧
    (k ∈ s.tracked → k ∈ (ls.foldl (varLine boot) s).tracked) := by
  induction h generalizing s with
  | nil =>
    refine ⟨?_, fun _ => ⟨rfl, Iff.rfl⟩, ?_, fun h => h⟩
    · rintro v ⟨a, b, e, _⟩
      cases a <;> cases e
    · intro h
      exact absurd (fun w hw => by cases hw) h
  | cons hi _ ih =>
    rename_i l i ls is _
    rw [List.foldl_cons]
    cases hi with
    | nothing hn =>
      rw [varLine_nothing hn]
      obtain ⟨i1, i2, i3, i4⟩ := ih s
      refine ⟨?_, fun hs => i2 fun w hw => hs w (List.mem_cons_of_mem _ hw), ?_, i4⟩
      · rintro v ⟨a, b, e, hb⟩
        cases a with
        | nil => cases e
        | cons x a => injection e with _ e; exact i1 v ⟨a, b, e, hb⟩
      · intro hs
        refine i3 fun h => hs ?_
        intro w hw
        rcases List.mem_cons.mp hw with hw | hw
        · cases hw
        · exact h w hw
    | says hsay =>
      rename_i k' v'
      rw [varLine_says hsay]
      obtain ⟨i1, i2, i3, i4⟩ := ih { env := fun x => if x = k' then some v' else s.env x, tracked := k' :: s.tracked }
      refine ⟨?_, ?_, ?_, fun h => i4 (List.mem_cons_of_mem _ h)⟩
      · rintro v ⟨a, b, e, hb⟩
        cases a with
        | nil =>
          injection e with e1 e2
          injection e1 with e1
          injection e1 with e1 e3
          subst e1 e3 e2
          rw [(i2 hb).1]
          exact if_pos rfl
        | cons x a => injection e with _ e; exact i1 v ⟨a, b, e, hb⟩
      · intro hs
        have hne : k ≠ k' := by
          intro e
          subst e
          exact hs v' List.mem_cons_self
        obtain ⟨j1, j2⟩ := i2 fun w hw => hs w (List.mem_cons_of_mem _ hw)
        refine ⟨j1.trans (if_neg hne), j2.trans ?_⟩
        simp [hne]
      · intro hs
        by_cases hne : k = k'
        · subst hne
          exact i4 List.mem_cons_self
        · refine i3 fun h => hs ?_
          intro w hw
          rcases List.mem_cons.mp hw with hw | hw
          · injection hw with hw; injection hw with hw _; exact hne hw
          · exact h w hw

theorem unset_all (ks : List CStr) (e : VarEnv) {k : CStr} (hk : k ≠ []) :
    (ks.foldl (fun e k => varUnset k e) e) k = if k ∈ ks then none else e k := by
  induction ks generalizing e with
  | nil => rfl
  | cons x ks ih =>
    rw [List.foldl_cons, ih]
    unfold varUnset
    by_cases hm : k ∈ ks
    · rw [if_pos hm, if_pos (List.mem_cons_of_mem _ hm)]
    · rw [if_neg hm]
      by_cases hx : x = []
      · have : k ≠ x := fun e => hk (e.trans hx)
        rw [if_pos hx, if_neg (by simp [this, hm])]
      · rw [if_neg hx]
        by_cases e : k = x
        · rw [if_pos e, if_pos (by simp [e])]
        · rw [if_neg e, if_neg (by simp [e, hm])]

/-- What is left of the variables when the configuration is read again -/
theorem reset_env (base : VarEnv) (s : VarSt) {k : CStr} (hk : k ≠ []) :
    (∀ v, EnvDefault base k v → (varReset base s).env k = some v) ∧
    ((∀ v, ¬ EnvDefault base k v) → (varReset base s).env k = if k ∈ s.tracked then none else s.env k) := by
  have vs : ∀ (n v : CStr) (e : VarEnv), n ≠ [] → varSet n v e = fun x => if x = n then some v else e x := fun n v e h => if_neg h
  unfold varReset
  dsimp only
  rw [vs "USER".toList _ _ (by decide), vs "LOGNAME".toList _ _ (by decide), vs "SHELL".toList _ _ (by decide),
    vs "PATH".toList _ _ (by decide)]
  dsimp only
  constructor
  · rintro v (⟨rfl, rfl⟩ | ⟨rfl, rfl⟩ | ⟨rfl | rfl, rfl⟩)
    · rw [if_neg (by decide), if_neg (by decide), if_neg (by decide), if_pos rfl]
    · rw [if_neg (by decide), if_neg (by decide), if_pos rfl]
    · rw [if_neg (by decide), if_pos rfl]
    · rw [if_pos rfl]
  · intro h
    have h1 : k ≠ "PATH".toList := fun e => h _ (.inl ⟨e, rfl⟩)
    have h2 : k ≠ "SHELL".toList := fun e => h _ (.inr (.inl ⟨e, rfl⟩))
    have h3 : k ≠ "LOGNAME".toList := fun e => h _ (.inr (.inr ⟨.inl e, rfl⟩))
    have h4 : k ≠ "USER".toList := fun e => h _ (.inr (.inr ⟨.inr e, rfl⟩))
    rw [if_neg h4, if_neg h3, if_neg h2, if_neg h1, unset_all _ _ hk]

theorem ite_none {p : Prop} [Decidable p] {a : Option CStr} (h : a = none) : (if p then none else a) = none := by
  rw [h]
  exact ite_self _

theorem varRun_snoc (base : VarEnv) (cs : List (Bool × List CStr)) (c : Bool × List CStr) :
    varRun base (cs ++ [c]) = c.2.foldl (varLine c.1) (varReset base (varRun base cs)) := by
  unfold varRun
  rw [List.foldl_append]
  rfl

/-- Configurations that have been read, and what they said -/
inductive EnvConfs : List (Bool × List CStr) → List (List (Option (CStr × CStr))) → Prop
  | nil : EnvConfs [] []
  | snoc {cs : List (Bool × List CStr)} {iss : List (List (Option (CStr × CStr)))} {b : Bool} {ls : List CStr}
      {is : List (Option (CStr × CStr))} : EnvConfs cs iss → EnvConf b ls is → EnvConfs (cs ++ [(b, ls)]) (iss ++ [is])

/-- The variables after some configurations -/
theorem run_env (base : VarEnv) {cs : List (Bool × List CStr)} {iss : List (List (Option (CStr × CStr)))} (h : EnvConfs cs iss)
    {k : CStr} (hk : k ≠ []) (hd : ∀ v, ¬ EnvDefault base k v) :
    ((∀ is ∈ iss, Silent is k) → (varRun base cs).env k = base k ∧ k ∉ (varRun base cs).tracked) ∧
    ((∃ is ∈ iss, ¬ Silent is k) → k ∈ (varRun base cs).tracked ∨ (varRun base cs).env k = none) := by
  induction h with
  | nil => exact ⟨fun _ => ⟨rfl, fun h => by cases h⟩, fun ⟨is, h, _⟩ => by cases h⟩
  | snoc _ hc ih =>
    rename_i cs iss b ls is _
    rw [varRun_snoc]
    obtain ⟨i1, i2⟩ := ih
    obtain ⟨l1, l2, l3, l4⟩ := lines_says hc (varReset base (varRun base cs)) k
    obtain ⟨_, r2⟩ := reset_env base (varRun base cs) hk
    have r2 := r2 hd
    have rt : k ∉ (varReset base (varRun base cs)).tracked := fun h => by cases h
    constructor
    · intro hs
      have hsi := hs is (by simp)
      obtain ⟨j1, j2⟩ := i1 fun x hx => hs x (by simp [hx])
      obtain ⟨m1, m2⟩ := l2 hsi
      rw [if_neg j2] at r2
      exact ⟨m1.trans (r2.trans j1), fun h => rt (m2.mp h)⟩
    · rintro ⟨x, hx, hns⟩
      by_cases hsi : Silent is k
      · right
        rcases List.mem_append.mp hx with hx | hx
        · rw [(l2 hsi).1, r2]
          rcases i2 ⟨x, hx, hns⟩ with h | h
          · rw [if_pos h]
          · exact ite_none h
        · rw [List.mem_singleton.mp hx] at hns
          exact absurd hsi hns
      · exact .inl (l3 hsi)

/-! ## C80: theorems -/

/-- The variables after any number of reloads: the last line of the configuration now in use that sets a variable counts; then the
    defaults; then what the variable was when Finit was started, unless an earlier configuration has set it. -/
theorem C80_global_partial (base : VarEnv) (before : List (Bool × List CStr)) (said : List (List (Option (CStr × CStr))))
    (hb : EnvConfs before said) (boot : Bool) (lines : List CStr) (is : List (Option (CStr × CStr))) (h : EnvConf boot lines is)
    (k : CStr) (hk : k ≠ []) :
    (∀ v, LastSays is k v → (varRun base (before ++ [(boot, lines)])).env k = some v) ∧
    (Silent is k →
      (∀ v, EnvDefault base k v → (varRun base (before ++ [(boot, lines)])).env k = some v) ∧
      ((∀ v, ¬ EnvDefault base k v) →
        ((∀ i ∈ said, Silent i k) → (varRun base (before ++ [(boot, lines)])).env k = base k) ∧
        ((∃ i ∈ said, ¬ Silent i k) → (varRun base (before ++ [(boot, lines)])).env k = none))) := by
  rw [varRun_snoc]
  obtain ⟨l1, l2, _, _⟩ := lines_says h (varReset base (varRun base before)) k
  obtain ⟨r1, r2⟩ := reset_env base (varRun base before) hk
  refine ⟨l1, fun hs => ⟨fun v hv => ?_, fun hd => ⟨fun ha => ?_, fun he => ?_⟩⟩⟩
  · exact (l2 hs).1.trans (r1 v hv)
  · obtain ⟨j1, j2⟩ := (run_env base hb hk hd).1 ha
    rw [(l2 hs).1, r2 hd, if_neg j2, j1]
  · rw [(l2 hs).1, r2 hd]
    rcases (run_env base hb hk hd).2 he with h | h
    · rw [if_pos h]
    · exact ite_none h

/-- Nothing that an earlier configuration set, and this one does not, is left. -/
theorem C80_no_leftover (base : VarEnv) (before : List (Bool × List CStr)) (said : List (List (Option (CStr × CStr))))
    (hb : EnvConfs before said) (boot : Bool) (lines : List CStr) (is : List (Option (CStr × CStr))) (h : EnvConf boot lines is)
    (k v : CStr) (hk : k ≠ []) (hs : Silent is k) (he : (varRun base (before ++ [(boot, lines)])).env k = some v) :
    EnvDefault base k v ∨ base k = some v := by
  by_cases hd : ∃ w, EnvDefault base k w
  · obtain ⟨w, hw⟩ := hd
    have := ((C80_global_partial base before said hb boot lines is h k hk).2 hs).1 w hw
    rw [he] at this
    cases this
    exact .inl hw
  · have hd : ∀ w, ¬ EnvDefault base k w := fun w hw => hd ⟨w, hw⟩
    obtain ⟨g1, g2⟩ := ((C80_global_partial base before said hb boot lines is h k hk).2 hs).2 hd
    by_cases ha : ∃ i ∈ said, ¬ Silent i k
    · rw [g2 ha] at he; cases he
    · right
      rw [← he, g1 fun i hi => Classical.byContradiction fun h => ha ⟨i, hi, h⟩]

/-! ## The variables of a child -/

theorem cat_all {n : Nat} : ∀ (l : List CStr) (acc : CStr), (acc ++ l.flatten).length < n → l.foldl (strlcat n) acc = acc ++ l.flatten
  | [], acc, _ => by simp
  | x :: l, acc, h => by
    rw [List.flatten_cons, ← List.append_assoc] at h
    have h1 : (acc ++ x).length < n := by
      rw [List.length_append] at h
      omega
    rw [List.foldl_cons, strlcat_fits h1, cat_all l (acc ++ x) h, List.flatten_cons, List.append_assoc]

theorem joinVal_says {raw v : CStr} {words : Option (List CStr)} (h : ValSays raw words v) : joinVal raw words = v := by
  rcases h with ⟨rfl, rfl⟩ | ⟨ws, rfl, rfl, hl⟩
  · rfl
  · cases ws with
    | nil => rfl
    | cons w ws =>
      have e : ∀ (w : CStr) (ws : List CStr), List.intercalate [' '] (w :: ws) = w ++ (ws.flatMap fun x => [" ".toList, x]).flatten := by
        intro w ws
        induction ws generalizing w with
        | nil => simp [List.intercalate]
        | cons x ws ih =>
          rw [List.intercalate_cons_cons, ih x]
          simp
      rw [e] at hl ⊢
      unfold joinVal
      dsimp only
      rw [strlcat_fits (by rw [List.nil_append]; rw [List.length_append] at hl; omega), List.nil_append]
      exact cat_all _ _ (by omega)

theorem pieces_acc (room : Nat) (s : List Char) : ∀ (l acc : List Char), '\n' ∉ l → acc.length + l.length < room →
    fgetsPieces room acc (l ++ '\n' :: s) = (acc.reverse ++ l ++ ['\n']) :: fgetsPieces room [] s
  | [], acc, _, _ => by
    rw [List.nil_append, fgetsPieces, if_pos (.inl rfl)]
    simp
  | c :: l, acc, hn, hl => by
    rw [List.length_cons] at hl
    have hc : c ≠ '\n' := fun e => hn (e ▸ List.mem_cons_self)
    rw [List.cons_append, fgetsPieces, if_neg (fun h => h.elim hc (by omega)),
      pieces_acc room s l (c :: acc) (fun h => hn (List.mem_cons_of_mem _ h)) (by rw [List.length_cons]; omega)]
    simp

theorem pieces_text : ∀ (lines : List CStr), (∀ l ∈ lines, '\n' ∉ l ∧ l.length ≤ 1022) →
    fgetsPieces 1023 [] (lines.flatMap (· ++ ['\n'])) = lines.map (· ++ ['\n'])
  | [], _ => by simp [fgetsPieces]
  | l :: ls, h => by
    obtain ⟨h1, h2⟩ := h l List.mem_cons_self
    rw [List.flatMap_cons, List.append_assoc, List.singleton_append, pieces_acc 1023 _ l [] h1 (by simp; omega),
      pieces_text ls fun x hx => h x (List.mem_cons_of_mem _ hx)]
    rfl

theorem chomp_line (l : CStr) : chompLine (l ++ ['\n']) = l := by
  unfold chompLine
  rw [if_pos (by simp), List.dropLast_concat]

theorem parse_lead (l : CStr) : confParseEnv (l.dropWhile isSpace) = confParseEnv l := by
  unfold confParseEnv
  have : ∀ l : CStr, (l.dropWhile isSpace).dropWhile isSpace = l.dropWhile isSpace := by
    intro l
    induction l with
    | nil => rfl
    | cons c l ih =>
      rw [List.dropWhile_cons]
      split
      · exact ih
      · rename_i h
        rw [List.dropWhile_cons, if_neg h]
  rw [this]

theorem sourceLine_says (expand : VarEnv → CStr → Option (List CStr)) (e : VarEnv) {line : CStr} {i : Option (CStr × CStr)}
    (h : FileItem line i) : sourceLine expand e (line ++ ['\n']) = match i with
      | none => e
      | some (k, raw) => fun x => if x = k then some (joinVal raw (expand e raw)) else e x := by
  unfold sourceLine
  rw [chomp_line]
  dsimp only
  cases h with
  | nothing hn =>
    rw [parse_lead, (C28_bad_lines line).1 hn]
    simp
  | comment hw hc =>
    rename_i ws s c
    have hns : isSpace c = false := by rcases hc with rfl | rfl <;> decide
    rw [skip_blank hw (fun x hx => by cases hx; exact hns)]
    rw [if_pos (by rcases hc with rfl | rfl <;> simp)]
  | says hs hh =>
    rename_i k v
    obtain ⟨hk, _, hs⟩ := hs
    have hlead : ∀ c ∈ (line.dropWhile isSpace).head?, c ≠ '#' ∧ c ≠ ';' := by
      have key : ∀ set, Assigns set line k v → (∀ c ∈ (set ++ k).head?, isSpace c = false ∧ c ≠ '#' ∧ c ≠ ';') → set ++ k ≠ [] →
          ∀ c ∈ (line.dropWhile isSpace).head?, c ≠ '#' ∧ c ≠ ';' := by
        rintro set ⟨ws0, ws1, ws2, ws3, w, h0, _, _, _, _, rfl⟩ hc hne
        rw [show set ++ k ++ ws1 ++ '=' :: (ws2 ++ w ++ ws3) = (set ++ k) ++ (ws1 ++ '=' :: (ws2 ++ w ++ ws3)) by simp]
        cases hsk : set ++ k with
        | nil => exact absurd hsk hne
        | cons y r =>
          rw [hsk] at hc
          have hy := hc y rfl
          rw [skip_blank h0 (fun x hx => by cases hx; exact hy.1)]
          intro c hcc
          cases hcc
          exact hy.2
      rcases hs with ⟨ha, _⟩ | ⟨ws, _, _, ha, _⟩
      · refine key _ ha (fun c hc => ?_) (by simpa using hk.1)
        rw [List.nil_append] at hc
        exact ⟨hk.2.1 c (List.mem_of_head? hc), hh c hc⟩
      · refine key _ ha (fun c hc => ?_) (by simp)
        have : c = 's' := by
          have h' : ("set".toList ++ ws ++ k).head? = some 's' := rfl
          rw [h'] at hc
          exact (Option.some.inj hc).symm
        subst this
        decide
    rw [if_neg (by
      rintro (h | h)
      · exact (hlead _ h).1 rfl
      · exact (hlead _ h).2 rfl)]
    have hp : confParseEnv line = some (k, v) := by
      rcases hs with ⟨ha, hn⟩ | ⟨ws, hne, hb, ha, _⟩
      · exact (C28_env_partial line k v hk).1 hn ha
      · exact (C28_env_partial line k v hk).2 ws hne hb ha
    rw [parse_lead, hp]
    exact key_varSet hk

/-- The variables that the file of a service sets -/
theorem C80_file_partial (expand : VarEnv → CStr → Option (List CStr)) (lines : List CStr) (text : List Char) (ht : EnvText lines text)
    (is : List (Option (CStr × CStr))) (h : FileConf lines is) (e e' : VarEnv) (hs : Sources expand e is e') :
    sourceEnv expand (some text) e = e' := by
  obtain ⟨rfl, hl⟩ := ht
  unfold sourceEnv
  dsimp only
  rw [pieces_text lines hl, List.foldl_map]
  clear hl
  induction h generalizing e with
  | nil => cases hs; rfl
  | cons hi _ ih =>
    rw [List.foldl_cons, sourceLine_says expand e hi]
    cases hs with
    | skip hs => exact ih e hs
    | set hv hs =>
      dsimp only
      rw [joinVal_says hv]
      exact ih _ hs

/-- What the file does not mention stays as it was, and a variable has the value of the last line for it. -/
theorem C80_file_last (expand : VarEnv → CStr → Option (List CStr)) (is : List (Option (CStr × CStr))) (e e' : VarEnv)
    (hs : Sources expand e is e') (k : CStr) :
    (Silent is k → e' k = e k) ∧
    ∀ raw, LastSays is k raw → ∃ em v, ValSays raw (expand em raw) v ∧ e' k = some v := by
  induction hs with
  | nil =>
    refine ⟨fun _ => rfl, ?_⟩
    rintro raw ⟨a, b, h, _⟩
    cases a <;> cases h
  | skip _ ih =>
    refine ⟨fun h => ih.1 fun w hw => h w (List.mem_cons_of_mem _ hw), ?_⟩
    rintro raw ⟨a, b, h, hb⟩
    cases a with
    | nil => cases h
    | cons x a => injection h with _ h; exact ih.2 raw ⟨a, b, h, hb⟩
  | set hv _ ih =>
    rename_i e e' k' raw' v is _
    constructor
    · intro h
      rw [ih.1 fun w hw => h w (List.mem_cons_of_mem _ hw)]
      exact if_neg fun (h' : k = k') => h raw' (h' ▸ List.mem_cons_self)
    · rintro raw ⟨a, b, h, hb⟩
      cases a with
      | nil =>
        injection h with h1 h2
        injection h1 with h1
        injection h1 with h1 h3
        subst h1 h3 h2
        exact ⟨e, v, hv, (ih.1 hb).trans (if_pos rfl)⟩
      | cons x a => injection h with _ h; exact ih.2 raw ⟨a, b, h, hb⟩

/-- Without a file: a service of another user than root has the default path, and one whose user is known has its home directory; all
    else is as with Finit. -/
theorem C80_user (expand : VarEnv → CStr → Option (List CStr)) (uid : Nat) (home : CStr) (e : VarEnv) :
    childEnv expand none none none e = e ∧
    childEnv expand (some uid) (some home) none e "HOME".toList = some home ∧
    childEnv expand (some uid) (some home) none e "PATH".toList = (if uid = 0 then e "PATH".toList else some defPath) ∧
    ∀ k, k ≠ "HOME".toList → k ≠ "PATH".toList → childEnv expand (some uid) (some home) none e k = e k := by
  have vs : ∀ (n v : CStr) (e : VarEnv), n ≠ [] → varSet n v e = fun x => if x = n then some v else e x := fun n v e h => if_neg h
  have hc : childEnv expand (some uid) (some home) none e =
      fun x => if x = "HOME".toList then some home else (if 0 < uid then varSet "PATH".toList defPath e else e) x := by
    show varSet "HOME".toList home _ = _
    rw [vs _ _ _ (by decide)]
  rw [hc, vs "PATH".toList _ _ (by decide)]
  refine ⟨rfl, if_pos rfl, ?_, ?_⟩
  · dsimp only
    rw [if_neg (by decide)]
    by_cases h : uid = 0
    · rw [if_pos h, if_neg (by omega)]
    · rw [if_neg h, if_pos (by omega)]
      exact if_pos rfl
  · intro k h1 h2
    dsimp only
    rw [if_neg h1]
    split
    · exact if_neg h2
    · rfl

/-- With a file: it has the last word. -/
theorem C80_child_partial (expand : VarEnv → CStr → Option (List CStr)) (uid : Nat) (home : CStr) (e e1 e2 : VarEnv)
    (hh : e1 "HOME".toList = some home) (hp : e1 "PATH".toList = if uid = 0 then e "PATH".toList else some defPath)
    (ho : ∀ k, k ≠ "HOME".toList → k ≠ "PATH".toList → e1 k = e k)
    (lines : List CStr) (text : List Char) (ht : EnvText lines text) (is : List (Option (CStr × CStr))) (h : FileConf lines is)
    (hs : Sources expand e1 is e2) : childEnv expand (some uid) (some home) (some text) e = e2 := by
  have he : childEnv expand (some uid) (some home) none e = e1 := by
    obtain ⟨_, u1, u2, u3⟩ := C80_user expand uid home e
    funext k
    by_cases h1 : k = "HOME".toList
    · rw [h1, u1, hh]
    · by_cases h2 : k = "PATH".toList
      · rw [h2, u2, hp]
      · rw [u3 k h1 h2, ho k h1 h2]
  have := C80_file_partial expand lines text ht is h e1 e2 hs
  rw [← he] at this
  exact this

/-! ## Witnesses and examples -/

/-- A variable that Finit was started with is gone when a configuration has set it once. -/
theorem C80_lost : (varRun (fun k => if k = "LANG".toList then some "C".toList else none)
      [(true, ["LANG=sv".toList]), (false, [])]).env "LANG".toList = none ∧
    (varRun (fun k => if k = "LANG".toList then some "C".toList else none) [(true, []), (false, [])]).env "LANG".toList = some "C".toList := by
  decide +kernel

/-- The same configuration means something else at bootstrap than at a reload: names that begin with `set`, and the keyword in
    capital letters -/
theorem C80_boot :
    (varRun (fun _ => none) [(true, ["set settings=1".toList])]).env "settings".toList = none ∧
    (varRun (fun _ => none) [(true, ["set settings=1".toList])]).env "tings".toList = some "1".toList ∧
    (varRun (fun _ => none) [(false, ["set settings=1".toList])]).env "settings".toList = some "1".toList ∧
    (varRun (fun _ => none) [(true, ["SET foo=1".toList])]).env "foo".toList = some "1".toList ∧
    (varRun (fun _ => none) [(false, ["SET foo=1".toList])]).env "foo".toList = none := by
  decide +kernel

theorem C80_full_false : ¬ C80_full := by
  intro h
  have := congrFun (h (fun _ => none) [] [] true false ["SET foo=1".toList]) "foo".toList
  exact absurd this (by decide +kernel)

/-- Quotes do not help against the shell's splitting: they are taken off before. -/
theorem C80_blanks (expand : VarEnv → CStr → Option (List CStr)) (e : VarEnv)
    (hx : expand e "a  b".toList = some ["a".toList, "b".toList]) :
    sourceEnv expand (some "FOO=\"a  b\"\n".toList) e "FOO".toList = some "a b".toList := by
  have h1 : FileItem "FOO=\"a  b\"".toList (some ("FOO".toList, "a  b".toList)) := by
    refine .says ⟨⟨by decide, by decide, by decide⟩, by decide, .inl ⟨⟨[], [], [], [], "\"a  b\"".toList, ?_, ?_, ?_, ?_,
      .quoted (v := "a  b".toList) (.inl rfl), by decide⟩, by decide⟩⟩ (by intro c hc; cases hc; decide) <;> (intro c hc; cases hc)
  have h2 : Sources expand e [some ("FOO".toList, "a  b".toList)] (fun x => if x = "FOO".toList then some "a b".toList else e x) :=
    .set (v := "a b".toList) (.inr ⟨_, hx, by decide, by decide⟩) .nil
  rw [C80_file_partial expand ["FOO=\"a  b\"".toList] _ ⟨by decide, by decide⟩ _ (.cons h1 .nil) _ _ h2]
  exact if_pos rfl

example : EnvConf false ["set foo=bar".toList, "# nothing".toList, "baz=\"qux\"".toList]
    [some ("foo".toList, "bar".toList), none, some ("baz".toList, "qux".toList)] := by
  refine .cons (.says ⟨⟨by decide, by decide, by decide⟩, by decide, .inr ⟨[' '], by decide, by intro c hc; simp at hc; subst hc; decide,
    ⟨[], [], [], [], "bar".toList, ?_, ?_, ?_, ?_, .plain ?_ ?_ ?_, by decide⟩, nofun⟩⟩)
    (.cons (.nothing (by decide)) (.cons (.says ⟨⟨by decide, by decide, by decide⟩, by decide, .inl ⟨⟨[], [], [], [], "\"qux\"".toList,
      ?_, ?_, ?_, ?_, .quoted (v := "qux".toList) (.inl rfl), by decide⟩, by decide⟩⟩) .nil)) <;> (intro c hc; cases hc) <;> decide

example : (varRun (fun k => if k = "TERM".toList then some "linux".toList else none)
    [(true, ["set foo=bar".toList, "PATH=/bin".toList]), (false, ["baz=\"qux\"".toList])]).env "PATH".toList = some stdPath := by decide +kernel

end Verif
