import Verif.Cgset
import Verif.CStrLemmas
import Verif.Props.LineMeaning

/-!
# C88: Control groups have the settings of the configuration
-/

namespace Verif

/-! ## Specification -/

/-- A setting: controller, property, value, and the quotes around the value, if any -/
structure CgSetting where
  ctrl : CStr
  prop : CStr
  value : CStr
  quote : Option Char := none

/-- As it is written -/
def CgSetting.text (s : CgSetting) : CStr :=
  s.ctrl ++ '.' :: (s.prop ++ ':' :: (match s.quote with
    | none => s.value
    | some q => q :: (s.value ++ [q])))

/-- The file it is for: `mem` is short for `memory`. -/
def CgSetting.file (s : CgSetting) : CStr := (if s.ctrl = "mem".toList then "memory".toList else s.ctrl) ++ '.' :: s.prop

/-- A setting that can be written: no comma, one colon after the name, no climbing up, quotes only around the value -/
structure CgSetting.Ok (s : CgSetting) : Prop where
  ctrl : ∀ c ∈ s.ctrl, c ≠ '.' ∧ c ≠ ',' ∧ c ≠ ':'
  prop : ∀ c ∈ s.prop, c ≠ ',' ∧ c ≠ ':'
  up : ¬ ['.', '.'] <:+: s.prop
  value : ',' ∉ s.value
  quote : match s.quote with
    | none => ∀ c ∈ s.value.head?, isQuote c = false
    | some q => isQuote q = true ∧ q ∉ s.value

/-- The parts of a path between the slashes -/
def pathComps : CStr → List CStr
  | [] => [[]]
  | c :: s =>
    if c = '/' then [] :: pathComps s
    else match pathComps s with
      | [] => [[c]]
      | p :: ps => (c :: p) :: ps

/-- How often a path goes up -/
def climbs (s : CStr) : Nat := (pathComps s).count ['.', '.']

/-- The full claim: a setting is never for a file outside of the group; and when the settings of a group are set, every file of the
    group has the value given, and no file has a value that was given before only. -/
def C88_full : Prop :=
  (∀ path ptr eff, path.length < 254 → eff ∈ cgOne path ptr → ∃ rest v, eff = .write (path ++ '/' :: rest) v ∧ climbs rest = 0) ∧
  ∀ (E : CgEnv) path (old new : List CgSetting), E.isdir path = true → (∀ s ∈ old ++ new, s.Ok ∧ (path ++ '/' :: s.file).length < 256) →
    ∀ s ∈ old, s.file ∉ new.map CgSetting.file →
      cgApply (cgApply (fun _ => none) (groupInit E path false (List.intercalate [','] (old.map CgSetting.text))))
        (groupInit E path false (List.intercalate [','] (new.map CgSetting.text))) (path ++ '/' :: s.file) = none

/-! ## Lemmas: one setting -/

theorem take_ne_colon {a : CStr} {b : CStr} {x : Char} (h : ∀ c ∈ a, c ≠ x) :
    (a ++ x :: b).takeWhile (fun c => decide (c ≠ x)) = a ∧ ((a ++ x :: b).dropWhile (fun c => decide (c ≠ x))).drop 1 = b := by
  have hall : ∀ c ∈ a, (fun c => decide (c ≠ x)) c = true := fun c hc => decide_eq_true (h c hc)
  rw [List.takeWhile_append_of_pos hall, List.dropWhile_append_of_pos hall,
    List.takeWhile_cons_of_neg (by simp), List.dropWhile_cons_of_neg (by simp)]
  exact ⟨List.append_nil _, rfl⟩

theorem setting_val {s : CgSetting} (h : s.Ok) : unquoteWord (match s.quote with
    | none => s.value
    | some q => q :: (s.value ++ [q])) = some s.value := by
  have hq := h.quote
  cases hs : s.quote with
  | none =>
    rw [hs] at hq
    dsimp only at hq ⊢
    cases hv : s.value with
    | nil => rfl
    | cons c v =>
      rw [hv] at hq
      have := hq c (by simp)
      rw [unquoteWord, if_neg (by rw [this]; decide)]
  | some q =>
    rw [hs] at hq
    dsimp only at hq ⊢
    rw [unquoteWord, if_pos hq.1, if_pos (by simp)]
    have := (take_ne_colon (a := s.value) (b := []) (x := q) fun c hc e => hq.2 (e ▸ hc)).1
    exact congrArg some this

theorem cgSetProp_setting {path ctrl : CStr} {s : CgSetting} (h : s.Ok) (hc : ¬ ['.', '.'] <:+: ctrl) :
    cgSetProp path ctrl (s.prop ++ ':' :: (match s.quote with
      | none => s.value
      | some q => q :: (s.value ++ [q]))) = [fnWrite s.value (path ++ '/' :: (ctrl ++ '.' :: s.prop))] := by
  have hp := take_ne_colon (a := s.prop) (x := ':') (b := match s.quote with
      | none => s.value
      | some q => q :: (s.value ++ [q])) fun c hc => (h.prop c hc).2
  unfold cgSetProp
  rw [if_pos (by simp), hp.1, hp.2, setting_val h]
  dsimp only
  rw [if_neg]
  rintro (hx | hx)
  · exact hc hx
  · exact h.up hx

theorem no_dots {s : CStr} (h : ∀ c ∈ s, c ≠ '.') : ¬ ['.', '.'] <:+: s := by
  intro hx
  exact h '.' (hx.subset (by simp)) rfl

theorem cgOne_setting {path : CStr} {s : CgSetting} (h : s.Ok) :
    cgOne path s.text = [fnWrite s.value (path ++ '/' :: s.file)] := by
  have hd : ∀ c ∈ s.ctrl, c ≠ '.' := fun c hc => (h.ctrl c hc).1
  unfold cgOne
  by_cases hm : s.ctrl = "mem".toList
  · have h4 : s.text.take 4 = "mem.".toList := by unfold CgSetting.text; rw [hm]; rfl
    rw [if_pos h4, show s.text.drop 4 = s.prop ++ ':' :: (match s.quote with
      | none => s.value
      | some q => q :: (s.value ++ [q])) by unfold CgSetting.text; rw [hm]; rfl]
    rw [cgSetProp_setting h (by decide)]
    unfold CgSetting.file
    rw [if_pos hm]
  · have h4 : s.text.take 4 ≠ "mem.".toList := by
      intro e
      apply hm
      have ht := (take_ne_colon (a := s.ctrl) (x := '.') (b := s.prop ++ ':' :: (match s.quote with
        | none => s.value
        | some q => q :: (s.value ++ [q]))) hd).1
      have hs : s.text = "mem".toList ++ '.' :: s.text.drop 4 := by
        conv => lhs; rw [← List.take_append_drop 4 s.text, e]
        rfl
      have ht' := (take_ne_colon (a := "mem".toList) (x := '.') (b := s.text.drop 4) (by decide)).1
      rw [← hs] at ht'
      exact ht.symm.trans ht'
    have hp := take_ne_colon (a := s.ctrl) (x := '.') (b := s.prop ++ ':' :: (match s.quote with
        | none => s.value
        | some q => q :: (s.value ++ [q]))) hd
    rw [if_neg h4]
    unfold cgSet
    rw [if_pos (by unfold CgSetting.text; simp)]
    rw [show s.text = s.ctrl ++ '.' :: (s.prop ++ ':' :: (match s.quote with
        | none => s.value
        | some q => q :: (s.value ++ [q]))) from rfl, hp.1, hp.2, cgSetProp_setting h (no_dots hd)]
    unfold CgSetting.file
    rw [if_neg hm]

theorem setting_text {s : CgSetting} (h : s.Ok) : s.text ≠ [] ∧ ',' ∉ s.text := by
  refine ⟨by unfold CgSetting.text; simp, ?_⟩
  unfold CgSetting.text
  intro hx
  rw [List.mem_append, List.mem_cons, List.mem_append, List.mem_cons] at hx
  rcases hx with hx | hx | hx | hx | hx
  · exact (h.ctrl _ hx).2.1 rfl
  · exact absurd hx (by decide)
  · exact (h.prop _ hx).1 rfl
  · exact absurd hx (by decide)
  · have hq := h.quote
    cases hs : s.quote with
    | none => rw [hs] at hx; exact h.value hx
    | some q =>
      rw [hs] at hx hq
      dsimp only at hx hq
      have : q ≠ ',' := by rintro rfl; exact absurd hq.1 (by decide)
      rw [List.mem_cons, List.mem_append, List.mem_singleton] at hx
      rcases hx with hx | hx | hx
      · exact this hx.symm
      · exact h.value hx
      · exact this hx.symm

theorem settings_eff {path : CStr} {ss : List CgSetting} (h : ∀ s ∈ ss, s.Ok ∧ (path ++ '/' :: s.file).length < 256) :
    (tokens isComma (List.intercalate [','] (ss.map CgSetting.text))).flatMap (cgOne path) =
      ss.map fun s => .write (path ++ '/' :: s.file) s.value := by
  rw [tokens_intercalate _ (fun c hc => by
    obtain ⟨s, hs, rfl⟩ := List.mem_map.1 hc
    exact setting_text (h s hs).1)]
  induction ss with
  | nil => rfl
  | cons s ss ih =>
    rw [List.map_cons, List.flatMap_cons, ih fun x hx => h x (List.mem_cons_of_mem _ hx), cgOne_setting (h s List.mem_cons_self).1]
    have hl := (h s List.mem_cons_self).2
    unfold fnWrite strlcpy
    rw [List.take_of_length_le (by omega)]
    rfl

/-! ## Lemmas: paths -/

theorem pathComps_ne (s : CStr) : pathComps s ≠ [] := by
  cases s with
  | nil => exact List.cons_ne_nil _ _
  | cons c s =>
    unfold pathComps
    split
    · exact List.cons_ne_nil _ _
    · split <;> exact List.cons_ne_nil _ _

theorem pathComps_slash : ∀ (a b : CStr), pathComps (a ++ '/' :: b) = pathComps a ++ pathComps b
  | [], b => by
    have h : pathComps ('/' :: b) = if '/' = '/' then [] :: pathComps b else match pathComps b with
      | [] => [['/']]
      | p :: ps => ('/' :: p) :: ps := rfl
    rw [List.nil_append, h, if_pos rfl]; rfl
  | c :: a, b => by
    have ih := pathComps_slash a b
    rw [List.cons_append, pathComps, pathComps]
    rw [ih]
    split
    · rfl
    · cases hp : pathComps a with
      | nil => exact absurd hp (pathComps_ne a)
      | cons p ps => rfl

theorem pathComps_plain : ∀ (a : CStr), '/' ∉ a → ∀ (s : CStr), pathComps (a ++ s) = match pathComps s with
    | [] => [a]
    | p :: ps => (a ++ p) :: ps
  | [], _, s => by
    cases hp : pathComps s with
    | nil => exact absurd hp (pathComps_ne s)
    | cons p ps => exact hp
  | c :: a, h, s => by
    have ih := pathComps_plain a (fun hx => h (List.mem_cons_of_mem _ hx)) s
    have hc : c ≠ '/' := fun e => h (e ▸ List.mem_cons_self)
    rw [List.cons_append, pathComps, if_neg hc, ih]
    cases hp : pathComps s with
    | nil => exact absurd hp (pathComps_ne s)
    | cons p ps => rfl

theorem pathComps_infix_aux : ∀ (s : CStr), (∀ p ps, pathComps s = p :: ps → p <+: s) ∧ ∀ x ∈ pathComps s, x <:+: s
  | [] => by
    refine ⟨fun p ps h => ?_, fun x h => ?_⟩
    · have : p = [] := (List.cons.inj h).1.symm
      rw [this]; exact List.nil_prefix
    · rw [List.mem_singleton.1 h]; exact List.infix_refl _
  | c :: s => by
    have ih := pathComps_infix_aux s
    have hinf : ∀ {x : CStr}, x <:+: s → x <:+: c :: s := fun hx => hx.trans (List.suffix_cons c s).isInfix
    cases hp : pathComps s with
    | nil => exact absurd hp (pathComps_ne s)
    | cons q qs =>
      have hq := ih.1 q qs hp
      by_cases hc : c = '/'
      · have hd : pathComps (c :: s) = [] :: q :: qs := by rw [pathComps, if_pos hc, hp]
        rw [hd]
        refine ⟨fun p ps h => ?_, fun x h => ?_⟩
        · rw [← (List.cons.inj h).1]; exact List.nil_prefix
        · rcases List.mem_cons.1 h with rfl | h
          · exact List.nil_infix
          · exact hinf (ih.2 x (hp ▸ h))
      · have hd : pathComps (c :: s) = (c :: q) :: qs := by rw [pathComps, if_neg hc, hp]
        have hpre : (c :: q) <+: c :: s := by obtain ⟨t, ht⟩ := hq; exact ⟨t, by rw [List.cons_append, ht]⟩
        rw [hd]
        refine ⟨fun p ps h => ?_, fun x h => ?_⟩
        · rw [← (List.cons.inj h).1]; exact hpre
        · rcases List.mem_cons.1 h with rfl | h
          · exact hpre.isInfix
          · exact hinf (ih.2 x (hp ▸ List.mem_cons_of_mem _ h))

theorem climbs_none {s : CStr} (h : ¬ ['.', '.'] <:+: s) : climbs s = 0 :=
  List.count_eq_zero.2 fun hx => h ((pathComps_infix_aux s).2 _ hx)

theorem last_slash : ∀ (s : CStr), '/' ∉ s ∨ ∃ a b, s = a ++ '/' :: b ∧ '/' ∉ b
  | [] => .inl (nomatch ·)
  | c :: s => by
    rcases last_slash s with h | ⟨a, b, rfl, hb⟩
    · by_cases hc : c = '/'
      · exact .inr ⟨[], s, by rw [hc]; rfl, h⟩
      · left
        intro hx
        rcases List.mem_cons.1 hx with hx | hx
        · exact hc hx.symm
        · exact h hx
    · exact .inr ⟨c :: a, b, rfl, hb⟩

/-- The last part of a name whose controller has no slash -/
theorem climbs_flat {b name : CStr} (hb : '/' ∉ b) (hn : ¬ ['.', '.'] <:+: name) :
    climbs (b ++ '.' :: name) ≤ 1 ∧ (b ≠ [] → (∀ c ∈ b, c ≠ '.') → climbs (b ++ '.' :: name) = 0) := by
  have h := pathComps_plain (b ++ ['.']) (by simp [hb]) name
  rw [List.append_assoc, List.singleton_append] at h
  unfold climbs
  cases hp : pathComps name with
  | nil => exact absurd hp (pathComps_ne name)
  | cons p ps =>
    rw [hp] at h
    dsimp only at h
    have h0 : ps.count ['.', '.'] = 0 := List.count_eq_zero.2 fun hx =>
      hn ((pathComps_infix_aux name).2 _ (hp ▸ List.mem_cons_of_mem _ hx))
    rw [h, List.count_cons, h0]
    refine ⟨by split <;> omega, fun hne hd => ?_⟩
    rw [if_neg]
    intro e
    have e := eq_of_beq e
    cases b with
    | nil => exact hne rfl
    | cons x b =>
      rw [List.append_assoc, List.cons_append] at e
      exact hd x List.mem_cons_self (List.cons.inj e).1

theorem climbs_name {ctrl name : CStr} (hc : ∀ c ∈ ctrl, c ≠ '.') (hn : ¬ ['.', '.'] <:+: name) :
    climbs (ctrl ++ '.' :: name) ≤ 1 ∧ (ctrl ≠ [] → ctrl.getLast? ≠ some '/' → climbs (ctrl ++ '.' :: name) = 0) := by
  rcases last_slash ctrl with h | ⟨a, b, rfl, hb⟩
  · exact ⟨(climbs_flat h hn).1, fun hne _ => (climbs_flat h hn).2 hne hc⟩
  · have ha : climbs a = 0 := climbs_none (no_dots fun c hx => hc c (List.mem_append_left _ hx))
    have hbd : ∀ c ∈ b, c ≠ '.' := fun c hx => hc c (List.mem_append_right _ (List.mem_cons_of_mem _ hx))
    have e : climbs (a ++ '/' :: b ++ '.' :: name) = climbs a + climbs (b ++ '.' :: name) := by
      unfold climbs
      rw [List.append_assoc, List.cons_append, pathComps_slash, List.count_append]
    rw [e, ha, Nat.zero_add]
    refine ⟨(climbs_flat hb hn).1, fun _ hl => (climbs_flat hb hn).2 ?_ hbd⟩
    rintro rfl
    exact hl (by simp)

theorem take_name (ctrl name : CStr) (k : Nat) :
    (ctrl ++ '.' :: name).take k = ctrl.take k ∨ ∃ j, (ctrl ++ '.' :: name).take k = ctrl ++ '.' :: name.take j := by
  rw [List.take_append]
  cases h : k - ctrl.length with
  | zero => left; simp
  | succ j => right; exact ⟨j, by rw [List.take_of_length_le (by omega)]; rfl⟩

theorem cgSetProp_confined {path ctrl prop : CStr} {eff : CgEff} (hp : path.length < 254) (hc : ∀ c ∈ ctrl, c ≠ '.')
    (h : eff ∈ cgSetProp path ctrl prop) : ∃ rest v, eff = .write (path ++ '/' :: rest) v ∧ climbs rest ≤ 1 ∧
      (ctrl ≠ [] → ctrl.getLast? ≠ some '/' → climbs rest = 0) := by
  unfold cgSetProp at h
  split at h
  · dsimp only at h
    split at h
    · nomatch h
    · rename_i val _
      split at h
      · nomatch h
      · rename_i hx
        have hn : ¬ ['.', '.'] <:+: prop.takeWhile (fun c => decide (c ≠ ':')) := fun hy => hx (.inr hy)
        generalize prop.takeWhile (fun c => decide (c ≠ ':')) = name at h hn
        rw [List.mem_singleton] at h
        have e : fnWrite val (path ++ '/' :: (ctrl ++ '.' :: name)) =
            .write (path ++ '/' :: (ctrl ++ '.' :: name).take (254 - path.length)) val := by
          unfold fnWrite strlcpy
          rw [List.take_append, List.take_of_length_le (by omega)]
          have : 256 - 1 - path.length = (254 - path.length) + 1 := by omega
          rw [this, List.take_succ_cons]
        refine ⟨_, _, h.trans e, ?_⟩
        rcases take_name ctrl name (254 - path.length) with ht | ⟨j, ht⟩ <;> rw [ht]
        · have h0 : climbs (ctrl.take (254 - path.length)) = 0 := climbs_none (no_dots fun c hx => hc c (List.mem_of_mem_take hx))
          exact ⟨by omega, fun _ _ => h0⟩
        · exact climbs_name hc fun hx => hn (hx.trans (List.take_prefix j name).isInfix)
  · nomatch h

theorem split_first {x : Char} : ∀ {s : CStr}, x ∈ s → ∃ b, s = s.takeWhile (fun c => decide (c ≠ x)) ++ x :: b
  | [], h => nomatch h
  | c :: s, h => by
    by_cases hc : c = x
    · refine ⟨s, ?_⟩
      rw [List.takeWhile_cons_of_neg (by simp [hc]), hc]; rfl
    · obtain ⟨b, hb⟩ := split_first (s := s) (by
        rcases List.mem_cons.1 h with h | h
        · exact absurd h.symm hc
        · exact h)
      refine ⟨b, ?_⟩
      rw [List.takeWhile_cons_of_pos (by simp [hc]), List.cons_append, ← hb]

/-! ## The settings -/

/-- A group that is there gets exactly the settings given, in their order. -/
theorem C88_settings_partial (E : CgEnv) (path : CStr) (leaf : Bool) (ss : List CgSetting) (hd : E.isdir path = true)
    (h : ∀ s ∈ ss, s.Ok ∧ (path ++ '/' :: s.file).length < 256) :
    groupInit E path leaf (List.intercalate [','] (ss.map CgSetting.text)) =
      ss.map fun s => .write (path ++ '/' :: s.file) s.value := by
  unfold groupInit
  rw [if_pos hd, settings_eff h]

/-- A group that is not there is created; a top-level group lends its controllers to those in it, before anything is set. -/
theorem C88_created (E : CgEnv) (path : CStr) (leaf : Bool) (ss : List CgSetting) (hd : E.isdir path = false)
    (hm : E.creates path = true) (hl : path.length ≤ 230) (h : ∀ s ∈ ss, s.Ok ∧ (path ++ '/' :: s.file).length < 256) :
    groupInit E path leaf (List.intercalate [','] (ss.map CgSetting.text)) =
      .mkdir path :: ((if leaf then [] else [.write (path ++ "/cgroup.subtree_control".toList) E.controllers]) ++
        ss.map fun s => .write (path ++ '/' :: s.file) s.value) := by
  unfold groupInit
  rw [if_neg (by rw [hd]; decide), if_pos hm, settings_eff h]
  have e : fnWrite E.controllers (path ++ "/cgroup.subtree_control".toList) =
      .write (path ++ "/cgroup.subtree_control".toList) E.controllers := by
    unfold fnWrite strlcpy
    rw [List.take_of_length_le]
    rw [List.length_append]
    have : "/cgroup.subtree_control".toList.length = 23 := by decide
    omega
  rw [e]

/-- The files have the values set last. -/
theorem cgApply_write : ∀ (es : List CgEff) (files : CStr → Option CStr) (p : CStr),
    (∀ v, CgEff.write p v ∉ es) → cgApply files es p = files p
  | [], _, _, _ => rfl
  | .mkdir _ :: es, files, p, h => cgApply_write es files p fun v hv => h v (List.mem_cons_of_mem _ hv)
  | .write q w :: es, files, p, h => by
    have := cgApply_write es (fun x => if x = q then some w else files x) p fun v hv => h v (List.mem_cons_of_mem _ hv)
    refine this.trans ?_
    rw [if_neg]
    rintro rfl
    exact h w List.mem_cons_self

theorem cgApply_append : ∀ (a b : List CgEff) (files : CStr → Option CStr), cgApply files (a ++ b) = cgApply (cgApply files a) b
  | [], _, _ => rfl
  | .mkdir _ :: a, b, files => cgApply_append a b files
  | .write _ _ :: a, b, _ => cgApply_append a b _

/-- So a file that is set once has its value, and what is not set is left alone. -/
theorem C88_values (E : CgEnv) (path : CStr) (leaf : Bool) (ss : List CgSetting) (hd : E.isdir path = true)
    (h : ∀ s ∈ ss, s.Ok ∧ (path ++ '/' :: s.file).length < 256) (files : CStr → Option CStr) :
    (∀ s, (∃ a b, ss = a ++ s :: b ∧ s.file ∉ b.map CgSetting.file) →
      cgApply files (groupInit E path leaf (List.intercalate [','] (ss.map CgSetting.text))) (path ++ '/' :: s.file) = some s.value) ∧
    ∀ p, (∀ s ∈ ss, p ≠ path ++ '/' :: s.file) →
      cgApply files (groupInit E path leaf (List.intercalate [','] (ss.map CgSetting.text))) p = files p := by
  rw [C88_settings_partial E path leaf ss hd h]
  constructor
  · rintro s ⟨a, b, rfl, hb⟩
    rw [List.map_append, List.map_cons, cgApply_append]
    have e : ∀ f : CStr → Option CStr, cgApply f (CgEff.write (path ++ '/' :: s.file) s.value ::
        b.map fun s => CgEff.write (path ++ '/' :: s.file) s.value) (path ++ '/' :: s.file) = some s.value := by
      intro f
      have := cgApply_write (b.map fun s => CgEff.write (path ++ '/' :: s.file) s.value)
        (fun x => if x = path ++ '/' :: s.file then some s.value else f x) (path ++ '/' :: s.file) (by
          intro v hv
          obtain ⟨t, ht, e⟩ := List.mem_map.1 hv
          have : t.file = s.file := (List.cons.inj (List.append_cancel_left (CgEff.write.inj e).1)).2
          exact hb (this ▸ List.mem_map_of_mem ht))
      exact this.trans (if_pos rfl)
    exact e _
  · intro p hp
    refine cgApply_write _ _ _ fun v hv => ?_
    obtain ⟨t, ht, e⟩ := List.mem_map.1 hv
    exact hp t ht (CgEff.write.inj e).1.symm

/-- A setting, whatever it says, is for a file below the group, except that it may go up once; and this only if what comes before the
    first dot is empty or ends in a slash. -/
theorem C88_confined_partial (path ptr : CStr) (eff : CgEff) (hp : path.length < 254) (h : eff ∈ cgOne path ptr) :
    ∃ rest v, eff = .write (path ++ '/' :: rest) v ∧ climbs rest ≤ 1 ∧
      (ptr.head? ≠ some '.' → (∀ a b, ptr = a ++ '/' :: '.' :: b → '.' ∈ a) → climbs rest = 0) := by
  unfold cgOne at h
  split at h
  · obtain ⟨rest, v, e, h1, h0⟩ := cgSetProp_confined hp (by decide) h
    exact ⟨rest, v, e, h1, fun _ _ => h0 (by decide) (by decide)⟩
  · unfold cgSet at h
    split at h
    · rename_i hdot
      have hc : ∀ c ∈ ptr.takeWhile (fun c => decide (c ≠ '.')), c ≠ '.' := fun c hx =>
        of_decide_eq_true (List.all_eq_true.1 List.all_takeWhile c hx)
      obtain ⟨rest, v, e, h1, h0⟩ := cgSetProp_confined hp hc h
      have hs := split_first hdot
      generalize ptr.takeWhile (fun c => decide (c ≠ '.')) = ctrl at hc h0 hs
      obtain ⟨b, rfl⟩ := hs
      refine ⟨rest, v, e, h1, fun ha hb => h0 ?_ ?_⟩
      · rintro rfl
        exact ha rfl
      · intro hl
        obtain ⟨a, rfl⟩ := List.getLast?_eq_some_iff.1 hl
        have := hb a b (by simp)
        exact hc '.' (List.mem_append_left _ this) rfl
    · nomatch h

example : ∃ ss : List CgSetting, ss.length = 3 ∧ ∀ s ∈ ss, s.Ok ∧ ("/sys/fs/cgroup/maint".toList ++ '/' :: s.file).length < 256 :=
  ⟨[⟨"cpu".toList, "weight".toList, "100".toList, none⟩, ⟨"mem".toList, "max".toList, "655360".toList, none⟩,
    ⟨"io".toList, "max".toList, "8:16 rbps=max".toList, some '"'⟩], rfl, by
    intro s hs
    simp only [List.mem_cons, List.not_mem_nil, or_false] at hs
    rcases hs with rfl | rfl | rfl <;> exact ⟨⟨by decide, by decide, by decide, by decide, by decide⟩, by decide⟩⟩

/-! ## The group of a line, and of a service -/

/-- Text with blanks between words: any number of blanks and tabs before each word, and at the end -/
def spaced : List (CStr × CStr) → CStr → CStr
  | [], t => t
  | (b, w) :: ws, t => b ++ (w ++ spaced ws t)

/-- A word -/
def CgWord (w : CStr) : Prop := w ≠ [] ∧ ∀ c ∈ w, isBlank c = false

theorem tokensAux_skipAll {p : Char → Bool} : ∀ {b : CStr}, (∀ c ∈ b, p c = true) → ∀ s, tokensAux p [] (b ++ s) = tokensAux p [] s
  | [], _, _ => rfl
  | c :: b, h, s => by
    have ih := tokensAux_skipAll (b := b) (fun x hx => h x (List.mem_cons_of_mem _ hx)) s
    have hc := h c List.mem_cons_self
    rw [← ih, List.cons_append, tokensAux, if_pos hc, if_pos rfl]

theorem tokens_spaced : ∀ (ws : List (CStr × CStr)) (t w b : CStr), (∀ x ∈ ws, CgWord x.2 ∧ x.1 ≠ [] ∧ ∀ c ∈ x.1, isBlank c = true) →
    (∀ c ∈ t, isBlank c = true) → (∀ c ∈ b, isBlank c = true) → CgWord w →
    tokens isBlank (b ++ (w ++ spaced ws t)) = w :: ws.map Prod.snd
  | [], t, w, b, _, ht, hb, hw => by
    unfold tokens spaced
    rw [tokensAux_skipAll hb, tokensAux_append_nosep _ _ _ _ hw.2, List.append_nil]
    cases t with
    | nil => rw [tokensAux, if_neg (by simpa using hw.1), List.reverse_reverse]; rfl
    | cons c t =>
      rw [tokensAux, if_pos (ht c List.mem_cons_self), if_neg (by simpa using hw.1), List.reverse_reverse]
      have := tokensAux_skipAll (p := isBlank) (b := t) (fun x hx => ht x (List.mem_cons_of_mem _ hx)) []
      rw [List.append_nil] at this
      rw [this]; rfl
  | (b', w') :: ws, t, w, b, h, ht, hb, hw => by
    obtain ⟨hw', hne, hb'⟩ := h (b', w') List.mem_cons_self
    have ih := tokens_spaced ws t w' [] (fun x hx => h x (List.mem_cons_of_mem _ hx)) ht (fun _ h => nomatch h) hw'
    rw [List.nil_append] at ih
    unfold tokens at ih ⊢
    rw [spaced]
    rw [tokensAux_skipAll hb, tokensAux_append_nosep _ _ _ _ hw.2, List.append_nil]
    dsimp only at hne hb'
    cases b' with
    | nil => exact absurd rfl hne
    | cons c b' =>
      rw [List.cons_append, tokensAux, if_pos (hb' c List.mem_cons_self), if_neg (by simpa using hw.1), List.reverse_reverse,
        tokensAux_skipAll (fun x hx => hb' x (List.mem_cons_of_mem _ hx)), ih]
      rfl

theorem intercalate_cons {w : CStr} {ws : List CStr} (h : ws ≠ []) : List.intercalate [','] (w :: ws) = w ++ ',' :: List.intercalate [','] ws := by
  cases ws with
  | nil => exact absurd rfl h
  | cons x ws => simp [List.intercalate]

theorem intercalate_app : ∀ (a b : List CStr), a ≠ [] → b ≠ [] →
    List.intercalate [','] (a ++ b) = List.intercalate [','] a ++ ',' :: List.intercalate [','] b
  | [], _, h, _ => absurd rfl h
  | [x], b, _, hb => by
    rw [List.singleton_append, intercalate_cons hb]
    simp [List.intercalate]
  | x :: y :: a, b, _, hb => by
    have ih := intercalate_app (y :: a) b (List.cons_ne_nil _ _) hb
    rw [List.cons_append, intercalate_cons (by simp), ih, intercalate_cons (w := x) (ws := y :: a) (by simp), List.append_assoc]
    rfl

theorem intercalate_flatten : ∀ (ls : List (List CStr)), (∀ l ∈ ls, l ≠ []) →
    List.intercalate [','] (ls.map (List.intercalate [','])) = List.intercalate [','] ls.flatten
  | [], _ => rfl
  | [l], _ => by simp [List.intercalate]
  | l :: m :: ls, h => by
    have ih := intercalate_flatten (m :: ls) (fun x hx => h x (List.mem_cons_of_mem _ hx))
    have hm := h m (by simp)
    rw [List.map_cons, intercalate_cons (by simp), ih, List.flatten_cons (l := l), intercalate_app _ _ (h l List.mem_cons_self)]
    rw [List.flatten_cons]
    intro e
    exact hm (List.append_eq_nil_iff.1 e).1

/-- A `cgroup` line: name, then words of one or more settings with commas between them.  The group gets exactly these settings. -/
theorem C88_line (E : CgEnv) (name b t : CStr) (ws : List (CStr × List CgSetting)) (prot : Bool)
    (hb : ∀ c ∈ b, isBlank c = true) (ht : ∀ c ∈ t, isBlank c = true) (hn : CgWord name) (hup : ¬ ['.', '.'] <:+: name)
    (hsl : '/' ∉ name) (hl : name.length < 200)
    (hw : ∀ x ∈ ws, x.1 ≠ [] ∧ (∀ c ∈ x.1, isBlank c = true) ∧ x.2 ≠ [] ∧
      ∀ s ∈ x.2, s.Ok ∧ (∀ c ∈ s.text, isBlank c = false) ∧ ("/sys/fs/cgroup/".toList ++ (name ++ '/' :: s.file)).length < 256)
    (hd : E.isdir ("/sys/fs/cgroup/".toList ++ name) = true) :
    ∃ cfg, confCgroup (b ++ (name ++ spaced (ws.map fun x => (x.1, List.intercalate [','] (x.2.map CgSetting.text))) t)) = some (name, cfg) ∧
      cgConfig E ⟨name, cfg, prot, true⟩ =
        (ws.flatMap Prod.snd).map fun s => .write ("/sys/fs/cgroup/".toList ++ (name ++ '/' :: s.file)) s.value := by
  have htok := tokens_spaced (ws.map fun x => (x.1, List.intercalate [','] (x.2.map CgSetting.text))) t name b (by
    intro y hy
    obtain ⟨x, hx, rfl⟩ := List.mem_map.1 hy
    obtain ⟨h1, h2, h3, h4⟩ := hw x hx
    refine ⟨⟨?_, ?_⟩, h1, h2⟩
    · dsimp only
      cases hx2 : x.2 with
      | nil => exact absurd hx2 h3
      | cons s l =>
        have hne := (setting_text (h4 s (hx2 ▸ List.mem_cons_self)).1).1
        cases l with
        | nil => simpa [List.intercalate] using hne
        | cons s' l =>
          rw [List.map_cons, intercalate_cons (by simp)]
          simp
    · dsimp only
      intro c hc
      have hc' : c = ',' ∨ ∃ s ∈ x.2, c ∈ s.text := by
        clear h3 h4
        generalize x.2 = l at hc
        induction l with
        | nil => simp [List.intercalate] at hc
        | cons s l ih =>
          cases l with
          | nil => right; exact ⟨s, by simp, by simpa [List.intercalate] using hc⟩
          | cons s' l =>
            rw [List.map_cons, intercalate_cons (by simp), List.mem_append, List.mem_cons] at hc
            rcases hc with hc | hc | hc
            · exact .inr ⟨s, by simp, hc⟩
            · exact .inl hc
            · rcases ih hc with h | ⟨s'', h, h'⟩
              · exact .inl h
              · exact .inr ⟨s'', List.mem_cons_of_mem _ h, h'⟩
      rcases hc' with rfl | ⟨s, hs, hcs⟩
      · decide
      · exact (h4 s hs).2.1 c hcs) ht hb hn
  have hcfg : List.intercalate [','] ((ws.map fun x => (x.1, List.intercalate [','] (x.2.map CgSetting.text))).map Prod.snd) =
      List.intercalate [','] ((ws.flatMap Prod.snd).map CgSetting.text) := by
    have := intercalate_flatten (ws.map fun x => x.2.map CgSetting.text) (by
      intro l hl
      obtain ⟨x, hx, rfl⟩ := List.mem_map.1 hl
      simpa using (hw x hx).2.2.1)
    rw [List.map_map] at this ⊢
    rw [show (Prod.snd ∘ fun x : CStr × List CgSetting => (x.1, List.intercalate [','] (x.2.map CgSetting.text))) =
      (List.intercalate [','] ∘ fun x : CStr × List CgSetting => x.2.map CgSetting.text) from rfl, this]
    congr 1
    rw [List.map_flatMap]
    rfl
  have hpath : cgPath name = "/sys/fs/cgroup/".toList ++ name := by
    unfold cgPath strlcpy
    rw [List.take_of_length_le]
    rw [List.length_append]
    have : "/sys/fs/cgroup/".toList.length = 15 := by decide
    omega
  refine ⟨List.intercalate [','] ((ws.flatMap Prod.snd).map CgSetting.text), ?_, ?_⟩
  · unfold confCgroup
    rw [htok]
    dsimp only
    rw [if_neg (by rintro (h | h); exact hup h; exact hsl h), hcfg]
  · unfold cgConfig
    rw [if_pos rfl, hpath, C88_settings_partial _ _ _ _ hd]
    · apply List.map_congr_left
      intro s _
      rw [List.append_assoc]
    · intro s hs
      obtain ⟨x, hx, hsx⟩ := List.mem_flatMap.1 hs
      have := (hw x hx).2.2.2 s hsx
      rw [List.append_assoc]
      exact ⟨this.1, this.2.2⟩

/-- A group that is no longer in the configuration is left as it is: what was read of it before is not set again. -/
theorem C88_dropped (E : CgEnv) (gs : List Cg) (files : CStr → Option CStr) (p : CStr)
    (hp : ∀ g ∈ gs, g.active = true → ∀ v, .write p v ∉ cgConfig E g) : cgApply files (gs.flatMap (cgConfig E)) p = files p := by
  have key : ∀ (es : List CgEff) (files : CStr → Option CStr), (∀ v, CgEff.write p v ∉ es) → cgApply files es p = files p := by
    intro es
    induction es with
    | nil => exact fun _ _ => rfl
    | cons e es ih =>
      intro files he
      cases e with
      | mkdir d => exact ih files fun v hv => he v (List.mem_cons_of_mem _ hv)
      | write q v =>
        have hq : p ≠ q := by
          rintro rfl
          exact he v List.mem_cons_self
        rw [cgApply, ih _ fun v hv => he v (List.mem_cons_of_mem _ hv), if_neg hq]
  refine key _ _ fun v hv => ?_
  obtain ⟨g, hg, hm⟩ := List.mem_flatMap.1 hv
  cases ha : g.active with
  | true => exact hp g hg ha v hm
  | false =>
    unfold cgConfig at hm
    rw [ha, if_neg (by decide)] at hm
    cases hm

example : (∀ g ∈ [(⟨"old".toList, "cpu.weight:7".toList, false, false⟩ : Cg)], g.active = true → ∀ v,
    CgEff.write "/sys/fs/cgroup/old/cpu.weight".toList v ∉ cgConfig ⟨fun _ => true, fun _ => true, []⟩ g) := by
  intro g hg ha
  rw [List.mem_singleton.1 hg] at ha
  cases ha

/-- A name that leads elsewhere is not used. -/
theorem C88_name (line name cfg : CStr) (h : confCgroup line = some (name, cfg)) : name ≠ [] ∧ '/' ∉ name ∧ ¬ ['.', '.'] <:+: name := by
  unfold confCgroup at h
  split at h
  · nomatch h
  · rename_i n ws hts
    split at h
    · nomatch h
    · rename_i hx
      have e := (Prod.mk.inj (Option.some.inj h)).1
      subst e
      have hm : n ∈ tokens isBlank line := hts ▸ List.mem_cons_self
      exact ⟨tokensAux_ne_nil _ _ _ _ hm, fun h => hx (.inr h), fun h => hx (.inl h)⟩

/-- The directory of a service -/
def cgDir (group name : CStr) : CStr := "/sys/fs/cgroup/".toList ++ (group ++ '/' :: name)

/-- The group a service runs in: the one it names, if there is one, otherwise `system` -/
def CgPlace (E : CgEnv) (named group : CStr) : Prop :=
  named ≠ "root".toList ∧ named ≠ "init".toList ∧
  ((named ≠ [] ∧ E.isdir ("/sys/fs/cgroup/".toList ++ named) = true ∧ group = named) ∨
   ((named = [] ∨ E.isdir ("/sys/fs/cgroup/".toList ++ named) = false) ∧ group = "system".toList))

theorem cgService_place {E : CgEnv} {named group : CStr} (h : CgPlace E named group) (hl : named.length < 200) (name : CStr) (pid : Int) (cfg : CStr) :
    cgService E name pid named cfg = cgLeaf E group name pid cfg := by
  obtain ⟨hr, hi, h⟩ := h
  have hpath : strlcpy 256 ("/sys/fs/cgroup/".toList ++ named) = "/sys/fs/cgroup/".toList ++ named := by
    unfold strlcpy
    rw [List.take_of_length_le]
    rw [List.length_append]
    have : "/sys/fs/cgroup/".toList.length = 15 := by decide
    omega
  unfold cgService
  rcases h with ⟨hne, hd, rfl⟩ | ⟨h, rfl⟩
  · rw [if_neg hne, if_neg hr, if_neg hi, hpath, if_pos hd]
  · by_cases hne : named = []
    · rw [if_pos hne]
    · have hd : E.isdir ("/sys/fs/cgroup/".toList ++ named) = false := h.resolve_left hne
      rw [if_neg hne, if_neg hr, if_neg hi, hpath, if_neg (by rw [hd]; decide)]

/-- A process started for a service is moved to the directory of the service in the group of the service, after that is created
    if need be and all the settings are made: it never runs there without its limits. -/
theorem C88_service (E : CgEnv) (named group name : CStr) (pid : Int) (ss : List CgSetting) (hp : CgPlace E named group)
    (hl : named.length < 200) (hpid : 0 ≤ pid ∧ pid ≠ 1) (hlen : (cgDir group name).length ≤ 230)
    (h : ∀ s ∈ ss, s.Ok ∧ (cgDir group name ++ '/' :: s.file).length < 256)
    (hd : E.isdir (cgDir group name) = true ∨ E.creates (cgDir group name) = true) :
    cgService E name pid named (List.intercalate [','] (ss.map CgSetting.text)) =
      (if E.isdir (cgDir group name) then [] else [.mkdir (cgDir group name)]) ++
        (ss.map fun s => .write (cgDir group name ++ '/' :: s.file) s.value) ++
        [.write (cgDir group name ++ "/cgroup.procs".toList) (intText pid)] := by
  rw [cgService_place hp hl]
  unfold cgLeaf
  rw [if_neg (by omega)]
  have hpath : strlcpy 256 ("/sys/fs/cgroup/".toList ++ (group ++ '/' :: name)) = cgDir group name := by
    unfold strlcpy
    rw [List.take_of_length_le (by unfold cgDir at hlen; omega)]
    rfl
  rw [hpath]
  dsimp only
  have hw : fnWrite (intText pid) (cgDir group name ++ "/cgroup.procs".toList) =
      .write (cgDir group name ++ "/cgroup.procs".toList) (intText pid) := by
    unfold fnWrite strlcpy
    rw [List.take_of_length_le]
    rw [List.length_append]
    have : "/cgroup.procs".toList.length = 13 := by decide
    omega
  rw [hw]
  cases hdir : E.isdir (cgDir group name) with
  | true => rw [C88_settings_partial _ _ _ _ hdir h, if_pos rfl, List.nil_append]
  | false =>
    rw [C88_created _ _ _ _ hdir (hd.resolve_left (by rw [hdir]; decide)) hlen h, if_pos rfl, if_neg (by decide)]
    rfl

example : CgPlace ⟨fun p => decide (p = "/sys/fs/cgroup/maint".toList), fun _ => true, []⟩ "maint".toList "maint".toList ∧
    CgPlace ⟨fun p => decide (p = "/sys/fs/cgroup/maint".toList), fun _ => true, []⟩ "other".toList "system".toList :=
  ⟨⟨by decide, by decide, .inl ⟨by decide, by decide, rfl⟩⟩, ⟨by decide, by decide, .inr ⟨.inr (by decide), rfl⟩⟩⟩

/-- With `cgroup.root` and `cgroup.init` the process is moved there and nothing else is done: settings are not used. -/
theorem C88_root (E : CgEnv) (name : CStr) (pid : Int) (cfg : CStr) :
    cgService E name pid "root".toList cfg = [.write "/sys/fs/cgroup/cgroup.procs".toList (intText pid)] ∧
    cgService E name pid "init".toList cfg = [.write "/sys/fs/cgroup/init/cgroup.procs".toList (intText pid)] :=
  ⟨rfl, rfl⟩

/-- PID 1, and what is no process, are never put in the group of a service. -/
theorem C88_self (E : CgEnv) (named group name : CStr) (pid : Int) (cfg : CStr) (hp : CgPlace E named group) (hl : named.length < 200)
    (hpid : pid < 0 ∨ pid = 1) : cgService E name pid named cfg = [] := by
  rw [cgService_place hp hl]
  unfold cgLeaf
  rw [if_pos hpid]

/-- The option of a service line: `cgroup.NAME:SETTINGS`, `cgroup:SETTINGS` and `cgroup.NAME`.  What is not given is kept. -/
theorem C88_option (g cfg : CStr) (s : Cfg) (hg : ':' ∉ g) (hgl : g.length < 16) (hc : cfg.length < 128) :
    ((parseCgroup ('.' :: (g ++ ':' :: cfg)) s).cgName = g ∧ (parseCgroup ('.' :: (g ++ ':' :: cfg)) s).cgCfg = cfg) ∧
    ((parseCgroup (':' :: cfg) s).cgName = s.cgName ∧ (parseCgroup (':' :: cfg) s).cgCfg = cfg) ∧
    ((parseCgroup ('.' :: g) s).cgName = g ∧ (parseCgroup ('.' :: g) s).cgCfg = s.cgCfg) := by
  have hcf : strlcpy 128 cfg = cfg := List.take_of_length_le (by omega)
  have hgf : strlcpy 16 g = g := List.take_of_length_le (by omega)
  have h1 := take_ne_colon (a := '.' :: g) (x := ':') (b := cfg) (by
    intro c hc e
    rcases List.mem_cons.1 hc with h | h
    · rw [e] at h; exact absurd h (by decide)
    · exact hg (e ▸ h))
  have h2 : ('.' :: g).takeWhile (fun c => decide (c ≠ ':')) = '.' :: g := by
    have := take_ne_colon (a := '.' :: g) (x := ':') (b := []) (by
      intro c hc e
      rcases List.mem_cons.1 hc with h | h
      · rw [e] at h; exact absurd h (by decide)
      · exact hg (e ▸ h))
    have hall : ∀ c ∈ '.' :: g, (fun c => decide (c ≠ ':')) c = true := by
      intro c hc
      apply decide_eq_true
      intro e
      rcases List.mem_cons.1 hc with h | h
      · rw [e] at h; exact absurd h (by decide)
      · exact hg (e ▸ h)
    have h3 := List.takeWhile_append_of_pos hall (l₂ := [])
    rw [List.append_nil] at h3
    simpa using h3
  rw [List.cons_append] at h1
  refine ⟨?_, ?_, ?_⟩
  · unfold parseCgroup
    dsimp only
    rw [if_pos (show ('.' :: (g ++ ':' :: cfg)).head? = some '.' from rfl), if_pos (by simp), h1.1, h1.2, if_neg (by omega), hcf]
    exact ⟨hgf, rfl⟩
  · unfold parseCgroup
    dsimp only
    rw [if_neg (show ¬ (':' :: cfg).head? = some '.' from fun h => absurd (Option.some.inj h) (by decide)),
      if_pos (show (':' :: cfg).head? = some ':' from rfl), List.drop_one, List.tail_cons, if_neg (by omega), hcf]
    exact ⟨rfl, rfl⟩
  · unfold parseCgroup
    dsimp only
    rw [if_pos (show ('.' :: g).head? = some '.' from rfl), if_neg (by
      intro hc
      rcases List.mem_cons.1 hc with h | h
      · exact absurd h (by decide)
      · exact hg h), h2]
    exact ⟨hgf, rfl⟩

/-! ## Where it fails -/

/-- Settings of 128 to 143 characters are cut to 127 without a word, so the last value is another one. -/
theorem C88_cut (cfg : CStr) (s : Cfg) (hl : 128 ≤ cfg.length) (hu : cfg.length < 144) :
    (parseCgroup (':' :: cfg) s).cgCfg = cfg.take 127 := by
  unfold parseCgroup
  dsimp only
  rw [if_neg (show ¬ (':' :: cfg).head? = some '.' from fun h => absurd (Option.some.inj h) (by decide)),
      if_pos (show (':' :: cfg).head? = some ':' from rfl), List.drop_one, List.tail_cons, if_neg (by omega)]
  rfl

/-- The settings of a service whose line no longer has any are kept. -/
theorem C88_kept (E : LineEnv) (o : Opts) (s : Cfg) (h : o.cgroup = none ∨ ∃ g, o.cgroup = some ('.' :: g) ∧ ':' ∉ g) :
    (lineGroup E o s).cgCfg = s.cgCfg := by
  rcases h with h | ⟨g, h, hg⟩
  · unfold lineGroup
    rw [h]
  · unfold lineGroup
    rw [h]
    dsimp only
    unfold parseCgroup
    dsimp only
    rw [if_pos (show ('.' :: g).head? = some '.' from rfl), if_neg]
    intro hc
    rcases List.mem_cons.1 hc with h | h
    · exact absurd h (by decide)
    · exact hg h

/-- A setting may be for a file one level up: here a controller is taken from all the groups. -/
theorem C88_escape : cgOne "/sys/fs/cgroup/maint".toList "../cgroup.subtree_control:-cpu".toList =
    [.write "/sys/fs/cgroup/maint/../cgroup.subtree_control".toList "-cpu".toList] ∧
    climbs "../cgroup.subtree_control".toList = 1 := by decide +kernel

/-- The group a service names is not checked as that of a `cgroup` line is: a directory is created elsewhere, and files in it
    written. -/
theorem C88_group : (∀ s : Cfg, (parseCgroup "./../../../tmp".toList s).cgName = "/../../../tmp".toList) ∧
    ∀ (E : CgEnv), E.isdir "/sys/fs/cgroup//../../../tmp".toList = true → E.isdir "/sys/fs/cgroup//../../../tmp/foo".toList = false →
      E.creates "/sys/fs/cgroup//../../../tmp/foo".toList = true →
      CgEff.mkdir "/sys/fs/cgroup//../../../tmp/foo".toList ∈ cgService E "foo".toList 42 "/../../../tmp".toList [] := by
  refine ⟨fun s => (C88_option "/../../../tmp".toList [] s (by decide) (by decide) (by decide)).2.2.1, fun E h1 h2 h3 => ?_⟩
  have := C88_service E "/../../../tmp".toList "/../../../tmp".toList "foo".toList 42 []
    ⟨by decide, by decide, .inl ⟨by decide, h1, rfl⟩⟩ (by decide) (by decide) (by decide) (fun _ h => nomatch h) (.inr h3)
  have e : List.intercalate [','] (List.map CgSetting.text []) = [] := rfl
  rw [e] at this
  rw [this, if_neg (by rw [show cgDir "/../../../tmp".toList "foo".toList = "/sys/fs/cgroup//../../../tmp/foo".toList from rfl, h2]; decide)]
  exact List.mem_cons_self

/-- All services of one file share the group named after it. -/
theorem C88_shared (file a b : CStr) (h : file ≠ []) : groupName file a = groupName file b := by
  unfold groupName
  rw [if_neg h, if_neg h]

/-- So the limit of one is that of the other. -/
theorem C88_override (E : CgEnv) (files : CStr → Option CStr) (hd : E.isdir "/sys/fs/cgroup/system/net".toList = true) :
    groupName "/etc/finit.d/net.conf".toList "a".toList = "net".toList ∧
    cgApply (cgApply files (cgService E (groupName "/etc/finit.d/net.conf".toList "a".toList) 10 [] "mem.max:1000".toList))
      (cgService E (groupName "/etc/finit.d/net.conf".toList "b".toList) 11 [] "mem.max:900000".toList)
      "/sys/fs/cgroup/system/net/memory.max".toList = some "900000".toList := by
  have hg : ∀ x : CStr, groupName "/etc/finit.d/net.conf".toList x = "net".toList := fun x => by
    unfold groupName
    rw [if_neg (by decide)]
    decide +kernel
  refine ⟨hg _, ?_⟩
  rw [hg, hg]
  have h := C88_service E [] "system".toList "net".toList 11 [⟨"mem".toList, "max".toList, "900000".toList, none⟩]
    ⟨by decide, by decide, .inr ⟨.inl rfl, rfl⟩⟩ (by decide) (by decide) (by decide) (by
      intro s hs
      rw [List.mem_singleton.1 hs]
      exact ⟨⟨by decide, by decide, by decide, by decide, by decide⟩, by decide⟩) (.inl hd)
  have e : List.intercalate [','] (List.map CgSetting.text [⟨"mem".toList, "max".toList, "900000".toList, none⟩]) =
    "mem.max:900000".toList := by decide
  rw [e] at h
  rw [h, if_pos (show E.isdir (cgDir "system".toList "net".toList) = true from hd), List.nil_append, cgApply_append, cgApply_write _ _ _ (by
    intro v hv
    have e := (CgEff.write.inj (List.mem_singleton.1 hv)).1
    exact absurd e (by decide +kernel))]
  have hf : cgDir "system".toList "net".toList ++ '/' :: CgSetting.file ⟨"mem".toList, "max".toList, "900000".toList, none⟩ =
    "/sys/fs/cgroup/system/net/memory.max".toList := by decide +kernel
  rw [List.map_cons, hf, List.map_nil, cgApply, cgApply, if_pos rfl]

/-- A value with a blank in it, as `cpu.max` takes, cannot be given in a `cgroup` line: nothing is set. -/
theorem C88_blank (E : CgEnv) (hd : E.isdir "/sys/fs/cgroup/foo".toList = true) :
    confCgroup "foo cpu.max:\"50000 100000\"".toList = some ("foo".toList, "cpu.max:\"50000,100000\"".toList) ∧
    cgConfig E ⟨"foo".toList, "cpu.max:\"50000,100000\"".toList, false, true⟩ = [] := by
  refine ⟨by decide +kernel, ?_⟩
  unfold cgConfig groupInit
  rw [if_pos rfl, show cgPath "foo".toList = "/sys/fs/cgroup/foo".toList from rfl, if_pos hd]
  decide +kernel

/-- A setting no longer in the line stays in force. -/
theorem C88_stale (E : CgEnv) (path : CStr) (old new : List CgSetting) (hd : E.isdir path = true)
    (h : ∀ s ∈ old ++ new, s.Ok ∧ (path ++ '/' :: s.file).length < 256) (s : CgSetting)
    (ho : ∃ a b, old = a ++ s :: b ∧ s.file ∉ b.map CgSetting.file) (hn : s.file ∉ new.map CgSetting.file) (files : CStr → Option CStr) :
    cgApply (cgApply files (groupInit E path false (List.intercalate [','] (old.map CgSetting.text))))
      (groupInit E path false (List.intercalate [','] (new.map CgSetting.text))) (path ++ '/' :: s.file) = some s.value := by
  rw [(C88_values E path false new hd (fun x hx => h x (List.mem_append_right _ hx)) _).2]
  · exact (C88_values E path false old hd (fun x hx => h x (List.mem_append_left _ hx)) files).1 s ho
  · intro t ht e
    have : s.file = t.file := (List.cons.inj (List.append_cancel_left e)).2
    exact hn (this ▸ List.mem_map_of_mem ht)

theorem C88_full_false : ¬ C88_full := by
  rintro ⟨h, -⟩
  obtain ⟨rest, v, e, h0⟩ := h "/sys/fs/cgroup/maint".toList "../cgroup.subtree_control:-cpu".toList
    (.write "/sys/fs/cgroup/maint/../cgroup.subtree_control".toList "-cpu".toList) (by decide)
    (C88_escape.1 ▸ List.mem_singleton.2 rfl)
  have hr : "/sys/fs/cgroup/maint/../cgroup.subtree_control".toList = "/sys/fs/cgroup/maint".toList ++ '/' :: rest := (CgEff.write.inj e).1
  have hs : "/sys/fs/cgroup/maint/../cgroup.subtree_control".toList =
    "/sys/fs/cgroup/maint".toList ++ '/' :: "../cgroup.subtree_control".toList := rfl
  have := (List.cons.inj (List.append_cancel_left (hs.symm.trans hr))).2
  rw [← this] at h0
  exact absurd h0 (by rw [C88_escape.2]; decide)

end Verif
