import Verif.Plugin
import Verif.UtilLemmas

/-!
# C72: plugins are set up after those they depend on
-/

namespace Verif

/-! ## Specification -/

/-- The plugin directory `dir`: the objects in it, by the name of the plugin in each, and what readdir(3) finds in it -/
def plugDir (dir : CStr) (P : List (CStr × PlugLib)) (entries : List CStr) : PlugEnv :=
  { objs := P.map (fun x => (dir ++ ['/'] ++ (x.1 ++ ".so".toList), x.2)), dirs := [(dir, entries)] }

/-- A dependency names a plugin, with or without the extension -/
def PlugNames (d n : CStr) : Prop := d = n ∨ d = n ++ ".so".toList

/-- The plugin `a` depends on `b`, directly or not -/
inductive PlugNeeds (P : List (CStr × PlugLib)) : CStr → CStr → Prop
  | direct {a b d lib} : (a, lib) ∈ P → d ∈ lib.deps → PlugNames d b → b ∈ P.map (·.1) → PlugNeeds P a b
  | trans {a b c} : PlugNeeds P a b → PlugNeeds P b c → PlugNeeds P a c

/-- Plugins as they are built: each registers under the name of its file, names differ, all files are found, and there are no more
    dependencies than fit -/
structure PlugTidy (dir : CStr) (P : List (CStr × PlugLib)) (entries : List CStr) : Prop where
  distinct : (P.map (·.1)).Nodup
  named : ∀ x ∈ P, x.2.registers = true ∧ trimExt x.2.name = x.1 ∧ x.2.deps.length ≤ 10
  plain : ∀ x ∈ P, x.1 ≠ [] ∧ x.1.head? ≠ some '.'
  short : ∀ x ∈ P, (dir ++ ['/'] ++ (x.1 ++ ".so".toList)).length < 1023
  found : ∀ x ∈ P, x.1 ++ ".so".toList ∈ entries

/-- The plugins, in the order of `l`, come after those they depend on, but for those that depend on them as well. -/
def AfterDeps (P l : List (CStr × PlugLib)) : Prop :=
  ∀ a x b, l = a ++ x :: b → ∀ d ∈ x.2.deps, ∀ n, PlugNames d n → n ∈ P.map (·.1) → n ∈ a.map (·.1) ∨ PlugNeeds P n x.1

/-! ## Lemmas -/

theorem strstr_least {pat : CStr} (hp : pat ≠ []) : ∀ {s a b : CStr}, strstr pat s = some (a, b) → ∀ p q, a ≠ p ++ pat ++ q
  | [], a, b, h, p, q, e => by
    unfold strstr at h
    rw [if_neg hp] at h
    cases h
  | c :: cs, a, b, h, p, q, e => by
    have hs := strstr_some h
    unfold strstr at h
    split at h
    · injection h with h
      injection h with h1 h2
      rw [← h1] at e
      have := congrArg List.length e
      simp only [List.length_nil, List.length_append] at this
      exact hp (List.length_eq_zero_iff.mp (by omega))
    · rename_i hn
      cases hr : strstr pat cs with
      | none => rw [hr] at h; cases h
      | some r =>
        rw [hr] at h
        injection h with h
        injection h with h1 h2
        subst h1
        cases p with
        | nil =>
          apply hn
          rw [List.isPrefixOf_iff_prefix, hs, e]
          exact ⟨q ++ pat ++ b, by simp⟩
        | cons x p =>
          injection e with e1 e2
          exact strstr_least hp (a := r.1) (b := r.2) hr p q e2

theorem trimExt_plain (s p q : CStr) : trimExt s ≠ p ++ ".so".toList ++ q := by
  unfold trimExt
  split
  · rename_i h
    exact strstr_least (by decide) h p q
  · rename_i h
    split
    · rename_i a b h2
      intro e
      exact strstr_none h p (q ++ ".c".toList ++ b) (by rw [strstr_some h2, e]; simp)
    · exact strstr_none h p q

/-- The names and what is behind them -/
def PlugSt.keys (s : PlugSt) : List (CStr × PlugLib) := s.plugs.map (fun p => (p.name, p.lib))

theorem setHandle_keys (h : CStr) : ∀ ps : List Plug,
    (setHandle h ps).map (fun p => (p.name, p.lib)) = ps.map (fun p => (p.name, p.lib))
  | [] => rfl
  | [_] => rfl
  | p :: q :: ps => by rw [setHandle, List.map_cons, setHandle_keys h (q :: ps)]; rfl

theorem any_name (s : PlugSt) (n : CStr) : s.plugs.any (fun p => decide (p.name = n)) = decide (n ∈ s.keys.map (·.1)) := by
  rw [Bool.eq_iff_iff, List.any_eq_true, decide_eq_true_iff]
  unfold PlugSt.keys
  rw [List.map_map]
  simp only [List.mem_map, Function.comp_apply, decide_eq_true_eq]

theorem soName_suffix (n : CStr) : ∃ p, soName n = p ++ ".so".toList := by
  unfold soName
  split
  · rename_i h
    obtain ⟨p, e⟩ := List.isSuffixOf_iff_suffix.mp h
    exact ⟨p, e.symm⟩
  · exact ⟨n, rfl⟩

/-- `plugin_find` finds by name only: no name has the extension -/
theorem plugFind_eq {dir n : CStr} {s : PlugSt}
    (h : ∀ x ∈ s.keys, (∀ p q, x.1 ≠ p ++ ".so".toList ++ q) ∧ x.1.length < 1023) :
    plugFind dir n s = decide (n ∈ s.keys.map (·.1)) := by
  unfold plugFind
  rw [any_name]
  by_cases hn : n ∈ s.keys.map (·.1)
  · rw [decide_eq_true hn, if_pos rfl]
  · rw [decide_eq_false hn, if_neg (by decide)]
    split
    · rfl
    · dsimp only
      rw [any_name]
      refine decide_eq_false fun hp => ?_
      obtain ⟨x, hx, e⟩ := List.mem_map.mp hp
      obtain ⟨h1, h2⟩ := h x hx
      obtain ⟨q, hq⟩ := soName_suffix n
      rw [hq] at e
      generalize dir ++ (if dir.getLast? = some '/' then [] else ['/']) = d at e
      by_cases hl : (d ++ (q ++ ".so".toList)).length ≤ 1023
      · rw [List.take_of_length_le hl] at e
        exact h1 (d ++ q) [] (by rw [e]; simp)
      · have := congrArg List.length e
        rw [List.length_take] at this
        omega

theorem nodup_lt {α : Type} [DecidableEq α] : ∀ {l m : List α} {x : α}, l.Nodup → (∀ y ∈ l, y ∈ m) → x ∈ m → x ∉ l → l.length < m.length
  | [], m, x, _, _, hx, _ => List.length_pos_of_mem hx
  | y :: l, m, x, hn, hs, hx, hxl => by
    obtain ⟨h1, h2⟩ := List.nodup_cons.mp hn
    have hne : x ≠ y := fun e => hxl (e ▸ List.mem_cons_self)
    have := nodup_lt (l := l) (m := m.erase y) (x := x) h2
      (fun z hz => (List.mem_erase_of_ne (fun e : z = y => h1 (e ▸ hz))).mpr (hs z (List.mem_cons_of_mem _ hz)))
      ((List.mem_erase_of_ne hne).mpr hx) (fun h => hxl (List.mem_cons_of_mem _ h))
    rw [List.length_erase_of_mem (hs y List.mem_cons_self)] at this
    rw [List.length_cons]
    omega

section
variable {dir : CStr} {P : List (CStr × PlugLib)} {entries : List CStr}

/-- The path of the object with a plugin -/
def objPath (dir n : CStr) : CStr := dir ++ ['/'] ++ (n ++ ".so".toList)

theorem PlugTidy.noext (h : PlugTidy dir P entries) {n : CStr} (hn : n ∈ P.map (·.1)) :
    (∀ p q, n ≠ p ++ ".so".toList ++ q) ∧ n.length < 1023 := by
  obtain ⟨x, hx, e⟩ := List.mem_map.mp hn
  have h1 := (h.named x hx).2.1
  have h2 := h.short x hx
  refine ⟨fun p q => ?_, ?_⟩
  · rw [← e, ← h1]; exact trimExt_plain _ p q
  · rw [← e]; simp only [List.length_append] at h2; omega

theorem PlugTidy.soName (h : PlugTidy dir P entries) {n d : CStr} (hn : n ∈ P.map (·.1)) :
    (dir ++ ['/'] ++ Verif.soName d).take 1023 = objPath dir n ↔ PlugNames d n := by
  obtain ⟨x, hx, e⟩ := List.mem_map.mp hn
  have hs := h.short x hx
  rw [e] at hs
  have hno := (h.noext hn).1
  have key : (dir ++ ['/'] ++ Verif.soName d).take 1023 = objPath dir n ↔ Verif.soName d = n ++ ".so".toList := by
    constructor
    · intro he
      have hl := congrArg List.length he
      unfold objPath at he hl
      rw [List.length_take] at hl
      rw [List.take_of_length_le (by omega)] at he
      exact List.append_cancel_left he
    · intro he
      rw [he, List.take_of_length_le (by omega)]; rfl
  rw [key]
  unfold Verif.soName PlugNames
  constructor
  · intro he
    split at he
    · exact .inr he
    · exact .inl (List.append_cancel_right he)
  · rintro (rfl | rfl)
    · rw [if_neg]
      intro hsuf
      obtain ⟨p, e⟩ := List.isSuffixOf_iff_suffix.mp hsuf
      exact hno p [] (by rw [← e]; simp)
    · rw [if_pos (List.isSuffixOf_iff_suffix.mpr ⟨n, rfl⟩)]

theorem obj_some {path : CStr} {lib : PlugLib} (h : (plugDir dir P entries).obj path = some lib) :
    ∃ n, (n, lib) ∈ P ∧ path = objPath dir n := by
  unfold PlugEnv.obj plugDir at h
  obtain ⟨o, ho, e⟩ := Option.map_eq_some_iff.mp h
  have h1 := List.find?_some ho
  have h2 := List.mem_of_find?_eq_some ho
  obtain ⟨x, hx, e2⟩ := List.mem_map.mp h2
  refine ⟨x.1, ?_, ?_⟩
  · have : x.2 = lib := by rw [← e, ← e2]
    rw [← this]; exact hx
  · have := of_decide_eq_true h1
    rw [← this, ← e2]; rfl

theorem obj_none {path n : CStr} (h : (plugDir dir P entries).obj path = none) (hn : n ∈ P.map (·.1)) : path ≠ objPath dir n := by
  unfold PlugEnv.obj plugDir at h
  intro e
  obtain ⟨x, hx, ex⟩ := List.mem_map.mp hn
  have := List.find?_eq_none.mp (Option.map_eq_none_iff.mp h) _ (List.mem_map_of_mem hx)
  apply this
  rw [e, ← ex]
  exact decide_eq_true rfl

theorem objPath_inj {n m : CStr} (h : objPath dir n = objPath dir m) : n = m :=
  List.append_cancel_right (List.append_cancel_left h)

/-- While the plugins in `stk` are being loaded, each because of the next -/
structure PlugInv (dir : CStr) (P : List (CStr × PlugLib)) (stk : List CStr) (s : PlugSt) : Prop where
  opened : ∀ n ∈ P.map (·.1), objPath dir n ∈ s.opened ↔ n ∈ s.keys.map (·.1) ∨ n ∈ stk
  nodup : (s.keys.map (·.1) ++ stk).Nodup
  mem : ∀ x ∈ s.keys, x ∈ P
  stkmem : ∀ n ∈ stk, n ∈ P.map (·.1)
  order : AfterDeps P s.keys
  chain : stk.Pairwise (fun x y => PlugNeeds P y x)
  fuel : s.oof = false

/-- What a step adds -/
def PlugExt (s t : PlugSt) : Prop := ∃ l, t.keys = s.keys ++ l

theorem PlugExt.mem {s t : PlugSt} (h : PlugExt s t) {n : CStr} (hn : n ∈ s.keys.map (·.1)) : n ∈ t.keys.map (·.1) := by
  obtain ⟨l, e⟩ := h
  rw [e, List.map_append]
  exact List.mem_append_left _ hn

theorem PlugExt.refl (s : PlugSt) : PlugExt s s := ⟨[], by simp⟩

theorem PlugExt.trans {s t u : PlugSt} (h : PlugExt s t) (h' : PlugExt t u) : PlugExt s u := by
  obtain ⟨l, e⟩ := h
  obtain ⟨l', e'⟩ := h'
  exact ⟨l ++ l', by rw [e', e, List.append_assoc]⟩

theorem PlugInv.find (ht : PlugTidy dir P entries) {stk : List CStr} {s : PlugSt} (h : PlugInv dir P stk s) (n : CStr) :
    plugFind dir n s = decide (n ∈ s.keys.map (·.1)) :=
  plugFind_eq fun x hx => ht.noext (List.mem_map_of_mem (h.mem x hx))

theorem PlugInv.early {stk : List CStr} {s : PlugSt} (h : PlugInv dir P stk s) (b : Bool) :
    PlugInv dir P stk { s with early := b } := ⟨h.opened, h.nodup, h.mem, h.stkmem, h.order, h.chain, h.fuel⟩

theorem PlugInv.handle {stk : List CStr} {s : PlugSt} (h : PlugInv dir P stk s) (p : CStr) :
    PlugInv dir P stk { s with plugs := setHandle p s.plugs } := by
  have e : ({ s with plugs := setHandle p s.plugs } : PlugSt).keys = s.keys := setHandle_keys p s.plugs
  exact ⟨by rw [e]; exact h.opened, by rw [e]; exact h.nodup, by rw [e]; exact h.mem, h.stkmem, by rw [e]; exact h.order, h.chain, h.fuel⟩

theorem AfterDeps.snoc {l : List (CStr × PlugLib)} {x : CStr × PlugLib} (h : AfterDeps P l)
    (hx : ∀ d ∈ x.2.deps, ∀ n, PlugNames d n → n ∈ P.map (·.1) → n ∈ l.map (·.1) ∨ PlugNeeds P n x.1) : AfterDeps P (l ++ [x]) := by
  intro a y b e
  rcases List.eq_nil_or_concat b with rfl | ⟨b', z, rfl⟩
  · obtain ⟨e1, e2⟩ := List.append_inj' e rfl
    injection e2 with e2
    subst e1 e2
    exact hx
  · have : l ++ [x] = (a ++ y :: b') ++ [z] := by rw [e]; simp
    exact h a y b' (List.append_inj' this rfl).1

theorem PlugInv.room {stk : List CStr} {s : PlugSt} (h : PlugInv dir P stk s) : s.keys.length + stk.length ≤ P.length := by
  have hsub : ∀ y ∈ s.keys.map (·.1) ++ stk, y ∈ P.map (·.1) := by
    intro y hy
    rcases List.mem_append.mp hy with hy | hy
    · obtain ⟨x, hx, e⟩ := List.mem_map.mp hy
      exact e ▸ List.mem_map_of_mem (h.mem x hx)
    · exact h.stkmem y hy
  have hn := h.nodup
  have e : (s.keys.map (·.1) ++ stk).length = s.keys.length + stk.length := by rw [List.length_append, List.length_map]
  rw [← e]
  generalize s.keys.map (·.1) ++ stk = l at hsub hn
  cases l with
  | nil => exact Nat.zero_le _
  | cons x l =>
    obtain ⟨h1, h2⟩ := List.nodup_cons.mp hn
    have := nodup_lt h2 (fun y hy => hsub y (List.mem_cons_of_mem _ hy)) (hsub x List.mem_cons_self) h1
    rw [List.length_map] at this
    exact this

/-- What loading the dependency `d` does -/
def LoadsOk (dir : CStr) (P : List (CStr × PlugLib)) (stk : List CStr) (d : CStr) (s t : PlugSt) : Prop :=
  PlugInv dir P stk t ∧ PlugExt s t ∧ ∀ n, PlugNames d n → n ∈ P.map (·.1) → n ∈ t.keys.map (·.1) ∨ n ∈ stk

/-- The loop over what a plugin depends on -/
theorem plugDepends_inv (ht : PlugTidy dir P entries) {load : CStr → PlugSt → PlugSt} {fuel : Nat} {stk : List CStr}
    (ih : ∀ d s, PlugInv dir P stk s → P.length < fuel + (s.keys.length + stk.length) →
      (∀ n, PlugNames d n → n ∈ P.map (·.1) → ∀ y ∈ stk, PlugNeeds P y n) → LoadsOk dir P stk d s (load d s)) :
    ∀ (deps : List CStr) (s : PlugSt), PlugInv dir P stk s → P.length < fuel + (s.keys.length + stk.length) →
      (∀ d ∈ deps, ∀ n, PlugNames d n → n ∈ P.map (·.1) → ∀ y ∈ stk, PlugNeeds P y n) →
      PlugInv dir P stk (plugDepends load dir deps s) ∧ PlugExt s (plugDepends load dir deps s) ∧
      ∀ d ∈ deps, ∀ n, PlugNames d n → n ∈ P.map (·.1) → n ∈ (plugDepends load dir deps s).keys.map (·.1) ∨ n ∈ stk := by
  intro deps
  induction deps with
  | nil => intro s h _ _; exact ⟨h, PlugExt.refl s, fun d hd => nomatch hd⟩
  | cons d ds ihd =>
    intro s h hl hn
    have h1 := h.early (s.early || findEarly d s)
    have step : ∃ t, plugDepends load dir (d :: ds) s = plugDepends load dir ds t ∧ LoadsOk dir P stk d s t := by
      refine ⟨_, rfl, ?_⟩
      dsimp only
      rw [h.find ht]
      by_cases hd : d ∈ s.keys.map (·.1)
      · rw [decide_eq_true hd, if_pos rfl]
        refine ⟨h1, PlugExt.refl s, fun n hdn hnp => ?_⟩
        rcases hdn with rfl | rfl
        · exact .inl hd
        · obtain ⟨x, hx, e⟩ := List.mem_map.mp hd
          exact absurd (e.trans (List.append_nil _).symm) ((ht.noext (List.mem_map_of_mem (h.mem x hx))).1 n [])
      · rw [decide_eq_false hd, if_neg (by decide)]
        exact ih d _ h1 hl (hn d List.mem_cons_self)
    obtain ⟨t, et, it, xt, rt⟩ := step
    rw [et]
    have hlen : s.keys.length ≤ t.keys.length := by
      obtain ⟨l, e⟩ := xt
      rw [e, List.length_append]; omega
    obtain ⟨i2, x2, r2⟩ := ihd t it (by omega) (fun d' hd' => hn d' (List.mem_cons_of_mem _ hd'))
    refine ⟨i2, xt.trans x2, fun d' hd' n hdn hnp => ?_⟩
    rcases List.mem_cons.mp hd' with rfl | hd'
    · rcases rt n hdn hnp with h | h
      · exact .inl (x2.mem h)
      · exact .inr h
    · exact r2 d' hd' n hdn hnp

theorem loadOne_inv (ht : PlugTidy dir P entries) : ∀ (fuel : Nat) (stk : List CStr) (d : CStr) (s : PlugSt),
    PlugInv dir P stk s → P.length < fuel + (s.keys.length + stk.length) →
    (∀ n, PlugNames d n → n ∈ P.map (·.1) → ∀ y ∈ stk, PlugNeeds P y n) →
    LoadsOk dir P stk d s (loadOne (plugDir dir P entries) dir fuel d s) := by
  intro fuel
  induction fuel with
  | zero =>
    intro stk d s h hl
    have := h.room
    omega
  | succ fuel ih =>
    intro stk d s h hl hn
    have h1 := h.early (s.early || decide (d.length < 3))
    rw [loadOne]
    dsimp only
    cases ho : (plugDir dir P entries).obj ((dir ++ ['/'] ++ soName d).take 1023) with
    | none =>
      exact ⟨h1, PlugExt.refl s, fun n hdn hnp => absurd ((ht.soName hnp).mpr hdn) (obj_none ho hnp)⟩
    | some lib =>
      dsimp only
      obtain ⟨m, hm, hpm⟩ := obj_some ho
      rw [hpm]
      have hmn : m ∈ P.map (·.1) := List.mem_map_of_mem (f := (·.1)) hm
      have hdm : PlugNames d m := (ht.soName hmn).mp hpm
      have only : ∀ n, PlugNames d n → n ∈ P.map (·.1) → n = m := fun n hdn hnp =>
        objPath_inj (((ht.soName hnp).mpr hdn).symm.trans hpm)
      suffices key : ∀ t, (t = if objPath dir m ∈ s.opened then { s with early := s.early || decide (d.length < 3) } else
          if lib.registers = true then plugRegister (loadOne (plugDir dir P entries) dir fuel) dir (objPath dir m) lib
            { s with opened := objPath dir m :: s.opened, early := s.early || decide (d.length < 3) }
          else { s with opened := objPath dir m :: s.opened, early := s.early || decide (d.length < 3) }) →
          PlugInv dir P stk t ∧ PlugExt s t ∧ (m ∈ t.keys.map (·.1) ∨ m ∈ stk) by
        obtain ⟨k1, k2, k3⟩ := key _ rfl
        have ke := setHandle_keys (objPath dir m) (if objPath dir m ∈ s.opened then { s with early := s.early || decide (d.length < 3) } else
          if lib.registers = true then plugRegister (loadOne (plugDir dir P entries) dir fuel) dir (objPath dir m) lib
            { s with opened := objPath dir m :: s.opened, early := s.early || decide (d.length < 3) }
          else { s with opened := objPath dir m :: s.opened, early := s.early || decide (d.length < 3) } : PlugSt).plugs
        refine ⟨k1.handle _, ?_, fun n hdn hnp => ?_⟩
        · obtain ⟨l, el⟩ := k2
          exact ⟨l, ke.trans el⟩
        · rw [only n hdn hnp]
          rcases k3 with h | h
          · exact .inl (by unfold PlugSt.keys; rw [ke]; exact h)
          · exact .inr h
      intro t et
      by_cases hop : objPath dir m ∈ s.opened
      · rw [if_pos hop] at et
        subst et
        exact ⟨h1, PlugExt.refl s, (h.opened m hmn).mp hop⟩
      · rw [if_neg hop, if_pos (ht.named _ hm).1] at et
        have hfree : m ∉ s.keys.map (·.1) ∧ m ∉ stk := by
          refine ⟨fun h' => hop ((h.opened m hmn).mpr (.inl h')), fun h' => hop ((h.opened m hmn).mpr (.inr h'))⟩
        have hnm : trimExt lib.name = m := (ht.named _ hm).2.1
        have hdl : lib.deps.take 10 = lib.deps := List.take_of_length_le (ht.named _ hm).2.2
        -- the state in which the constructor runs
        have hin : ∀ b : Bool, PlugInv dir P (m :: stk) { s with opened := objPath dir m :: s.opened, early := b } := by
          intro b
          refine ⟨fun n hnp => ?_, ?_, h.mem, ?_, h.order, ?_, h.fuel⟩
          · rw [List.mem_cons, List.mem_cons, h.opened n hnp]
            constructor
            · rintro (e | e | e)
              · exact .inr (.inl (objPath_inj e))
              · exact .inl e
              · exact .inr (.inr e)
            · rintro (e | e | e)
              · exact .inr (.inl e)
              · exact .inl (by rw [e])
              · exact .inr (.inr e)
          · have hnd := List.nodup_append.mp h.nodup
            refine List.nodup_append.mpr ⟨hnd.1, List.nodup_cons.mpr ⟨hfree.2, hnd.2.1⟩, fun a ha b hb => ?_⟩
            rcases List.mem_cons.mp hb with rfl | hb
            · exact fun e => hfree.1 (e ▸ ha)
            · exact hnd.2.2 a ha b hb
          · intro n hn'
            rcases List.mem_cons.mp hn' with rfl | hn'
            · exact hmn
            · exact h.stkmem n hn'
          · exact List.pairwise_cons.mpr ⟨fun y hy => hn m hdm hmn y hy, h.chain⟩
        unfold plugRegister at et
        extract_lets nm s2 s3 at et
        have hfind : plugFind dir nm { s with opened := objPath dir m :: s.opened, early := s.early || decide (d.length < 3) } = false := by
          rw [(hin _).find ht]
          refine decide_eq_false ?_
          show trimExt lib.name ∉ _
          rw [hnm]
          exact hfree.1
        rw [hfind, if_neg (by decide)] at et
        have e3 : s3 = plugDepends (loadOne (plugDir dir P entries) dir fuel) dir lib.deps s2 := by
          show plugDepends _ _ (lib.deps.take 10) _ = _
          rw [hdl]
        clear_value s3
        have i2 : PlugInv dir P (m :: stk) s2 := hin _
        have k2 : s2.keys = s.keys := rfl
        have hneed : ∀ d' ∈ lib.deps, ∀ n, PlugNames d' n → n ∈ P.map (·.1) → ∀ y ∈ m :: stk, PlugNeeds P y n := by
          intro d' hd' n hdn hnp y hy
          have hmn' : PlugNeeds P m n := .direct hm hd' hdn hnp
          rcases List.mem_cons.mp hy with rfl | hy
          · exact hmn'
          · exact .trans (hn m hdm hmn y hy) hmn'
        obtain ⟨i3, x3, r3⟩ := plugDepends_inv ht (fuel := fuel) (fun d' s' => ih (m :: stk) d' s') lib.deps s2 i2
          (by rw [k2, List.length_cons]; omega) hneed
        rw [← e3] at i3 x3 r3
        have hk : t.keys = s3.keys ++ [(m, lib)] := by
          rw [et]
          show (s3.plugs ++ [_]).map _ = _
          rw [List.map_append]
          show _ ++ [(trimExt lib.name, lib)] = _
          rw [hnm]; rfl
        have hop' : t.opened = s3.opened := by rw [et]
        have hof : t.oof = s3.oof := by rw [et]
        refine ⟨⟨fun n hnp => ?_, ?_, ?_, h.stkmem, ?_, h.chain, by rw [hof]; exact i3.fuel⟩, ?_, .inl ?_⟩
        · rw [hop', i3.opened n hnp, hk, List.map_append, List.mem_append, List.mem_cons]
          show _ ↔ (_ ∨ n ∈ [m]) ∨ _
          rw [List.mem_singleton]
          exact ⟨fun h => h.elim (fun h => .inl (.inl h)) (fun h => h.elim (fun h => .inl (.inr h)) .inr),
            fun h => h.elim (fun h => h.elim .inl (fun h => .inr (.inl h))) (fun h => .inr (.inr h))⟩
        · rw [hk, List.map_append, List.append_assoc]
          exact i3.nodup
        · rw [hk]
          intro x hx
          rcases List.mem_append.mp hx with hx | hx
          · exact i3.mem x hx
          · rw [List.mem_singleton.mp hx]; exact hm
        · rw [hk]
          refine i3.order.snoc fun d' hd' n hdn hnp => ?_
          rcases r3 d' hd' n hdn hnp with h | h
          · exact .inl h
          · rcases List.mem_cons.mp h with rfl | h
            · exact .inr (.direct hm hd' hdn hnp)
            · exact .inr (hn m hdm hmn n h)
        · obtain ⟨l, e⟩ := x3
          exact ⟨l ++ [(m, lib)], by rw [hk, e, k2, List.append_assoc]⟩
        · rw [hk, List.map_append]
          exact List.mem_append_right _ (List.mem_singleton.mpr rfl)

theorem loadPlugins_inv (ht : PlugTidy dir P entries) : ∀ (es : List CStr) (s : PlugSt), PlugInv dir P [] s →
    PlugInv dir P [] (loadPlugins (plugDir dir P entries) s (dir, es)) ∧
    PlugExt s (loadPlugins (plugDir dir P entries) s (dir, es)) ∧
    ∀ n ∈ P.map (·.1), n ++ ".so".toList ∈ es → n ∈ (loadPlugins (plugDir dir P entries) s (dir, es)).keys.map (·.1) := by
  intro es
  induction es with
  | nil => intro s h; exact ⟨h, PlugExt.refl s, fun n _ hn => nomatch hn⟩
  | cons e es ih =>
    intro s h
    have step : ∃ t, loadPlugins (plugDir dir P entries) s (dir, e :: es) = loadPlugins (plugDir dir P entries) t (dir, es) ∧
        PlugInv dir P [] t ∧ PlugExt s t ∧ ∀ n ∈ P.map (·.1), n ++ ".so".toList = e → n ∈ t.keys.map (·.1) := by
      refine ⟨_, rfl, ?_⟩
      dsimp only
      split
      · rename_i hd
        refine ⟨h, PlugExt.refl s, fun n hn he => ?_⟩
        obtain ⟨x, hx, ex⟩ := List.mem_map.mp hn
        obtain ⟨h1, h2⟩ := ht.plain x hx
        rw [ex] at h1 h2
        subst he
        cases n with
        | nil => exact absurd rfl h1
        | cons c n => exact absurd hd h2
      · obtain ⟨i, x, r⟩ := loadOne_inv ht ((plugDir dir P entries).objs.length + 2) [] e s h
          (by unfold plugDir; rw [List.length_map]; omega) (fun n _ _ y hy => nomatch hy)
        refine ⟨i, x, fun n hn he => ?_⟩
        rcases r n (.inr he.symm) hn with h | h
        · exact h
        · cases h
    obtain ⟨t, et, it, xt, rt⟩ := step
    rw [et]
    obtain ⟨i2, x2, r2⟩ := ih t it
    refine ⟨i2, xt.trans x2, fun n hn he => ?_⟩
    rcases List.mem_cons.mp he with he | he
    · exact x2.mem (rt n hn he)
    · exact r2 n hn he

theorem plugInit_inv (ht : PlugTidy dir P entries) : PlugInv dir P [] (plugInit (plugDir dir P entries)) ∧
    ∀ n ∈ P.map (·.1), n ∈ (plugInit (plugDir dir P entries)).keys.map (·.1) := by
  have h0 : PlugInv dir P [] {} := by
    refine ⟨fun n _ => ?_, List.nodup_nil, fun x hx => (nomatch hx), fun x hx => (nomatch hx), ?_, List.Pairwise.nil, rfl⟩
    · exact ⟨fun h => (nomatch h), fun h => h.elim (fun h => (nomatch h)) (fun h => (nomatch h))⟩
    · intro a x b e
      cases a <;> cases e
  obtain ⟨i, -, r⟩ := loadPlugins_inv ht entries {} h0
  refine ⟨i, fun n hn => r n hn ?_⟩
  obtain ⟨x, hx, e⟩ := List.mem_map.mp hn
  exact e ▸ ht.found x hx

end

theorem nodup_of_keys {α β : Type} {f : α → β} {l : List α} (h : (l.map f).Nodup) : l.Nodup :=
  (List.pairwise_map.mp h).imp (fun hne e => hne (congrArg f e))

theorem keys_inj {α β : Type} {f : α → β} {l : List α} (h : (l.map f).Nodup) {x y : α} (hx : x ∈ l) (hy : y ∈ l) (e : f x = f y) :
    x = y := by
  induction l with
  | nil => cases hx
  | cons z l ih =>
    rw [List.map_cons] at h
    obtain ⟨h1, h2⟩ := List.nodup_cons.mp h
    rcases List.mem_cons.mp hx with hx' | hx' <;> rcases List.mem_cons.mp hy with hy' | hy'
    · rw [hx', hy']
    · exact absurd (hx' ▸ e ▸ List.mem_map_of_mem hy') h1
    · exact absurd (hy' ▸ e ▸ List.mem_map_of_mem hx') h1
    · exact ih h2 hx' hy'

/-! ## The property -/

/-- The full claim of C72, for all directories: every plugin is registered, with its own handle, and after those it depends on. -/
def C72_full : Prop := ∀ E : PlugEnv,
  (∀ o ∈ E.objs, o.2.registers = true ∧ ∃ d ∈ E.dirs, ∃ n ∈ d.2, n.head? ≠ some '.' ∧ o.1 = d.1 ++ ['/'] ++ n) →
  ∀ o ∈ E.objs, ∃ a p b, (plugInit E).plugs = a ++ p :: b ∧ p.lib = o.2 ∧ p.handle = some o.1 ∧
    ∀ d ∈ o.2.deps, ∀ o' ∈ E.objs, trimExt o'.2.name = d → d ∈ a.map (·.name)

/-- **C72.** Whatever the order of the files in the directory, loading ends, each plugin is registered exactly once, and after
    those it depends on, but for those that depend on it too. -/
theorem C72_partial {dir : CStr} {P : List (CStr × PlugLib)} {entries : List CStr} (h : PlugTidy dir P entries) :
    (plugInit (plugDir dir P entries)).oof = false ∧
    ((plugInit (plugDir dir P entries)).plugs.map (fun p => (p.name, p.lib))).Perm P ∧
    AfterDeps P ((plugInit (plugDir dir P entries)).plugs.map (fun p => (p.name, p.lib))) := by
  obtain ⟨i, r⟩ := plugInit_inv h
  refine ⟨i.fuel, ?_, i.order⟩
  have hk : ((plugInit (plugDir dir P entries)).keys.map (·.1)).Nodup := (List.nodup_append.mp i.nodup).1
  have n1 : (plugInit (plugDir dir P entries)).keys.Nodup := nodup_of_keys hk
  have n2 : P.Nodup := nodup_of_keys h.distinct
  refine (List.perm_ext_iff_of_nodup n1 n2).mpr fun x => ⟨i.mem x, fun hx => ?_⟩
  obtain ⟨y, hy, e⟩ := List.mem_map.mp (r x.1 (List.mem_map_of_mem hx))
  exact keys_inj h.distinct (i.mem y hy) hx e ▸ hy

/-- If no plugin depends on itself, directly or not, all come after all they depend on. -/
theorem C72_acyclic {dir : CStr} {P : List (CStr × PlugLib)} {entries : List CStr} (h : PlugTidy dir P entries)
    (hac : ∀ n, ¬ PlugNeeds P n n) {a b : List Plug} {p : Plug} (hs : (plugInit (plugDir dir P entries)).plugs = a ++ p :: b)
    {d n : CStr} (hd : d ∈ p.lib.deps) (hdn : PlugNames d n) (hn : n ∈ P.map (·.1)) : n ∈ a.map (·.name) := by
  obtain ⟨-, hp, ho⟩ := C72_partial h
  have hk : (plugInit (plugDir dir P entries)).plugs.map (fun p => (p.name, p.lib)) =
      a.map (fun p => (p.name, p.lib)) ++ (p.name, p.lib) :: b.map (fun p => (p.name, p.lib)) := by
    rw [hs, List.map_append, List.map_cons]
  rcases ho _ _ _ hk d hd n hdn hn with h | h
  · rw [List.map_map] at h; exact h
  · have hm : (p.name, p.lib) ∈ P := hp.mem_iff.mp (by rw [hk]; exact List.mem_append_right _ List.mem_cons_self)
    exact absurd (PlugNeeds.trans (.direct hm hd hdn hn) h) (hac _)

/-- At each hook point the callback of every plugin that has one is called once, after those of the plugins it depends on. -/
theorem C72_hooks {dir : CStr} {P : List (CStr × PlugLib)} {entries : List CStr} (h : PlugTidy dir P entries)
    (hac : ∀ n, ¬ PlugNeeds P n n) (k : Nat) :
    (hookCalls k (plugInit (plugDir dir P entries))).Perm ((P.filter (fun x => decide (k ∈ x.2.hooks))).map (·.1)) ∧
    ∀ a m b, hookCalls k (plugInit (plugDir dir P entries)) = a ++ m :: b → ∀ lib, (m, lib) ∈ P → ∀ d ∈ lib.deps, ∀ n libn,
      PlugNames d n → (n, libn) ∈ P → k ∈ libn.hooks → n ∈ a := by
  obtain ⟨-, hp, ho⟩ := C72_partial h
  have hc : hookCalls k (plugInit (plugDir dir P entries)) =
      (((plugInit (plugDir dir P entries)).plugs.map (fun p => (p.name, p.lib))).filter (fun x => decide (k ∈ x.2.hooks))).map (·.1) := by
    unfold hookCalls
    rw [List.filter_map, List.map_map]; rfl
  rw [hc]
  refine ⟨(hp.filter _).map _, fun a m b e lib hm d hd n libn hdn hnP hk => ?_⟩
  generalize (plugInit (plugDir dir P entries)).plugs.map (fun p => (p.name, p.lib)) = l at hp ho e
  obtain ⟨l1, l2, e1, ea, e2⟩ := List.map_eq_append_iff.mp e
  obtain ⟨x, l3, e3, ex, -⟩ := List.map_eq_cons_iff.mp e2
  obtain ⟨f1, f2, f3, f4, f5⟩ := List.filter_eq_append_iff.mp e1
  rw [e3] at f5
  obtain ⟨g1, g2, g3, g4, g5, g6⟩ := List.filter_eq_cons_iff.mp f5
  have hl : l = (f1 ++ g1) ++ x :: g2 := by rw [f3, g3, List.append_assoc]
  have hx : x ∈ P := hp.mem_iff.mp (by rw [hl]; exact List.mem_append_right _ List.mem_cons_self)
  have hxm : x = (m, lib) := keys_inj h.distinct hx hm ex
  have hn : n ∈ P.map (·.1) := List.mem_map_of_mem (f := (·.1)) hnP
  rw [hxm] at hl hx
  rcases ho _ _ _ hl d hd n hdn hn with hin | hneed
  · obtain ⟨y, hy, ey⟩ := List.mem_map.mp hin
    have hyP : y ∈ P := hp.mem_iff.mp (by rw [hl]; exact List.mem_append_left _ hy)
    have hyn : y = (n, libn) := keys_inj h.distinct hyP hnP ey
    subst hyn
    rw [← ea]
    refine List.mem_map.mpr ⟨(n, libn), ?_, rfl⟩
    rw [← f4]
    rcases List.mem_append.mp hy with hy | hy
    · exact List.mem_filter.mpr ⟨hy, decide_eq_true hk⟩
    · exact absurd (decide_eq_true hk) (g4 _ hy)
  · exact absurd (PlugNeeds.trans (.direct hm hd hdn hn) hneed) (hac _)

/-! ### Names shorter than the extension -/

theorem findEarly_long {n : CStr} (h : 3 ≤ n.length) (s : PlugSt) : findEarly n s = false := by
  unfold findEarly
  rw [decide_eq_false (show ¬ n.length < 3 by omega), Bool.and_false]

theorem loadOne_early {E : PlugEnv} {dir : CStr} (hE : ∀ o ∈ E.objs, 3 ≤ (trimExt o.2.name).length ∧ ∀ d ∈ o.2.deps, 3 ≤ d.length) :
    ∀ (fuel : Nat) (n : CStr) (s : PlugSt), 3 ≤ n.length → s.early = false → (loadOne E dir fuel n s).early = false := by
  intro fuel
  induction fuel with
  | zero => intro n s _ hs; exact hs
  | succ fuel ih =>
    intro n s hn hs
    rw [loadOne]
    dsimp only
    have h0 : (s.early || decide (n.length < 3)) = false := by rw [hs, decide_eq_false (show ¬ n.length < 3 by omega)]; rfl
    rw [h0]
    cases ho : E.obj ((dir ++ ['/'] ++ soName n).take 1023) with
    | none => rfl
    | some lib =>
      dsimp only
      split
      · rfl
      · split
        · unfold PlugEnv.obj at ho
          obtain ⟨o, hf, e⟩ := Option.map_eq_some_iff.mp ho
          obtain ⟨h1, h2⟩ := hE o (List.mem_of_find?_eq_some hf)
          rw [e] at h1 h2
          unfold plugRegister
          dsimp only
          rw [findEarly_long h1]
          split
          · rfl
          · have hd : ∀ (ds : List CStr) (t : PlugSt), (∀ d ∈ ds, 3 ≤ d.length) → t.early = false →
                (plugDepends (loadOne E dir fuel) dir ds t).early = false := by
              intro ds
              induction ds with
              | nil => intro t _ ht; exact ht
              | cons d ds ihd =>
                intro t hds ht
                unfold plugDepends
                rw [List.foldl_cons]
                dsimp only
                have h3 := hds d List.mem_cons_self
                have he : (t.early || findEarly d t) = false := by rw [ht, findEarly_long h3]; rfl
                rw [he]
                refine ihd _ (fun x hx => hds x (List.mem_cons_of_mem _ hx)) ?_
                split
                · rfl
                · exact ih d _ h3 rfl
            exact hd _ _ (fun d hd => h2 d (List.mem_of_mem_take hd)) rfl
        · rfl

/-- If all names have three bytes or more, none is read before its beginning. -/
theorem C72_names {E : PlugEnv} (hE : ∀ o ∈ E.objs, 3 ≤ (trimExt o.2.name).length ∧ ∀ d ∈ o.2.deps, 3 ≤ d.length)
    (hd : ∀ d ∈ E.dirs, ∀ n ∈ d.2, n.head? ≠ some '.' → 3 ≤ n.length) : (plugInit E).early = false := by
  have one : ∀ (dir : CStr) (es : List CStr) (s : PlugSt), (∀ n ∈ es, n.head? ≠ some '.' → 3 ≤ n.length) → s.early = false →
      (loadPlugins E s (dir, es)).early = false := by
    intro dir es
    induction es with
    | nil => intro s _ hs; exact hs
    | cons e es ih =>
      intro s h hs
      unfold loadPlugins
      rw [List.foldl_cons]
      refine ih _ (fun n hn => h n (List.mem_cons_of_mem _ hn)) ?_
      dsimp only
      split
      · exact hs
      · rename_i hne
        exact loadOne_early hE _ _ _ (h e List.mem_cons_self hne) hs
  unfold plugInit
  generalize hs : ({} : PlugSt) = s
  have h0 : s.early = false := by rw [← hs]
  clear hs
  generalize E.dirs = ds at hd
  induction ds generalizing s with
  | nil => exact h0
  | cons d ds ih =>
    rw [List.foldl_cons]
    exact ih _ (one d.1 d.2 s (hd d List.mem_cons_self) h0) (fun x hx => hd x (List.mem_cons_of_mem _ hx))

/-! ### Handles -/

/-- A plugin with its own handle -/
def ownPlug (dir : CStr) (x : CStr × PlugLib) : Plug :=
  { name := x.1, lib := x.2, file := objPath dir x.1, handle := some (objPath dir x.1) }

theorem setHandle_snoc (h : CStr) (p : Plug) : ∀ ps : List Plug, setHandle h (ps ++ [p]) = ps ++ [{ p with handle := some h }]
  | [] => rfl
  | [_] => rfl
  | a :: b :: ps => by
    have := setHandle_snoc h p (b :: ps)
    rw [List.cons_append, List.cons_append, setHandle, ← List.cons_append, this]
    rfl

/-- If the directory lists every plugin after those it depends on, each has its own handle. -/
theorem C72_handles_partial {dir : CStr} {P : List (CStr × PlugLib)} (h : PlugTidy dir P (P.map (fun x => x.1 ++ ".so".toList)))
    (hord : ∀ a x b, P = a ++ x :: b → ∀ d ∈ x.2.deps, d ∈ a.map (·.1) ∨ ∀ n ∈ P.map (·.1), ¬ PlugNames d n) :
    (plugInit (plugDir dir P (P.map (fun x => x.1 ++ ".so".toList)))).plugs = P.map (ownPlug dir) := by
  generalize hes : P.map (fun x => x.1 ++ ".so".toList) = entries at h
  suffices key : ∀ (todo done : List (CStr × PlugLib)) (s : PlugSt), P = done ++ todo → PlugInv dir P [] s →
      s.plugs = done.map (ownPlug dir) → (loadPlugins (plugDir dir P entries) s (dir, todo.map (fun x => x.1 ++ ".so".toList))).plugs =
        P.map (ownPlug dir) by
    have h0 : PlugInv dir P [] {} := by
      refine ⟨fun n _ => ?_, List.nodup_nil, fun x hx => (nomatch hx), fun x hx => (nomatch hx), ?_, List.Pairwise.nil, rfl⟩
      · exact ⟨fun h => (nomatch h), fun h => h.elim (fun h => (nomatch h)) (fun h => (nomatch h))⟩
      · intro a x b e
        cases a <;> cases e
    have := key P [] {} rfl h0 rfl
    rw [hes] at this
    exact this
  intro todo
  induction todo with
  | nil =>
    intro done s e _ hs
    rw [e, List.append_nil]
    exact hs
  | cons x todo ih =>
    intro done s e hi hs
    have hxP : x ∈ P := by rw [e]; exact List.mem_append_right _ List.mem_cons_self
    have hxn : x.1 ∈ P.map (·.1) := List.mem_map_of_mem (f := (·.1)) hxP
    have hks : s.keys = done := by
      unfold PlugSt.keys
      rw [hs, List.map_map]
      exact List.map_id' done
    have hnd := h.distinct
    rw [e, List.map_append, List.map_cons] at hnd
    have hfree : x.1 ∉ done.map (·.1) := fun hm => (List.nodup_append.mp hnd).2.2 _ hm _ List.mem_cons_self rfl
    have hnop : objPath dir x.1 ∉ s.opened := by
      rw [hi.opened _ hxn, hks]
      exact fun h => h.elim hfree (fun h => (nomatch h))
    unfold loadPlugins
    rw [List.map_cons, List.foldl_cons]
    dsimp only
    have hdot : ¬ (x.1 ++ ".so".toList).head? = some '.' := by
      obtain ⟨h1, h2⟩ := h.plain x hxP
      cases hx1 : x.1 with
      | nil => exact absurd hx1 h1
      | cons c n => rw [hx1] at h2; exact h2
    rw [if_neg hdot]
    have hl := loadOne_inv h ((plugDir dir P entries).objs.length + 2) [] (x.1 ++ ".so".toList) s hi
      (by unfold plugDir; rw [List.length_map]; omega) (fun n _ _ y hy => nomatch hy)
    refine ih (done ++ [x]) _ (by rw [e]; simp) hl.1 ?_
    rw [loadOne]
    dsimp only
    rw [(h.soName hxn).mpr (.inr rfl)]
    cases ho : (plugDir dir P entries).obj (objPath dir x.1) with
    | none => exact absurd rfl (obj_none ho hxn)
    | some lib =>
      dsimp only
      obtain ⟨m, hm, hpm⟩ := obj_some ho
      have hxm : x = (m, lib) := keys_inj h.distinct hxP hm (objPath_inj hpm)
      rw [if_neg hnop, if_pos (h.named _ hm).1]
      unfold plugRegister
      dsimp only
      have hnm : trimExt lib.name = x.1 := by rw [hxm]; exact (h.named _ hm).2.1
      have hlib : x.2 = lib := by rw [hxm]
      have hdl : lib.deps.take 10 = lib.deps := List.take_of_length_le (h.named _ hm).2.2
      rw [hnm, hdl]
      have hfind : ∀ (t : PlugSt) (n : CStr), t.plugs = s.plugs → plugFind dir n t = decide (n ∈ done.map (·.1)) := by
        intro t n ht
        have : t.keys = done := by
          unfold PlugSt.keys at hks ⊢
          rw [ht]; exact hks
        rw [plugFind_eq (by rw [this, ← hks]; exact fun y hy => h.noext (List.mem_map_of_mem (hi.mem y hy))), this]
      rw [hfind _ _ (by exact rfl), decide_eq_false hfree, if_neg (by decide)]
      have hdeps : ∀ (fuel : Nat) (ds : List CStr) (t : PlugSt), (∀ d ∈ ds, d ∈ done.map (·.1) ∨ ∀ n ∈ P.map (·.1), ¬ PlugNames d n) →
          t.plugs = s.plugs → (plugDepends (loadOne (plugDir dir P entries) dir (fuel + 1)) dir ds t).plugs = s.plugs := by
        intro fuel ds
        induction ds with
        | nil => intro t _ ht; exact ht
        | cons d ds ihd =>
          intro t hds ht
          unfold plugDepends
          rw [List.foldl_cons]
          dsimp only
          refine ihd _ (fun y hy => hds y (List.mem_cons_of_mem _ hy)) ?_
          rw [hfind t d ht]
          rcases hds d List.mem_cons_self with hd | hd
          · rw [decide_eq_true hd, if_pos rfl]
            exact ht
          · split
            · exact ht
            · rw [loadOne]
              dsimp only
              cases hob : (plugDir dir P entries).obj ((dir ++ ['/'] ++ soName d).take 1023) with
              | none => exact ht
              | some lib' =>
                obtain ⟨m', hm', hpm'⟩ := obj_some hob
                exact absurd ((h.soName (List.mem_map_of_mem (f := (·.1)) hm')).mp hpm') (hd m' (List.mem_map_of_mem (f := (·.1)) hm'))
      rw [hdeps _ _ _ (hlib ▸ hord done x todo e) (by exact rfl), setHandle_snoc, hs, List.map_append]
      show _ ++ [_] = _ ++ [_]
      rw [hxm]
      rfl

/-! ### Where the claim fails -/

/-- A name -/
def pn (s : String) : CStr := s.toList

/-- Plugins of finit and the files they are in -/
def somePlugs : List (CStr × PlugLib) :=
  [(pn "usr", { name := pn "usr.c", deps := [pn "bootmisc"], hooks := [3] }),
   (pn "netlink", { name := pn "netlink.c", hooks := [3] }),
   (pn "bootmisc", { name := pn "bootmisc.c", deps := [pn "pidfile"], hooks := [3, 4] }),
   (pn "pidfile", { name := pn "pidfile.c", deps := [pn "netlink"], hooks := [3, 4] })]

def someEntries : List CStr := [pn ".", pn "..", pn "usr.so", pn "netlink.so", pn "bootmisc.so", pn "pidfile.so", pn "README"]

def someDir : CStr := pn "/lib/finit/plugins"

theorem somePlugs_tidy : PlugTidy someDir somePlugs someEntries := by
  refine ⟨?_, ?_, ?_, ?_, ?_⟩ <;> decide +kernel

/-- Whatever is read first, the hooks run in the right order -/
example : hookCalls 3 (plugInit (plugDir someDir somePlugs someEntries)) = [pn "netlink", pn "pidfile", pn "bootmisc", pn "usr"] := by
  decide +kernel

/-- A plugin loaded because another needs it, and found in the directory later: the plugin registered last gets its handle, and is
    never unloaded. -/
theorem C72_handle : (plugInit (plugDir someDir somePlugs someEntries)).plugs.map (fun p => (p.name, p.handle)) =
    [(pn "netlink", some (pn "/lib/finit/plugins/netlink.so")), (pn "pidfile", some (pn "/lib/finit/plugins/pidfile.so")),
     (pn "bootmisc", some (pn "/lib/finit/plugins/bootmisc.so")), (pn "usr", some (pn "/lib/finit/plugins/pidfile.so"))] := by
  decide +kernel

/-- Two directories, with a plugin in the first that depends on one in the second -/
def twoDirs : PlugEnv :=
  { objs := [(pn "/lib/finit/plugins/one.so", { name := pn "one.c", deps := [pn "two"] }),
      (pn "/usr/lib/finit/plugins/two.so", { name := pn "two.c" })]
    dirs := [(pn "/lib/finit/plugins", [pn "one.so"]), (pn "/usr/lib/finit/plugins", [pn "two.so"])] }

theorem C72_later : (plugInit twoDirs).plugs.map (·.name) = [pn "one", pn "two"] := by
  decide +kernel

/-- Plugins built in a directory whose name has `.c` in it all have the same name: only the first is registered. -/
theorem C72_cut :
    (plugInit { objs := [(pn "/p/one.so", { name := pn "/home/me.com/one.c" }), (pn "/p/two.so", { name := pn "/home/me.com/two.c" })]
                dirs := [(pn "/p", [pn "one.so", pn "two.so"])] }).plugs.map (·.name) = [pn "/home/me"] := by
  decide +kernel

/-- A plugin whose file is not called as it is itself: it is not found when another depends on it. -/
theorem C72_file :
    (plugInit { objs := [(pn "/p/one.so", { name := pn "one", deps := [pn "two"] }), (pn "/p/two-1.2.so", { name := pn "two" })]
                dirs := [(pn "/p", [pn "one.so", pn "two-1.2.so"])] }).plugs.map (·.name) = [pn "one", pn "two"] := by
  decide +kernel

/-- Two that depend on each other: the one found first comes last. -/
theorem C72_cycle :
    (plugInit (plugDir (pn "/p") [(pn "one", { name := pn "one", deps := [pn "two"] }), (pn "two", { name := pn "two", deps := [pn "one"] })]
      [pn "one.so", pn "two.so"])).plugs.map (·.name) = [pn "two", pn "one"] := by
  decide +kernel

/-- A name of two bytes is read before its beginning. -/
theorem C72_early : (plugInit (plugDir (pn "/p") [(pn "wd", { name := pn "wd.c" })] [pn "wd.so"])).early = true := by
  decide +kernel

theorem C72_full_false : ¬ C72_full := fun h => by
  obtain ⟨a, p, b, e, hp, -, hd⟩ := h twoDirs (by
      intro o ho
      rcases List.mem_cons.mp ho with rfl | ho
      · exact ⟨rfl, _, List.mem_cons_self, _, List.mem_cons_self, by decide, by decide⟩
      · rw [List.mem_singleton.mp ho]
        exact ⟨rfl, _, List.mem_cons_of_mem _ List.mem_cons_self, _, List.mem_cons_self, by decide, by decide⟩)
    _ List.mem_cons_self
  have hm := hd (pn "two") List.mem_cons_self _ (List.mem_cons_of_mem _ List.mem_cons_self) (by decide +kernel)
  have hn := C72_later
  rw [e, List.map_append, List.map_cons] at hn
  have hpl : p.lib.deps = [pn "two"] := by rw [hp]
  have hall : ∀ q ∈ (plugInit twoDirs).plugs, q.lib.deps = [pn "two"] → q.name = pn "one" := by decide +kernel
  have hpn := hall p (by rw [e]; exact List.mem_append_right _ List.mem_cons_self) hpl
  rw [hpn] at hn
  generalize a.map (·.name) = A at hm hn
  generalize b.map (·.name) = B at hn
  cases A with
  | nil => cases hm
  | cons c A =>
    injection hn with e1 e2
    cases A with
    | nil =>
      injection e2 with e2
      exact absurd e2 (by decide)
    | cons c' A =>
      injection e2 with e2 e3
      cases A <;> cases e3

/-! ### Examples -/

theorem somePlugs_acyclic : ∀ n, ¬ PlugNeeds somePlugs n n := by
  let rank : CStr → Nat := fun n => if n = pn "usr" then 3 else if n = pn "bootmisc" then 2 else if n = pn "pidfile" then 1 else 0
  have hr : ∀ a b, PlugNeeds somePlugs a b → rank b < rank a := by
    intro a b h
    induction h with
    | direct h1 h2 h3 h4 =>
      have : ∀ x ∈ somePlugs, ∀ d ∈ x.2.deps, ∀ n ∈ somePlugs.map (·.1), (d = n ∨ d = n ++ ".so".toList) →
          (if n = pn "usr" then 3 else if n = pn "bootmisc" then 2 else if n = pn "pidfile" then 1 else 0) <
          (if x.1 = pn "usr" then 3 else if x.1 = pn "bootmisc" then 2 else if x.1 = pn "pidfile" then 1 else 0) := by decide +kernel
      exact this _ h1 _ h2 _ h4 h3
    | trans _ _ h1 h2 => exact Nat.lt_trans h2 h1
  exact fun n h => Nat.lt_irrefl _ (hr n n h)

example : (hookCalls 4 (plugInit (plugDir someDir somePlugs someEntries))).length = 2 :=
  (C72_hooks somePlugs_tidy somePlugs_acyclic 4).1.length_eq

/-- The hypotheses of `C72_handles_partial` -/
example : let P := [(pn "netlink", { name := pn "netlink.c" }), (pn "pidfile", { name := pn "pidfile.c", deps := [pn "netlink", pn "nil"] })]
    PlugTidy someDir P (P.map (fun x => x.1 ++ ".so".toList)) ∧
    ∀ a x b, P = a ++ x :: b → ∀ d ∈ x.2.deps, d ∈ a.map (·.1) ∨ ∀ n ∈ P.map (·.1), ¬ PlugNames d n := by
  refine ⟨⟨by decide +kernel, by decide +kernel, by decide +kernel, by decide +kernel, by decide +kernel⟩, ?_⟩
  intro a x b e d hd
  rcases a with _ | ⟨y, _ | ⟨z, a⟩⟩
  · injection e with e
    subst e
    cases hd
  · injection e with e1 e2
    injection e2 with e2
    subst e1 e2
    rcases List.mem_cons.mp hd with rfl | hd
    · exact .inl List.mem_cons_self
    · rw [List.mem_singleton.mp hd]
      exact .inr (by unfold PlugNames; decide +kernel)
  · injection e with e1 e2
    injection e2 with e2 e3
    cases a <;> cases e3

/-- The hypotheses of `C72_names` -/
example : (∀ o ∈ (plugDir someDir somePlugs someEntries).objs, 3 ≤ (trimExt o.2.name).length ∧ ∀ d ∈ o.2.deps, 3 ≤ d.length) ∧
    ∀ d ∈ (plugDir someDir somePlugs someEntries).dirs, ∀ n ∈ d.2, n.head? ≠ some '.' → 3 ≤ n.length := by decide +kernel

end Verif
