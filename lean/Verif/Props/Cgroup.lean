import Verif.Cgroup
import Mathlib.Data.List.Nodup

/-!
# Control group garbage collection (C35)
-/

namespace Verif

/-! ## Specification -/

/-- The groups that come with the system. -/
def builtin : List CStr := ["init".toList, "system".toList, "user".toList]

/-- The configuration asks for this group: a line names it, and the name is a plain directory name. -/
def Configured (conf : List (CStr × CStr)) (n : CStr) : Prop :=
  (∃ cfg, (n, cfg) ∈ conf) ∧ '/' ∉ n ∧ ¬ ['.', '.'] <:+: n

/-- Names that fit the path buffer. -/
def FitNames (ops : List CgOp) : Prop :=
  ∀ busy conf, CgOp.reload busy conf ∈ ops → ∀ line ∈ conf, line.1.length ≤ 240

def names (l : List Cg) : List CStr := l.map (·.name)

/-- After a reload there are the protected groups, the configured ones, and the earlier ones that are still in
    use. -/
def C35_full : Prop :=
  ∀ ops busy conf, FitNames (ops ++ [.reload busy conf]) → ∀ n,
    n ∈ names (cgRun (ops ++ [.reload busy conf])) ↔
      n ∈ builtin ∨ Configured conf n ∨ (n ∈ names (cgRun ops) ∧ busy (cgPath n) = true)

/-! ## Proof -/

theorem cgPath_inj {a b : CStr} (ha : a.length ≤ 240) (hb : b.length ≤ 240) (h : cgPath a = cgPath b) : a = b := by
  unfold cgPath strlcpy at h
  rw [List.take_of_length_le (by simp; omega), List.take_of_length_le (by simp; omega)] at h
  exact List.append_cancel_left h

structure CgGood (l : List Cg) : Prop where
  nodup : (names l).Nodup
  short : ∀ n ∈ names l, n.length ≤ 240

theorem findIdx_mid {pre ys : List Cg} {y : Cg} (h : CgGood (pre ++ y :: ys)) :
    (pre ++ y :: ys).findIdx? (fun g => decide (cgPath g.name = cgPath y.name)) = some pre.length := by
  refine List.findIdx?_eq_some_iff_getElem.mpr ⟨by simp, by simp, ?_⟩
  intro j hj
  simp only [decide_eq_true_eq]
  intro e
  have hjl : j < (pre ++ y :: ys).length := by simp; omega
  have e2 := cgPath_inj (h.short _ (List.mem_map_of_mem (List.getElem_mem hjl)))
    (h.short y.name (List.mem_map_of_mem (by simp))) e
  have := (List.Nodup.getElem_inj_iff h.nodup (i := j) (j := pre.length) (hi := by simp [names]; omega)
    (hj := by simp [names])).mp (by
      simp only [names, List.getElem_map]
      rw [e2]; simp)
  omega

theorem CgGood.sublist {l l' : List Cg} (h : CgGood l) (hs : List.Sublist l' l) : CgGood l' :=
  ⟨h.nodup.sublist (hs.map _), fun n hn => h.short n ((hs.map _).subset hn)⟩

theorem cleanup_eq (busy : CStr → Bool) {l : List Cg} (h : CgGood l) :
    cgCleanup busy l = l.filter fun g => g.active || busy (cgPath g.name) := by
  suffices ∀ ys pre : List Cg, CgGood (pre ++ ys) →
      ys.foldl (fun acc g => if g.active then acc else cgDel busy acc (cgPath g.name)) (pre ++ ys) =
        pre ++ ys.filter fun g => g.active || busy (cgPath g.name) from this l [] h
  intro ys
  induction ys with
  | nil => intro pre _; simp
  | cons y ys ih =>
    intro pre hg
    have keep : pre ++ y :: ys = (pre ++ [y]) ++ ys := by simp
    rw [List.foldl_cons, List.filter_cons]
    by_cases ha : y.active = true
    · rw [if_pos ha, if_pos (by simp [ha]), keep, ih (pre ++ [y]) (by rw [← keep]; exact hg)]; simp
    · rw [if_neg ha]
      have e : cgDel busy (pre ++ y :: ys) (cgPath y.name) =
          if busy (cgPath y.name) then pre ++ y :: ys else pre ++ ys := by
        unfold cgDel
        rw [findIdx_mid hg]
        simp [ha, List.eraseIdx_append_of_length_le]
      rw [e]
      by_cases hb : busy (cgPath y.name) = true
      · rw [if_pos hb, if_pos (by simp [hb]), keep, ih (pre ++ [y]) (by rw [← keep]; exact hg)]; simp
      · rw [if_neg hb, if_neg (by simp [ha, hb])]
        exact ih pre (hg.sublist (by simp))

theorem modify_names {f : Cg → Cg} (h : ∀ g, (f g).name = g.name) (l : List Cg) (i : Nat) :
    names (l.modify i f) = names l := by
  unfold names
  induction l generalizing i with
  | nil => cases i <;> rfl
  | cons a l ih => cases i <;> simp [List.modify_succ_cons, h, ih]

theorem markAll_names (l : List Cg) : names (cgMarkAll l) = names l := by
  unfold names cgMarkAll
  rw [List.map_map]
  refine List.map_congr_left fun g _ => ?_
  show (if g.prot then g else _ : Cg).name = _
  split <;> rfl

/-- What one added line does, group by group. -/
theorem cgAdd_spec (l : List Cg) (h : CgGood l) (n cfg : CStr) (p : Bool) (hn : n.length ≤ 240) :
    CgGood (cgAdd l n cfg p) ∧
    (∀ g, g ∈ cgAdd l n cfg p ↔ (g.name = n ∧ g.active = true ∧ g.prot = p ∧ g.cfg = cfg) ∨ (g ∈ l ∧ g.name ≠ n)) := by
  unfold cgAdd
  cases hf : l.findIdx? (fun g => decide (g.name = n)) with
  | none =>
    have hno : ∀ g ∈ l, g.name ≠ n := fun g hg => by simpa using List.findIdx?_eq_none_iff.mp hf g hg
    refine ⟨⟨?_, ?_⟩, fun g => ?_⟩
    · simp only [names, List.map_append, List.map_cons, List.map_nil]
      rw [List.nodup_append]
      refine ⟨h.nodup, by simp, ?_⟩
      intro a ha b hb hab
      obtain ⟨g, hg, rfl⟩ := List.mem_map.mp ha
      rw [List.mem_singleton.mp hb] at hab
      exact hno g hg hab
    · intro x hx
      simp only [names, List.map_append, List.map_cons, List.map_nil] at hx
      rcases List.mem_append.mp hx with hx | hx
      · exact h.short x hx
      · rw [List.mem_singleton.mp hx]; exact hn
    · dsimp only
      rw [List.mem_append, List.mem_singleton]
      constructor
      · rintro (hg | rfl)
        · exact .inr ⟨hg, hno g hg⟩
        · exact .inl ⟨rfl, rfl, rfl, rfl⟩
      · rintro (⟨h1, h2, h3, h4⟩ | ⟨hg, _⟩)
        · right; cases g; simp_all
        · exact .inl hg
  | some i =>
    obtain ⟨hlt, h2, _⟩ := List.findIdx?_eq_some_iff_getElem.mp hf
    have h2 : l[i].name = n := of_decide_eq_true h2
    dsimp only
    refine ⟨⟨?_, ?_⟩, fun g => ?_⟩
    · rw [modify_names (by intro g; rfl)]; exact h.nodup
    · rw [modify_names (by intro g; rfl)]; exact h.short
    · constructor
      · intro hg
        obtain ⟨j, hj, rfl⟩ := List.mem_iff_getElem.mp hg
        rw [List.getElem_modify]
        split
        · exact .inl ⟨by rename_i e; subst e; exact h2, rfl, rfl, rfl⟩
        · rename_i hij
          have hj' : j < l.length := by simpa using hj
          refine .inr ⟨List.getElem_mem hj', ?_⟩
          intro e
          have := (List.Nodup.getElem_inj_iff h.nodup (i := i) (j := j) (hi := by simpa [names] using hlt)
            (hj := by simpa [names] using hj')).mp (by simp only [names, List.getElem_map, h2, e])
          exact hij this
      · rintro (⟨h1, h3, h4, h5⟩ | ⟨hg, hne⟩)
        · refine List.mem_iff_getElem.mpr ⟨i, by simpa using hlt, ?_⟩
          rw [List.getElem_modify_eq]
          cases g
          simp_all
        · obtain ⟨j, hj, rfl⟩ := List.mem_iff_getElem.mp hg
          refine List.mem_iff_getElem.mpr ⟨j, by simpa using hj, ?_⟩
          rw [List.getElem_modify, if_neg]
          rintro rfl
          exact hne h2

theorem configured_cons (line : CStr × CStr) (conf : List (CStr × CStr)) (n : CStr) :
    Configured (line :: conf) n ↔ (n = line.1 ∧ '/' ∉ n ∧ ¬ ['.', '.'] <:+: n) ∨ Configured conf n := by
  unfold Configured
  constructor
  · rintro ⟨⟨cfg, h⟩, h2⟩
    rcases List.mem_cons.mp h with e | h
    · exact .inl ⟨congrArg Prod.fst e, h2⟩
    · exact .inr ⟨⟨cfg, h⟩, h2⟩
  · rintro (⟨e, h2⟩ | ⟨⟨cfg, h⟩, h2⟩)
    · exact ⟨⟨line.2, by rw [e]; exact List.mem_cons_self⟩, h2⟩
    · exact ⟨⟨cfg, List.mem_cons_of_mem _ h⟩, h2⟩

/-- What the lines of a configuration do, group by group. -/
theorem parse_spec : ∀ (conf : List (CStr × CStr)) (l : List Cg), CgGood l → (∀ line ∈ conf, line.1.length ≤ 240) →
    CgGood (conf.foldl cgParse l) ∧
    (∀ g ∈ conf.foldl cgParse l, (Configured conf g.name ∧ g.active = true ∧ g.prot = false) ∨
      (¬ Configured conf g.name ∧ g ∈ l)) ∧
    (∀ n, n ∈ names (conf.foldl cgParse l) ↔ Configured conf n ∨ n ∈ names l)
  | [], l, h, _ => by
    have no : ∀ n, ¬ Configured [] n := fun n ⟨⟨_, h⟩, _⟩ => by cases h
    exact ⟨h, fun g hg => .inr ⟨no _, hg⟩, fun n => ⟨.inr, fun h => h.elim (fun h => absurd h (no n)) id⟩⟩
  | line :: conf, l, h, hs => by
    rw [List.foldl_cons]
    have hs' : ∀ x ∈ conf, x.1.length ≤ 240 := fun x hx => hs x (List.mem_cons_of_mem _ hx)
    by_cases hl : line.1.contains '/' ∨ ['.', '.'] <:+: line.1
    · have e : cgParse l line = l := if_pos hl
      have e2 : ∀ n, Configured (line :: conf) n ↔ Configured conf n := by
        intro n
        rw [configured_cons]
        refine ⟨fun h => h.elim ?_ id, .inr⟩
        rintro ⟨rfl, h1, h2⟩
        rcases hl with hl | hl
        · exact absurd (by simpa using hl) h1
        · exact absurd hl h2
      rw [e]
      simp only [e2]
      exact parse_spec conf l h hs'
    · have e : cgParse l line = cgAdd l line.1 line.2 false := if_neg hl
      have e2 : ∀ n, Configured (line :: conf) n ↔ n = line.1 ∨ Configured conf n := by
        intro n
        rw [configured_cons]
        refine or_congr_left ⟨fun h => h.1, fun h => ⟨h, ?_, ?_⟩⟩
        · rw [h]; intro h'; exact hl (.inl (by simpa using h'))
        · rw [h]; intro h'; exact hl (.inr h')
      obtain ⟨hg, hm⟩ := cgAdd_spec l h line.1 line.2 false (hs line List.mem_cons_self)
      rw [e]
      obtain ⟨i1, i2, i3⟩ := parse_spec conf _ hg hs'
      refine ⟨i1, ?_, ?_⟩
      · intro g hgm
        rw [e2]
        rcases i2 g hgm with ⟨h1, h2⟩ | ⟨h1, h2⟩
        · exact .inl ⟨.inr h1, h2⟩
        · rcases (hm g).mp h2 with ⟨a, b, c, _⟩ | ⟨a, b⟩
          · exact .inl ⟨.inl a, b, c⟩
          · exact .inr ⟨fun h' => h'.elim b h1, a⟩
      · intro n
        rw [i3 n, e2]
        have : n ∈ names (cgAdd l line.1 line.2 false) ↔ n = line.1 ∨ n ∈ names l := by
          unfold names
          constructor
          · intro h'
            obtain ⟨g, hg', rfl⟩ := List.mem_map.mp h'
            rcases (hm g).mp hg' with ⟨a, _⟩ | ⟨a, _⟩
            · exact .inl a
            · exact .inr (List.mem_map_of_mem a)
          · intro h'
            by_cases hn : n = line.1
            · exact List.mem_map.mpr ⟨⟨n, line.2, false, true⟩, (hm _).mpr (.inl ⟨hn, rfl, rfl, rfl⟩), rfl⟩
            · rcases h' with h' | h'
              · exact absurd h' hn
              · obtain ⟨g, hg', rfl⟩ := List.mem_map.mp h'
                exact List.mem_map_of_mem ((hm g).mpr (.inr ⟨hg', hn⟩))
        rw [this]
        constructor
        · rintro (h | h | h)
          · exact .inl (.inr h)
          · exact .inl (.inl h)
          · exact .inr h
        · rintro ((h | h) | h)
          · exact .inr (.inl h)
          · exact .inl h
          · exact .inr (.inr h)

theorem markAll_good {l : List Cg} (h : CgGood l) : CgGood (cgMarkAll l) :=
  ⟨by rw [markAll_names]; exact h.nodup, by rw [markAll_names]; exact h.short⟩

/-- Protected groups are active. -/
def ProtActive (l : List Cg) : Prop := ∀ g ∈ l, g.prot = true → g.active = true

theorem reload_spec (busy : CStr → Bool) {l : List Cg} (h : CgGood l) (hp : ProtActive l)
    (conf : List (CStr × CStr)) (hs : ∀ line ∈ conf, line.1.length ≤ 240) :
    CgGood (cgReload busy l conf) ∧
    (∀ g ∈ cgReload busy l conf, (Configured conf g.name ∧ g.active = true ∧ g.prot = false) ∨
      (¬ Configured conf g.name ∧ ∃ g' ∈ l, g'.name = g.name ∧ g'.prot = g.prot ∧ (g.prot = true → g.active = true))) ∧
    (∀ n, n ∈ names (cgReload busy l conf) ↔
      Configured conf n ∨ ∃ g ∈ l, g.name = n ∧ (g.prot = true ∨ busy (cgPath n) = true)) := by
  obtain ⟨i1, i2, i3⟩ := parse_spec conf (cgMarkAll l) (markAll_good h) hs
  have hmark : ∀ g ∈ cgMarkAll l, ∃ g' ∈ l, g'.name = g.name ∧ g'.prot = g.prot ∧
      (g.active = true ↔ g.prot = true) := by
    intro g hg
    obtain ⟨g', hg', rfl⟩ := List.mem_map.mp hg
    refine ⟨g', hg', ?_⟩
    by_cases hpr : g'.prot = true
    · rw [if_pos hpr]; exact ⟨rfl, rfl, ⟨fun _ => hpr, fun _ => hp g' hg' hpr⟩⟩
    · rw [if_neg hpr]; exact ⟨rfl, rfl, ⟨fun h => Bool.noConfusion h, fun h => absurd h hpr⟩⟩
  unfold cgReload
  rw [cleanup_eq busy i1]
  refine ⟨i1.sublist List.filter_sublist, ?_, ?_⟩
  · intro g hg
    rcases i2 g (List.mem_filter.mp hg).1 with hc | ⟨hc, hm⟩
    · exact .inl hc
    · obtain ⟨g', hg', h1, h2, h3⟩ := hmark g hm
      exact .inr ⟨hc, g', hg', h1, h2, h3.mpr⟩
  · intro n
    constructor
    · intro hn
      obtain ⟨g, hg, rfl⟩ := List.mem_map.mp hn
      obtain ⟨hg1, hg2⟩ := List.mem_filter.mp hg
      rcases i2 g hg1 with hc | ⟨hc, hm⟩
      · exact .inl hc.1
      · obtain ⟨g', hg', h1, h2, h3⟩ := hmark g hm
        refine .inr ⟨g', hg', h1, ?_⟩
        rw [h2, ← h3]
        simpa using hg2
    · intro hn
      have hin : n ∈ names (conf.foldl cgParse (cgMarkAll l)) := by
        rw [i3, markAll_names]
        rcases hn with h | ⟨g, hg, rfl, _⟩
        · exact .inl h
        · exact .inr (List.mem_map_of_mem hg)
      obtain ⟨g, hg, hgn⟩ := List.mem_map.mp hin
      refine List.mem_map.mpr ⟨g, List.mem_filter.mpr ⟨hg, ?_⟩, hgn⟩
      rcases i2 g hg with hc | ⟨hc, hm⟩
      · simp [hc.2.1]
      · rw [hgn] at hc
        rcases hn with h' | ⟨g0, hg0, h0, h1⟩
        · exact absurd h' hc
        · obtain ⟨g', hg', h3, h4, h5⟩ := hmark g hm
          rcases h1 with h1 | h1
          · -- the same group, by name
            have : g' = g0 := by
              obtain ⟨i, hi, rfl⟩ := List.mem_iff_getElem.mp hg'
              obtain ⟨j, hj, rfl⟩ := List.mem_iff_getElem.mp hg0
              have := (List.Nodup.getElem_inj_iff h.nodup (i := i) (j := j) (hi := by simpa [names] using hi)
                (hj := by simpa [names] using hj)).mp (by simp only [names, List.getElem_map, h3, hgn, h0])
              subst this; rfl
            have : g.active = true := h5.mpr (by rw [← h4, this]; exact h1)
            simp [this]
          · simp [hgn, h1]

theorem del_spec (busy : CStr → Bool) (l : List Cg) (dir : CStr) :
    List.Sublist (cgDel busy l dir) l ∧ ∀ g ∈ l, g.active = true → CgGood l → g ∈ cgDel busy l dir := by
  unfold cgDel
  split
  · exact ⟨List.Sublist.refl _, fun g hg _ _ => hg⟩
  · rename_i i hf
    split
    · exact ⟨List.Sublist.refl _, fun g hg _ _ => hg⟩
    · rename_i ha
      split
      · exact ⟨List.Sublist.refl _, fun g hg _ _ => hg⟩
      · refine ⟨List.eraseIdx_sublist _ _, fun g hg hga _ => ?_⟩
        obtain ⟨j, hj, rfl⟩ := List.mem_iff_getElem.mp hg
        refine List.mem_eraseIdx_iff_getElem.mpr ⟨j, hj, ?_, rfl⟩
        rintro rfl
        rw [List.getElem?_eq_getElem hj] at ha
        simp [hga] at ha

/-- The names that no configuration of the history gives. -/
def LeavesBuiltin (ops : List CgOp) : Prop :=
  ∀ busy conf, CgOp.reload busy conf ∈ ops → ∀ n ∈ builtin, ¬ Configured conf n

structure CgInv (strict : Prop) (l : List Cg) : Prop where
  good : CgGood l
  act : ProtActive l
  prot : ∀ g ∈ l, g.prot = true → g.name ∈ builtin
  all : strict → ∀ n ∈ builtin, ∃ g ∈ l, g.name = n ∧ g.prot = true

theorem cgRun_inv (ops : List CgOp) (hf : FitNames ops) : CgInv (LeavesBuiltin ops) (cgRun ops) := by
  suffices ∀ (todo : List CgOp) (l : List Cg), (∀ op ∈ todo, op ∈ ops) → CgInv (LeavesBuiltin ops) l →
      CgInv (LeavesBuiltin ops) (todo.foldl cgStep l) from
    this ops cgInit (fun _ h => h) ⟨⟨by decide, by decide +kernel⟩, by unfold ProtActive; decide, by decide +kernel,
      fun _ => by decide +kernel⟩
  intro todo
  induction todo with
  | nil => intro l _ h; exact h
  | cons op todo ih =>
    intro l ho h
    refine ih _ (fun o h' => ho o (List.mem_cons_of_mem _ h')) ?_
    have hop := ho op List.mem_cons_self
    cases op with
    | reload busy conf =>
      obtain ⟨i1, i2, i3⟩ := reload_spec busy h.good h.act conf (hf busy conf hop)
      refine ⟨i1, ?_, ?_, ?_⟩
      · intro g hg hp
        rcases i2 g hg with hc | ⟨_, g', _, _, _, h4⟩
        · exact hc.2.1
        · exact h4 hp
      · intro g hg hp
        rcases i2 g hg with hc | ⟨_, g', hg', h2, h3, _⟩
        · rw [hc.2.2] at hp; cases hp
        · rw [← h2]; exact h.prot g' hg' (by rw [h3]; exact hp)
      · intro hs n hn
        have hnc := hs busy conf hop n hn
        obtain ⟨g0, hg0, h0, h1⟩ := h.all hs n hn
        have hin := (i3 n).mpr (.inr ⟨g0, hg0, h0, .inl h1⟩)
        obtain ⟨g, hg, hgn⟩ := List.mem_map.mp hin
        refine ⟨g, hg, hgn, ?_⟩
        rcases i2 g hg with hc | ⟨_, g', hg', h2, h3, _⟩
        · rw [hgn] at hc; exact absurd hc.1 hnc
        · have : g' = g0 := by
            obtain ⟨i, hi, rfl⟩ := List.mem_iff_getElem.mp hg'
            obtain ⟨j, hj, rfl⟩ := List.mem_iff_getElem.mp hg0
            have := (List.Nodup.getElem_inj_iff h.good.nodup (i := i) (j := j) (hi := by simpa [names] using hi)
              (hj := by simpa [names] using hj)).mp (by simp only [names, List.getElem_map, h2, hgn, h0])
            subst this; rfl
          rw [← h3, this]; exact h1
    | empty busy dir =>
      obtain ⟨d1, d2⟩ := del_spec busy l dir
      refine ⟨h.good.sublist d1, fun g hg => h.act g (d1.subset hg), fun g hg => h.prot g (d1.subset hg), ?_⟩
      intro hs n hn
      obtain ⟨g, hg, hgn, hgp⟩ := h.all hs n hn
      exact ⟨g, d2 g hg (h.act g hg hgp) h.good, hgn, hgp⟩

theorem cgRun_snoc (ops : List CgOp) (op : CgOp) : cgRun (ops ++ [op]) = cgStep (cgRun ops) op := by
  simp [cgRun, List.foldl_append]

/-- Exactly the promised groups remain, if no configuration names one of the protected groups. -/
theorem C35_groups_partial (ops : List CgOp) (busy : CStr → Bool) (conf : List (CStr × CStr))
    (hf : FitNames (ops ++ [.reload busy conf])) (hb : LeavesBuiltin (ops ++ [.reload busy conf])) (n : CStr) :
    n ∈ names (cgRun (ops ++ [.reload busy conf])) ↔
      n ∈ builtin ∨ Configured conf n ∨ (n ∈ names (cgRun ops) ∧ busy (cgPath n) = true) := by
  have hi := cgRun_inv ops (fun b c h => hf b c (List.mem_append_left _ h))
  have hb' : LeavesBuiltin ops := fun b c h => hb b c (List.mem_append_left _ h)
  rw [cgRun_snoc]
  obtain ⟨_, _, i3⟩ := reload_spec busy hi.good hi.act conf (hf busy conf (by simp))
  refine (i3 n).trans ?_
  constructor
  · rintro (h | ⟨g, hg, rfl, h | h⟩)
    · exact .inr (.inl h)
    · exact .inl (hi.prot g hg h)
    · exact .inr (.inr ⟨List.mem_map_of_mem hg, h⟩)
  · rintro (h | h | ⟨h, h2⟩)
    · obtain ⟨g, hg, h1, h2⟩ := hi.all hb' n h
      exact .inr ⟨g, hg, h1, .inl h2⟩
    · exact .inl h
    · obtain ⟨g, hg, h1⟩ := List.mem_map.mp h
      exact .inr ⟨g, hg, h1, .inr h2⟩

/-- What holds for every configuration: the configured groups and those still in use remain, and nothing else
    but protected groups does. -/
theorem C35_groups_any (ops : List CgOp) (busy : CStr → Bool) (conf : List (CStr × CStr))
    (hf : FitNames (ops ++ [.reload busy conf])) (n : CStr) :
    (Configured conf n ∨ (n ∈ names (cgRun ops) ∧ busy (cgPath n) = true) →
      n ∈ names (cgRun (ops ++ [.reload busy conf]))) ∧
    (n ∈ names (cgRun (ops ++ [.reload busy conf])) → n ∈ builtin ∨ Configured conf n ∨
      (n ∈ names (cgRun ops) ∧ busy (cgPath n) = true)) := by
  have hi := cgRun_inv ops (fun b c h => hf b c (List.mem_append_left _ h))
  rw [cgRun_snoc]
  obtain ⟨_, _, i3⟩ := reload_spec busy hi.good hi.act conf (hf busy conf (by simp))
  refine ⟨fun h => (i3 n).mpr ?_, fun h => ?_⟩
  · rcases h with h | ⟨h, h2⟩
    · exact .inl h
    · obtain ⟨g, hg, h1⟩ := List.mem_map.mp h
      exact .inr ⟨g, hg, h1, .inr h2⟩
  · rcases (i3 n).mp h with h | ⟨g, hg, rfl, h | h⟩
    · exact .inr (.inl h)
    · exact .inl (hi.prot g hg h)
    · exact .inr (.inr ⟨List.mem_map_of_mem hg, h⟩)

def sampleConf : List (CStr × CStr) := [("maint".toList, "cpu.weight:10".toList), ("a/b".toList, [])]

example : names (cgRun [.reload (fun _ => true) sampleConf, .reload (fun _ => true) []]) =
      ["init".toList, "system".toList, "user".toList, "maint".toList] ∧
    names (cgRun [.reload (fun _ => true) sampleConf, .reload (fun _ => false) []]) =
      ["init".toList, "system".toList, "user".toList] := by decide +kernel

/-- The promise fails once a configuration has named a protected group: it has lost its protection, and the next
    configuration without it removes it. -/
theorem C35_protection_lost : ¬ C35_full ∧
    names (cgRun [.reload (fun _ => false) [("user".toList, [])], .reload (fun _ => false) []]) =
      ["init".toList, "system".toList] := by
  have h : names (cgRun [.reload (fun _ => false) [("user".toList, [])], .reload (fun _ => false) []]) =
      ["init".toList, "system".toList] := by decide +kernel
  refine ⟨fun H => ?_, h⟩
  have := (H [.reload (fun _ => false) [("user".toList, [])]] (fun _ => false) [] (by
    intro b c hm line hl
    simp only [List.cons_append, List.nil_append, List.mem_cons, CgOp.reload.injEq, List.not_mem_nil, or_false] at hm
    rcases hm with ⟨_, rfl⟩ | ⟨_, rfl⟩
    · rw [List.mem_singleton.mp hl]; decide
    · cases hl) "user".toList).mpr (.inl (by decide))
  rw [show [CgOp.reload (fun _ => false) [("user".toList, [])]] ++ [CgOp.reload (fun _ => false) []] =
    [.reload (fun _ => false) [("user".toList, [])], .reload (fun _ => false) []] from rfl, h] at this
  revert this; decide

end Verif
