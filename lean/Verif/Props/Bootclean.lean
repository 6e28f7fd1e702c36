import Verif.Bootclean

/-!
# C82: cleaning up at boot
-/

namespace Verif

/-! ## Specification -/

/-- The path is in the directory, at any depth. -/
def BelowDir (d p : List CStr) : Prop := ∃ n r, p = d ++ n :: r

/-- There is one entry for each path, and every entry is in a directory. -/
structure BSound (fs : BFs) : Prop where
  nodup : (fs.map (·.1)).Nodup
  parent : ∀ p k, (p, k) ∈ fs → p ≠ [] → (p.dropLast, BNode.dir) ∈ fs

/-- No link in the directory leads to a directory. -/
def NoDirLinks (fs : BFs) (d : List CStr) : Prop :=
  ∀ p t, (p, BNode.link (some t)) ∈ fs → BelowDir d p → (t, BNode.dir) ∉ fs

/-- What is mounted on a directory last, which is what is seen there, is a tmpfs. -/
def OnTmpfs (mounts : List (List CStr × CStr)) (r : List CStr) : Prop :=
  ∃ pre post, mounts = pre ++ (r, "tmpfs".toList) :: post ∧ ∀ m ∈ post, m.1 ≠ r

/-- There are not two mounts on any of the directories. -/
def MountedOnce (mounts : List (List CStr × CStr)) (real : List CStr → Option (List CStr)) : Prop :=
  ∀ d ∈ [["tmp".toList], ["var".toList, "run".toList], ["var".toList, "lock".toList]], ∀ r, real d = some r →
    ∀ pre m post, mounts = pre ++ m :: post → m.1 = r → ∀ m' ∈ pre, m'.1 ≠ r

/-- The directories to be cleaned: those that are no tmpfs -/
def ToClean (mounts : List (List CStr × CStr)) (real : List CStr → Option (List CStr)) (r : List CStr) : Prop :=
  ∃ d, d ∈ [["tmp".toList], ["var".toList, "run".toList], ["var".toList, "lock".toList]] ∧ real d = some r ∧
    ¬ OnTmpfs mounts r

/-- Full statement of C82 (false of the code, see below): at boot all that is in the directories for temporary files is removed,
    and nothing else. -/
def C82_full : Prop :=
  ∀ (mounts : List (List CStr × CStr)) (real : List CStr → Option (List CStr)) (fs : BFs), BSound fs →
    ∀ p k, (p, k) ∈ bClean mounts real fs ↔ (p, k) ∈ fs ∧ ∀ r, ToClean mounts real r → ¬ BelowDir r p

/-! ## Proof -/

theorem mem_bKids {fs : BFs} {d : List CStr} {e : List CStr × BNode} :
    e ∈ bKids fs d ↔ e ∈ fs ∧ ∃ n, e.1 = d ++ [n] := by
  unfold bKids
  rw [List.mem_filter, decide_eq_true_iff]
  constructor
  · rintro ⟨h, h0, rfl⟩
    exact ⟨h, e.1.getLast h0, (List.dropLast_concat_getLast h0).symm⟩
  · rintro ⟨h, n, hn⟩
    rw [hn]
    exact ⟨h, by simp, by simp⟩

/-- Whether a path is at or below another, as a test -/
def bUnder (c p : List CStr) : Bool := c.isPrefixOf p

theorem bUnder_iff {c p : List CStr} : bUnder c p = true ↔ c <+: p := List.isPrefixOf_iff_prefix

/-- Whether a path is below another, as a test -/
def bBelow (d p : List CStr) : Bool := d.isPrefixOf p && decide (d ≠ p)

theorem bBelow_iff {d p : List CStr} : bBelow d p = true ↔ BelowDir d p := by
  unfold bBelow BelowDir
  rw [Bool.and_eq_true, List.isPrefixOf_iff_prefix, decide_eq_true_iff]
  constructor
  · rintro ⟨⟨t, rfl⟩, h⟩
    cases t with
    | nil => exact absurd (List.append_nil d).symm h
    | cons n r => exact ⟨n, r, rfl⟩
  · rintro ⟨n, r, rfl⟩
    refine ⟨⟨_, rfl⟩, fun h => ?_⟩
    have := congrArg List.length h
    simp at this

theorem prefix_dropLast {c p : List CStr} (h : c <+: p) (hne : c ≠ p) : c <+: p.dropLast := by
  obtain ⟨t, rfl⟩ := h
  cases ht : t with
  | nil => rw [ht, List.append_nil] at hne; exact absurd rfl hne
  | cons a b =>
    rw [List.dropLast_append_of_ne_nil (by simp)]
    exact ⟨_, rfl⟩

/-- All directories above an entry are there. -/
theorem BSound.above {fs : BFs} (h : BSound fs) {p c : List CStr} {k : BNode} (hp : (p, k) ∈ fs) (hc : c <+: p) (hne : c ≠ p) :
    (c, BNode.dir) ∈ fs := by
  generalize hl : p.length = l
  induction l generalizing p k with
  | zero =>
    have : p = [] := List.length_eq_zero_iff.1 hl
    subst this
    exact absurd (List.prefix_nil.1 hc) hne
  | succ l ih =>
    have h0 : p ≠ [] := by intro e; rw [e] at hl; simp at hl
    have hpar := h.parent p k hp h0
    by_cases e : c = p.dropLast
    · rw [e]; exact hpar
    · exact ih hpar (prefix_dropLast hc hne) e (by simp [hl])

theorem BSound.uniq {fs : BFs} (h : BSound fs) {p : List CStr} {k k' : BNode} (a : (p, k) ∈ fs) (b : (p, k') ∈ fs) : k = k' := by
  have := h.nodup
  clear h
  induction fs with
  | nil => simp at a
  | cons x fs ih =>
    rw [List.map_cons, List.nodup_cons] at this
    rcases List.mem_cons.1 a with ha | ha <;> rcases List.mem_cons.1 b with hb | hb
    · rw [← ha] at hb; exact (Prod.mk.inj hb).2.symm
    · exact absurd (List.mem_map.2 ⟨_, hb, by rw [← ha]⟩) this.1
    · exact absurd (List.mem_map.2 ⟨_, ha, by rw [← hb]⟩) this.1
    · exact ih ha hb this.2

/-- The directories not entered yet -/
def bLeft (fs : BFs) (seen : List (List CStr)) : Nat := (fs.filter (fun e => decide (e.2 = .dir ∧ e.1 ∉ seen))).length

theorem filter_length_mono {α : Type} {p q : α → Bool} (l : List α) (h : ∀ x ∈ l, p x = true → q x = true) :
    (l.filter p).length ≤ (l.filter q).length := by
  induction l with
  | nil => simp
  | cons a l ih =>
    have := ih (fun x hx => h x (by simp [hx]))
    rw [List.filter_cons, List.filter_cons]
    by_cases hp : p a = true
    · rw [if_pos hp, if_pos (h a (by simp) hp)]; simp only [List.length_cons]; omega
    · rw [if_neg hp]
      split
      · simp only [List.length_cons]; omega
      · exact this

theorem filter_length_lt {α : Type} {p q : α → Bool} (l : List α) (h : ∀ x ∈ l, p x = true → q x = true) {a : α} (ha : a ∈ l)
    (hq : q a = true) (hp : p a = false) : (l.filter p).length < (l.filter q).length := by
  induction l with
  | nil => simp at ha
  | cons b l ih =>
    rw [List.filter_cons, List.filter_cons]
    rcases List.mem_cons.1 ha with rfl | hm
    · have := filter_length_mono l (fun x hx => h x (by simp [hx]))
      rw [if_neg (by simp [hp]), if_pos hq]
      simp only [List.length_cons]; omega
    · have := ih (fun x hx => h x (by simp [hx])) hm
      by_cases hpb : p b = true
      · rw [if_pos hpb, if_pos (h b (by simp) hpb)]; simp only [List.length_cons]; omega
      · rw [if_neg hpb]
        split
        · simp only [List.length_cons]; omega
        · exact this

theorem bLeft_mono (fs : BFs) {a b : List (List CStr)} (h : ∀ x ∈ a, x ∈ b) : bLeft fs b ≤ bLeft fs a := by
  apply filter_length_mono
  intro e _ he
  have := of_decide_eq_true he
  exact decide_eq_true ⟨this.1, fun hm => this.2 (h _ hm)⟩

theorem bLeft_lt (fs : BFs) {d : List CStr} {seen : List (List CStr)} (hd : (d, BNode.dir) ∈ fs) (hs : d ∉ seen) :
    bLeft fs (d :: seen) < bLeft fs seen := by
  refine filter_length_lt fs ?_ hd (decide_eq_true ⟨rfl, hs⟩) (decide_eq_false (by simp))
  intro e _ he
  have := of_decide_eq_true he
  exact decide_eq_true ⟨this.1, fun hm => this.2 (by simp [hm])⟩

/-- The body of the loop over a directory -/
def bStep (fs : BFs) (n : Nat) (acc : List (List CStr) × List (List CStr)) (e : List CStr × BNode) :
    List (List CStr) × List (List CStr) :=
  match bEnter fs e with
  | none => (acc.1 ++ [e.1], acc.2)
  | some t =>
    if t ∈ acc.2 then acc
    else ((acc.1 ++ ((bWalk fs n t acc.2).1 ++ [e.1])), (bWalk fs n t acc.2).2)

theorem bWalk_succ (fs : BFs) (n : Nat) (d : List CStr) (seen : List (List CStr)) :
    bWalk fs (n + 1) d seen = (bKids fs d).foldl (bStep fs n) ([], d :: seen) := rfl

/-- What is removed and entered for one directory without links to directories -/
structure BDone (fs : BFs) (d : List CStr) (seen : List (List CStr)) (r : List (List CStr) × List (List CStr)) : Prop where
  effect : ∀ q : List CStr → Bool, (∀ p, d <+: p → q p = true) →
    r.1.foldl bRemove (fs.filter (fun e => q e.1)) = fs.filter (fun e => q e.1 && !bBelow d e.1)
  keeps : ∀ x ∈ seen, x ∈ r.2
  fresh : ∀ x ∈ r.2, x ∈ seen ∨ d <+: x

theorem filter_eq_of {α : Type} {p q : α → Bool} {l : List α} (h : ∀ x ∈ l, p x = q x) : l.filter p = l.filter q :=
  List.filter_congr h

/-- Removing one entry whose own entries are gone -/
theorem bRemove_filter {fs : BFs} {q : List CStr → Bool} {c : List CStr}
    (hk : ∀ e ∈ fs, q e.1 = true → ∀ n, e.1 ≠ c ++ [n]) :
    bRemove (fs.filter (fun e => q e.1)) c = fs.filter (fun e => q e.1 && decide (e.1 ≠ c)) := by
  unfold bRemove
  rw [if_neg, List.filter_filter]
  · apply filter_eq_of
    intro e _
    rw [Bool.and_comm]
  · rintro ⟨_, hne⟩
    obtain ⟨e, he⟩ := List.exists_mem_of_ne_nil _ hne
    obtain ⟨hm, n, hn⟩ := mem_bKids.1 he
    obtain ⟨h1, h2⟩ := List.mem_filter.1 hm
    exact hk e h1 h2 n hn

theorem two_kids {d p : List CStr} {a b : CStr} (h1 : d ++ [a] <+: p) (h2 : d ++ [b] <+: p) : a = b := by
  obtain ⟨t, rfl⟩ := h1
  obtain ⟨u, hu⟩ := h2
  simp only [List.append_assoc, List.append_cancel_left_eq, List.cons_append, List.nil_append, List.cons.injEq] at hu
  exact hu.1.symm

/-- The loop over some entries of a directory -/
theorem bFold {fs : BFs} (hs : BSound fs) {n : Nat} {d : List CStr} (hno : NoDirLinks fs d)
    (ih : ∀ c seen, (c, BNode.dir) ∈ fs → c ∉ seen → (∀ v ∈ seen, ¬ BelowDir c v) → NoDirLinks fs c → bLeft fs seen ≤ n →
      BDone fs c seen (bWalk fs n c seen)) :
    ∀ (es : BFs) (acc : List (List CStr) × List (List CStr)), (∀ e ∈ es, e ∈ bKids fs d) → (es.map (·.1)).Nodup →
      (∀ e ∈ es, ∀ v ∈ acc.2, ¬ e.1 <+: v) → bLeft fs acc.2 ≤ n →
      ∃ rm, (es.foldl (bStep fs n) acc).1 = acc.1 ++ rm ∧
        (∀ q : List CStr → Bool, (∀ e ∈ es, ∀ p, e.1 <+: p → q p = true) →
          rm.foldl bRemove (fs.filter (fun e => q e.1)) =
            fs.filter (fun x => q x.1 && es.all (fun e => !bUnder e.1 x.1))) ∧
        (∀ x ∈ acc.2, x ∈ (es.foldl (bStep fs n) acc).2) ∧
        (∀ x ∈ (es.foldl (bStep fs n) acc).2, x ∈ acc.2 ∨ ∃ e ∈ es, e.1 <+: x) := by
  intro es
  induction es with
  | nil =>
    intro acc _ _ _ _
    refine ⟨[], by simp, ?_, fun x hx => hx, fun x hx => Or.inl hx⟩
    intro q _
    simp
  | cons e es ihe =>
    intro acc hk hnd hseen hl
    obtain ⟨hefs, nm, hnm⟩ := mem_bKids.1 (hk e (by simp))
    rw [List.map_cons, List.nodup_cons] at hnd
    -- one step
    have hone : ∃ rm, (bStep fs n acc e).1 = acc.1 ++ rm ∧
        (∀ q : List CStr → Bool, (∀ p, e.1 <+: p → q p = true) →
          rm.foldl bRemove (fs.filter (fun x => q x.1)) = fs.filter (fun x => q x.1 && !bUnder e.1 x.1)) ∧
        (∀ x ∈ acc.2, x ∈ (bStep fs n acc e).2) ∧ (∀ x ∈ (bStep fs n acc e).2, x ∈ acc.2 ∨ e.1 <+: x) := by
      unfold bStep
      cases hent : bEnter fs e with
      | none =>
        refine ⟨[e.1], rfl, ?_, fun x hx => hx, fun x hx => Or.inl hx⟩
        intro q hq
        have hleaf : ∀ x ∈ fs, e.1 <+: x.1 → x.1 = e.1 := by
          intro x hx hpre
          by_cases hxe : e.1 = x.1
          · exact hxe.symm
          · have hd := hs.above (p := x.1) (k := x.2) hx hpre hxe
            have := hs.uniq (p := e.1) (k := e.2) hefs hd
            unfold bEnter at hent
            rw [this] at hent
            cases hent
        rw [List.foldl_cons, List.foldl_nil, bRemove_filter]
        · apply filter_eq_of
          intro x hx
          congr 1
          by_cases hxe : x.1 = e.1
          · have : bUnder e.1 x.1 = true := bUnder_iff.2 (hxe ▸ List.prefix_refl _)
            rw [this]; simp [hxe]
          · have : bUnder e.1 x.1 = false := by
              rw [Bool.eq_false_iff]
              intro h
              exact hxe (hleaf x hx (bUnder_iff.1 h))
            rw [this]; simp [hxe]
        · intro x hx _ m hm
          have := hleaf x hx (hm ▸ List.prefix_append _ _)
          rw [hm] at this
          have := congrArg List.length this
          simp at this
      | some t =>
        have ht : t = e.1 ∧ (e.1, BNode.dir) ∈ fs := by
          rcases e with ⟨p, k⟩
          cases k with
          | file => cases hent
          | dir => exact ⟨(Option.some.inj hent).symm, hefs⟩
          | link to =>
            cases to with
            | none => cases hent
            | some u =>
              have hb : BelowDir d p := ⟨nm, [], hnm⟩
              have := hno p u hefs hb
              unfold bEnter at hent
              dsimp only at hent
              rw [if_neg this] at hent
              cases hent
        obtain ⟨rfl, hdir⟩ := ht
        have hnot : e.1 ∉ acc.2 := fun h => hseen e (by simp) _ h (List.prefix_refl _)
        dsimp only
        rw [if_neg hnot]
        have hb := ih e.1 acc.2 hdir hnot
          (fun v hv ⟨a, r, hr⟩ => hseen e (by simp) v hv (hr ▸ List.prefix_append _ _))
          (fun p t hp ⟨a, r, hr⟩ => hno p t hp ⟨nm, a :: r, by rw [hr, hnm]; simp⟩) hl
        refine ⟨_, rfl, ?_, hb.keeps, hb.fresh⟩
        intro q hq
        rw [List.foldl_append, List.foldl_cons, List.foldl_nil, hb.effect q hq]
        rw [bRemove_filter (q := fun p => q p && !bBelow e.1 p)]
        · apply filter_eq_of
          intro x _
          rw [Bool.and_assoc]
          congr 1
          unfold bBelow bUnder
          by_cases h1 : e.1.isPrefixOf x.1 = true
          · rw [h1]; by_cases h2 : e.1 = x.1
            · simp [h2]
            · simp [h2]
          · have : x.1 ≠ e.1 := by
              intro he
              apply h1
              rw [he]
              exact List.isPrefixOf_iff_prefix.2 (List.prefix_refl _)
            rw [Bool.not_eq_true] at h1
            rw [h1]; simp [this]
        · intro x _ hx m hm
          rw [Bool.and_eq_true] at hx
          have : bBelow e.1 x.1 = true := bBelow_iff.2 ⟨m, [], hm⟩
          rw [this] at hx
          exact absurd hx.2 (by decide)
    obtain ⟨rm1, f1, f2, f3, f4⟩ := hone
    -- the others
    have hdis : ∀ x ∈ es, ∀ p, e.1 <+: p → ¬ x.1 <+: p := by
      intro x hx p h1 h2
      obtain ⟨_, nx, hnx⟩ := mem_bKids.1 (hk x (by simp [hx]))
      rw [hnm] at h1
      rw [hnx] at h2
      have := two_kids h1 h2
      exact hnd.1 (List.mem_map.2 ⟨x, hx, by rw [hnx, hnm, this]⟩)
    obtain ⟨rm2, g1, g2, g3, g4⟩ := ihe (bStep fs n acc e) (fun x hx => hk x (by simp [hx])) hnd.2
      (by
        intro x hx v hv hpre
        rcases f4 v hv with h | h
        · exact hseen x (by simp [hx]) v h hpre
        · exact hdis x hx v h hpre)
      (Nat.le_trans (bLeft_mono fs f3) hl)
    refine ⟨rm1 ++ rm2, ?_, ?_, fun x hx => g3 x (f3 x hx), ?_⟩
    · rw [List.foldl_cons, g1, f1, List.append_assoc]
    · intro q hq
      rw [List.foldl_append, f2 q (hq e (by simp))]
      rw [g2 (fun p => q p && !bUnder e.1 p)]
      · apply filter_eq_of
        intro x _
        rw [List.all_cons, Bool.and_assoc]
      · intro x hx p hp
        rw [Bool.and_eq_true]
        refine ⟨hq x (by simp [hx]) p hp, ?_⟩
        have : bUnder e.1 p = false := by
          rw [Bool.eq_false_iff]
          intro h
          exact hdis x hx p (bUnder_iff.1 h) hp
        rw [this]; rfl
    · intro x hx
      rw [List.foldl_cons] at hx
      rcases g4 x hx with h | ⟨y, hy, hp⟩
      · rcases f4 x h with h | h
        · exact Or.inl h
        · exact Or.inr ⟨e, by simp, h⟩
      · exact Or.inr ⟨y, by simp [hy], hp⟩

theorem nodup_filter_map {fs : BFs} (h : (fs.map (·.1)).Nodup) (p : List CStr × BNode → Bool) :
    ((fs.filter p).map (·.1)).Nodup :=
  h.sublist (List.Sublist.map _ List.filter_sublist)

theorem bWalk_done {fs : BFs} (hs : BSound fs) : ∀ (n : Nat) (d : List CStr) (seen : List (List CStr)), (d, BNode.dir) ∈ fs →
    d ∉ seen → (∀ v ∈ seen, ¬ BelowDir d v) → NoDirLinks fs d → bLeft fs seen ≤ n → BDone fs d seen (bWalk fs n d seen) := by
  intro n
  induction n with
  | zero =>
    intro d seen hd hns _ _ hl
    have := bLeft_lt fs hd hns
    omega
  | succ n ih =>
    intro d seen hd hns hb hno hl
    have hlt := bLeft_lt fs hd hns
    obtain ⟨rm, h1, h2, h3, h4⟩ := bFold hs hno ih (bKids fs d) ([], d :: seen) (fun _ h => h)
      (nodup_filter_map hs.nodup _)
      (by
        intro e he v hv hpre
        obtain ⟨_, m, hm⟩ := mem_bKids.1 he
        obtain ⟨t, ht⟩ := hpre
        rw [hm] at ht
        rcases List.mem_cons.1 hv with rfl | hv
        · have := congrArg List.length ht
          simp at this
        · exact hb v hv ⟨m, t, by rw [← ht]; simp⟩)
      (show bLeft fs (d :: seen) ≤ n by omega)
    rw [bWalk_succ]
    refine ⟨?_, fun x hx => h3 x (by simp [hx]), ?_⟩
    · intro q hq
      rw [h1, List.nil_append, h2 q]
      · apply filter_eq_of
        intro x hx
        congr 1
        rw [Bool.eq_iff_iff, List.all_eq_true]
        constructor
        · intro hall
          rw [Bool.not_eq_true', Bool.eq_false_iff]
          intro hbe
          obtain ⟨m, r, hr⟩ := bBelow_iff.1 hbe
          have hkid : ∃ k, (d ++ [m], k) ∈ bKids fs d := by
            cases r with
            | nil => exact ⟨x.2, mem_bKids.2 ⟨by rw [← hr]; exact hx, m, rfl⟩⟩
            | cons a r =>
              refine ⟨.dir, mem_bKids.2 ⟨hs.above (p := x.1) (k := x.2) hx ?_ ?_, m, rfl⟩⟩
              · rw [hr]; exact ⟨a :: r, by simp⟩
              · intro e
                rw [hr] at e
                have := congrArg List.length e
                simp at this
          obtain ⟨k, hk⟩ := hkid
          have := hall _ hk
          have hu : bUnder (d ++ [m]) x.1 = true := bUnder_iff.2 (by rw [hr]; exact ⟨r, by simp⟩)
          rw [hu] at this
          exact absurd this (by decide)
        · intro hnb e he
          obtain ⟨_, m, hm⟩ := mem_bKids.1 he
          rw [Bool.not_eq_true', Bool.eq_false_iff]
          intro hu
          obtain ⟨t, ht⟩ := bUnder_iff.1 hu
          have : bBelow d x.1 = true := bBelow_iff.2 ⟨m, t, by rw [← ht, hm]; simp⟩
          rw [this] at hnb
          exact absurd hnb (by decide)
      · intro e he p hp
        obtain ⟨_, m, hm⟩ := mem_bKids.1 he
        exact hq p (List.IsPrefix.trans (by rw [hm]; exact List.prefix_append _ _) hp)
    · intro x hx
      rcases h4 x hx with h | ⟨e, he, hp⟩
      · rcases List.mem_cons.1 h with rfl | h
        · exact Or.inr (List.prefix_refl _)
        · exact Or.inl h
      · obtain ⟨_, m, hm⟩ := mem_bKids.1 he
        exact Or.inr (List.IsPrefix.trans (by rw [hm]; exact List.prefix_append _ _) hp)

/-- Cleaning one directory -/
theorem bCleanOne_eq {mounts : List (List CStr × CStr)} {fs : BFs} (hs : BSound fs) {d : List CStr}
    (ht : isTmpfs mounts d = false) (hno : NoDirLinks fs d) :
    bCleanOne mounts fs (some d) = fs.filter (fun e => !bBelow d e.1) := by
  unfold bCleanOne
  dsimp only
  rw [if_neg (by simp [ht])]
  split
  · rename_i hd
    have hl : bLeft fs [] ≤ fs.length + 1 := Nat.le_succ_of_le (List.length_filter_le _ _)
    have := (bWalk_done hs (fs.length + 1) d [] hd (by simp) (by simp) hno hl).effect (fun _ => true) (fun _ _ => rfl)
    rw [List.filter_eq_self.2 (fun _ _ => rfl)] at this
    rw [this]
    apply filter_eq_of
    intro x _
    rw [Bool.true_and]
  · rename_i hd
    symm
    rw [List.filter_eq_self]
    intro x hx
    rw [Bool.not_eq_true', Bool.eq_false_iff]
    intro hb
    obtain ⟨m, r, hr⟩ := bBelow_iff.1 hb
    exact hd (hs.above (p := x.1) (k := x.2) hx (hr ▸ List.prefix_append _ _) (by
      intro e
      rw [hr] at e
      have := congrArg List.length e
      simp at this))

theorem BSound.filter {fs : BFs} (hs : BSound fs) (d : List CStr) : BSound (fs.filter (fun e => !bBelow d e.1)) := by
  refine ⟨nodup_filter_map hs.nodup _, ?_⟩
  intro p k hp h0
  obtain ⟨h1, h2⟩ := List.mem_filter.1 hp
  refine List.mem_filter.2 ⟨hs.parent p k h1 h0, ?_⟩
  dsimp only at h2 ⊢
  rw [Bool.not_eq_true', Bool.eq_false_iff] at h2 ⊢
  intro hb
  apply h2
  obtain ⟨m, r, hr⟩ := bBelow_iff.1 hb
  refine bBelow_iff.2 ⟨m, r ++ [p.getLast h0], ?_⟩
  have := List.dropLast_concat_getLast h0
  rw [hr] at this
  exact this.symm.trans (by simp)

/-- Cleaning some directories -/
theorem bClean_list (mounts : List (List CStr × CStr)) (real : List CStr → Option (List CStr)) : ∀ (ds : List (List CStr)) (fs : BFs),
    BSound fs → (∀ d ∈ ds, ∀ r, real d = some r → isTmpfs mounts r = false → NoDirLinks fs r) →
    ∀ p k, (p, k) ∈ ds.foldl (fun fs d => bCleanOne mounts fs (real d)) fs ↔
      (p, k) ∈ fs ∧ ∀ r, (∃ d, d ∈ ds ∧ real d = some r ∧ isTmpfs mounts r = false) → ¬ BelowDir r p := by
  intro ds
  induction ds with
  | nil => intro fs _ _ p k; simp
  | cons d ds ih =>
    intro fs hs hno p k
    rw [List.foldl_cons]
    have hskip : (∀ r, real d = some r → isTmpfs mounts r = true) → bCleanOne mounts fs (real d) = fs := by
      intro h
      unfold bCleanOne
      cases hr : real d with
      | none => rfl
      | some r => dsimp only; rw [if_pos (h r hr)]
    by_cases hc : ∃ r, real d = some r ∧ isTmpfs mounts r = false
    · obtain ⟨r, hr, ht⟩ := hc
      rw [hr, bCleanOne_eq hs ht (hno d (by simp) r hr ht)]
      rw [ih _ (hs.filter r)]
      · rw [List.mem_filter]
        dsimp only
        rw [Bool.not_eq_true', Bool.eq_false_iff]
        constructor
        · rintro ⟨⟨h1, h2⟩, h3⟩
          refine ⟨h1, ?_⟩
          rintro r' ⟨d', hd', hr', ht'⟩
          rcases List.mem_cons.1 hd' with rfl | hd'
          · rw [hr] at hr'
            cases hr'
            exact fun hb => h2 (bBelow_iff.2 hb)
          · exact h3 r' ⟨d', hd', hr', ht'⟩
        · rintro ⟨h1, h2⟩
          refine ⟨⟨h1, fun hb => h2 r ⟨d, by simp, hr, ht⟩ (bBelow_iff.1 hb)⟩, ?_⟩
          rintro r' ⟨d', hd', hr', ht'⟩
          exact h2 r' ⟨d', by simp [hd'], hr', ht'⟩
      · intro d' hd' r' hr' ht' q t hq hb hm
        exact hno d' (by simp [hd']) r' hr' ht' q t (List.mem_filter.1 hq).1 hb (List.mem_filter.1 hm).1
    · rw [hskip (by
        intro r hr
        cases h : isTmpfs mounts r with
        | true => rfl
        | false => exact absurd ⟨r, hr, h⟩ hc)]
      rw [ih fs hs (fun d' hd' => hno d' (by simp [hd']))]
      constructor
      · rintro ⟨h1, h2⟩
        refine ⟨h1, ?_⟩
        rintro r' ⟨d', hd', hr', ht'⟩
        rcases List.mem_cons.1 hd' with rfl | hd'
        · exact absurd ⟨r', hr', ht'⟩ hc
        · exact h2 r' ⟨d', hd', hr', ht'⟩
      · rintro ⟨h1, h2⟩
        exact ⟨h1, fun r' ⟨d', hd', hr', ht'⟩ => h2 r' ⟨d', by simp [hd'], hr', ht'⟩⟩

theorem isTmpfs_iff (mounts : List (List CStr × CStr)) (r : List CStr)
    (h : ∀ pre m post, mounts = pre ++ m :: post → m.1 = r → ∀ m' ∈ pre, m'.1 ≠ r) : isTmpfs mounts r = false ↔ ¬ OnTmpfs mounts r := by
  unfold isTmpfs
  cases hf : mounts.find? (fun m => decide (m.1 = r)) with
  | none =>
    refine ⟨fun _ => ?_, fun _ => rfl⟩
    rintro ⟨pre, post, e, _⟩
    have := List.find?_eq_none.1 hf (r, "tmpfs".toList) (by rw [e]; simp)
    simp at this
  | some m =>
    obtain ⟨hm, pre, post, e, hp⟩ := List.find?_eq_some_iff_append.1 hf
    have hm' : m.1 = r := by simpa using hm
    have hpost : ∀ q ∈ post, q.1 ≠ r := by
      intro q hq hqr
      obtain ⟨a, b, hab⟩ := List.append_of_mem hq
      have := h (pre ++ m :: a) q b (by rw [e, hab]; simp) hqr m (by simp)
      exact this hm'
    dsimp only
    rw [decide_eq_false_iff_not]
    constructor
    · rintro hne ⟨pre', post', e', hp'⟩
      have hin : (r, "tmpfs".toList) ∈ pre ++ m :: post := by rw [← e, e']; simp
      rcases List.mem_append.1 hin with hi | hi
      · have := hp _ hi
        simp at this
      · rcases List.mem_cons.1 hi with hi | hi
        · exact hne (by rw [← hi])
        · exact hpost _ hi rfl
    · intro hn ht
      exact hn ⟨pre, post, by rw [e, ← hm', ← ht], hpost⟩

theorem toClean_iff {mounts : List (List CStr × CStr)} {real : List CStr → Option (List CStr)} (h : MountedOnce mounts real)
    {d r : List CStr} (hd : d ∈ bDirs) (hr : real d = some r) : isTmpfs mounts r = false ↔ ¬ OnTmpfs mounts r :=
  isTmpfs_iff mounts r (h d hd r hr)

/-! ## Theorems -/

/-- At boot all that is in the directories for temporary files is removed, and nothing else, as long as no link in them leads
    to a directory and there are not two mounts on one of them. -/
theorem C82_partial (mounts : List (List CStr × CStr)) (real : List CStr → Option (List CStr)) (fs : BFs) (hs : BSound fs)
    (hm : MountedOnce mounts real)
    (hno : ∀ r, ToClean mounts real r → NoDirLinks fs r) (p : List CStr) (k : BNode) :
    (p, k) ∈ bClean mounts real fs ↔ (p, k) ∈ fs ∧ ∀ r, ToClean mounts real r → ¬ BelowDir r p := by
  refine (bClean_list mounts real bDirs fs hs (fun d hd r hr ht => hno r ⟨d, hd, hr, (toClean_iff hm hd hr).1 ht⟩) p k).trans
    (and_congr_right fun _ => ⟨fun h r => ?_, fun h r => ?_⟩)
  · rintro ⟨d, hd, hr, ht⟩
    exact h r ⟨d, hd, hr, (toClean_iff hm hd hr).2 ht⟩
  · rintro ⟨d, hd, hr, ht⟩
    exact h r ⟨d, hd, hr, (toClean_iff hm hd hr).1 ht⟩

/-- The directories themselves stay, unless one is in another. -/
theorem C82_stays_partial (mounts : List (List CStr × CStr)) (real : List CStr → Option (List CStr)) (fs : BFs) (hs : BSound fs)
    (hm : MountedOnce mounts real)
    (hno : ∀ r, ToClean mounts real r → NoDirLinks fs r) (hout : ∀ r r', ToClean mounts real r → ToClean mounts real r' → ¬ BelowDir r r')
    (r : List CStr) (hr : ToClean mounts real r) (hd : (r, BNode.dir) ∈ fs) : (r, BNode.dir) ∈ bClean mounts real fs :=
  (C82_partial mounts real fs hs hm hno r .dir).2 ⟨hd, fun r' hr' => hout r' r hr' hr⟩

/-- A root file system with a home directory, where a user has left a link in `/tmp` -/
def linkFs : BFs :=
  [([], .dir), (["home".toList], .dir), (["home".toList, "joe".toList], .dir), (["home".toList, "joe".toList, "mail".toList], .file),
   (["tmp".toList], .dir), (["tmp".toList, "x".toList], .link (some ["home".toList, "joe".toList])), (["tmp".toList, "y".toList], .file)]

/-- The full claim is false: through a link in `/tmp` the files of a user are removed. -/
theorem C82_link : BSound linkFs ∧
    bClean [([], "ext4".toList)] some linkFs =
      [([], .dir), (["home".toList], .dir), (["home".toList, "joe".toList], .dir), (["tmp".toList], .dir)] := by
  refine ⟨⟨by decide +kernel, ?_⟩, by decide +kernel⟩
  intro p k h
  revert h
  have : ∀ e ∈ linkFs, e.1 ≠ [] → (e.1.dropLast, BNode.dir) ∈ linkFs := by decide +kernel
  exact fun h => this (p, k) h

theorem C82_full_false : ¬ C82_full := by
  intro h
  obtain ⟨hs, he⟩ := C82_link
  have := (h [([], "ext4".toList)] some linkFs hs ["home".toList, "joe".toList, "mail".toList] .file).2 ⟨by decide +kernel, ?_⟩
  · rw [he] at this
    exact absurd this (by decide +kernel)
  · rintro r ⟨d, hd, hr, _⟩ ⟨m, t, e⟩
    cases hr
    rcases List.mem_cons.1 hd with rfl | hd
    · exact absurd (congrArg List.head? e) (by simp)
    · rcases List.mem_cons.1 hd with rfl | hd
      · exact absurd (congrArg List.head? e) (by simp)
      · rw [List.mem_singleton] at hd
        subst hd
        exact absurd (congrArg List.head? e) (by simp)

/-- Of file systems mounted one over the other the first counts: a directory that is kept across boots is not cleaned if a
    tmpfs is below it. -/
theorem C82_mounts (real : List CStr → Option (List CStr)) (h : real ["tmp".toList] = some ["tmp".toList])
    (h' : ∀ d, d ≠ ["tmp".toList] → real d = none) :
    ToClean [(["tmp".toList], "tmpfs".toList), (["tmp".toList], "ext4".toList)] real ["tmp".toList] ∧
    ∀ fs, bClean [(["tmp".toList], "tmpfs".toList), (["tmp".toList], "ext4".toList)] real fs = fs := by
  refine ⟨⟨_, by simp, h, ?_⟩, fun fs => ?_⟩
  · rintro ⟨pre, post, e, hp⟩
    rcases pre with _ | ⟨a, _ | ⟨b, pre⟩⟩
    · rw [List.nil_append] at e
      have := (List.cons.inj e).2
      exact hp (["tmp".toList], "ext4".toList) (by rw [← this]; simp) rfl
    · have := (List.cons.inj (List.cons.inj e).2).1
      exact absurd (congrArg Prod.snd this) (by decide)
    · have := (List.cons.inj (List.cons.inj e).2).2
      simp at this
  · unfold bClean bDirs
    simp only [List.foldl_cons, List.foldl_nil]
    rw [h, h' _ (by decide), h' _ (by decide)]
    rfl

example : MountedOnce [([], "ext4".toList), (["tmp".toList], "tmpfs".toList)] some := by
  intro d hd r hr pre m post e hm m' hm'
  cases hr
  rcases pre with _ | ⟨a, _ | ⟨b, pre⟩⟩
  · exact (nomatch hm')
  · have h1 := (List.cons.inj e).1
    have : m' = a := by simpa using hm'
    subst this
    rw [← h1]
    clear hm hm' h1 e
    revert d
    decide
  · have := (List.cons.inj (List.cons.inj e).2).2
    simp at this

/-- Where `/var/lock` leads to `/run/lock` and `/var/run` to `/run`, the directory for locks is removed itself. -/
theorem C82_lock : (["run".toList, "lock".toList], BNode.dir) ∉
    bClean [] (fun d => if d = ["var".toList, "run".toList] then some ["run".toList]
        else if d = ["var".toList, "lock".toList] then some ["run".toList, "lock".toList] else none)
      [([], .dir), (["run".toList], .dir), (["run".toList, "lock".toList], .dir)] := by decide +kernel

/-- Hypotheses of `C82_partial` and `C82_stays_partial` that can be met. -/
example : let fs : BFs := [([], .dir), (["etc".toList], .file), (["tmp".toList], .dir), (["tmp".toList, "a".toList], .dir),
      (["tmp".toList, "a".toList, "b".toList], .file), (["tmp".toList, "l".toList], .link (some ["etc".toList])),
      (["tmp".toList, "m".toList], .link none)]
    let real : List CStr → Option (List CStr) := fun d => if d = ["tmp".toList] then some d else none
    BSound fs ∧ (∀ r, ToClean [] real r → NoDirLinks fs r) ∧ ToClean [] real ["tmp".toList] ∧
    bClean [] real fs = [([], .dir), (["etc".toList], .file), (["tmp".toList], .dir)] := by
  intro fs real
  refine ⟨⟨by decide +kernel, ?_⟩, ?_, ⟨["tmp".toList], by simp, by decide +kernel, by rintro ⟨pre, post, e, _⟩; simp at e⟩, by decide +kernel⟩
  · intro p k h
    have : ∀ e ∈ fs, e.1 ≠ [] → (e.1.dropLast, BNode.dir) ∈ fs := by decide +kernel
    exact this (p, k) h
  · rintro r _ p t h _ hd
    have : ∀ e ∈ fs, e.2 = .dir ∨ bEnter fs e = none := by decide +kernel
    rcases this _ h with e | e
    · cases e
    · unfold bEnter at e
      dsimp only at e
      rw [if_pos hd] at e
      cases e

end Verif
