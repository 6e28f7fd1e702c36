import Verif.Devcond
import Verif.Props.Syscond

/-!
# C100: A device condition is on exactly while its device is there
-/

namespace Verif

/-- All events are read -/
def DvIdle (st : DvSt) : Prop := st.fs.queue = []

/-- `dev/node` and `dev/dir/node`, doc/conditions.md -/
def DvName (p : ScPath) : Prop := p ≠ [] ∧ p.length ≤ 2

/-- The claim: when all events are read, a condition that a service needs is on exactly if the device is there -/
def C100_full : Prop :=
  ∀ (acts : List DvAct) (p : ScPath), DvName p → DvIdle (dvRun acts dvInit) → p ∈ (dvRun acts dvInit).nodes →
    dvOn (dvRun acts dvInit) p = decide (p ∈ (dvRun acts dvInit).fs.files)

/-- The device is made or removed -/
def DvTouches (p : ScPath) (a : DvAct) : Prop := a = .create p ∨ a = .remove p

/-! ## Files and watches -/

structure DvBase (fs : ScSt) : Prop where
  wfresh : ∀ w ∈ fs.watches, w.wd < fs.next
  efresh : ∀ e ∈ fs.queue, e.wd < fs.next
  inj : ∀ w ∈ fs.watches, ∀ w' ∈ fs.watches, w.wd = w'.wd → w = w'
  path : ∀ w ∈ fs.watches, ∀ d, scIno d fs = some w.ino → d = w.path
  inos : ∀ d i, scIno d fs = some i → i < fs.next
  one : ∀ d d' i, scIno d fs = some i → scIno d' fs = some i → d = d'
  wino : ∀ w ∈ fs.watches, w.ino < fs.next

theorem dvBase_init : DvBase scInit where
  wfresh := by intro w hw; rw [List.mem_singleton.1 hw]; exact Nat.zero_lt_one
  efresh := by intro e he; cases he
  inj := by intro w hw w' hw' _; rw [List.mem_singleton.1 hw, List.mem_singleton.1 hw']
  path := by
    intro w hw d hd
    rw [List.mem_singleton.1 hw]
    cases d with
    | nil => rfl
    | cons x e => simp [scIno, scInit] at hd
  inos := by
    intro d i h
    cases d with
    | nil => simp [scIno, scInit] at h; subst h; exact Nat.zero_lt_one
    | cons x e => simp [scIno, scInit] at h
  one := by
    intro d d' i h h'
    have key : ∀ e, scIno e scInit = some i → e = [] := by
      intro e he
      cases e with
      | nil => rfl
      | cons x e => simp [scIno, scInit] at he
    rw [key d h, key d' h']
  wino := by intro w hw; rw [List.mem_singleton.1 hw]; exact Nat.zero_lt_one

/-- No event tells of this file -/
def DvNoEv (p : ScPath) (fs : ScSt) : Prop :=
  ∀ e ∈ fs.queue, e.isDir = false → ∀ w ∈ fs.watches, w.wd = e.wd → e.name :: w.path ≠ p

theorem dv_post {fs : ScSt} (h : DvBase fs) (d : ScPath) (k m : Bool) (n : CStr) :
    scPost d k m n fs = fs ∨ ∃ w ∈ fs.watches, w.path = d ∧ scPost d k m n fs = { fs with queue := fs.queue ++ [⟨w.wd, k, m, n⟩] } := by
  unfold scPost
  split
  · exact Or.inl rfl
  · rename_i i hi
    split
    · exact Or.inl rfl
    · rename_i w hf
      have h1 := List.mem_of_find?_eq_some hf
      have h2 : w.ino = i := by simpa using List.find?_some hf
      exact Or.inr ⟨w, h1, (h.path w h1 d (by rw [hi, h2])).symm, rfl⟩

theorem DvBase.post {fs : ScSt} (h : DvBase fs) (d : ScPath) (k m : Bool) (n : CStr) : DvBase (scPost d k m n fs) := by
  rcases dv_post h d k m n with e | ⟨w, hw, _, e⟩
  · rw [e]; exact h
  · rw [e]
    exact { wfresh := h.wfresh, inj := h.inj, path := h.path, inos := h.inos, one := h.one, wino := h.wino
            efresh := by
              intro x hx
              rcases List.mem_append.1 hx with hx | hx
              · exact h.efresh x hx
              · rw [List.mem_singleton.1 hx]
                exact h.wfresh w hw }

theorem DvNoEv.post {fs : ScSt} (hb : DvBase fs) {p : ScPath} (h : DvNoEv p fs) (d : ScPath) (k m : Bool) (n : CStr)
    (hne : k = true ∨ n :: d ≠ p) : DvNoEv p (scPost d k m n fs) := by
  rcases dv_post hb d k m n with e | ⟨w, hw, hd, e⟩
  · rw [e]; exact h
  · rw [e]
    intro x hx hk v hv hvx
    rcases List.mem_append.1 hx with hx | hx
    · exact h x hx hk v hv hvx
    · rw [List.mem_singleton.1 hx] at hk hvx ⊢
      rcases hne with hne | hne
      · rw [hne] at hk
        cases hk
      · rw [hb.inj v hv w hw hvx, hd]
        exact hne

theorem DvBase.files {fs : ScSt} (h : DvBase fs) (F : List ScPath) : DvBase { fs with files := F } :=
  { wfresh := h.wfresh, efresh := h.efresh, inj := h.inj, path := h.path, inos := h.inos, one := h.one, wino := h.wino }

theorem dv_ino_cons (d p : ScPath) (fs : ScSt) (i j : Nat) :
    scIno d { fs with dirs := (p, i) :: fs.dirs, next := j } = if d = p then some i else scIno d fs := by
  unfold scIno
  dsimp only
  rw [List.find?_cons]
  by_cases e : d = p
  · rw [if_pos e, show (p == d) = true by simpa using e.symm]
    rfl
  · rw [if_neg e, show (p == d) = false by simpa using fun x : p = d => e x.symm]

theorem dv_find_filter (d p : ScPath) (l : List (ScPath × Nat)) (x : ScPath × Nat)
    (h : (l.filter (fun x => decide (x.1 ≠ p))).find? (fun x => x.1 == d) = some x) : l.find? (fun x => x.1 == d) = some x := by
  induction l with
  | nil => cases h
  | cons y l ih =>
    by_cases hy : y.1 = p
    · rw [List.filter_cons_of_neg (by simpa using hy)] at h
      have h1 := ih h
      have h2 : x.1 = d := by simpa using List.find?_some h
      have h3 : x.1 ≠ p := by simpa using (List.mem_filter.1 (List.mem_of_find?_eq_some h)).2
      rw [List.find?_cons, show (y.1 == d) = false by
        rw [hy]
        simpa using fun e : p = d => h3 (by rw [h2, e])]
      exact h1
    · rw [List.filter_cons_of_pos (by simpa using hy)] at h
      rw [List.find?_cons] at h ⊢
      split at h
      · exact h
      · exact ih h

theorem dv_ino_filter (d p : ScPath) (fs : ScSt) (i : Nat)
    (h : scIno d { fs with dirs := fs.dirs.filter (fun x => decide (x.1 ≠ p)) } = some i) : scIno d fs = some i := by
  unfold scIno at h ⊢
  rw [Option.map_eq_some_iff] at h ⊢
  have ⟨x, h1, h2⟩ := h
  exact ⟨x, dv_find_filter d p fs.dirs x h1, h2⟩

theorem DvBase.mkdir {fs : ScSt} (h : DvBase fs) (p : ScPath) :
    DvBase { fs with dirs := (p, fs.next) :: fs.dirs, next := fs.next + 1 } :=
  { wfresh := fun w hw => Nat.lt_succ_of_lt (h.wfresh w hw)
    efresh := fun w hw => Nat.lt_succ_of_lt (h.efresh w hw)
    inj := h.inj
    path := by
      intro w hw d hd
      rw [dv_ino_cons] at hd
      split at hd
      · injection hd with hd
        have := h.wino w hw
        omega
      · exact h.path w hw d hd
    inos := by
      intro d i hd
      rw [dv_ino_cons] at hd
      show i < fs.next + 1
      split at hd
      · injection hd with hd
        omega
      · have := h.inos d i hd
        omega
    one := by
      intro d d' i h1 h2
      rw [dv_ino_cons] at h1 h2
      split at h1
      · rename_i x
        split at h2
        · rename_i y
          rw [x, y]
        · injection h1 with h1
          have := h.inos d' i h2
          omega
      · split at h2
        · injection h2 with h2
          have := h.inos d i h1
          omega
        · exact h.one d d' i h1 h2
    wino := fun w hw => Nat.lt_succ_of_lt (h.wino w hw) }

theorem DvBase.rmdir {fs : ScSt} (h : DvBase fs) (p : ScPath) :
    DvBase { fs with dirs := fs.dirs.filter (fun x => decide (x.1 ≠ p)) } :=
  { wfresh := h.wfresh, efresh := h.efresh, inj := h.inj, wino := h.wino
    path := fun w hw d hd => h.path w hw d (dv_ino_filter d p fs _ hd)
    inos := fun d i hd => h.inos d i (dv_ino_filter d p fs _ hd)
    one := fun d d' i h1 h2 => h.one d d' i (dv_ino_filter d p fs _ h1) (dv_ino_filter d' p fs _ h2) }

/-- What others do to files -/
theorem dv_fs {fs : ScSt} (h : DvBase fs) (a : ScAct) (ha : a ≠ .tick) :
    DvBase (scStep (fun _ => true) a fs) ∧
    ∀ p, DvNoEv p fs → a ≠ .create p → a ≠ .remove p → DvNoEv p (scStep (fun _ => true) a fs) := by
  cases a with
  | create q =>
    cases q with
    | nil => exact ⟨h, fun _ hp _ _ => hp⟩
    | cons n d =>
      show DvBase (if scTaken (n :: d) fs then fs else _) ∧ ∀ p, DvNoEv p fs → _ → _ → DvNoEv p (if scTaken (n :: d) fs then fs else _)
      split
      · exact ⟨h, fun _ hp _ _ => hp⟩
      · exact ⟨(h.files _).post _ _ _ _, fun p hp hc _ => by
          apply DvNoEv.post (h.files _)
          · exact hp
          · exact Or.inr fun e => hc (by rw [e])⟩
  | remove q =>
    show DvBase (scRemove q fs) ∧ ∀ p, DvNoEv p fs → _ → _ → DvNoEv p (scRemove q fs)
    unfold scRemove
    split
    · exact ⟨h, fun _ hp _ _ => hp⟩
    · split
      · exact ⟨(h.files _).post _ _ _ _, fun p hp _ hc => by
          apply DvNoEv.post (h.files _)
          · exact hp
          · exact Or.inr fun e => hc (by rw [e])⟩
      · exact ⟨h, fun _ hp _ _ => hp⟩
  | mkdir q =>
    cases q with
    | nil => exact ⟨h, fun _ hp _ _ => hp⟩
    | cons n d =>
      show DvBase (if scTaken (n :: d) fs then fs else _) ∧ ∀ p, DvNoEv p fs → _ → _ → DvNoEv p (if scTaken (n :: d) fs then fs else _)
      split
      · exact ⟨h, fun _ hp _ _ => hp⟩
      · exact ⟨(h.mkdir _).post _ _ _ _, fun p hp _ _ => by
          apply DvNoEv.post (h.mkdir _)
          · exact hp
          · exact Or.inl rfl⟩
  | rmdir q =>
    cases q with
    | nil => exact ⟨h, fun _ hp _ _ => hp⟩
    | cons n d =>
      unfold scStep
      dsimp only
      split
      · exact ⟨h, fun _ hp _ _ => hp⟩
      · exact ⟨(h.rmdir _).post _ _ _ _, fun p hp _ _ => by
          apply DvNoEv.post (h.rmdir _)
          · exact hp
          · exact Or.inl rfl⟩
  | moveIn q =>
    show DvBase (if scTaken q fs then fs else _) ∧ ∀ p, DvNoEv p fs → _ → _ → DvNoEv p (if scTaken q fs then fs else _)
    split
    · exact ⟨h, fun _ hp _ _ => hp⟩
    · exact ⟨h.files _, fun _ hp _ _ => hp⟩
  | tick => exact absurd rfl ha

/-! ## Conditions -/

theorem dvUpdate_cond (m : Bool) (q p : ScPath) (st : DvSt) (h : p ≠ q) : (dvUpdate m q st).cond p = st.cond p := by
  unfold dvUpdate
  split
  · exact if_neg h
  · rfl

/-- What an update leaves as it is -/
theorem dvUpdate_same (m : Bool) (q : ScPath) (st : DvSt) :
    (dvUpdate m q st).fs = st.fs ∧ (dvUpdate m q st).nodes = st.nodes ∧ (dvUpdate m q st).gen = st.gen := by
  unfold dvUpdate
  split <;> exact ⟨rfl, rfl, rfl⟩

theorem dvScan_same (d : ScPath) (st : DvSt) :
    (dvScan d st).fs = st.fs ∧ (dvScan d st).nodes = st.nodes ∧ (dvScan d st).gen = st.gen ∧
    ∀ p, p.length ≤ 2 → d.length = 1 → (dvScan d st).cond p = st.cond p := by
  unfold dvScan
  have hl : ∀ q ∈ scGlob d st.fs, q.length = d.length + 1 := by
    intro q hq
    unfold scGlob at hq
    rw [List.mem_filter] at hq
    cases q with
    | nil => cases hq.2
    | cons n e =>
      have := hq.2
      simp only [Bool.and_eq_true, beq_iff_eq] at this
      rw [List.length_cons, this.1]
  generalize scGlob d st.fs = l at hl
  induction l generalizing st with
  | nil => exact ⟨rfl, rfl, rfl, fun _ _ _ => rfl⟩
  | cons q l ih =>
    rw [List.foldl_cons]
    have ⟨h1, h2, h3, h4⟩ := ih (dvUpdate true (q ++ "dev".toList :: d) st) (fun x hx => hl x (List.mem_cons_of_mem _ hx))
    have ⟨g1, g2, g3⟩ := dvUpdate_same true (q ++ "dev".toList :: d) st
    refine ⟨by rw [h1, g1], by rw [h2, g2], by rw [h3, g3], fun p hp hd => ?_⟩
    rw [h4 p hp hd]
    refine dvUpdate_cond _ _ _ _ ?_
    rintro rfl
    rw [List.length_append, List.length_cons, hl q List.mem_cons_self] at hp
    omega

theorem DvBase.queue {fs : ScSt} (h : DvBase fs) (ev : ScEv) (q : List ScEv) (hq : fs.queue = ev :: q) : DvBase { fs with queue := q } :=
  { wfresh := h.wfresh, inj := h.inj, path := h.path, inos := h.inos, one := h.one, wino := h.wino
    efresh := fun e he => h.efresh e (by rw [hq]; exact List.mem_cons_of_mem _ he) }

theorem DvBase.watch {fs : ScSt} (h : DvBase fs) (p : ScPath) (i : Nat) (hi : scIno p fs = some i) :
    DvBase { fs with watches := ⟨fs.next, i, p⟩ :: fs.watches, next := fs.next + 1 } :=
  { wfresh := by
      intro w hw
      rcases List.mem_cons.1 hw with rfl | hw
      · exact Nat.lt_succ_self _
      · exact Nat.lt_succ_of_lt (h.wfresh w hw)
    efresh := fun e he => Nat.lt_succ_of_lt (h.efresh e he)
    inj := by
      intro x hx y hy e
      rcases List.mem_cons.1 hx with hx | hx
      · rcases List.mem_cons.1 hy with hy | hy
        · rw [hx, hy]
        · have := h.wfresh y hy
          rw [← e, hx] at this
          exact absurd this (Nat.lt_irrefl _)
      · rcases List.mem_cons.1 hy with hy | hy
        · have := h.wfresh x hx
          rw [e, hy] at this
          exact absurd this (Nat.lt_irrefl _)
        · exact h.inj x hx y hy e
    path := by
      intro w hw d hd
      rcases List.mem_cons.1 hw with rfl | hw
      · exact h.one d p i hd hi
      · exact h.path w hw d hd
    inos := fun d i hd => Nat.lt_succ_of_lt (h.inos d i hd)
    one := h.one
    wino := by
      intro w hw
      rcases List.mem_cons.1 hw with rfl | hw
      · exact Nat.lt_succ_of_lt (h.inos _ _ hi)
      · exact Nat.lt_succ_of_lt (h.wino w hw) }

theorem dvDir_frame (made : Bool) (q : ScPath) (hq : q ≠ []) (st : DvSt) (hb : DvBase st.fs) :
    DvBase (dvDir made q st).fs ∧ (dvDir made q st).nodes = st.nodes ∧ (dvDir made q st).gen = st.gen ∧
    (dvDir made q st).fs.files = st.fs.files ∧ (dvDir made q st).fs.queue = st.fs.queue ∧
    ∀ p, p.length ≤ 2 → (dvDir made q st).cond p = st.cond p ∧ (DvNoEv p st.fs → DvNoEv p (dvDir made q st).fs) := by
  unfold dvDir
  split
  · split
    · rename_i hm
      have hl : q.length = 1 := by
        cases q with
        | nil => exact absurd rfl hq
        | cons x l =>
          have := hm.2
          rw [List.length_cons] at this ⊢
          omega
      split
      · rename_i i hi
        have ⟨h1, h2, h3, h4⟩ := dvScan_same q
          { st with fs := { st.fs with watches := ⟨st.fs.next, i, q⟩ :: st.fs.watches, next := st.fs.next + 1 } }
        rw [h1, h2, h3]
        refine ⟨hb.watch q i hi, rfl, rfl, rfl, rfl, fun p hp => ⟨h4 p hp hl, fun hn e he hk w hw hwe => ?_⟩⟩
        rcases List.mem_cons.1 hw with hw | hw
        · have := hb.efresh e he
          rw [← hwe, hw] at this
          exact absurd this (Nat.lt_irrefl _)
        · exact hn e he hk w hw hwe
      · have ⟨h1, h2, h3, h4⟩ := dvScan_same q st
        rw [h1, h2, h3]
        exact ⟨hb, rfl, rfl, rfl, rfl, fun p hp => ⟨h4 p hp hl, id⟩⟩
    · exact ⟨hb, rfl, rfl, rfl, rfl, fun _ _ => ⟨rfl, id⟩⟩
  · split
    · exact ⟨hb, rfl, rfl, rfl, rfl, fun _ _ => ⟨rfl, id⟩⟩
    · refine ⟨?_, rfl, rfl, rfl, rfl, fun p _ => ⟨rfl, fun hn e he hk w hw => hn e he hk w (List.mem_filter.1 hw).1⟩⟩
      have hs : ∀ {f : ScWatch → Bool} (w : ScWatch), w ∈ st.fs.watches.filter f → w ∈ st.fs.watches := fun w hw => (List.mem_filter.1 hw).1
      exact { wfresh := fun w hw => hb.wfresh w (hs w hw), efresh := hb.efresh
              inj := fun w hw w' hw' => hb.inj w (hs w hw) w' (hs w' hw')
              path := fun w hw => hb.path w (hs w hw), inos := hb.inos, one := hb.one, wino := fun w hw => hb.wino w (hs w hw) }

/-- Conditions of which no event tells stay as they are -/
theorem dvStep_frame (a : DvAct) (st : DvSt) (hb : DvBase st.fs) :
    DvBase (dvStep a st).fs ∧ st.gen ≤ (dvStep a st).gen ∧
    ∀ p, p.length ≤ 2 → DvNoEv p st.fs → ¬ DvTouches p a → (dvStep a st).cond p = st.cond p ∧ DvNoEv p (dvStep a st).fs := by
  cases a with
  | create q =>
    have ⟨h1, h2⟩ := dv_fs hb (.create q) (by simp)
    exact ⟨h1, Nat.le_refl _, fun p _ hn ht => ⟨rfl, h2 p hn (fun e => ht (Or.inl (by injection e with e; rw [e]))) (by simp)⟩⟩
  | remove q =>
    have ⟨h1, h2⟩ := dv_fs hb (.remove q) (by simp)
    exact ⟨h1, Nat.le_refl _, fun p _ hn ht => ⟨rfl, h2 p hn (by simp) (fun e => ht (Or.inr (by injection e with e; rw [e])))⟩⟩
  | mkdir q =>
    have ⟨h1, h2⟩ := dv_fs hb (.mkdir q) (by simp)
    exact ⟨h1, Nat.le_refl _, fun p _ hn ht => ⟨rfl, h2 p hn (by simp) (by simp)⟩⟩
  | rmdir q =>
    have ⟨h1, h2⟩ := dv_fs hb (.rmdir q) (by simp)
    exact ⟨h1, Nat.le_refl _, fun p _ hn ht => ⟨rfl, h2 p hn (by simp) (by simp)⟩⟩
  | need q =>
    unfold dvStep
    dsimp only
    split
    · exact ⟨hb, Nat.le_refl _, fun _ _ hn _ => ⟨rfl, hn⟩⟩
    · exact ⟨hb, Nat.le_refl _, fun _ _ hn _ => ⟨rfl, hn⟩⟩
  | reload => exact ⟨hb, Nat.le_succ _, fun _ _ hn _ => ⟨rfl, hn⟩⟩
  | tick =>
    show DvBase (dvTick st).fs ∧ st.gen ≤ (dvTick st).gen ∧ ∀ p, p.length ≤ 2 → DvNoEv p st.fs → _ →
      (dvTick st).cond p = st.cond p ∧ DvNoEv p (dvTick st).fs
    unfold dvTick
    split
    · exact ⟨hb, Nat.le_refl _, fun _ _ hn _ => ⟨rfl, hn⟩⟩
    · rename_i ev q hq
      have hb' := hb.queue ev q hq
      have hn' : ∀ p, DvNoEv p st.fs → DvNoEv p { st.fs with queue := q } :=
        fun p hn e he => hn e (by rw [hq]; exact List.mem_cons_of_mem _ he)
      dsimp only
      split
      · exact ⟨hb', Nat.le_refl _, fun p _ hn _ => ⟨rfl, hn' p hn⟩⟩
      · rename_i w hf
        have hw := List.mem_of_find?_eq_some hf
        have hwd : w.wd = ev.wd := by simpa using List.find?_some hf
        split
        · have ⟨h1, _, h3, _, _, h4⟩ := dvDir_frame ev.made (ev.name :: w.path) (by simp) { st with fs := { st.fs with queue := q } } hb'
          exact ⟨h1, by rw [h3]; exact Nat.le_refl _, fun p hp hn _ => ⟨(h4 p hp).1, (h4 p hp).2 (hn' p hn)⟩⟩
        · rename_i hk
          have ⟨h1, _, h3⟩ := dvUpdate_same ev.made (ev.name :: w.path) { st with fs := { st.fs with queue := q } }
          rw [h1, h3]
          refine ⟨hb', Nat.le_refl _, fun p hp hn _ => ⟨?_, hn' p hn⟩⟩
          refine dvUpdate_cond _ _ _ _ ?_
          exact (hn ev (by rw [hq]; exact List.mem_cons_self) (by simpa using hk) w hw hwd).symm

theorem dvRun_frame (p : ScPath) (hp : p.length ≤ 2) : ∀ (acts : List DvAct) (st : DvSt), DvBase st.fs → DvNoEv p st.fs →
    (∀ a ∈ acts, ¬ DvTouches p a) → (dvRun acts st).cond p = st.cond p ∧ st.gen ≤ (dvRun acts st).gen := by
  intro acts
  induction acts with
  | nil => exact fun st _ _ _ => ⟨rfl, Nat.le_refl _⟩
  | cons a acts ih =>
    intro st hb hn ht
    have ⟨h1, h2, h3⟩ := dvStep_frame a st hb
    have ⟨h4, h5⟩ := h3 p hp hn (ht a List.mem_cons_self)
    have ⟨h6, h7⟩ := ih (dvStep a st) h1 h5 (fun x hx => ht x (List.mem_cons_of_mem _ hx))
    exact ⟨by rw [← h4]; exact h6, Nat.le_trans h2 h7⟩

/-- What holds of all runs -/
structure DvAll (st : DvSt) : Prop where
  base : DvBase st.fs
  gen : ∀ p, st.cond p ≤ st.gen
  off : ∀ p, p ∉ st.nodes → st.cond p = 0

theorem dvUpdate_all (m : Bool) (p : ScPath) (st : DvSt) (h : DvAll st) : DvAll (dvUpdate m p st) := by
  unfold dvUpdate
  split
  · rename_i hp
    refine ⟨h.base, fun q => ?_, fun q hq => ?_⟩
    · dsimp only
      split
      · split
        · exact Nat.le_refl _
        · exact Nat.zero_le _
      · exact h.gen q
    · dsimp only
      rw [if_neg (fun e => hq (by rw [e]; exact hp))]
      exact h.off q hq
  · exact h

theorem dvScan_all (d : ScPath) (st : DvSt) (h : DvAll st) : DvAll (dvScan d st) := by
  unfold dvScan
  generalize scGlob d st.fs = l
  induction l generalizing st with
  | nil => exact h
  | cons q l ih => exact ih _ (dvUpdate_all _ _ _ h)

theorem dvStep_all (a : DvAct) (st : DvSt) (h : DvAll st) : DvAll (dvStep a st) := by
  have hb := (dvStep_frame a st h.base).1
  cases a with
  | create q => exact ⟨hb, h.gen, h.off⟩
  | remove q => exact ⟨hb, h.gen, h.off⟩
  | mkdir q => exact ⟨hb, h.gen, h.off⟩
  | rmdir q => exact ⟨hb, h.gen, h.off⟩
  | need q =>
    unfold dvStep
    dsimp only
    split
    · exact h
    · exact ⟨h.base, h.gen, fun p hp => h.off p (fun e => hp (List.mem_append_left _ e))⟩
  | reload => exact ⟨hb, fun p => Nat.le_succ_of_le (h.gen p), h.off⟩
  | tick =>
    show DvAll (dvTick st)
    unfold dvTick
    split
    · exact h
    · rename_i ev q hq
      have h' : DvAll { st with fs := { st.fs with queue := q } } := ⟨h.base.queue ev q hq, h.gen, h.off⟩
      dsimp only
      split
      · exact h'
      · split
        · rename_i w hf hk
          have hb2 := (dvDir_frame ev.made (ev.name :: w.path) (by simp) _ h'.base).1
          unfold dvDir at hb2 ⊢
          dsimp only at hb2 ⊢
          split
          · split
            · split
              · rename_i i hi
                exact dvScan_all _ _ ⟨h'.base.watch _ i hi, h.gen, h.off⟩
              · exact dvScan_all _ _ h'
            · exact h'
          · rename_i hfp
            rw [hfp] at hb2
            dsimp only at hb2
            split
            · exact h'
            · rename_i hm
              rw [if_neg hm] at hb2
              exact ⟨hb2, h.gen, h.off⟩
        · exact dvUpdate_all _ _ _ h'

theorem dvRun_all : ∀ (acts : List DvAct) (st : DvSt), DvAll st → DvAll (dvRun acts st) := by
  intro acts
  induction acts with
  | nil => exact fun _ h => h
  | cons a acts ih => exact fun st h => ih _ (dvStep_all a st h)

theorem dvInit_all : DvAll dvInit := ⟨dvBase_init, fun _ => Nat.zero_le _, fun _ _ => rfl⟩

theorem dv_noEv_idle (st : DvSt) (h : DvIdle st) (p : ScPath) : DvNoEv p st.fs := by
  intro e he
  rw [show st.fs.queue = [] from h] at he
  cases he

/-! ## What is right -/

/-- The event tells of this file -/
def dvAbout (ws : List ScWatch) (p : ScPath) (e : ScEv) : Bool :=
  !e.isDir && ws.any fun w => w.wd == e.wd && e.name :: w.path == p

/-- What the last event that tells of this file says -/
def dvLast (ws : List ScWatch) (p : ScPath) : List ScEv → Option Bool
  | [] => none
  | e :: q => (dvLast ws p q).or (if dvAbout ws p e then some e.made else none)

theorem dvLast_append (ws : List ScWatch) (p : ScPath) (q : List ScEv) (e : ScEv) :
    dvLast ws p (q ++ [e]) = if dvAbout ws p e then some e.made else dvLast ws p q := by
  induction q with
  | nil =>
    show (none : Option Bool).or _ = _
    rw [Option.none_or]
    rfl
  | cons x q ih =>
    rw [List.cons_append]
    unfold dvLast
    rw [ih]
    split
    · rfl
    · rfl

theorem dvAbout_iff {fs : ScSt} (h : DvBase fs) (w : ScWatch) (hw : w ∈ fs.watches) (k m : Bool) (n : CStr) (p : ScPath) :
    dvAbout fs.watches p ⟨w.wd, k, m, n⟩ = (!k && n :: w.path == p) := by
  unfold dvAbout
  cases k with
  | true => rfl
  | false =>
    show (true && _) = (true && _)
    rw [Bool.true_and, Bool.true_and]
    cases hp : (n :: w.path == p) with
    | true =>
      rw [List.any_eq_true]
      exact ⟨w, hw, by simp only [beq_self_eq_true, Bool.true_and]; exact hp⟩
    | false =>
      rw [List.any_eq_false]
      intro v hv
      simp only [Bool.and_eq_true, not_and, Bool.not_eq_true]
      intro e
      rw [h.inj v hv w hw (by simpa using e)]
      exact hp

theorem dvAbout_fresh {fs : ScSt} (h : DvBase fs) (w : ScWatch) (hw : w.wd = fs.next) (p : ScPath) (e : ScEv) (he : e ∈ fs.queue) :
    dvAbout (w :: fs.watches) p e = dvAbout fs.watches p e := by
  unfold dvAbout
  rw [List.any_cons]
  have := h.efresh e he
  rw [show (w.wd == e.wd) = false by rw [beq_eq_false_iff_ne]; omega]
  simp

theorem dvLast_congr (ws ws' : List ScWatch) (p : ScPath) (q : List ScEv) (h : ∀ e ∈ q, dvAbout ws' p e = dvAbout ws p e) :
    dvLast ws' p q = dvLast ws p q := by
  induction q with
  | nil => rfl
  | cons e q ih =>
    unfold dvLast
    rw [ih (fun x hx => h x (List.mem_cons_of_mem _ hx)), h e List.mem_cons_self]

/-- What others do: no directory is removed, there is no reload, a device is made in a directory that is watched by then, such as `/dev`,
    and services that need it are read before it is there -/
def DvCalm : List DvAct → DvSt → Prop
  | [], _ => True
  | a :: l, st =>
    (match a with
      | .create (_ :: d) => ScWatched d st.fs
      | .need p => p ∉ st.fs.files
      | .rmdir _ => False
      | .reload => False
      | _ => True) ∧ DvCalm l (dvStep a st)

/-- What the condition will be when all events are read -/
def DvWill (st : DvSt) (p : ScPath) : Prop :=
  (p ∈ st.nodes → (dvLast st.fs.watches p st.fs.queue).getD (dvOn st p) = decide (p ∈ st.fs.files)) ∧
  (p ∉ st.nodes → ∀ m, dvLast st.fs.watches p st.fs.queue = some m → m = decide (p ∈ st.fs.files))

structure DvOk (st : DvSt) : Prop where
  all : DvAll st
  pos : 0 < st.gen
  ino : ∀ w ∈ st.fs.watches, scIno w.path st.fs = some w.ino
  files : ∀ p ∈ st.fs.files, ∃ n d, p = n :: d ∧ ScWatched d st.fs
  noDel : ∀ e ∈ st.fs.queue, e.isDir = true → e.made = true
  will : ∀ p, p.length ≤ 2 → DvWill st p

theorem dvInit_ok : DvOk dvInit where
  all := dvInit_all
  pos := Nat.zero_lt_one
  ino := by intro w hw; rw [List.mem_singleton.1 hw]; rfl
  files := by intro p hp; cases hp
  noDel := by intro e he; cases he
  will := by
    intro p _
    exact ⟨fun h => (by cases h), fun _ m h => (by cases h)⟩

/-- A file is made or removed in a watched directory -/
theorem dvOk_file (st : DvSt) (h : DvOk st) (n : CStr) (d : ScPath) (hw : ScWatched d st.fs) (m : Bool) (F : List ScPath)
    (hF : ∀ q, q ≠ n :: d → (q ∈ F ↔ q ∈ st.fs.files)) (hm : decide (n :: d ∈ F) = m) :
    DvOk { st with fs := scPost d false m n { st.fs with files := F } } := by
  have hb : DvBase { st.fs with files := F } := h.all.base.files F
  have ⟨w, h1, h2, h3⟩ := scPost_watched d false m n { st.fs with files := F } h.ino hb.one hw
  have hb' := hb.post d false m n
  rw [h3] at hb' ⊢
  exact {
    all := ⟨hb', h.all.gen, h.all.off⟩
    pos := h.pos
    ino := h.ino
    files := by
      intro p hp
      by_cases e : p = n :: d
      · exact ⟨n, d, e, hw⟩
      · exact h.files p ((hF p e).1 hp)
    noDel := by
      intro e he
      rcases List.mem_append.1 he with he | he
      · exact h.noDel e he
      · rw [List.mem_singleton.1 he]
        exact fun x => by cases x
    will := by
      intro p hp
      have hl : dvLast st.fs.watches p (st.fs.queue ++ [⟨w.wd, false, m, n⟩]) =
          if n :: d = p then some m else dvLast st.fs.watches p st.fs.queue := by
        rw [dvLast_append, dvAbout_iff h.all.base w h1, h2]
        by_cases e : n :: d = p
        · rw [if_pos e, if_pos (by simpa using e)]
        · rw [if_neg e, if_neg (by simpa using e)]
      have hw := h.will p hp
      unfold DvWill
      show (_ → (dvLast st.fs.watches p (st.fs.queue ++ [⟨w.wd, false, m, n⟩])).getD (dvOn st p) = decide (p ∈ F)) ∧
        (_ → ∀ x, dvLast st.fs.watches p (st.fs.queue ++ [⟨w.wd, false, m, n⟩]) = some x → x = decide (p ∈ F))
      rw [hl]
      by_cases e : n :: d = p
      · subst e
        rw [if_pos rfl]
        exact ⟨fun _ => hm.symm, fun _ x hx => by injection hx with hx; rw [← hx, hm]⟩
      · rw [if_neg e, show decide (p ∈ F) = decide (p ∈ st.fs.files) from decide_eq_decide.2 (hF p (fun x => e x.symm))]
        exact hw }

theorem dvOk_tick (st : DvSt) (h : DvOk st) : DvOk (dvTick st) := by
  have hall : DvAll (dvTick st) := dvStep_all .tick st h.all
  rcases hq : st.fs.queue with _ | ⟨ev, q⟩
  · have : dvTick st = st := by unfold dvTick; rw [hq]
    rw [this]
    exact h
  · have hnd : ∀ e ∈ q, e.isDir = true → e.made = true := fun e he => h.noDel e (by rw [hq]; exact List.mem_cons_of_mem _ he)
    have hle : ∀ p, dvLast st.fs.watches p st.fs.queue =
        (dvLast st.fs.watches p q).or (if dvAbout st.fs.watches p ev then some ev.made else none) := by
      intro p
      rw [hq]
      rfl
    -- an event that tells of no file
    have hsame : ∀ p, p.length ≤ 2 → dvAbout st.fs.watches p ev = false →
        (p ∈ st.nodes → (dvLast st.fs.watches p q).getD (dvOn st p) = decide (p ∈ st.fs.files)) ∧
        (p ∉ st.nodes → ∀ m, dvLast st.fs.watches p q = some m → m = decide (p ∈ st.fs.files)) := by
      intro p hp ha
      have := h.will p hp
      unfold DvWill at this
      rw [hle, ha] at this
      simpa using this
    unfold dvTick at hall ⊢
    rw [hq] at hall ⊢
    dsimp only at hall ⊢
    rcases hf : st.fs.watches.find? (fun w => w.wd == ev.wd) with _ | w
    · rw [hf] at hall ⊢
      rw [List.find?_eq_none] at hf
      dsimp only at hall ⊢
      refine ⟨hall, h.pos, h.ino, h.files, hnd, fun p hp => hsame p hp ?_⟩
      unfold dvAbout
      rw [Bool.and_eq_false_iff]
      right
      rw [List.any_eq_false]
      intro v hv
      have := hf v hv
      simp only [Bool.and_eq_true, not_and]
      intro e
      exact absurd e this
    · rw [hf] at hall ⊢
      have hw := List.mem_of_find?_eq_some hf
      have hwd : w.wd = ev.wd := by simpa using List.find?_some hf
      dsimp only at hall ⊢
      have hab : ∀ p, dvAbout st.fs.watches p ev = (!ev.isDir && ev.name :: w.path == p) := by
        intro p
        have := dvAbout_iff h.all.base w hw ev.isDir ev.made ev.name p
        rw [← this]
        congr 1
        rw [hwd]
      by_cases hd : ev.isDir = true
      · rw [if_pos hd] at hall ⊢
        have hmade := h.noDel ev (by rw [hq]; exact List.mem_cons_self) hd
        rw [hmade] at hall ⊢
        have hsame' : ∀ p, p.length ≤ 2 →
            (p ∈ st.nodes → (dvLast st.fs.watches p q).getD (dvOn st p) = decide (p ∈ st.fs.files)) ∧
            (p ∉ st.nodes → ∀ m, dvLast st.fs.watches p q = some m → m = decide (p ∈ st.fs.files)) :=
          fun p hp => hsame p hp (by rw [hab, hd]; rfl)
        have hb' : DvBase { st.fs with queue := q } := h.all.base.queue ev q hq
        have ⟨_, g2, g3, g4, g5, g6⟩ := dvDir_frame true (ev.name :: w.path) (by simp) { st with fs := { st.fs with queue := q } } hb'
        have hsub : ∀ v, v ∈ st.fs.watches → v ∈ (dvDir true (ev.name :: w.path) { st with fs := { st.fs with queue := q } }).fs.watches := by
          intro v hv
          unfold dvDir
          dsimp only
          split
          · split
            · split
              · rw [(dvScan_same _ _).1]
                exact List.mem_cons_of_mem _ hv
              · rw [(dvScan_same _ _).1]
                exact hv
            · exact hv
          · rw [if_pos rfl]
            exact hv
        have hnew : ∀ v, v ∈ (dvDir true (ev.name :: w.path) { st with fs := { st.fs with queue := q } }).fs.watches → v ∈ st.fs.watches ∨
            v.wd = st.fs.next ∧ scIno v.path st.fs = some v.ino := by
          intro v hv
          unfold dvDir at hv
          dsimp only at hv
          split at hv
          · split at hv
            · split at hv
              · rename_i i hi
                rw [(dvScan_same _ _).1] at hv
                rcases List.mem_cons.1 hv with hv | hv
                · right
                  rw [hv]
                  exact ⟨rfl, hi⟩
                · exact Or.inl hv
              · rw [(dvScan_same _ _).1] at hv
                exact Or.inl hv
            · exact Or.inl hv
          · rw [if_pos rfl] at hv
            exact Or.inl hv
        have hdirs : (dvDir true (ev.name :: w.path) { st with fs := { st.fs with queue := q } }).fs.dirs = st.fs.dirs := by
          unfold dvDir
          dsimp only
          split
          · split
            · split
              · rw [(dvScan_same _ _).1]
              · rw [(dvScan_same _ _).1]
            · rfl
          · rw [if_pos rfl]
        generalize hst : dvDir true (ev.name :: w.path) { st with fs := { st.fs with queue := q } } = st' at *
        have hino : ∀ d, scIno d st'.fs = scIno d st.fs := by
          intro d
          unfold scIno
          rw [hdirs]
        exact {
          all := hall
          pos := by rw [g3]; exact h.pos
          ino := by
            intro v hv
            rw [hino]
            rcases hnew v hv with h1 | ⟨_, h1⟩
            · exact h.ino v h1
            · exact h1
          files := by
            intro p hp
            rw [g4] at hp
            have ⟨n, d, e, v, hv, hvd⟩ := h.files p hp
            exact ⟨n, d, e, v, hsub v hv, hvd⟩
          noDel := by rw [g5]; exact hnd
          will := by
            intro p hp
            have hl : dvLast st'.fs.watches p q = dvLast st.fs.watches p q := by
              refine dvLast_congr _ _ p q (fun e he => ?_)
              have hef := h.all.base.efresh e (by rw [hq]; exact List.mem_cons_of_mem _ he)
              unfold dvAbout
              congr 1
              rw [Bool.eq_iff_iff, List.any_eq_true, List.any_eq_true]
              constructor
              · rintro ⟨v, hv, hve⟩
                rcases hnew v hv with h1 | ⟨h1, _⟩
                · exact ⟨v, h1, hve⟩
                · exfalso
                  simp only [Bool.and_eq_true, beq_iff_eq] at hve
                  omega
              · rintro ⟨v, hv, hve⟩
                exact ⟨v, hsub v hv, hve⟩
            have hc := (g6 p hp).1
            unfold DvWill
            rw [g5, g4, g2]
            show (_ → (dvLast st'.fs.watches p q).getD _ = _) ∧ (_ → ∀ m, dvLast st'.fs.watches p q = some m → _)
            rw [hl, show dvOn st' p = dvOn st p by unfold dvOn; rw [hc, g3]]
            exact hsame' p hp }
      · rw [if_neg hd] at hall ⊢
        have hdf : ev.isDir = false := by simpa using hd
        have ⟨g1, g2, g3⟩ := dvUpdate_same ev.made (ev.name :: w.path) { st with fs := { st.fs with queue := q } }
        refine ⟨hall, by rw [g3]; exact h.pos, by rw [g1]; exact h.ino, by rw [g1]; exact h.files, by rw [g1]; exact hnd, fun p hp => ?_⟩
        unfold DvWill
        rw [g1, g2]
        dsimp only
        by_cases e : ev.name :: w.path = p
        · have ha : dvAbout st.fs.watches p ev = true := by rw [hab, hdf]; simpa using e
          have hwill := h.will p hp
          unfold DvWill at hwill
          rw [hle, ha, if_pos rfl] at hwill
          refine ⟨fun hn => ?_, fun hn m hm => ?_⟩
          · have h1 := hwill.1 hn
            have hon : dvOn (dvUpdate ev.made (ev.name :: w.path) { st with fs := { st.fs with queue := q } }) p = ev.made := by
              unfold dvUpdate
              rw [if_pos (by rw [e]; exact hn)]
              unfold dvOn
              dsimp only
              rw [if_pos e.symm]
              have := h.pos
              cases ev.made with
              | true =>
                rw [if_pos rfl]
                simp only [beq_self_eq_true, Bool.and_true, bne_iff_ne, ne_eq]
                omega
              | false => rfl
            rw [hon, ← h1]
            cases dvLast st.fs.watches p q <;> rfl
          · refine hwill.2 hn m ?_
            rw [hm]
            rfl
        · have ha : dvAbout st.fs.watches p ev = false := by
            rw [hab, hdf]
            simpa using e
          have hc := dvUpdate_cond ev.made (ev.name :: w.path) p { st with fs := { st.fs with queue := q } } (fun x => e x.symm)
          rw [show dvOn (dvUpdate ev.made (ev.name :: w.path) { st with fs := { st.fs with queue := q } }) p = dvOn st p by
            unfold dvOn; rw [hc, g3]]
          exact hsame p hp ha

theorem dvOk_run : ∀ (acts : List DvAct) (st : DvSt), DvOk st → DvCalm acts st → DvOk (dvRun acts st) := by
  intro acts
  induction acts with
  | nil => exact fun _ h _ => h
  | cons a acts ih =>
    intro st h hc
    refine ih _ ?_ hc.2
    have hc := hc.1
    cases a with
    | create p =>
      cases p with
      | nil => exact h
      | cons n d =>
        show DvOk { st with fs := if scTaken (n :: d) st.fs then st.fs else _ }
        split
        · exact h
        · exact dvOk_file st h n d hc true _ (fun q hq => by simp [hq]) (by simp)
    | remove p =>
      show DvOk { st with fs := scRemove p st.fs }
      unfold scRemove
      split
      · exact h
      · rename_i n d
        split
        · rename_i hm
          have ⟨n', d', e, hw⟩ := h.files _ hm
          injection e with e1 e2
          subst e1 e2
          refine dvOk_file st h _ _ hw false _ (fun q hq => ?_) ?_
          · rw [List.mem_filter]
            simp [hq]
          · rw [decide_eq_false_iff_not, List.mem_filter]
            simp
        · exact h
    | mkdir p =>
      cases p with
      | nil => exact h
      | cons n d =>
        show DvOk { st with fs := if scTaken (n :: d) st.fs then st.fs else _ }
        split
        · exact h
        · rename_i ht
          have hfree := (scTaken_false n d st.fs ht).2.1
          have hb := h.all.base.mkdir (n :: d)
          have hb2 := hb.post d true true n
          have hino : ∀ w ∈ st.fs.watches,
              scIno w.path { st.fs with dirs := (n :: d, st.fs.next) :: st.fs.dirs, next := st.fs.next + 1 } = some w.ino := by
            intro w hw
            have := h.ino w hw
            rw [dv_ino_cons, if_neg]
            · exact this
            · intro e
              rw [← e, this] at hfree
              cases hfree
          rcases dv_post hb d true true n with e | ⟨w, hw, _, e⟩
          · rw [e] at hb2 ⊢
            exact ⟨⟨hb2, h.all.gen, h.all.off⟩, h.pos, hino, h.files, h.noDel, h.will⟩
          · rw [e] at hb2 ⊢
            refine ⟨⟨hb2, h.all.gen, h.all.off⟩, h.pos, hino, h.files, ?_, fun p hp => ?_⟩
            · intro x hx
              rcases List.mem_append.1 hx with hx | hx
              · exact h.noDel x hx
              · rw [List.mem_singleton.1 hx]
                exact fun _ => rfl
            · have hl : dvLast st.fs.watches p (st.fs.queue ++ [⟨w.wd, true, true, n⟩]) = dvLast st.fs.watches p st.fs.queue := by
                rw [dvLast_append, dvAbout_iff h.all.base w hw]
                rfl
              unfold DvWill
              dsimp only
              rw [hl]
              exact h.will p hp
    | rmdir p => cases hc
    | reload => cases hc
    | tick => exact dvOk_tick st h
    | need p =>
      unfold dvStep
      dsimp only
      split
      · exact h
      · rename_i hn
        refine ⟨⟨h.all.base, h.all.gen, fun q hq => h.all.off q (fun e => hq (List.mem_append_left _ e))⟩, h.pos, h.ino, h.files, h.noDel, fun q hq => ?_⟩
        have hw := h.will q hq
        refine ⟨fun hm => ?_, fun hm => hw.2 (fun e => hm (List.mem_append_left _ e))⟩
        by_cases e : q ∈ st.nodes
        · exact hw.1 e
        · have : q = p := by
            rcases List.mem_append.1 hm with hm | hm
            · exact absurd hm e
            · exact List.mem_singleton.1 hm
          subst this
          have h2 := hw.2 e
          have h3 : dvOn { st with nodes := st.nodes ++ [q] } q = false := by
            unfold dvOn
            dsimp only
            rw [h.all.off q e]
            rfl
          show (dvLast st.fs.watches q st.fs.queue).getD _ = decide (q ∈ st.fs.files)
          rw [h3]
          rcases hl : dvLast st.fs.watches q st.fs.queue with _ | m
          · have : q ∉ st.fs.files := hc
            simp [this]
          · rw [← h2 m hl]
            rfl

/-- If no directory is removed, there is no reload, devices are made in directories that are watched by then and services that need them
    are read before they are there: when all events are read the condition is on exactly if the device is there -/
theorem C100_partial (acts : List DvAct) (p : ScPath) (hp : DvName p) (hc : DvCalm acts dvInit) (hi : DvIdle (dvRun acts dvInit))
    (hn : p ∈ (dvRun acts dvInit).nodes) : dvOn (dvRun acts dvInit) p = decide (p ∈ (dvRun acts dvInit).fs.files) := by
  have h := ((dvOk_run acts _ dvInit_ok hc).will p hp.2).1 hn
  rw [show (dvRun acts dvInit).fs.queue = [] from hi] at h
  exact h

/-- A device comes and goes while events wait -/
def dvDemo : List DvAct := [.need ["fb0".toList], .create ["fb0".toList], .remove ["fb0".toList], .tick, .create ["fb0".toList], .tick, .tick]

example : DvCalm dvDemo dvInit ∧ DvIdle (dvRun dvDemo dvInit) ∧ dvOn (dvRun dvDemo dvInit) ["fb0".toList] = true ∧
    DvName ["fb0".toList] ∧ ["fb0".toList] ∈ (dvRun dvDemo dvInit).nodes :=
  ⟨⟨by decide, ⟨_, List.mem_singleton.2 rfl, rfl⟩, trivial, trivial, ⟨⟨0, 0, []⟩, by decide, rfl⟩, trivial, trivial, trivial⟩,
    by unfold DvIdle; decide, by decide, ⟨by simp, by simp⟩, by decide⟩

/-- A directory of `/dev` is watched once Finit has read that it was made: the conditions for devices made in it then are on, and are off
    when they are removed -/
theorem C100_dir (d n : CStr) :
    DvCalm [.mkdir [d], .tick, .need [n, d], .create [n, d]] dvInit ∧
    dvOn (dvRun [.mkdir [d], .tick, .need [n, d], .create [n, d], .tick] dvInit) [n, d] = true ∧
    dvOn (dvRun [.mkdir [d], .tick, .need [n, d], .create [n, d], .tick, .remove [n, d], .tick] dvInit) [n, d] = false := by
  have h1 : dvRun [.mkdir [d], .tick] dvInit =
      ⟨⟨3, [([d], 1), ([], 0)], [], [⟨2, 1, [d]⟩, ⟨0, 0, []⟩], [], [], fun _ => false⟩, [], fun _ => 0, 1⟩ := by
    simp [dvRun, dvStep, scStep, dvInit, scInit, scTaken, scIno, scPost, dvTick, dvDir, dvScan, scGlob]
  have h2 : dvRun [.mkdir [d], .tick, .need [n, d], .create [n, d], .tick] dvInit =
      ⟨⟨3, [([d], 1), ([], 0)], [[n, d]], [⟨2, 1, [d]⟩, ⟨0, 0, []⟩], [], [], fun _ => false⟩, [[n, d]],
        fun q => if q = [n, d] then 1 else 0, 1⟩ := by
    show dvRun [.need [n, d], .create [n, d], .tick] (dvRun [.mkdir [d], .tick] dvInit) = _
    rw [h1]
    simp [dvRun, dvStep, scStep, scTaken, scIno, scPost, dvTick, dvUpdate]
  refine ⟨⟨trivial, trivial, ?_, ?_, trivial⟩, ?_, ?_⟩
  · show [n, d] ∉ (dvRun [.mkdir [d], .tick] dvInit).fs.files
    rw [h1]
    simp
  · show ScWatched [d] (dvStep (.need [n, d]) (dvRun [.mkdir [d], .tick] dvInit)).fs
    rw [h1]
    exact ⟨⟨2, 1, [d]⟩, List.mem_cons_self .., rfl⟩
  · rw [h2]
    simp [dvOn]
  · have h3 : dvRun [.mkdir [d], .tick, .need [n, d], .create [n, d], .tick, .remove [n, d], .tick] dvInit =
        dvRun [.remove [n, d], .tick] (dvRun [.mkdir [d], .tick, .need [n, d], .create [n, d], .tick] dvInit) :=
      List.foldl_append (f := fun s a => dvStep a s) (b := dvInit)
        (l := ([.mkdir [d], .tick, .need [n, d], .create [n, d], .tick] : List DvAct)) (l' := [.remove [n, d], .tick])
    rw [h3, h2]
    simp [dvRun, dvStep, scStep, scIno, scPost, scRemove, dvTick, dvUpdate, dvOn]

/-! ## What goes wrong -/

/-- A device that is there before a service needs its condition: the condition is never on, until the device is made anew -/
theorem C100_present (before after : List DvAct) (p : ScPath) (hp : DvName p) (hi : DvIdle (dvRun before dvInit))
    (hn : p ∉ (dvRun before dvInit).nodes) (ht : ∀ a ∈ after, ¬ DvTouches p a) :
    dvOn (dvRun after (dvRun before dvInit)) p = false := by
  have ha := dvRun_all before _ dvInit_all
  have ⟨h1, _⟩ := dvRun_frame p hp.2 after _ ha.base (dv_noEv_idle _ hi p) ht
  unfold dvOn
  rw [h1, ha.off p hn]
  rfl

/-- After `initctl reload` no device condition is on, until its device is made anew -/
theorem C100_reload (before after : List DvAct) (p : ScPath) (hp : DvName p) (hi : DvIdle (dvRun before dvInit))
    (ht : ∀ a ∈ after, ¬ DvTouches p a) :
    dvOn (dvRun after (dvStep .reload (dvRun before dvInit))) p = false := by
  have ha := dvRun_all before _ dvInit_all
  have ha' := dvStep_all .reload _ ha
  have ⟨h1, h2⟩ := dvRun_frame p hp.2 after (dvStep .reload (dvRun before dvInit)) ha'.base (dv_noEv_idle _ hi p) ht
  unfold dvOn
  rw [h1]
  have h3 : (dvStep .reload (dvRun before dvInit)).cond p = (dvRun before dvInit).cond p := rfl
  have h4 : (dvStep .reload (dvRun before dvInit)).gen = (dvRun before dvInit).gen + 1 := rfl
  have h5 := ha.gen p
  rw [show ((dvStep .reload (dvRun before dvInit)).cond p == (dvRun after (dvStep .reload (dvRun before dvInit))).gen) = false by
    rw [beq_eq_false_iff_ne]
    omega]
  exact Bool.and_false _

/-- The device is there all the time in both cases -/
example : let st := dvRun [.need ["ttyS0".toList], .create ["ttyS0".toList], .tick] dvInit
    DvIdle st ∧ dvOn st ["ttyS0".toList] = true ∧ ["ttyS0".toList] ∈ (dvStep .reload st).fs.files := by
  refine ⟨by unfold DvIdle; decide, by decide, by decide⟩

/-- A device in a new directory, made before the directory is watched, is not noticed -/
theorem C100_subdir : ∃ acts p, DvName p ∧ DvIdle (dvRun acts dvInit) ∧ p ∈ (dvRun acts dvInit).nodes ∧
    p ∈ (dvRun acts dvInit).fs.files ∧ dvOn (dvRun acts dvInit) p = false ∧ .reload ∉ acts ∧ acts.head? = some (.need p) :=
  ⟨[.need ["timer".toList, "snd".toList], .mkdir ["snd".toList], .create ["timer".toList, "snd".toList], .tick],
    ["timer".toList, "snd".toList], ⟨by simp, by simp⟩, by unfold DvIdle; decide, by decide, by decide, by decide, by simp, rfl⟩

/-- The claim is false -/
theorem C100_full_false : ¬ C100_full := by
  intro h
  have ⟨acts, p, h1, h2, h3, h4, h5, _⟩ := C100_subdir
  have := h acts p h1 h2 h3
  rw [h5] at this
  simp [h4] at this

end Verif
