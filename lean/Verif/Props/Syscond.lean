import Verif.Syscond

/-!
# C99: A sys condition that is set or cleared is acted upon
-/

namespace Verif

/-- Finit has nothing left to do -/
def ScIdle (st : ScSt) : Prop := st.queue = [] ∧ st.todo = []

/-- Finit goes on for some steps while no one else does anything -/
def scTicks (needs : ScPath → Bool) (k : Nat) (st : ScSt) : ScSt := scRun needs (List.replicate k .tick) st

/-- The claim: whatever others did, at any time between the steps of Finit, Finit gets done, and then the services that need a condition
    were told of it as it is -/
def C99_full : Prop :=
  ∀ (needs : ScPath → Bool) (acts : List ScAct), ∃ k,
    ScIdle (scTicks needs k (scRun needs acts scInit)) ∧
    ∀ p, needs p = true →
      (scTicks needs k (scRun needs acts scInit)).seen p = decide (p ∈ (scTicks needs k (scRun needs acts scInit)).files)

/-- A directory is watched -/
def ScWatched (d : ScPath) (st : ScSt) : Prop := ∃ w ∈ st.watches, w.path = d

/-- What others do: no directory is removed, no file is renamed, and directories are made only in those that Finit watches by then, such
    as `sys/` -/
def ScCalm (needs : ScPath → Bool) : List ScAct → ScSt → Prop
  | [], _ => True
  | a :: l, st =>
    (match a with
      | .mkdir (_ :: d) => ScWatched d st
      | .rmdir _ => False
      | .moveIn _ => False
      | _ => True) ∧ ScCalm needs l (scStep needs a st)

/-- The name is one that `*` stands for -/
def ScPlain (p : ScPath) : Prop := ∃ n d, p = n :: d ∧ scHidden n = false

/-! ## It ends -/

/-- The steps that an event, or what is left to do, may take; `b` is more than twice the number of files and directories -/
def scCostEv (b : Nat) (e : ScEv) : Nat := if e.isDir then b + 2 else 3
def scCostTodo (b : Nat) : ScTodo → Nat
  | .scan _ => b + 1
  | .upd _ => 2
  | .unlink _ => 1

def scSum (l : List Nat) : Nat := l.foldr (· + ·) 0

@[simp] theorem scSum_nil : scSum [] = 0 := rfl
@[simp] theorem scSum_cons (x : Nat) (l : List Nat) : scSum (x :: l) = x + scSum l := rfl

theorem scSum_append (a b : List Nat) : scSum (a ++ b) = scSum a + scSum b := by
  induction a with
  | nil => simp
  | cons x a ih => simp only [List.cons_append, scSum_cons, ih]; omega

def scMeasure (b : Nat) (st : ScSt) : Nat :=
  scSum (st.queue.map (scCostEv b)) + scSum (st.todo.map (scCostTodo b)) + 3 * st.files.length

theorem scPost_cases (d : ScPath) (k m : Bool) (n : CStr) (st : ScSt) :
    scPost d k m n st = st ∨ ∃ w ∈ st.watches, scPost d k m n st = { st with queue := st.queue ++ [⟨w.wd, k, m, n⟩] } := by
  unfold scPost
  split
  · exact Or.inl rfl
  · split
    · exact Or.inl rfl
    · rename_i h
      exact Or.inr ⟨_, List.mem_of_find?_eq_some h, rfl⟩

theorem filter_ne_length (p : ScPath) (l : List ScPath) (h : p ∈ l) : (l.filter (· ≠ p)).length + 1 ≤ l.length := by
  induction l with
  | nil => cases h
  | cons q l ih =>
    by_cases hq : q = p
    · subst hq
      rw [List.filter_cons_of_neg (by simp)]
      have := List.length_filter_le (fun x => decide (x ≠ q)) l
      simp only [List.length_cons]
      omega
    · rw [List.filter_cons_of_pos (by simpa using hq)]
      simp only [List.length_cons]
      rcases List.mem_cons.1 h with rfl | h
      · exact absurd rfl hq
      · have := ih h
        omega

theorem scRemove_measure (b : Nat) (p : ScPath) (st : ScSt) :
    scMeasure b (scRemove p st) ≤ scMeasure b st ∧ (scRemove p st).files.length ≤ st.files.length ∧ (scRemove p st).dirs = st.dirs := by
  unfold scRemove
  split
  · exact ⟨Nat.le_refl _, Nat.le_refl _, rfl⟩
  · split
    · rename_i n d h
      have hl := filter_ne_length _ _ h
      rcases scPost_cases d false false n { st with files := st.files.filter (· ≠ n :: d) } with e | ⟨w, _, e⟩
      · rw [e]
        refine ⟨?_, by dsimp only; omega, rfl⟩
        unfold scMeasure
        dsimp only
        omega
      · rw [e]
        refine ⟨?_, by dsimp only; omega, rfl⟩
        unfold scMeasure
        dsimp only
        rw [List.map_append, scSum_append]
        simp only [List.map_cons, List.map_nil, scSum_cons, scSum_nil, scCostEv, Bool.false_eq_true, if_false]
        omega
    · exact ⟨Nat.le_refl _, Nat.le_refl _, rfl⟩

theorem scSum_upd (b : Nat) (l : List ScPath) : scSum ((l.map ScTodo.upd).map (scCostTodo b)) = 2 * l.length := by
  induction l with
  | nil => rfl
  | cons p l ih =>
    rw [List.map_cons, List.map_cons, scSum_cons, ih, List.length_cons]
    show 2 + _ = _
    omega

/-- A step of Finit is progress -/
theorem scTick_measure (needs : ScPath → Bool) (b : Nat) (st : ScSt) (hb : 2 * (st.files.length + st.dirs.length) ≤ b) (h : ¬ ScIdle st) :
    scMeasure b (scTick needs st) < scMeasure b st ∧
    2 * ((scTick needs st).files.length + (scTick needs st).dirs.length) ≤ b := by
  unfold scTick
  split
  · rename_i d r ht
    refine ⟨?_, hb⟩
    unfold scMeasure
    dsimp only
    rw [ht, List.map_append, scSum_append, scSum_upd, List.map_cons, scSum_cons]
    have : (scGlob d st).length ≤ st.files.length + st.dirs.length := by
      unfold scGlob
      have := List.length_filter_le (fun p : ScPath => match p with | [] => false | n :: e => e == d && !scHidden n)
        (st.files ++ st.dirs.map (·.1))
      rw [List.length_append, List.length_map] at this
      exact this
    show _ < _ + ((b + 1) + _) + _
    omega
  · rename_i p r ht
    refine ⟨?_, hb⟩
    unfold scMeasure
    dsimp only
    rw [ht, List.map_cons, scSum_cons]
    show _ < _ + (2 + _) + _
    split
    · omega
    · rw [List.map_cons, scSum_cons]
      show _ + (1 + _) + _ < _
      omega
  · rename_i p r ht
    have ⟨h1, h2, h3⟩ := scRemove_measure b p { st with todo := r }
    refine ⟨?_, by rw [h3]; dsimp only at h2 ⊢; omega⟩
    refine Nat.lt_of_le_of_lt h1 ?_
    unfold scMeasure
    dsimp only
    rw [ht, List.map_cons, scSum_cons]
    show _ < _ + (1 + _) + _
    omega
  · rename_i ht
    split
    · rename_i hq
      exact absurd ⟨hq, ht⟩ h
    · rename_i ev q hq
      have hm : scMeasure b st = scCostEv b ev + scSum (q.map (scCostEv b)) + 3 * st.files.length := by
        unfold scMeasure
        rw [hq, ht, List.map_cons, scSum_cons]
        simp
      have hpos : 3 ≤ scCostEv b ev ∨ ev.isDir = true := by
        unfold scCostEv
        cases ev.isDir
        · exact Or.inl (by simp)
        · exact Or.inr rfl
      split
      · refine ⟨?_, hb⟩
        rw [hm]
        unfold scMeasure
        dsimp only
        rw [ht]
        simp only [List.map_nil, scSum_nil]
        have : 2 ≤ scCostEv b ev := by unfold scCostEv; split <;> omega
        omega
      · rename_i w hw
        split
        · rename_i hd
          have hc : scCostEv b ev = b + 2 := by unfold scCostEv; rw [if_pos hd]
          unfold scDir
          dsimp only
          repeat' split
          all_goals refine ⟨?_, hb⟩
          all_goals rw [hm, hc]
          all_goals unfold scMeasure
          all_goals dsimp only
          all_goals (try rw [ht])
          all_goals simp only [List.map_nil, List.map_cons, scSum_nil, scSum_cons, scCostTodo]
          all_goals omega
        · rename_i hd
          have hc : scCostEv b ev = 3 := by unfold scCostEv; rw [if_neg hd]
          refine ⟨?_, hb⟩
          rw [hm, hc]
          unfold scMeasure
          dsimp only
          simp only [List.map_nil, List.map_cons, scSum_nil, scSum_cons, scCostTodo]
          omega

theorem scTicks_succ (needs : ScPath → Bool) (k : Nat) (st : ScSt) : scTicks needs (k + 1) st = scTicks needs k (scTick needs st) := by
  unfold scTicks
  rw [List.replicate_succ]
  rfl

theorem scTicks_end (needs : ScPath → Bool) (b : Nat) : ∀ (m : Nat) (st : ScSt), scMeasure b st ≤ m →
    2 * (st.files.length + st.dirs.length) ≤ b → ∃ k, ScIdle (scTicks needs k st) := by
  intro m
  induction m with
  | zero =>
    intro st hm hb
    by_cases h : ScIdle st
    · exact ⟨0, h⟩
    · have := (scTick_measure needs b st hb h).1
      omega
  | succ m ih =>
    intro st hm hb
    by_cases h : ScIdle st
    · exact ⟨0, h⟩
    · have ⟨h1, h2⟩ := scTick_measure needs b st hb h
      have ⟨k, hk⟩ := ih (scTick needs st) (by omega) h2
      exact ⟨k + 1, by rw [scTicks_succ]; exact hk⟩

/-- Finit gets done, whatever others did before -/
theorem C99_ends (needs : ScPath → Bool) (st : ScSt) : ∃ k, ScIdle (scTicks needs k st) :=
  scTicks_end needs _ _ st (Nat.le_refl _) (Nat.le_refl _)

/-! ## The invariant -/

/-- A change of a file is known to be looked at -/
def ScPend (n : CStr) (d : ScPath) (st : ScSt) : Prop :=
  ScTodo.upd (n :: d) ∈ st.todo ∨ (ScTodo.scan d ∈ st.todo ∧ n :: d ∈ st.files) ∨
  (∃ w ∈ st.watches, w.path = d ∧ ∃ m, ⟨w.wd, false, m, n⟩ ∈ st.queue) ∨ ¬ ScWatched d st

/-- What is known to be looked at: changes of a condition that is needed, and one that is not needed -/
def ScGood (needs : ScPath → Bool) (n : CStr) (d : ScPath) (st : ScSt) : Prop :=
  scHidden n = false →
    (needs (n :: d) = true → st.seen (n :: d) ≠ decide (n :: d ∈ st.files) → ScPend n d st) ∧
    (needs (n :: d) = false → n :: d ∈ st.files → ScTodo.unlink (n :: d) ∈ st.todo ∨ ScPend n d st)

structure ScBase (needs : ScPath → Bool) (st : ScSt) : Prop where
  ino : ∀ w ∈ st.watches, scIno w.path st = some w.ino
  fresh : ∀ w ∈ st.watches, w.wd < st.next
  inj : ∀ w ∈ st.watches, ∀ w' ∈ st.watches, w.wd = w'.wd → w = w'
  one : ∀ d d' i, scIno d st = some i → scIno d' st = some i → d = d'
  inos : ∀ d i, scIno d st = some i → i < st.next
  root : ScWatched [] st
  dirs : ∀ d, (scIno d st).isSome → ScWatched d st ∨
    ∃ n d', d = n :: d' ∧ ∃ w ∈ st.watches, w.path = d' ∧ ⟨w.wd, true, true, n⟩ ∈ st.queue
  noDel : ∀ e ∈ st.queue, e.isDir = true → e.made = true
  seen : ∀ n d, st.seen (n :: d) = true → ScWatched d st
  files : ∀ p ∈ st.files, ∃ n d, p = n :: d ∧ (scIno d st).isSome
  upds : ∀ p, ScTodo.upd p ∈ st.todo → ∃ n d, p = n :: d ∧ ScWatched d st
  scans : ∀ d, ScTodo.scan d ∈ st.todo → ScWatched d st
  unls : ∀ p, ScTodo.unlink p ∈ st.todo → needs p = false
  evs : ∀ e ∈ st.queue, e.wd < st.next ∧ (e.isDir = true → ∀ w ∈ st.watches, w.wd = e.wd → (scIno (e.name :: w.path) st).isSome)

def ScInv (needs : ScPath → Bool) (st : ScSt) : Prop := ScBase needs st ∧ ∀ n d, ScGood needs n d st

theorem scInit_inv (needs : ScPath → Bool) : ScInv needs scInit := by
  refine ⟨?_, fun n d _ => ⟨fun _ h => absurd rfl h, fun _ h => by cases h⟩⟩
  exact {
    ino := by intro w hw; rw [List.mem_singleton.1 hw]; rfl
    fresh := by intro w hw; rw [List.mem_singleton.1 hw]; exact Nat.zero_lt_one
    inj := by intro w hw w' hw' _; rw [List.mem_singleton.1 hw, List.mem_singleton.1 hw']
    one := by
      intro d d' i h h'
      have key : ∀ e, scIno e scInit = some i → e = [] := by
        intro e he
        cases e with
        | nil => rfl
        | cons x e => simp [scIno, scInit] at he
      rw [key d h, key d' h']
    inos := by
      intro d i h
      cases d with
      | nil => simp [scIno, scInit] at h; subst h; exact Nat.zero_lt_one
      | cons x e => simp [scIno, scInit] at h
    root := ⟨⟨0, 0, []⟩, List.mem_singleton.2 rfl, rfl⟩
    dirs := by
      intro d h
      cases d with
      | nil => exact Or.inl ⟨⟨0, 0, []⟩, List.mem_singleton.2 rfl, rfl⟩
      | cons x e => simp [scIno, scInit] at h
    noDel := by intro e he; cases he
    seen := by intro n d h; cases h
    files := by intro p h; cases h
    upds := by intro p h; cases h
    scans := by intro p h; cases h
    unls := by intro p h; cases h
    evs := by intro p h; cases h }

/-- A watched directory has its watch found by the kernel -/
theorem scPost_watched (d : ScPath) (k m : Bool) (n : CStr) (st : ScSt)
    (hino : ∀ w ∈ st.watches, scIno w.path st = some w.ino)
    (hone : ∀ d d' i, scIno d st = some i → scIno d' st = some i → d = d') (hw : ScWatched d st) :
    ∃ w ∈ st.watches, w.path = d ∧ scPost d k m n st = { st with queue := st.queue ++ [⟨w.wd, k, m, n⟩] } := by
  have ⟨w, hm, hp⟩ := hw
  have hi := hino w hm
  rw [hp] at hi
  unfold scPost
  rw [hi]
  dsimp only
  rcases hf : st.watches.find? (fun x => x.ino == w.ino) with _ | w'
  · rw [List.find?_eq_none] at hf
    exact absurd (hf w hm) (by simp)
  · have h1 := List.mem_of_find?_eq_some hf
    have h2 : w'.ino = w.ino := by simpa using List.find?_some hf
    refine ⟨w', h1, ?_, by rw [hf]⟩
    exact hone _ _ w.ino (by rw [hino w' h1, h2]) hi

theorem scPost_unwatched (d : ScPath) (k m : Bool) (n : CStr) (st : ScSt)
    (hino : ∀ w ∈ st.watches, scIno w.path st = some w.ino)
    (hone : ∀ d d' i, scIno d st = some i → scIno d' st = some i → d = d') (hw : ¬ ScWatched d st) :
    scPost d k m n st = st := by
  unfold scPost
  split
  · rfl
  · rename_i i hi
    split
    · rfl
    · rename_i w hf
      have h1 := List.mem_of_find?_eq_some hf
      have h2 : w.ino = i := by simpa using List.find?_some hf
      exact absurd ⟨w, h1, hone _ _ i (by rw [hino w h1, h2]) hi⟩ hw

/-- More events do no harm -/
theorem ScBase.queue {needs : ScPath → Bool} {st : ScSt} (h : ScBase needs st) (e : ScEv) (he : e.isDir = true → e.made = true)
    (hv : e.wd < st.next ∧ (e.isDir = true → ∀ w ∈ st.watches, w.wd = e.wd → (scIno (e.name :: w.path) st).isSome)) :
    ScBase needs { st with queue := st.queue ++ [e] } :=
  { h with
    ino := h.ino
    one := h.one
    inos := h.inos
    dirs := by
      intro d hd
      rcases h.dirs d hd with h1 | ⟨n, d', e1, w, hw, hp, hq⟩
      · exact Or.inl h1
      · exact Or.inr ⟨n, d', e1, w, hw, hp, List.mem_append_left _ hq⟩
    noDel := by
      intro x hx
      rcases List.mem_append.1 hx with hx | hx
      · exact h.noDel x hx
      · rw [List.mem_singleton.1 hx]
        exact he
    root := h.root
    seen := h.seen
    files := h.files
    upds := h.upds
    scans := h.scans
    evs := by
      intro x hx
      rcases List.mem_append.1 hx with hx | hx
      · exact h.evs x hx
      · rw [List.mem_singleton.1 hx]
        exact hv }

theorem ScGood.queue {needs : ScPath → Bool} {st : ScSt} {n : CStr} {d : ScPath} (h : ScGood needs n d st) (e : ScEv) :
    ScGood needs n d { st with queue := st.queue ++ [e] } := by
  have hp : ScPend n d st → ScPend n d { st with queue := st.queue ++ [e] } := by
    rintro (h1 | h1 | ⟨w, hw, hd, m, hm⟩ | h1)
    · exact Or.inl h1
    · exact Or.inr (Or.inl h1)
    · exact Or.inr (Or.inr (Or.inl ⟨w, hw, hd, m, List.mem_append_left _ hm⟩))
    · exact Or.inr (Or.inr (Or.inr h1))
  intro hh
  exact ⟨fun a b => hp ((h hh).1 a b), fun a b => ((h hh).2 a b).imp_right hp⟩

/-- A file is made or removed, and told of -/
theorem scInv_file {needs : ScPath → Bool} {st : ScSt} (hb : ScBase needs st) (n : CStr) (d : ScPath)
    (hg : ∀ n' d', n' :: d' ≠ n :: d → ScGood needs n' d' st) (F : List ScPath) (hF : ∀ q, q ≠ n :: d → (q ∈ F ↔ q ∈ st.files))
    (hd : (scIno d st).isSome) (m : Bool) : ScInv needs (scPost d false m n { st with files := F }) := by
  have hb' : ScBase needs { st with files := F } :=
    { hb with
      ino := hb.ino, one := hb.one, inos := hb.inos, dirs := hb.dirs, root := hb.root, seen := hb.seen, upds := hb.upds, scans := hb.scans, evs := hb.evs
      files := by
        intro q hq
        by_cases e : q = n :: d
        · exact ⟨n, d, e, hd⟩
        · exact hb.files q ((hF q e).1 hq) }
  have hg' : ∀ n' d', n' :: d' ≠ n :: d → ScGood needs n' d' { st with files := F } := by
    intro n' d' hne hh
    have h := hg n' d' hne hh
    have hm := hF _ hne
    have hp : ScPend n' d' st → ScPend n' d' { st with files := F } := by
      rintro (h1 | h1 | h1 | h1)
      · exact Or.inl h1
      · exact Or.inr (Or.inl ⟨h1.1, hm.2 h1.2⟩)
      · exact Or.inr (Or.inr (Or.inl h1))
      · exact Or.inr (Or.inr (Or.inr h1))
    refine ⟨fun a b => hp (h.1 a fun e => b ?_), fun a b => (h.2 a (hm.1 b)).imp_right hp⟩
    show st.seen (n' :: d') = decide (n' :: d' ∈ F)
    rw [e]
    exact decide_eq_decide.2 hm.symm
  by_cases hw : ScWatched d st
  · have ⟨w, h1, h2, h3⟩ := scPost_watched d false m n { st with files := F } hb'.ino hb'.one hw
    rw [h3]
    refine ⟨hb'.queue _ (fun e => by cases e) ⟨hb'.fresh w h1, fun e => by cases e⟩, ?_⟩
    intro n' d'
    by_cases e : n' :: d' = n :: d
    · injection e with e1 e2
      subst e1 e2
      have hp : ScPend n' d' { st with files := F, queue := st.queue ++ [⟨w.wd, false, m, n'⟩] } :=
        Or.inr (Or.inr (Or.inl ⟨w, h1, h2, m, List.mem_append_right _ (List.mem_singleton.2 rfl)⟩))
      exact fun _ => ⟨fun _ _ => hp, fun _ _ => Or.inr hp⟩
    · exact (hg' n' d' e).queue _
  · rw [scPost_unwatched d false m n { st with files := F } hb'.ino hb'.one hw]
    refine ⟨hb', ?_⟩
    intro n' d'
    by_cases e : n' :: d' = n :: d
    · injection e with e1 e2
      subst e1 e2
      have hp : ScPend n' d' { st with files := F } := Or.inr (Or.inr (Or.inr hw))
      exact fun _ => ⟨fun _ _ => hp, fun _ _ => Or.inr hp⟩
    · exact hg' n' d' e

theorem scInv_remove {needs : ScPath → Bool} {st : ScSt} (hb : ScBase needs st) (p : ScPath)
    (hg : ∀ n d, n :: d ≠ p → ScGood needs n d st) (hp : ∀ n d, p = n :: d → n :: d ∉ st.files → ScGood needs n d st) :
    ScInv needs (scRemove p st) := by
  unfold scRemove
  split
  · exact ⟨hb, fun n d => hg n d (by simp)⟩
  · rename_i n d
    split
    · rename_i h
      have ⟨n', d', e, hd⟩ := hb.files _ h
      injection e with e1 e2
      subst e1 e2
      refine scInv_file hb _ _ hg _ (fun q hq => ?_) hd _
      rw [List.mem_filter]
      simp [hq]
    · rename_i h
      refine ⟨hb, fun n' d' => ?_⟩
      by_cases e : n' :: d' = n :: d
      · exact hp n' d' e.symm (by rw [e]; exact h)
      · exact hg n' d' e

/-- What is left to do is done in part -/
theorem ScBase.todo {needs : ScPath → Bool} {st : ScSt} (h : ScBase needs st) (t : List ScTodo)
    (h1 : ∀ p, ScTodo.upd p ∈ t → ∃ n d, p = n :: d ∧ ScWatched d st) (h2 : ∀ d, ScTodo.scan d ∈ t → ScWatched d st)
    (h3 : ∀ p, ScTodo.unlink p ∈ t → needs p = false) : ScBase needs { st with todo := t } :=
  { h with
    ino := h.ino, one := h.one, inos := h.inos, dirs := h.dirs, root := h.root, seen := h.seen, files := h.files, evs := h.evs
    upds := h1, scans := h2, unls := h3 }

theorem scInv_scan {needs : ScPath → Bool} {st : ScSt} (h : ScInv needs st) (d : ScPath) (r : List ScTodo) (ht : st.todo = .scan d :: r) :
    ScInv needs { st with todo := (scGlob d st).map .upd ++ r } := by
  have ⟨hb, hg⟩ := h
  have hglob : ∀ p, p ∈ scGlob d st → ∃ n, p = n :: d := by
    intro p hp
    unfold scGlob at hp
    rw [List.mem_filter] at hp
    have ⟨h1, h2⟩ := hp
    cases p with
    | nil => cases h2
    | cons n e =>
      simp only [Bool.and_eq_true, beq_iff_eq] at h2
      exact ⟨n, by rw [h2.1]⟩
  refine ⟨?_, ?_⟩
  · refine hb.todo _ ?_ ?_ ?_
    · intro p hp
      rcases List.mem_append.1 hp with hp | hp
      · have ⟨q, hq, e⟩ := List.mem_map.1 hp
        injection e with e
        subst e
        have ⟨n, e⟩ := hglob q hq
        refine ⟨n, d, e, ?_⟩
        exact hb.scans d (by rw [ht]; exact List.mem_cons_self)
      · exact hb.upds p (by rw [ht]; exact List.mem_cons_of_mem _ hp)
    · intro e he
      rcases List.mem_append.1 he with he | he
      · have ⟨q, _, e⟩ := List.mem_map.1 he
        cases e
      · exact hb.scans e (by rw [ht]; exact List.mem_cons_of_mem _ he)
    · intro p hp
      rcases List.mem_append.1 hp with hp | hp
      · have ⟨q, _, e⟩ := List.mem_map.1 hp
        cases e
      · exact hb.unls p (by rw [ht]; exact List.mem_cons_of_mem _ hp)
  · intro n e hh
    have hp : ScPend n e st → ScPend n e { st with todo := (scGlob d st).map .upd ++ r } := by
      rintro (h1 | ⟨h1, h2⟩ | h1 | h1)
      · rw [ht] at h1
        rcases List.mem_cons.1 h1 with h1 | h1
        · cases h1
        · exact Or.inl (List.mem_append_right _ h1)
      · rw [ht] at h1
        rcases List.mem_cons.1 h1 with h1 | h1
        · injection h1 with h1
          subst h1
          refine Or.inl (List.mem_append_left _ (List.mem_map.2 ⟨n :: e, ?_, rfl⟩))
          unfold scGlob
          rw [List.mem_filter]
          exact ⟨List.mem_append_left _ h2, by simp [hh]⟩
        · exact Or.inr (Or.inl ⟨List.mem_append_right _ h1, h2⟩)
      · exact Or.inr (Or.inr (Or.inl h1))
      · exact Or.inr (Or.inr (Or.inr h1))
    refine ⟨fun a b => hp ((hg n e hh).1 a b), fun a b => ?_⟩
    rcases (hg n e hh).2 a b with h1 | h1
    · rw [ht] at h1
      rcases List.mem_cons.1 h1 with h1 | h1
      · cases h1
      · exact Or.inl (List.mem_append_right _ h1)
    · exact Or.inr (hp h1)

theorem scInv_upd {needs : ScPath → Bool} {st : ScSt} (h : ScInv needs st) (p : ScPath) (r : List ScTodo) (ht : st.todo = .upd p :: r) :
    ScInv needs { st with seen := fun q => if q = p then decide (p ∈ st.files) else st.seen q,
                          todo := if needs p then r else .unlink p :: r } := by
  have ⟨hb, hg⟩ := h
  have hsub : ∀ x, x ∈ r → x ∈ st.todo := fun x hx => by rw [ht]; exact List.mem_cons_of_mem _ hx
  have hto : ∀ x, x ∈ r → x ∈ (if needs p then r else .unlink p :: r) := by
    intro x hx
    split
    · exact hx
    · exact List.mem_cons_of_mem _ hx
  have hot : ∀ x, x ∈ (if needs p then r else .unlink p :: r) → x ∈ r ∨ (x = .unlink p ∧ needs p = false) := by
    intro x hx
    split at hx
    · exact Or.inl hx
    · rename_i hn
      rcases List.mem_cons.1 hx with hx | hx
      · exact Or.inr ⟨hx, by simpa using hn⟩
      · exact Or.inl hx
  refine ⟨?_, ?_⟩
  · have h1 := hb.todo (if needs p then r else .unlink p :: r) (by
      intro q hq
      rcases hot _ hq with hq | ⟨hq, _⟩
      · exact hb.upds q (hsub _ hq)
      · cases hq) (by
      intro q hq
      rcases hot _ hq with hq | ⟨hq, _⟩
      · exact hb.scans q (hsub _ hq)
      · cases hq) (by
      intro q hq
      rcases hot _ hq with hq | ⟨hq, hn⟩
      · exact hb.unls q (hsub _ hq)
      · injection hq with hq
        rw [hq]
        exact hn)
    exact { h1 with
      ino := h1.ino, one := h1.one, inos := h1.inos, dirs := h1.dirs, root := h1.root, files := h1.files, upds := h1.upds, scans := h1.scans
      evs := h1.evs
      seen := by
        intro n d hs
        dsimp only at hs
        split at hs
        · rename_i e
          have ⟨n', d', e', hw⟩ := hb.upds p (by rw [ht]; exact List.mem_cons_self)
          rw [← e] at e'
          injection e' with _ e'
          rw [e']
          exact hw
        · exact hb.seen n d hs }
  · intro n e hh
    by_cases hne : n :: e = p
    · subst hne
      refine ⟨fun _ b => absurd (if_pos rfl) b, fun a b => Or.inl ?_⟩
      show _ ∈ (if needs (n :: e) then r else _)
      rw [if_neg (by rw [a]; simp)]
      exact List.mem_cons_self
    · have hp : ScPend n e st → ScPend n e { st with
          seen := fun q => if q = p then decide (p ∈ st.files) else st.seen q
          todo := if needs p then r else .unlink p :: r } := by
        rintro (h1 | ⟨h1, h2⟩ | h1 | h1)
        · rw [ht] at h1
          rcases List.mem_cons.1 h1 with h1 | h1
          · injection h1 with h1
            exact absurd h1 hne
          · exact Or.inl (hto _ h1)
        · rw [ht] at h1
          rcases List.mem_cons.1 h1 with h1 | h1
          · cases h1
          · exact Or.inr (Or.inl ⟨hto _ h1, h2⟩)
        · exact Or.inr (Or.inr (Or.inl h1))
        · exact Or.inr (Or.inr (Or.inr h1))
      refine ⟨fun a b => hp ((hg n e hh).1 a ?_), fun a b => ?_⟩
      · intro hs
        apply b
        show (if n :: e = p then _ else st.seen (n :: e)) = _
        rw [if_neg hne]
        exact hs
      · rcases (hg n e hh).2 a b with h1 | h1
        · rw [ht] at h1
          rcases List.mem_cons.1 h1 with h1 | h1
          · cases h1
          · exact Or.inl (hto _ h1)
        · exact Or.inr (hp h1)

/-- An event is taken from the queue; what it told of is looked at -/
theorem scInv_event {needs : ScPath → Bool} {st : ScSt} (h : ScInv needs st) (ht : st.todo = []) (ev : ScEv) (q : List ScEv) (hq : st.queue = ev :: q) :
    ScInv needs (scTick needs st) := by
  have ⟨hb, hg⟩ := h
  have hsub : ∀ x, x ∈ q → x ∈ st.queue := fun x hx => by rw [hq]; exact List.mem_cons_of_mem _ hx
  have hev := hb.evs ev (by rw [hq]; exact List.mem_cons_self)
  unfold scTick
  rw [ht, hq]
  dsimp only
  -- the base without the event, for which all directories are watched or told of
  have base : (∀ d, (scIno d st).isSome → ScWatched d st ∨
      ∃ n d', d = n :: d' ∧ ∃ w ∈ st.watches, w.path = d' ∧ ⟨w.wd, true, true, n⟩ ∈ q) → ScBase needs { st with queue := q, todo := [] } := by
    intro hd
    exact { hb with
      ino := hb.ino, one := hb.one, inos := hb.inos, root := hb.root, seen := hb.seen, files := hb.files
      dirs := hd
      upds := by intro p hp; cases hp
      scans := by intro p hp; cases hp
      unls := by intro p hp; cases hp
      noDel := fun e he => hb.noDel e (hsub e he)
      evs := fun e he => hb.evs e (hsub e he) }
  rcases hf : st.watches.find? (fun w => w.wd == ev.wd) with _ | w
  · rw [hf]
    dsimp only
    rw [List.find?_eq_none] at hf
    have hno : ∀ w ∈ st.watches, w.wd ≠ ev.wd := fun w hw e => hf w hw (by simpa using e)
    refine ⟨base ?_, ?_⟩
    · intro d hd
      rcases hb.dirs d hd with h1 | ⟨n, d', e, w, hw, hp, hm⟩
      · exact Or.inl h1
      · rw [hq] at hm
        rcases List.mem_cons.1 hm with hm | hm
        · exact absurd (by rw [← hm]) (hno w hw)
        · exact Or.inr ⟨n, d', e, w, hw, hp, hm⟩
    · intro n d hh
      have hp : ScPend n d st → ScPend n d { st with queue := q, todo := [] } := by
        rintro (h1 | h1 | ⟨w, hw, hd, m, hm⟩ | h1)
        · rw [ht] at h1; cases h1
        · rw [ht] at h1; cases h1.1
        · rw [hq] at hm
          rcases List.mem_cons.1 hm with hm | hm
          · exact absurd (by rw [← hm]) (hno w hw)
          · exact Or.inr (Or.inr (Or.inl ⟨w, hw, hd, m, hm⟩))
        · exact Or.inr (Or.inr (Or.inr h1))
      exact ⟨fun a b => hp ((hg n d hh).1 a b), fun a b => ((hg n d hh).2 a b).imp (fun x => by rw [ht] at x; cases x) hp⟩
  · rw [hf]
    dsimp only
    have hw := List.mem_of_find?_eq_some hf
    have hwd : w.wd = ev.wd := by simpa using List.find?_some hf
    by_cases hdir : ev.isDir = true
    · rw [if_pos hdir, hb.noDel ev (by rw [hq]; exact List.mem_cons_self) hdir]
      -- other directories
      have hdirs : ∀ d, (scIno d st).isSome → d ≠ ev.name :: w.path → ScWatched d st ∨
          ∃ n d', d = n :: d' ∧ ∃ w ∈ st.watches, w.path = d' ∧ ⟨w.wd, true, true, n⟩ ∈ q := by
        intro d hd hne
        rcases hb.dirs d hd with h1 | ⟨n, d', e, w', hw', hp, hm⟩
        · exact Or.inl h1
        · rw [hq] at hm
          rcases List.mem_cons.1 hm with hm | hm
          · exfalso
            apply hne
            have : w' = w := hb.inj w' hw' w hw (by rw [hwd, ← hm])
            rw [e, ← hp, this, ← hm]
          · exact Or.inr ⟨n, d', e, w', hw', hp, hm⟩
      have hpq : ∀ n d, (∃ w ∈ st.watches, w.path = d ∧ ∃ m, (⟨w.wd, false, m, n⟩ : ScEv) ∈ st.queue) →
          ∃ w ∈ st.watches, w.path = d ∧ ∃ m, (⟨w.wd, false, m, n⟩ : ScEv) ∈ q := by
        rintro n d ⟨w', hw', hp, m, hm⟩
        rw [hq] at hm
        rcases List.mem_cons.1 hm with hm | hm
        · rw [← hm] at hdir
          cases hdir
        · exact ⟨w', hw', hp, m, hm⟩
      unfold scDir
      dsimp only
      rcases hfp : st.watches.find? (fun x => x.path == ev.name :: w.path) with _ | w1
      · rw [hfp]
        dsimp only
        rw [if_pos rfl]
        rw [List.find?_eq_none] at hfp
        have hnw : ¬ ScWatched (ev.name :: w.path) st := by
          rintro ⟨x, hx, e⟩
          exact hfp x hx (by simpa using e)
        have hex := hev.2 hdir w hw hwd
        have ⟨i, hi⟩ := Option.isSome_iff_exists.1 hex
        rw [show scIno (ev.name :: w.path) { st with queue := q, todo := [] } = scIno (ev.name :: w.path) st from rfl, hi]
        dsimp only
        have hmono : ∀ d (st' : ScSt), st'.watches = ⟨st.next, i, ev.name :: w.path⟩ :: st.watches → ScWatched d st → ScWatched d st' := by
          rintro d st' e ⟨x, hx, hp⟩
          exact ⟨x, by rw [e]; exact List.mem_cons_of_mem _ hx, hp⟩
        refine ⟨?_, ?_⟩
        · exact {
            ino := by
              intro x hx
              rcases List.mem_cons.1 hx with rfl | hx
              · exact hi
              · exact hb.ino x hx
            fresh := by
              intro x hx
              rcases List.mem_cons.1 hx with rfl | hx
              · exact Nat.lt_succ_self _
              · exact Nat.lt_succ_of_lt (hb.fresh x hx)
            inj := by
              intro x hx y hy e
              rcases List.mem_cons.1 hx with hx | hx
              · rcases List.mem_cons.1 hy with hy | hy
                · rw [hx, hy]
                · have := hb.fresh y hy
                  rw [← e, hx] at this
                  exact absurd this (Nat.lt_irrefl _)
              · rcases List.mem_cons.1 hy with hy | hy
                · have := hb.fresh x hx
                  rw [e, hy] at this
                  exact absurd this (Nat.lt_irrefl _)
                · exact hb.inj x hx y hy e
            one := hb.one
            inos := fun d j hj => Nat.lt_succ_of_lt (hb.inos d j hj)
            root := hmono _ _ rfl hb.root
            dirs := by
              intro d hd
              by_cases e : d = ev.name :: w.path
              · exact Or.inl ⟨_, List.mem_cons_self, e.symm⟩
              · rcases hdirs d hd e with h1 | ⟨n, d', e1, x, hx, hp, hm⟩
                · exact Or.inl (hmono _ _ rfl h1)
                · exact Or.inr ⟨n, d', e1, x, List.mem_cons_of_mem _ hx, hp, hm⟩
            noDel := fun e he => hb.noDel e (hsub e he)
            seen := fun n d hs => hmono _ _ rfl (hb.seen n d hs)
            files := hb.files
            upds := by
              intro p hp
              rw [List.mem_singleton] at hp
              cases hp
            scans := by
              intro d hd
              rw [List.mem_singleton] at hd
              injection hd with hd
              exact ⟨_, List.mem_cons_self, hd.symm⟩
            unls := by
              intro p hp
              rw [List.mem_singleton] at hp
              cases hp
            evs := by
              intro e he
              have h1 := hb.evs e (hsub e he)
              refine ⟨Nat.lt_succ_of_lt h1.1, fun hd x hx hxe => ?_⟩
              rcases List.mem_cons.1 hx with hx | hx
              · rw [hx] at hxe
                exact absurd (hxe ▸ h1.1) (Nat.lt_irrefl _)
              · exact h1.2 hd x hx hxe }
        · intro n d hh
          have hp : (n :: d ∈ st.files ∨ ScWatched d st ∨ d ≠ ev.name :: w.path) → ScPend n d st → ScPend n d { st with
              watches := ⟨st.next, i, ev.name :: w.path⟩ :: st.watches, next := st.next + 1, queue := q, todo := [.scan (ev.name :: w.path)] } := by
            intro hor
            rintro (h1 | ⟨h1, _⟩ | h1 | h1)
            · rw [ht] at h1; cases h1
            · rw [ht] at h1; cases h1
            · have ⟨x, hx, hp, hm⟩ := hpq n d h1
              exact Or.inr (Or.inr (Or.inl ⟨x, List.mem_cons_of_mem _ hx, hp, hm⟩))
            · by_cases e : d = ev.name :: w.path
              · refine Or.inr (Or.inl ⟨?_, ?_⟩)
                · rw [e]
                  exact List.mem_singleton.2 rfl
                · rcases hor with h2 | h2 | h2
                  · exact h2
                  · exact absurd h2 h1
                  · exact absurd e h2
              · refine Or.inr (Or.inr (Or.inr ?_))
                rintro ⟨x, hx, hp⟩
                rcases List.mem_cons.1 hx with hx | hx
                · rw [hx] at hp
                  exact e hp.symm
                · exact h1 ⟨x, hx, hp⟩
          refine ⟨fun a b => ?_, fun a b => ?_⟩
          · refine hp ?_ ((hg n d hh).1 a b)
            by_cases e : ScWatched d st
            · exact Or.inr (Or.inl e)
            · left
              have hs : st.seen (n :: d) = false := by
                cases hs : st.seen (n :: d) with
                | false => rfl
                | true => exact absurd (hb.seen n d hs) e
              by_cases hm : n :: d ∈ st.files
              · exact hm
              · exfalso
                apply b
                show st.seen (n :: d) = decide (n :: d ∈ st.files)
                rw [hs]
                simp [hm]
          · rcases (hg n d hh).2 a b with h1 | h1
            · rw [ht] at h1; cases h1
            · exact Or.inr (hp (Or.inl b) h1)
      · rw [hfp]
        dsimp only
        rw [if_pos rfl]
        have h1 := List.mem_of_find?_eq_some hfp
        have h2 : w1.path = ev.name :: w.path := by simpa using List.find?_some hfp
        refine ⟨base ?_, ?_⟩
        · intro d hd
          by_cases e : d = ev.name :: w.path
          · exact Or.inl ⟨w1, h1, by rw [h2, e]⟩
          · exact hdirs d hd e
        · intro n d hh
          have hp : ScPend n d st → ScPend n d { st with queue := q, todo := [] } := by
            rintro (h1 | h1 | h1 | h1)
            · rw [ht] at h1; cases h1
            · rw [ht] at h1; cases h1.1
            · exact Or.inr (Or.inr (Or.inl (hpq n d h1)))
            · exact Or.inr (Or.inr (Or.inr h1))
          exact ⟨fun a b => hp ((hg n d hh).1 a b), fun a b => ((hg n d hh).2 a b).imp (fun x => by rw [ht] at x; cases x) hp⟩
    · rw [if_neg hdir]
      refine ⟨?_, ?_⟩
      · refine (base ?_).todo _ ?_ ?_ ?_
        · intro d hd
          rcases hb.dirs d hd with h1 | ⟨n, d', e, x, hx, hp, hm⟩
          · exact Or.inl h1
          · rw [hq] at hm
            rcases List.mem_cons.1 hm with hm | hm
            · rw [← hm] at hdir
              exact absurd rfl hdir
            · exact Or.inr ⟨n, d', e, x, hx, hp, hm⟩
        · intro p hp
          rw [List.mem_singleton] at hp
          injection hp with hp
          exact ⟨_, _, hp, w, hw, rfl⟩
        · intro p hp
          rw [List.mem_singleton] at hp
          cases hp
        · intro p hp
          rw [List.mem_singleton] at hp
          cases hp
      · intro n d hh
        have hp : ScPend n d st → ScPend n d { st with queue := q, todo := [.upd (ev.name :: w.path)] } := by
          rintro (h1 | h1 | ⟨x, hx, hp, m, hm⟩ | h1)
          · rw [ht] at h1; cases h1
          · rw [ht] at h1; cases h1.1
          · rw [hq] at hm
            rcases List.mem_cons.1 hm with hm | hm
            · have : x = w := hb.inj x hx w hw (by rw [hwd, ← hm])
              refine Or.inl (List.mem_singleton.2 ?_)
              rw [← hm, ← this, hp]
            · exact Or.inr (Or.inr (Or.inl ⟨x, hx, hp, m, hm⟩))
          · exact Or.inr (Or.inr (Or.inr h1))
        refine ⟨fun a b => hp ((hg n d hh).1 a b), fun a b => ?_⟩
        rcases (hg n d hh).2 a b with h1 | h1
        · rw [ht] at h1; cases h1
        · exact Or.inr (hp h1)

theorem scInv_tick {needs : ScPath → Bool} {st : ScSt} (h : ScInv needs st) : ScInv needs (scTick needs st) := by
  rcases ht : st.todo with _ | ⟨t, r⟩
  · rcases hq : st.queue with _ | ⟨ev, q⟩
    · unfold scTick
      rw [ht, hq]
      exact h
    · exact scInv_event h ht ev q hq
  · cases t with
    | scan d =>
      unfold scTick
      rw [ht]
      exact scInv_scan h d r ht
    | upd p =>
      unfold scTick
      rw [ht]
      exact scInv_upd h p r ht
    | unlink p =>
      unfold scTick
      rw [ht]
      have ⟨hb, hg⟩ := h
      have hsub : ∀ x, x ∈ r → x ∈ st.todo := fun x hx => by rw [ht]; exact List.mem_cons_of_mem _ hx
      have hpend : ∀ n d, ScPend n d st → ScPend n d { st with todo := r } := by
        rintro n d (h1 | ⟨h1, h2⟩ | h1 | h1)
        · rw [ht] at h1
          rcases List.mem_cons.1 h1 with h1 | h1
          · cases h1
          · exact Or.inl h1
        · rw [ht] at h1
          rcases List.mem_cons.1 h1 with h1 | h1
          · cases h1
          · exact Or.inr (Or.inl ⟨h1, h2⟩)
        · exact Or.inr (Or.inr (Or.inl h1))
        · exact Or.inr (Or.inr (Or.inr h1))
      refine scInv_remove (hb.todo r (fun p hp => hb.upds p (hsub _ hp)) (fun d hd => hb.scans d (hsub _ hd))
        (fun p hp => hb.unls p (hsub _ hp))) p (fun n d hne hh => ?_) (fun n d e hnf hh => ?_)
      · refine ⟨fun a b => hpend n d ((hg n d hh).1 a b), fun a b => ?_⟩
        rcases (hg n d hh).2 a b with h1 | h1
        · rw [ht] at h1
          rcases List.mem_cons.1 h1 with h1 | h1
          · injection h1 with h1
            exact absurd h1 hne
          · exact Or.inl h1
        · exact Or.inr (hpend n d h1)
      · have hn := hb.unls p (by rw [ht]; exact List.mem_cons_self)
        rw [e] at hn
        refine ⟨fun a _ => ?_, fun _ b => absurd b hnf⟩
        rw [hn] at a
        cases a

theorem scIno_cons (d p : ScPath) (st : ScSt) (i j : Nat) :
    scIno d { st with dirs := (p, i) :: st.dirs, next := j } = if d = p then some i else scIno d st := by
  unfold scIno
  dsimp only
  rw [List.find?_cons]
  by_cases e : d = p
  · rw [if_pos e, show (p == d) = true by simpa using e.symm]
    rfl
  · rw [if_neg e, show (p == d) = false by simpa using fun x : p = d => e x.symm]

theorem scInv_mkdir {needs : ScPath → Bool} {st : ScSt} (h : ScInv needs st) (n : CStr) (d : ScPath) (hw : ScWatched d st)
    (hf : (scIno (n :: d) st).isSome = false) :
    ScInv needs (scPost d true true n { st with dirs := (n :: d, st.next) :: st.dirs, next := st.next + 1 }) := by
  have ⟨hb, hg⟩ := h
  have hi := fun e => scIno_cons e (n :: d) st st.next (st.next + 1)
  have hold : ∀ e, (scIno e st).isSome → scIno e { st with dirs := (n :: d, st.next) :: st.dirs, next := st.next + 1 } = scIno e st := by
    intro e he
    rw [hi, if_neg]
    rintro rfl
    rw [hf] at he
    cases he
  have hino : ∀ w ∈ st.watches, scIno w.path { st with dirs := (n :: d, st.next) :: st.dirs, next := st.next + 1 } = some w.ino := by
    intro w hm
    have := hb.ino w hm
    rw [hold _ (by rw [this]; rfl), this]
  have hone : ∀ e e' i, scIno e { st with dirs := (n :: d, st.next) :: st.dirs, next := st.next + 1 } = some i →
      scIno e' { st with dirs := (n :: d, st.next) :: st.dirs, next := st.next + 1 } = some i → e = e' := by
    intro e e' i h1 h2
    rw [hi] at h1 h2
    split at h1
    · rename_i x
      split at h2
      · rename_i y
        rw [x, y]
      · injection h1 with h1
        have := hb.inos e' i h2
        omega
    · split at h2
      · injection h2 with h2
        have := hb.inos e i h1
        omega
      · exact hb.one e e' i h1 h2
  have ⟨w, hm, hp, he⟩ := scPost_watched d true true n { st with dirs := (n :: d, st.next) :: st.dirs, next := st.next + 1 } hino hone hw
  rw [he]
  have hq : (⟨w.wd, true, true, n⟩ : ScEv) ∈ st.queue ++ [⟨w.wd, true, true, n⟩] := List.mem_append_right _ (List.mem_singleton.2 rfl)
  refine ⟨?_, ?_⟩
  · exact {
      ino := hino
      fresh := fun x hx => Nat.lt_succ_of_lt (hb.fresh x hx)
      inj := hb.inj
      one := hone
      inos := by
        intro e i h1
        have h1 : scIno e { st with dirs := (n :: d, st.next) :: st.dirs, next := st.next + 1 } = some i := h1
        rw [hi] at h1
        show i < st.next + 1
        split at h1
        · injection h1 with h1
          omega
        · have := hb.inos e i h1
          omega
      root := hb.root
      dirs := by
        intro e h1
        have h1 : (scIno e { st with dirs := (n :: d, st.next) :: st.dirs, next := st.next + 1 }).isSome := h1
        rw [hi] at h1
        split at h1
        · rename_i x
          exact Or.inr ⟨n, d, x, w, hm, hp, hq⟩
        · rcases hb.dirs e h1 with h2 | ⟨n', d', x, w', hw', hp', hm'⟩
          · exact Or.inl h2
          · exact Or.inr ⟨n', d', x, w', hw', hp', List.mem_append_left _ hm'⟩
      noDel := by
        intro e he
        rcases List.mem_append.1 he with he | he
        · exact hb.noDel e he
        · rw [List.mem_singleton.1 he]
          exact fun _ => rfl
      seen := hb.seen
      files := by
        intro p hm
        have ⟨n', d', x, hs⟩ := hb.files p hm
        exact ⟨n', d', x, by
          have := hold d' hs
          show (scIno d' { st with dirs := (n :: d, st.next) :: st.dirs, next := st.next + 1 }).isSome
          rw [this]
          exact hs⟩
      upds := hb.upds
      scans := hb.scans
      unls := hb.unls
      evs := by
        intro e he
        rcases List.mem_append.1 he with he | he
        · have ⟨h1, h2⟩ := hb.evs e he
          refine ⟨Nat.lt_succ_of_lt h1, fun hd x hx hxe => ?_⟩
          have h3 := h2 hd x hx hxe
          show (scIno _ { st with dirs := (n :: d, st.next) :: st.dirs, next := st.next + 1 }).isSome
          rw [hold _ h3]
          exact h3
        · rw [List.mem_singleton.1 he]
          refine ⟨Nat.lt_succ_of_lt (hb.fresh w hm), fun _ x hx hxe => ?_⟩
          have : x = w := hb.inj x hx w hm hxe
          rw [this, hp]
          show (scIno (n :: d) { st with dirs := (n :: d, st.next) :: st.dirs, next := st.next + 1 }).isSome
          rw [hi, if_pos rfl]
          rfl }
  · intro n' d'
    have : ScGood needs n' d' { st with dirs := (n :: d, st.next) :: st.dirs, next := st.next + 1 } := hg n' d'
    exact this.queue _

theorem scTaken_false (n : CStr) (d : ScPath) (st : ScSt) (h : ¬ scTaken (n :: d) st = true) :
    (scIno d st).isSome ∧ (scIno (n :: d) st).isSome = false ∧ n :: d ∉ st.files := by
  unfold scTaken at h
  simp only [Bool.or_eq_true, decide_eq_true_eq, not_or, Bool.not_eq_true, Option.isNone_eq_false_iff] at h
  exact ⟨h.1.1, h.1.2, h.2⟩

theorem scInv_run (needs : ScPath → Bool) : ∀ (acts : List ScAct) (st : ScSt), ScInv needs st → ScCalm needs acts st →
    ScInv needs (scRun needs acts st) := by
  intro acts
  induction acts with
  | nil => exact fun st h _ => h
  | cons a acts ih =>
    intro st h hc
    refine ih _ ?_ hc.2
    have hc := hc.1
    cases a with
    | create p =>
      cases p with
      | nil => exact h
      | cons n d =>
        show ScInv needs (if scTaken (n :: d) st then st else _)
        split
        · exact h
        · rename_i ht
          have ⟨h1, h2, h3⟩ := scTaken_false n d st ht
          exact scInv_file h.1 n d (fun n' d' _ => h.2 n' d') _ (fun q hq => by simp [hq]) h1 true
    | remove p => exact scInv_remove h.1 p (fun n d _ => h.2 n d) (fun n d _ _ => h.2 n d)
    | mkdir p =>
      cases p with
      | nil => exact h
      | cons n d =>
        show ScInv needs (if scTaken (n :: d) st then st else _)
        split
        · exact h
        · rename_i ht
          exact scInv_mkdir h n d hc (scTaken_false n d st ht).2.1
    | rmdir p => cases hc
    | moveIn p => cases hc
    | tick => exact scInv_tick h

/-! ## The property -/

theorem scTicks_calm (needs : ScPath → Bool) (k : Nat) : ∀ st, ScCalm needs (List.replicate k .tick) st := by
  induction k with
  | zero => exact fun _ => trivial
  | succ k ih => exact fun st => ⟨trivial, ih _⟩

/-- If no directory is removed, no file is renamed, and directories are made only in those that Finit watches by then: Finit gets done,
    and then the services that need a condition were told of it as it is, and the conditions that no service needs are removed.  Names
    that begin with a dot are left out. -/
theorem C99_partial (needs : ScPath → Bool) (acts : List ScAct) (hc : ScCalm needs acts scInit) :
    (∃ k, ScIdle (scTicks needs k (scRun needs acts scInit))) ∧
    ∀ k, ScIdle (scTicks needs k (scRun needs acts scInit)) → ∀ p, ScPlain p →
      (needs p = true →
        (scTicks needs k (scRun needs acts scInit)).seen p = decide (p ∈ (scTicks needs k (scRun needs acts scInit)).files)) ∧
      (needs p = false → p ∉ (scTicks needs k (scRun needs acts scInit)).files) := by
  refine ⟨C99_ends _ _, ?_⟩
  intro k hi p hp
  have hv : ScInv needs (scTicks needs k (scRun needs acts scInit)) :=
    scInv_run _ _ _ (scInv_run _ _ _ (scInit_inv needs) hc) (scTicks_calm needs k _)
  generalize scTicks needs k (scRun needs acts scInit) = st at *
  have ⟨hb, hg⟩ := hv
  have ⟨n, d, e, hh⟩ := hp
  subst e
  have hno : n :: d ∈ st.files ∨ st.seen (n :: d) = true → ¬ ScPend n d st := by
    rintro hor (h1 | ⟨h1, _⟩ | ⟨w, _, _, m, hm⟩ | h1)
    · rw [hi.2] at h1; cases h1
    · rw [hi.2] at h1; cases h1
    · rw [hi.1] at hm; cases hm
    · have : (scIno d st).isSome := by
        rcases hor with hf | hs
        · have ⟨n', d', e, hs⟩ := hb.files _ hf
          injection e with _ e
          rw [e]
          exact hs
        · exact absurd (hb.seen n d hs) h1
      rcases hb.dirs d this with h2 | ⟨_, _, _, _, _, _, h2⟩
      · exact h1 h2
      · rw [hi.1] at h2; cases h2
  refine ⟨fun hn => ?_, fun hn hf => ?_⟩
  · by_cases e : st.seen (n :: d) = decide (n :: d ∈ st.files)
    · exact e
    · exfalso
      refine hno ?_ ((hg n d hh).1 hn e)
      by_cases hf : n :: d ∈ st.files
      · exact Or.inl hf
      · right
        cases hs : st.seen (n :: d) with
        | true => rfl
        | false => exact absurd (by rw [hs]; simp [hf]) e
  · rcases (hg n d hh).2 hn hf with h1 | h1
    · rw [hi.2] at h1; cases h1
    · exact hno (Or.inl hf) h1

/-- Mains power comes while Finit looks at the new directory -/
def scDemo : List ScAct :=
  [.mkdir ["pwr".toList], .tick, .create ["ac".toList, "pwr".toList], .tick, .tick]

example : ScCalm (fun _ => true) scDemo scInit := ⟨⟨_, List.mem_singleton.2 rfl, rfl⟩, trivial, trivial, trivial, trivial, trivial⟩

example : ScPlain ["ac".toList, "pwr".toList] := ⟨_, _, rfl, by decide⟩

example : (scTicks (fun _ => true) 5 (scRun (fun _ => true) scDemo scInit)).seen ["ac".toList, "pwr".toList] = true := by decide

/-- A file that is renamed to the name of a condition is never noticed -/
theorem C99_moved (needs : ScPath → Bool) (st : ScSt) (hi : ScIdle st) (p : ScPath) (hp : scTaken p st = false) (k : Nat) :
    p ∈ (scTicks needs k (scStep needs (.moveIn p) st)).files ∧
    (scTicks needs k (scStep needs (.moveIn p) st)).seen p = st.seen p := by
  have h0 : scStep needs (.moveIn p) st = { st with files := p :: st.files } := by
    show (if scTaken p st then st else _) = _
    rw [hp]
    rfl
  have : ∀ k, scTicks needs k (scStep needs (.moveIn p) st) = { st with files := p :: st.files } := by
    intro k
    induction k with
    | zero => exact h0
    | succ k ih =>
      rw [scTicks_succ, h0]
      have : scTick needs { st with files := p :: st.files } = { st with files := p :: st.files } := by
        unfold scTick
        dsimp only
        rw [hi.2, hi.1]
      rw [this]
      rw [h0] at ih
      exact ih
  rw [this]
  exact ⟨List.mem_cons_self, rfl⟩

/-- Two directories, one in the other, and a file: only the outer one gets watched -/
theorem C99_nested : ∃ acts p, ScIdle (scRun (fun _ => true) acts scInit) ∧ ScPlain p ∧
    p ∈ (scRun (fun _ => true) acts scInit).files ∧ (scRun (fun _ => true) acts scInit).seen p = false ∧
    ∀ a ∈ acts, ∀ q, a ≠ .rmdir q ∧ a ≠ .moveIn q :=
  ⟨[.mkdir ["a".toList], .mkdir ["b".toList, "a".toList], .create ["c".toList, "b".toList, "a".toList], .tick, .tick, .tick],
    ["c".toList, "b".toList, "a".toList], ⟨by decide, by decide⟩, ⟨_, _, rfl, by decide⟩, by decide, by decide, by
      intro a ha q
      simp only [List.mem_cons, List.not_mem_nil, or_false] at ha
      rcases ha with rfl | rfl | rfl | rfl | rfl | rfl <;> exact ⟨(nomatch ·), (nomatch ·)⟩⟩

/-- A directory that is made, removed and made again before Finit comes to it: it is watched, then no longer as its first removal is
    read, and what is cleared until its second making is read is not noticed: services act on a condition that is off -/
theorem C99_remade : ∃ acts p, ScIdle (scRun (fun _ => true) acts scInit) ∧ ScPlain p ∧
    p ∉ (scRun (fun _ => true) acts scInit).files ∧ (scRun (fun _ => true) acts scInit).seen p = true ∧
    ∀ a ∈ acts, ∀ q, a ≠ .moveIn q :=
  ⟨[.mkdir ["a".toList], .rmdir ["a".toList], .mkdir ["a".toList], .create ["c".toList, "a".toList], .tick, .tick, .tick, .tick,
      .remove ["c".toList, "a".toList], .tick, .tick, .tick, .tick],
    ["c".toList, "a".toList], ⟨by decide, by decide⟩, ⟨_, _, rfl, by decide⟩, by decide, by decide, by
      intro a ha q
      simp only [List.mem_cons, List.not_mem_nil, or_false] at ha
      rcases ha with rfl | rfl | rfl | rfl | rfl | rfl | rfl | rfl | rfl | rfl | rfl | rfl | rfl <;> exact (nomatch ·)⟩

theorem scTicks_idle (needs : ScPath → Bool) (st : ScSt) (h : ScIdle st) (k : Nat) : scTicks needs k st = st := by
  induction k with
  | zero => rfl
  | succ k ih =>
    rw [scTicks_succ]
    have : scTick needs st = st := by
      unfold scTick
      rw [h.2, h.1]
    rw [this]
    exact ih

/-- The claim is false -/
theorem C99_full_false : ¬ C99_full := by
  intro h
  have ⟨acts, p, hi, _, hf, hs, _⟩ := C99_nested
  have ⟨k, _, hk⟩ := h (fun _ => true) acts
  have := hk p rfl
  rw [scTicks_idle _ _ hi, hs] at this
  simp [hf] at this

end Verif
