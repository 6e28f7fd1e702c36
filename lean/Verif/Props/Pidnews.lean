import Verif.Pidnews

/-!
# C105: PID files below `/run` are noticed

What happens to a file is read from the files before and after each act.  What Finit is told of it are the calls of
`pidfile_update_conds()` with an event that this function acts upon.
-/

namespace Verif

/-- What an act does to the file `n` of the directory `d` -/
def nwDoes (d : ScPath) (n : CStr) (a : NwAct) (st : NwSt) : List NwKind :=
  if a = .write d n ∧ n :: d ∈ (nwStep a st).files then [.written]
  else if a = .moveIn d n ∧ n :: d ∈ (nwStep a st).files then [.came]
  else if a = .unlink d n ∧ n :: d ∈ st.files then [.deleted]
  else []

/-- What happens to the file, in order -/
def nwHappens (d : ScPath) (n : CStr) : List NwAct → NwSt → List NwKind
  | [], _ => []
  | a :: r, st => nwDoes d n a st ++ nwHappens d n r (nwStep a st)

/-- What Finit is told of a file, in order -/
def nwHears (p : ScPath) (st : NwSt) : List NwKind :=
  st.told.filterMap fun x => if x.1 = p ∧ x.2 ≠ .made then some x.2 else none

/-- All events are read -/
def NwIdle (st : NwSt) : Prop := st.queue = []

/-- Directories and files that can be there when Finit starts to watch -/
structure NwBoot (ds files : List ScPath) : Prop where
  once : ds.Nodup
  root : [] ∉ ds
  file : ∀ f ∈ files, ∃ n d, f = n :: d ∧ nwName n = true ∧ (d = [] ∨ d ∈ ds) ∧ f ∉ ds

/-- The claim: of each file below `/run` Finit is told all that happens to it -/
def C105_full : Prop :=
  ∀ ds files acts d n, NwBoot ds files → NwIdle (nwRun acts (nwInit ds files)) →
    nwHears (n :: d) (nwRun acts (nwInit ds files)) = nwHappens d n acts (nwInit ds files)

/-! ## Directories -/

theorem nwIno_add (d q : ScPath) (i : Nat) (st : NwSt) (next : Nat) :
    nwIno d { st with dirs := st.dirs ++ [(q, i)], next := next } = (nwIno d st).or (if q = d then some i else none) := by
  unfold nwIno
  simp only [List.find?_append]
  cases h : st.dirs.find? (fun x => x.1 == d) with
  | some x => rfl
  | none =>
    by_cases e : q = d
    · simp [e]
    · simp [e]

theorem nwIno_del (d q : ScPath) (st : NwSt) :
    nwIno d { st with dirs := st.dirs.filter (fun x => x.1 ≠ q) } = if d = q then none else nwIno d st := by
  unfold nwIno
  simp only [List.find?_filter]
  by_cases e : d = q
  · subst e
    rw [if_pos rfl, Option.map_eq_none_iff, List.find?_eq_none]
    intro x _
    simp
  · rw [if_neg e]
    congr 2
    funext x
    by_cases h : x.1 = d
    · simp [h, e]
    · simp [h]

/-! ## What always holds -/

structure NwOk (st : NwSt) : Prop where
  inoLt : ∀ d i, nwIno d st = some i → i < st.next
  inoInj : ∀ d e i, nwIno d st = some i → nwIno e st = some i → d = e
  wLt : ∀ w ∈ st.watches, w.wd < st.next ∧ w.ino < st.next
  qLt : ∀ ev ∈ st.queue, ev.wd < st.next ∧ nwName ev.name = true
  wdInj : ∀ v ∈ st.watches, ∀ w ∈ st.watches, v.wd = w.wd → v = w
  watched : ∀ v ∈ st.watches, ∀ w ∈ st.watches, v.ino = w.ino → v = w
  pathInj : ∀ v ∈ st.watches, ∀ w ∈ st.watches, v.path = w.path → v = w
  agree : ∀ w ∈ st.watches, ∀ d, nwIno d st = some w.ino → d = w.path
  base : (⟨0, 0, []⟩ : ScWatch) ∈ st.watches
  root : nwIno [] st = some 0
  file : ∀ f ∈ st.files, ∃ n d, f = n :: d ∧ nwName n = true ∧ (nwIno d st).isSome ∧ nwIno f st = none

/-- The kernel posts at most one event, to the watch of the directory -/
theorem nwPost_cases {d : ScPath} {b : Bool} {k : NwKind} {n : CStr} {st : NwSt} :
    (nwPost d b k n st = st ∧ ∀ w ∈ st.watches, nwIno d st ≠ some w.ino) ∨
    ∃ w ∈ st.watches, nwIno d st = some w.ino ∧ nwPost d b k n st = { st with queue := st.queue ++ [⟨w.wd, b, k, n⟩] } := by
  unfold nwPost
  cases h : nwIno d st with
  | none => exact .inl ⟨rfl, by simp⟩
  | some i =>
    dsimp only
    cases hf : st.watches.find? (fun w => w.ino == i) with
    | none =>
      refine .inl ⟨rfl, fun w hw e => ?_⟩
      have := List.find?_eq_none.mp hf w hw
      simp only [Option.some.injEq] at e
      simp [e] at this
    | some w =>
      have hw := List.mem_of_find?_eq_some hf
      have he := List.find?_some hf
      simp only [beq_iff_eq] at he
      exact .inr ⟨w, hw, by rw [he], rfl⟩

theorem nwPost_ok {d : ScPath} {b : Bool} {k : NwKind} {n : CStr} {st : NwSt} (h : NwOk st) (hn : nwName n = true) :
    NwOk (nwPost d b k n st) := by
  rcases nwPost_cases (d := d) (b := b) (k := k) (n := n) (st := st) with ⟨e, _⟩ | ⟨w, hw, _, e⟩
  · rw [e]; exact h
  · rw [e]
    exact { h with
      qLt := fun ev hev => by
        rcases List.mem_append.mp hev with hev | hev
        · exact h.qLt ev hev
        · rw [List.mem_singleton] at hev
          subst hev
          exact ⟨(h.wLt w hw).1, hn⟩ }

theorem nw_addDir_ok {q : ScPath} {st : NwSt} (h : NwOk st) (hf : q ∉ st.files) :
    NwOk { st with dirs := st.dirs ++ [(q, st.next)], next := st.next + 1 } where
  inoLt := fun d i hi => by
    rw [nwIno_add] at hi
    cases hd : nwIno d st with
    | some j =>
      rw [hd] at hi
      simp only [Option.some_or, Option.some.injEq] at hi
      have := h.inoLt d j hd
      show i < st.next + 1
      omega
    | none =>
      rw [hd] at hi
      by_cases e : q = d
      · simp only [e, if_true, Option.none_or, Option.some.injEq] at hi
        show i < st.next + 1
        omega
      · simp [e] at hi
  inoInj := fun d e i h1 h2 => by
    rw [nwIno_add] at h1 h2
    cases hd : nwIno d st with
    | some j =>
      rw [hd] at h1
      simp only [Option.some_or, Option.some.injEq] at h1
      have hj := h.inoLt d j hd
      cases he : nwIno e st with
      | some l =>
        rw [he] at h2
        simp only [Option.some_or, Option.some.injEq] at h2
        exact h.inoInj d e i (by rw [hd, h1]) (by rw [he, h2])
      | none =>
        rw [he] at h2
        by_cases e' : q = e
        · simp only [e', if_true, Option.none_or, Option.some.injEq] at h2
          omega
        · simp [e'] at h2
    | none =>
      rw [hd] at h1
      by_cases e1 : q = d
      · simp only [e1, if_true, Option.none_or, Option.some.injEq] at h1
        cases he : nwIno e st with
        | some l =>
          rw [he] at h2
          simp only [Option.some_or, Option.some.injEq] at h2
          have := h.inoLt e l he
          omega
        | none =>
          rw [he] at h2
          by_cases e' : q = e
          · exact e1.symm.trans e'
          · simp [e'] at h2
      · simp [e1] at h1
  wLt := fun w hw => by
    have := h.wLt w hw
    show w.wd < st.next + 1 ∧ w.ino < st.next + 1
    omega
  qLt := fun ev hev => by
    have := h.qLt ev hev
    exact ⟨Nat.lt_succ_of_lt this.1, this.2⟩
  wdInj := h.wdInj
  watched := h.watched
  pathInj := h.pathInj
  agree := fun w hw d hd => by
    rw [nwIno_add] at hd
    cases hd' : nwIno d st with
    | some j =>
      rw [hd'] at hd
      simp only [Option.some_or, Option.some.injEq] at hd
      exact h.agree w hw d (by rw [hd', hd])
    | none =>
      rw [hd'] at hd
      have := (h.wLt w hw).2
      by_cases e : q = d
      · simp only [e, if_true, Option.none_or, Option.some.injEq] at hd
        omega
      · simp [e] at hd
  base := h.base
  root := by rw [nwIno_add, h.root]; rfl
  file := fun f hf' => by
    obtain ⟨n, d, e, h1, h2, h3⟩ := h.file f hf'
    refine ⟨n, d, e, h1, ?_, ?_⟩
    · rw [nwIno_add]
      cases hd : nwIno d st with
      | some j => rfl
      | none => rw [hd] at h2; cases h2
    · rw [nwIno_add, h3, if_neg (fun e' : q = f => hf (e' ▸ hf'))]
      rfl

theorem nw_delDir_ok {n : CStr} {d : ScPath} {st : NwSt} (h : NwOk st) (he : nwEmpty (n :: d) st = true) :
    NwOk { st with dirs := st.dirs.filter (fun x => x.1 ≠ n :: d) } where
  inoLt := fun e i hi => by
    rw [nwIno_del] at hi
    split at hi
    · cases hi
    · exact h.inoLt e i hi
  inoInj := fun d e i h1 h2 => by
    rw [nwIno_del] at h1 h2
    split at h1
    · cases h1
    · split at h2
      · cases h2
      · exact h.inoInj d e i h1 h2
  wLt := h.wLt
  qLt := h.qLt
  wdInj := h.wdInj
  watched := h.watched
  pathInj := h.pathInj
  agree := fun w hw e hd => by
    rw [nwIno_del] at hd
    split at hd
    · cases hd
    · exact h.agree w hw e hd
  base := h.base
  root := by rw [nwIno_del, if_neg (by simp)]; exact h.root
  file := fun f hf => by
    obtain ⟨m, e, e1, h1, h2, h3⟩ := h.file f hf
    refine ⟨m, e, e1, h1, ?_, ?_⟩
    · rw [nwIno_del, if_neg]
      · exact h2
      · intro hc
        unfold nwEmpty at he
        simp only [Bool.and_eq_true, List.all_eq_true, bne_iff_ne] at he
        exact he.1 f hf (by rw [e1]; exact hc)
    · rw [nwIno_del]
      split
      · rfl
      · exact h3

theorem nw_files_ok {st : NwSt} (h : NwOk st) (fs : List ScPath)
    (hf : ∀ f ∈ fs, f ∈ st.files ∨ ∃ n d, f = n :: d ∧ nwName n = true ∧ (nwIno d st).isSome ∧ nwIno f st = none) :
    NwOk { st with files := fs } :=
  { h with
    file := fun f hm => by
      rcases hf f hm with hm | hm
      · exact h.file f hm
      · exact hm }

theorem nwScan_ok {st : NwSt} (h : NwOk st) (d : ScPath) : NwOk (nwScan d st) := { h with }

/-- What Finit does for an event about a directory -/
theorem nwDir_cases {kind : NwKind} {p : ScPath} {st : NwSt} :
    nwDir kind p st = st ∨
    (kind = .made ∧ nwDir kind p st = nwScan p st) ∨
    (∃ i, kind = .made ∧ nwDeep (nwText p) = false ∧ nwIno p st = some i ∧ (∀ w ∈ st.watches, w.path ≠ p) ∧ (∀ w ∈ st.watches, w.ino ≠ i) ∧
      nwDir kind p st = nwScan p { st with watches := ⟨st.next, i, p⟩ :: st.watches, next := st.next + 1 }) ∨
    (∃ w ∈ st.watches, w.path = p ∧ kind = .deleted ∧ nwDir kind p st = { st with watches := st.watches.filter (· ≠ w) }) := by
  unfold nwDir
  cases hf : st.watches.find? (fun w => w.path == p) with
  | none =>
    cases kind with
    | made =>
      dsimp only
      cases hd : nwDeep (nwText p) with
      | true => exact .inl rfl
      | false =>
        simp only [Bool.false_eq_true, if_false]
        cases hi : nwIno p st with
        | none => exact .inr (.inl ⟨trivial, rfl⟩)
        | some i =>
          dsimp only
          by_cases ha : st.watches.any (fun w => w.ino == i) = true
          · rw [if_pos ha]; exact .inl rfl
          · rw [if_neg ha]
            refine .inr (.inr (.inl ⟨i, trivial, trivial, rfl, ?_, ?_, rfl⟩))
            · intro w hw e
              have := List.find?_eq_none.mp hf w hw
              simp [e] at this
            · intro w hw e
              exact ha (List.any_eq_true.mpr ⟨w, hw, by simp [e]⟩)
    | written => exact .inl rfl
    | deleted => exact .inl rfl
    | came => exact .inl rfl
  | some w =>
    cases kind with
    | deleted =>
      have hw := List.mem_of_find?_eq_some hf
      have he := List.find?_some hf
      simp only [beq_iff_eq] at he
      exact .inr (.inr (.inr ⟨w, hw, he, rfl, rfl⟩))
    | written => exact .inl rfl
    | made => exact .inl rfl
    | came => exact .inl rfl

theorem nwDir_ok {kind : NwKind} {n : CStr} {d : ScPath} {st : NwSt} (h : NwOk st) : NwOk (nwDir kind (n :: d) st) := by
  rcases nwDir_cases (kind := kind) (p := n :: d) (st := st) with e | ⟨_, e⟩ | ⟨i, _, _, hi, hp, hino, e⟩ | ⟨w, hw, hp, _, e⟩
  · rw [e]; exact h
  · rw [e]; exact nwScan_ok h _
  · rw [e]
    apply nwScan_ok
    have hlt := h.inoLt _ i hi
    exact {
      inoLt := fun e j hj => Nat.lt_succ_of_lt (h.inoLt e j hj)
      inoInj := h.inoInj
      wLt := fun w hw => by
        rcases List.mem_cons.mp hw with e | hw
        · subst e
          exact ⟨Nat.lt_succ_self _, Nat.lt_succ_of_lt hlt⟩
        · have := h.wLt w hw
          exact ⟨Nat.lt_succ_of_lt this.1, Nat.lt_succ_of_lt this.2⟩
      qLt := fun ev hev => ⟨Nat.lt_succ_of_lt (h.qLt ev hev).1, (h.qLt ev hev).2⟩
      wdInj := fun v hv w hw e => by
        rcases List.mem_cons.mp hv with ev | hv <;> rcases List.mem_cons.mp hw with ew | hw
        · rw [ev, ew]
        · subst ev
          have := (h.wLt w hw).1
          simp only at e
          omega
        · subst ew
          have := (h.wLt v hv).1
          simp only at e
          omega
        · exact h.wdInj v hv w hw e
      watched := fun v hv w hw e => by
        rcases List.mem_cons.mp hv with ev | hv <;> rcases List.mem_cons.mp hw with ew | hw
        · rw [ev, ew]
        · subst ev
          exact absurd e.symm (hino w hw)
        · subst ew
          exact absurd e (hino v hv)
        · exact h.watched v hv w hw e
      pathInj := fun v hv w hw e => by
        rcases List.mem_cons.mp hv with ev | hv <;> rcases List.mem_cons.mp hw with ew | hw
        · rw [ev, ew]
        · subst ev
          exact absurd e.symm (hp w hw)
        · subst ew
          exact absurd e (hp v hv)
        · exact h.pathInj v hv w hw e
      agree := fun w hw e he => by
        rcases List.mem_cons.mp hw with ew | hw
        · subst ew
          exact h.inoInj e (n :: d) i he hi
        · exact h.agree w hw e he
      base := List.mem_cons_of_mem _ h.base
      root := h.root
      file := h.file }
  · rw [e]
    have hsub : ∀ v ∈ st.watches.filter (· ≠ w), v ∈ st.watches := fun v hv => (List.mem_filter.mp hv).1
    exact { h with
      wLt := fun v hv => h.wLt v (hsub v hv)
      wdInj := fun v hv u hu => h.wdInj v (hsub v hv) u (hsub u hu)
      watched := fun v hv u hu => h.watched v (hsub v hv) u (hsub u hu)
      pathInj := fun v hv u hu => h.pathInj v (hsub v hv) u (hsub u hu)
      agree := fun v hv => h.agree v (hsub v hv)
      base := by
        refine List.mem_filter.mpr ⟨h.base, ?_⟩
        simp only [ne_eq, decide_not, Bool.not_eq_true', decide_eq_false_iff_not]
        intro e'
        rw [← e'] at hp
        cases hp }

theorem nw_pop_ok {ev : NwEv} {q : List NwEv} {st : NwSt} (h : NwOk st) (hq : st.queue = ev :: q) : NwOk { st with queue := q } :=
  { h with qLt := fun e he => h.qLt e (by rw [hq]; exact List.mem_cons_of_mem _ he) }

theorem nwTick_ok {st : NwSt} (h : NwOk st) : NwOk (nwTick st) := by
  unfold nwTick
  cases hq : st.queue with
  | nil => exact h
  | cons ev q =>
    have h1 := nw_pop_ok h hq
    dsimp only
    split
    · exact h1
    · split
      · exact nwDir_ok h1
      · split
        · exact h1
        · exact { h1 with }

theorem nwStep_ok {st : NwSt} (a : NwAct) (h : NwOk st) : NwOk (nwStep a st) := by
  have keep : ∀ (p f : ScPath), f ∈ st.files.filter (· ≠ p) → f ∈ st.files := fun p f hf => (List.mem_filter.mp hf).1
  cases a with
  | write d n =>
    unfold nwStep
    dsimp only
    split
    · rename_i hg
      refine nwPost_ok (nw_files_ok h _ ?_) hg.1
      intro f hf
      rcases List.mem_cons.mp hf with e | hf
      · exact .inr ⟨n, d, e, hg.1, hg.2.1, by rw [e]; exact hg.2.2⟩
      · exact .inl (keep _ f hf)
    · exact h
  | moveIn d n =>
    unfold nwStep
    dsimp only
    split
    · rename_i hg
      refine nwPost_ok (nw_files_ok h _ ?_) hg.1
      intro f hf
      rcases List.mem_cons.mp hf with e | hf
      · exact .inr ⟨n, d, e, hg.1, hg.2.1, by rw [e]; exact hg.2.2⟩
      · exact .inl (keep _ f hf)
    · exact h
  | unlink d n =>
    unfold nwStep
    dsimp only
    split
    · rename_i hg
      exact nwPost_ok (nw_files_ok h _ (fun f hf => .inl (keep _ f hf))) hg.1
    · exact h
  | mkdir d n =>
    unfold nwStep
    dsimp only
    split
    · rename_i hg
      exact nwPost_ok (nw_addDir_ok h hg.2.2.2) hg.1
    · exact h
  | rmdir d n =>
    unfold nwStep
    dsimp only
    split
    · rename_i hg
      exact nwPost_ok (nw_delDir_ok h hg.2.2) hg.1
    · exact h
  | moveDir d n =>
    unfold nwStep
    dsimp only
    split
    · rename_i hg
      exact nwPost_ok (nw_addDir_ok h hg.2.2.2) hg.1
    · exact h
  | tick => exact nwTick_ok h

theorem nwRun_ok {st : NwSt} (acts : List NwAct) (h : NwOk st) : NwOk (nwRun acts st) := by
  induction acts generalizing st with
  | nil => exact h
  | cons a r ih => exact ih (nwStep_ok a h)

theorem nwRun_cons (a : NwAct) (r : List NwAct) (st : NwSt) : nwRun (a :: r) st = nwRun r (nwStep a st) := rfl

theorem nwRun_append (a b : List NwAct) (st : NwSt) : nwRun (a ++ b) st = nwRun b (nwRun a st) := List.foldl_append

theorem nwHappens_append (d : ScPath) (n : CStr) (a b : List NwAct) (st : NwSt) :
    nwHappens d n (a ++ b) st = nwHappens d n a st ++ nwHappens d n b (nwRun a st) := by
  induction a generalizing st with
  | nil => rfl
  | cons x a ih =>
    rw [List.cons_append]
    show nwDoes d n x st ++ nwHappens d n (a ++ b) (nwStep x st) = _
    rw [ih, ← List.append_assoc]
    rfl

/-! ## A directory that is watched -/

/-- The directory is watched, and will be when the events are read -/
structure NwSeen (d : ScPath) (w : ScWatch) (st : NwSt) : Prop where
  mem : w ∈ st.watches
  path : w.path = d
  ino : nwIno d st = some w.ino
  calm : ∀ ev ∈ st.queue, ev.isDir = true → ev.kind = .deleted → ∀ v ∈ st.watches, v.wd = ev.wd → ev.name :: v.path ≠ d

/-- Whether an event is one about the file -/
def nwAbout (w : ScWatch) (n : CStr) (ev : NwEv) : Option NwKind :=
  if ev.wd = w.wd ∧ ev.isDir = false ∧ ev.name = n ∧ ev.kind ≠ .made then some ev.kind else none

/-- What Finit has yet to be told of the file -/
def nwWaits (w : ScWatch) (n : CStr) (st : NwSt) : List NwKind := st.queue.filterMap (nwAbout w n)

theorem nwSeen_post {d e : ScPath} {w : ScWatch} {b : Bool} {k : NwKind} {m n : CStr} {st : NwSt} (h : NwOk st) (hs : NwSeen d w st)
    (hd : b = true → k = .deleted → m :: e ≠ d) :
    NwSeen d w (nwPost e b k m st) ∧ nwHears (n :: d) (nwPost e b k m st) = nwHears (n :: d) st ∧
    nwWaits w n (nwPost e b k m st) = nwWaits w n st ++ (if e = d ∧ b = false ∧ m = n ∧ k ≠ .made then [k] else []) := by
  rcases nwPost_cases (d := e) (b := b) (k := k) (n := m) (st := st) with ⟨e1, hno⟩ | ⟨v, hv, hi, e1⟩
  · rw [e1]
    refine ⟨hs, rfl, ?_⟩
    rw [if_neg, List.append_nil]
    intro hc
    exact hno w hs.mem (by rw [hc.1]; exact hs.ino)
  · have hvp : e = v.path := h.agree v hv e hi
    rw [e1]
    refine ⟨{ mem := hs.mem, path := hs.path, ino := hs.ino, calm := ?_ }, rfl, ?_⟩
    · intro ev hev h1 h2 u hu hw
      rcases List.mem_append.mp hev with hev | hev
      · exact hs.calm ev hev h1 h2 u hu hw
      · rw [List.mem_singleton] at hev
        subst hev
        have : u = v := h.wdInj u hu v hv hw
        rw [this, ← hvp]
        exact hd h1 h2
    · unfold nwWaits
      dsimp only
      rw [List.filterMap_append]
      congr 1
      have hiff : v.wd = w.wd ↔ e = d := by
        constructor
        · intro hw
          have : v = w := h.wdInj v hv w hs.mem hw
          rw [hvp, this, hs.path]
        · intro he
          have : v = w := h.pathInj v hv w hs.mem (by rw [← hvp, hs.path, he])
          rw [this]
      by_cases hc : e = d ∧ b = false ∧ m = n ∧ k ≠ .made
      · rw [if_pos hc]
        have : nwAbout w n ⟨v.wd, b, k, m⟩ = some k := if_pos ⟨hiff.mpr hc.1, hc.2⟩
        simp [this]
      · rw [if_neg hc]
        have : nwAbout w n ⟨v.wd, b, k, m⟩ = none := if_neg (fun hx => hc ⟨hiff.mp hx.1, hx.2⟩)
        simp [this]

theorem nwSeen_dir {d : ScPath} {w : ScWatch} {kind : NwKind} {m n : CStr} {e : ScPath} {st : NwSt} (h : NwOk st) (hs : NwSeen d w st)
    (hd : kind = .deleted → m :: e ≠ d) :
    NwSeen d w (nwDir kind (m :: e) st) ∧ nwHears (n :: d) (nwDir kind (m :: e) st) = nwHears (n :: d) st ∧
    nwWaits w n (nwDir kind (m :: e) st) = nwWaits w n st := by
  have scan : ∀ s : NwSt, nwHears (n :: d) (nwScan (m :: e) s) = nwHears (n :: d) s := by
    intro s
    unfold nwHears nwScan
    dsimp only
    rw [List.filterMap_append]
    have : ((nwGlob (m :: e) s).map fun p => (p ++ "run".toList :: m :: e, NwKind.made)).filterMap
        (fun x => if x.1 = n :: d ∧ x.2 ≠ .made then some x.2 else none) = [] := by
      rw [List.filterMap_eq_nil_iff]
      intro x hx
      obtain ⟨p, _, rfl⟩ := List.mem_map.mp hx
      simp
    rw [this, List.append_nil]
  rcases nwDir_cases (kind := kind) (p := m :: e) (st := st) with e1 | ⟨_, e1⟩ | ⟨i, _, _, hi, hp, hino, e1⟩ | ⟨v, hv, hp, hk, e1⟩
  · rw [e1]; exact ⟨hs, rfl, rfl⟩
  · rw [e1]
    exact ⟨{ mem := hs.mem, path := hs.path, ino := hs.ino, calm := hs.calm }, scan st, rfl⟩
  · rw [e1]
    refine ⟨{ mem := List.mem_cons_of_mem _ hs.mem, path := hs.path, ino := hs.ino, calm := ?_ }, scan _, rfl⟩
    intro ev hev h1 h2 u hu hw
    rcases List.mem_cons.mp hu with hu | hu
    · subst hu
      have := (h.qLt ev hev).1
      simp only at hw
      omega
    · exact hs.calm ev hev h1 h2 u hu hw
  · rw [e1]
    refine ⟨{ mem := List.mem_filter.mpr ⟨hs.mem, ?_⟩, path := hs.path, ino := hs.ino, calm := ?_ }, rfl, rfl⟩
    · simp only [ne_eq, decide_not, Bool.not_eq_true', decide_eq_false_iff_not]
      intro hc
      exact hd hk (by rw [← hp, ← hc, hs.path])
    · exact fun ev hev h1 h2 u hu => hs.calm ev hev h1 h2 u (List.mem_filter.mp hu).1

theorem nwSeen_tick {d : ScPath} {w : ScWatch} {n : CStr} {st : NwSt} (h : NwOk st) (hs : NwSeen d w st) :
    NwSeen d w (nwTick st) ∧ nwHears (n :: d) (nwTick st) ++ nwWaits w n (nwTick st) = nwHears (n :: d) st ++ nwWaits w n st := by
  unfold nwTick
  cases hq : st.queue with
  | nil => exact ⟨hs, rfl⟩
  | cons ev q =>
    have h1 := nw_pop_ok h hq
    have hs1 : NwSeen d w { st with queue := q } :=
      { mem := hs.mem, path := hs.path, ino := hs.ino,
        calm := fun e he => hs.calm e (by rw [hq]; exact List.mem_cons_of_mem _ he) }
    have hw0 : nwWaits w n st = (nwAbout w n ev).toList ++ nwWaits w n { st with queue := q } := by
      unfold nwWaits
      rw [hq]
      dsimp only
      rw [List.filterMap_cons]
      cases nwAbout w n ev <;> rfl
    have hh0 : nwHears (n :: d) { st with queue := q } = nwHears (n :: d) st := rfl
    dsimp only
    split
    · rename_i hf
      refine ⟨hs1, ?_⟩
      have : nwAbout w n ev = none := if_neg (fun hc => by
        have := List.find?_eq_none.mp hf w hs.mem
        simp [hc.1] at this)
      rw [hw0, this, hh0]
      rfl
    · rename_i v hf
      have hv : v ∈ st.watches := List.mem_of_find?_eq_some hf
      have hwd := List.find?_some hf
      simp only [beq_iff_eq] at hwd
      split
      · rename_i hdir
        have hab : nwAbout w n ev = none := if_neg (fun hc => by rw [hdir] at hc; exact absurd hc.2.1 (by decide))
        have ⟨a1, a2, a3⟩ := nwSeen_dir (kind := ev.kind) (m := ev.name) (n := n) (e := v.path) h1 hs1
          (fun hk => hs.calm ev (by rw [hq]; exact List.mem_cons_self) hdir hk v hv hwd)
        refine ⟨a1, ?_⟩
        rw [a2, a3, hw0, hab, hh0]
        rfl
      · rename_i hdir
        simp only [Bool.not_eq_true] at hdir
        split
        · rename_i hk
          have hab : nwAbout w n ev = none := if_neg (fun hc => hc.2.2.2 hk)
          refine ⟨hs1, ?_⟩
          rw [hw0, hab, hh0]
          rfl
        · rename_i hk
          refine ⟨{ mem := hs1.mem, path := hs1.path, ino := hs1.ino, calm := hs1.calm }, ?_⟩
          have hx : nwHears (n :: d) { st with queue := q, told := st.told ++ [(ev.name :: v.path, ev.kind)] } =
              nwHears (n :: d) st ++ (nwAbout w n ev).toList := by
            unfold nwHears
            dsimp only
            rw [List.filterMap_append]
            congr 1
            by_cases hc : ev.name = n ∧ v.path = d
            · have hvw : v = w := h.pathInj v hv w hs.mem (by rw [hc.2, hs.path])
              have : nwAbout w n ev = some ev.kind := if_pos ⟨by rw [← hwd, hvw], hdir, hc.1, hk⟩
              rw [this]
              simp [hc.1, hc.2, hk]
            · have : nwAbout w n ev = none := if_neg (fun hx => by
                have hvw : v = w := h.wdInj v hv w hs.mem (by rw [hwd, hx.1])
                exact hc ⟨hx.2.2.1, by rw [hvw, hs.path]⟩)
              rw [this]
              have hne : ¬ (ev.name :: v.path = n :: d) := fun e => by
                injection e with e1 e2
                exact hc ⟨e1, e2⟩
              simp [hne]
          rw [hx, hw0, List.append_assoc]
          rfl

theorem nwSeen_step {d : ScPath} {w : ScWatch} {n : CStr} {st : NwSt} (a : NwAct) (h : NwOk st) (hs : NwSeen d w st)
    (ha : ∀ m e, a = .rmdir e m → m :: e ≠ d) :
    NwSeen d w (nwStep a st) ∧
    nwHears (n :: d) (nwStep a st) ++ nwWaits w n (nwStep a st) = nwHears (n :: d) st ++ nwWaits w n st ++ nwDoes d n a st := by
  have filesSeen : ∀ fs, NwSeen d w { st with files := fs } := fun fs => { mem := hs.mem, path := hs.path, ino := hs.ino, calm := hs.calm }
  have files : ∀ fs, nwHears (n :: d) { st with files := fs } = nwHears (n :: d) st ∧ nwWaits w n { st with files := fs } = nwWaits w n st :=
    fun _ => ⟨rfl, rfl⟩
  have postFiles : ∀ b k m e (s : NwSt), (nwPost e b k m s).files = s.files := by
    intro b k m e s
    rcases nwPost_cases (d := e) (b := b) (k := k) (n := m) (st := s) with ⟨e1, _⟩ | ⟨v, _, _, e1⟩ <;> rw [e1]
  have keep : ∀ (p f : ScPath), f ∈ st.files.filter (· ≠ p) → f ∈ st.files := fun p f hf => (List.mem_filter.mp hf).1
  cases a with
  | write e m =>
    by_cases hg : nwName m = true ∧ (nwIno e st).isSome = true ∧ nwIno (m :: e) st = none
    · have es : nwStep (.write e m) st = nwPost e false .written m { st with files := (m :: e) :: st.files.filter (· ≠ m :: e) } := if_pos hg
      have hok : NwOk { st with files := (m :: e) :: st.files.filter (· ≠ m :: e) } := nw_files_ok h _ (fun f hf => by
        rcases List.mem_cons.mp hf with e' | hf
        · exact .inr ⟨m, e, e', hg.1, hg.2.1, by rw [e']; exact hg.2.2⟩
        · exact .inl (keep _ f hf))
      have ⟨a1, a2, a3⟩ := nwSeen_post (e := e) (b := false) (k := .written) (m := m) (n := n) hok (filesSeen _) (by simp)
      refine ⟨by rw [es]; exact a1, ?_⟩
      have hd : nwDoes d n (.write e m) st = if e = d ∧ false = false ∧ m = n ∧ NwKind.written ≠ .made then [.written] else [] := by
        unfold nwDoes
        rw [es, postFiles]
        by_cases hc : e = d ∧ m = n
        · simp [hc.1, hc.2]
        · have hne : ¬ (NwAct.write e m = .write d n) := fun x => by injection x with x1 x2; exact hc ⟨x1, x2⟩
          simp only [hne, false_and, if_false]
          rw [if_neg (by simp), if_neg (by simp), if_neg (fun x => hc ⟨x.1, x.2.2.1⟩)]
      rw [hd, es, a2, a3, (files _).1, (files _).2, List.append_assoc]
    · have es : nwStep (.write e m) st = st := if_neg hg
      refine ⟨by rw [es]; exact hs, ?_⟩
      have hd : nwDoes d n (.write e m) st = [] := by
        unfold nwDoes
        rw [es, if_neg, if_neg (by simp), if_neg (by simp)]
        rintro ⟨x, hx⟩
        injection x with x1 x2
        obtain ⟨n', d', e', h1, h2, h3⟩ := h.file _ hx
        injection e' with e1 e2
        exact hg ⟨by rw [x2, e1]; exact h1, by rw [x1, e2]; exact h2, by rw [x1, x2]; exact h3⟩
      rw [hd, es, List.append_nil]
  | moveIn e m =>
    by_cases hg : nwName m = true ∧ (nwIno e st).isSome = true ∧ nwIno (m :: e) st = none
    · have es : nwStep (.moveIn e m) st = nwPost e false .came m { st with files := (m :: e) :: st.files.filter (· ≠ m :: e) } := if_pos hg
      have hok : NwOk { st with files := (m :: e) :: st.files.filter (· ≠ m :: e) } := nw_files_ok h _ (fun f hf => by
        rcases List.mem_cons.mp hf with e' | hf
        · exact .inr ⟨m, e, e', hg.1, hg.2.1, by rw [e']; exact hg.2.2⟩
        · exact .inl (keep _ f hf))
      have ⟨a1, a2, a3⟩ := nwSeen_post (e := e) (b := false) (k := .came) (m := m) (n := n) hok (filesSeen _) (by simp)
      refine ⟨by rw [es]; exact a1, ?_⟩
      have hd : nwDoes d n (.moveIn e m) st = if e = d ∧ false = false ∧ m = n ∧ NwKind.came ≠ .made then [.came] else [] := by
        unfold nwDoes
        rw [es, postFiles, if_neg (by simp)]
        by_cases hc : e = d ∧ m = n
        · simp [hc.1, hc.2]
        · have hne : ¬ (NwAct.moveIn e m = .moveIn d n) := fun x => by injection x with x1 x2; exact hc ⟨x1, x2⟩
          simp only [hne, false_and, if_false]
          rw [if_neg (by simp), if_neg (fun x => hc ⟨x.1, x.2.2.1⟩)]
      rw [hd, es, a2, a3, (files _).1, (files _).2, List.append_assoc]
    · have es : nwStep (.moveIn e m) st = st := if_neg hg
      refine ⟨by rw [es]; exact hs, ?_⟩
      have hd : nwDoes d n (.moveIn e m) st = [] := by
        unfold nwDoes
        rw [es, if_neg (by simp), if_neg, if_neg (by simp)]
        rintro ⟨x, hx⟩
        injection x with x1 x2
        obtain ⟨n', d', e', h1, h2, h3⟩ := h.file _ hx
        injection e' with e1 e2
        exact hg ⟨by rw [x2, e1]; exact h1, by rw [x1, e2]; exact h2, by rw [x1, x2]; exact h3⟩
      rw [hd, es, List.append_nil]
  | unlink e m =>
    by_cases hg : nwName m = true ∧ (nwIno e st).isSome = true ∧ m :: e ∈ st.files
    · have es : nwStep (.unlink e m) st = nwPost e false .deleted m { st with files := st.files.filter (· ≠ m :: e) } := if_pos hg
      have hok : NwOk { st with files := st.files.filter (· ≠ m :: e) } := nw_files_ok h _ (fun f hf => .inl (keep _ f hf))
      have ⟨a1, a2, a3⟩ := nwSeen_post (e := e) (b := false) (k := .deleted) (m := m) (n := n) hok (filesSeen _) (by simp)
      refine ⟨by rw [es]; exact a1, ?_⟩
      have hd : nwDoes d n (.unlink e m) st = if e = d ∧ false = false ∧ m = n ∧ NwKind.deleted ≠ .made then [.deleted] else [] := by
        unfold nwDoes
        rw [if_neg (by simp), if_neg (by simp)]
        by_cases hc : e = d ∧ m = n
        · rw [if_pos ⟨by rw [hc.1, hc.2], by rw [← hc.1, ← hc.2]; exact hg.2.2⟩, if_pos ⟨hc.1, rfl, hc.2, by decide⟩]
        · have hne : ¬ (NwAct.unlink e m = .unlink d n) := fun x => by injection x with x1 x2; exact hc ⟨x1, x2⟩
          rw [if_neg (fun x => hne x.1), if_neg (fun x => hc ⟨x.1, x.2.2.1⟩)]
      rw [hd, es, a2, a3, (files _).1, (files _).2, List.append_assoc]
    · have es : nwStep (.unlink e m) st = st := if_neg hg
      refine ⟨by rw [es]; exact hs, ?_⟩
      have hd : nwDoes d n (.unlink e m) st = [] := by
        unfold nwDoes
        rw [if_neg (by simp), if_neg (by simp), if_neg]
        rintro ⟨x, hx⟩
        injection x with x1 x2
        obtain ⟨n', d', e', h1, h2, h3⟩ := h.file _ hx
        injection e' with e1 e2
        exact hg ⟨by rw [x2, e1]; exact h1, by rw [x1, e2]; exact h2, by rw [x1, x2]; exact hx⟩
      rw [hd, es, List.append_nil]
  | mkdir e m =>
    have hd : nwDoes d n (.mkdir e m) st = [] := by unfold nwDoes; simp
    rw [hd, List.append_nil]
    unfold nwStep
    dsimp only
    split
    · rename_i hg
      have hs1 : NwSeen d w { st with dirs := st.dirs ++ [(m :: e, st.next)], next := st.next + 1 } :=
        { mem := hs.mem, path := hs.path, ino := by rw [nwIno_add, hs.ino]; rfl, calm := hs.calm }
      have ⟨a1, a2, a3⟩ := nwSeen_post (e := e) (b := true) (k := .made) (m := m) (n := n) (nw_addDir_ok h hg.2.2.2) hs1 (by simp)
      refine ⟨a1, ?_⟩
      rw [a2, a3, if_neg (by simp), List.append_nil]
      rfl
    · exact ⟨hs, rfl⟩
  | moveDir e m =>
    have hd : nwDoes d n (.moveDir e m) st = [] := by unfold nwDoes; simp
    rw [hd, List.append_nil]
    unfold nwStep
    dsimp only
    split
    · rename_i hg
      have hs1 : NwSeen d w { st with dirs := st.dirs ++ [(m :: e, st.next)], next := st.next + 1 } :=
        { mem := hs.mem, path := hs.path, ino := by rw [nwIno_add, hs.ino]; rfl, calm := hs.calm }
      have ⟨a1, a2, a3⟩ := nwSeen_post (e := e) (b := true) (k := .came) (m := m) (n := n) (nw_addDir_ok h hg.2.2.2) hs1 (by simp)
      refine ⟨a1, ?_⟩
      rw [a2, a3, if_neg (by simp), List.append_nil]
      rfl
    · exact ⟨hs, rfl⟩
  | rmdir e m =>
    have hd : nwDoes d n (.rmdir e m) st = [] := by unfold nwDoes; simp
    rw [hd, List.append_nil]
    have hne := ha m e rfl
    unfold nwStep
    dsimp only
    split
    · rename_i hg
      have hs1 : NwSeen d w { st with dirs := st.dirs.filter (fun x => x.1 ≠ m :: e) } :=
        { mem := hs.mem, path := hs.path, ino := by rw [nwIno_del, if_neg (fun x => hne x.symm)]; exact hs.ino, calm := hs.calm }
      have ⟨a1, a2, a3⟩ := nwSeen_post (e := e) (b := true) (k := .deleted) (m := m) (n := n) (nw_delDir_ok h hg.2.2) hs1 (fun _ _ => hne)
      refine ⟨a1, ?_⟩
      rw [a2, a3, if_neg (by simp), List.append_nil]
      rfl
    · exact ⟨hs, rfl⟩
  | tick =>
    have hd : nwDoes d n .tick st = [] := by unfold nwDoes; simp
    rw [hd, List.append_nil]
    exact nwSeen_tick h hs

theorem nwSeen_run {d : ScPath} {w : ScWatch} {n : CStr} {st : NwSt} (acts : List NwAct) (h : NwOk st) (hs : NwSeen d w st)
    (ha : ∀ m e, .rmdir e m ∈ acts → m :: e ≠ d) :
    nwHears (n :: d) (nwRun acts st) ++ nwWaits w n (nwRun acts st) = nwHears (n :: d) st ++ nwWaits w n st ++ nwHappens d n acts st := by
  induction acts generalizing st with
  | nil => simp [nwRun, nwHappens]
  | cons a r ih =>
    have ⟨a1, a2⟩ := nwSeen_step (n := n) a h hs (fun m e x => ha m e (by rw [x]; exact List.mem_cons_self))
    rw [nwRun_cons, ih (nwStep_ok a h) a1 (fun m e hm => ha m e (List.mem_cons_of_mem _ hm)), a2, List.append_assoc]
    rfl

/-! ## When Finit starts to watch -/

theorem nw_zip_mem {ds : List ScPath} {d : ScPath} {i : Nat} (h : (d, i) ∈ ds.zip (List.range' 1 ds.length)) :
    1 ≤ i ∧ i < ds.length + 1 ∧ ds[i - 1]? = some d := by
  obtain ⟨k, hk, e⟩ := List.getElem_of_mem h
  rw [List.getElem_zip] at e
  rw [List.length_zip, List.length_range', Nat.min_self] at hk
  injection e with e1 e2
  rw [List.getElem_range'] at e2
  have hi : i = k + 1 := by omega
  subst hi
  refine ⟨by omega, by omega, ?_⟩
  rw [Nat.add_sub_cancel, List.getElem?_eq_getElem hk, e1]

theorem nwIno_mem {d : ScPath} {i : Nat} {st : NwSt} (h : nwIno d st = some i) : (d, i) ∈ st.dirs := by
  unfold nwIno at h
  cases hf : st.dirs.find? (fun x => x.1 == d) with
  | none => rw [hf] at h; cases h
  | some x =>
    rw [hf] at h
    have h1 := List.mem_of_find?_eq_some hf
    have h2 := List.find?_some hf
    simp only [beq_iff_eq] at h2
    simp only [Option.map_some, Option.some.injEq] at h
    rw [← h, ← h2]
    exact h1

theorem nwInit_ino {ds files : List ScPath} {d : ScPath} : (nwIno d (nwInit ds files)).isSome = true ↔ d = [] ∨ d ∈ ds := by
  constructor
  · intro h
    obtain ⟨i, hi⟩ := Option.isSome_iff_exists.mp h
    rcases List.mem_cons.mp (nwIno_mem hi) with e | e
    · injection e with e1 _
      exact .inl e1
    · exact .inr (List.mem_of_getElem? (nw_zip_mem e).2.2)
  · intro h
    unfold nwIno
    rw [Option.isSome_map, List.find?_isSome]
    rcases h with h | h
    · exact ⟨([], 0), List.mem_cons_self, by simp [h]⟩
    · obtain ⟨k, hk, e⟩ := List.getElem_of_mem h
      refine ⟨(d, k + 1), List.mem_cons_of_mem _ ?_, by simp⟩
      rw [List.mem_iff_getElem]
      refine ⟨k, by simpa [List.length_zip] using hk, ?_⟩
      rw [List.getElem_zip, e, List.getElem_range']
      congr 1
      omega

theorem nwInit_ok {ds files : List ScPath} (h : NwBoot ds files) : NwOk (nwInit ds files) where
  inoLt := fun d i hi => by
    rcases List.mem_cons.mp (nwIno_mem hi) with e | e
    · injection e with _ e2
      rw [e2]
      exact Nat.succ_pos _
    · exact (nw_zip_mem e).2.1
  inoInj := fun d e i h1 h2 => by
    rcases List.mem_cons.mp (nwIno_mem h1) with e1 | e1 <;> rcases List.mem_cons.mp (nwIno_mem h2) with e2 | e2
    · injection e1 with a _
      injection e2 with b _
      rw [a, b]
    · injection e1 with _ a
      have := (nw_zip_mem e2).1
      omega
    · injection e2 with _ a
      have := (nw_zip_mem e1).1
      omega
    · have a := (nw_zip_mem e1).2.2
      rw [(nw_zip_mem e2).2.2] at a
      injection a with a
      exact a.symm
  wLt := fun w hw => by
    have : w = ⟨0, 0, []⟩ := List.mem_singleton.mp hw
    subst this
    exact ⟨Nat.succ_pos _, Nat.succ_pos _⟩
  qLt := fun ev hev => by cases hev
  wdInj := fun v hv w hw _ => (List.mem_singleton.mp hv).trans (List.mem_singleton.mp hw).symm
  watched := fun v hv w hw _ => (List.mem_singleton.mp hv).trans (List.mem_singleton.mp hw).symm
  pathInj := fun v hv w hw _ => (List.mem_singleton.mp hv).trans (List.mem_singleton.mp hw).symm
  agree := fun w hw d hd => by
    have : w = ⟨0, 0, []⟩ := List.mem_singleton.mp hw
    subst this
    rcases List.mem_cons.mp (nwIno_mem hd) with e | e
    · injection e with e1 _
    · have := (nw_zip_mem e).1
      simp at this
  base := List.mem_singleton.mpr rfl
  root := rfl
  file := fun f hf => by
    obtain ⟨n, d, e, h1, h2, h3⟩ := h.file f hf
    refine ⟨n, d, e, h1, nwInit_ino.mpr h2, ?_⟩
    rw [← Option.not_isSome_iff_eq_none, nwInit_ino]
    rintro (x | x)
    · rw [e] at x; cases x
    · exact h3 x

theorem nwInit_seen (ds files : List ScPath) : NwSeen [] ⟨0, 0, []⟩ (nwInit ds files) where
  mem := List.mem_singleton.mpr rfl
  path := rfl
  ino := rfl
  calm := fun ev hev => by cases hev

/-! ## A directory that is made -/

/-- Whether an event tells that the directory `m` of `/run` was made or removed -/
def nwMoves (m : CStr) (ev : NwEv) : Bool := ev.isDir && ev.wd == 0 && ev.name == m && (ev.kind == .made || ev.kind == .deleted)

structure NwTracks (m : CStr) (st : NwSt) : Prop where
  there : ∀ i, nwIno [m] st = some i → st.queue.filter (nwMoves m) = [] → ∃ w ∈ st.watches, w.path = [m] ∧ w.ino = i
  last : ∀ i, nwIno [m] st = some i → ∀ ev, (st.queue.filter (nwMoves m)).getLast? = some ev → ev.kind = .made
  stale : ∀ w ∈ st.watches, w.path = [m] → nwIno [m] st ≠ some w.ino → ∃ ev ∈ st.queue.filter (nwMoves m), ev.kind = .deleted

theorem nwDeep_one {m : CStr} (h : nwName m = true) : nwDeep (nwText [m]) = false := by
  unfold nwName at h
  simp only [Bool.and_eq_true, Bool.not_eq_true', bne_iff_ne] at h
  have h2 : '/' ∉ m := by
    intro hc
    have := h.2
    rw [List.contains_eq_mem] at this
    simp [hc] at this
  have : nwAfterRun (nwText [m]) = some m := by
    simp [nwText, nwAfterRun, List.isPrefixOf]
  unfold nwDeep
  rw [this]
  simp [h2]

theorem nwText_run (d : ScPath) (n : CStr) : ∃ s, nwText (n :: d) = "/run/".toList ++ s := by
  induction d generalizing n with
  | nil => exact ⟨n, rfl⟩
  | cons k d ih =>
    obtain ⟨s, hs⟩ := ih k
    refine ⟨s ++ '/' :: n, ?_⟩
    show nwText (k :: d) ++ '/' :: n = _
    rw [hs, List.append_assoc]

theorem nwDeep_two (d : ScPath) (k n : CStr) : nwDeep (nwText (n :: k :: d)) = true := by
  obtain ⟨s, hs⟩ := nwText_run d k
  have e : nwText (n :: k :: d) = "/run/".toList ++ (s ++ '/' :: n) := by
    show nwText (k :: d) ++ '/' :: n = _
    rw [hs, List.append_assoc]
  have : nwAfterRun (nwText (n :: k :: d)) = some (s ++ '/' :: n) := by
    rw [e]
    simp [nwAfterRun, List.isPrefixOf]
  unfold nwDeep
  rw [this]
  simp

/-- Events that the kernel adds -/
theorem nwPost_moves {m n : CStr} {e : ScPath} {b : Bool} {k : NwKind} {st : NwSt} (h : NwOk st) :
    (nwPost e b k n st).queue.filter (nwMoves m) = st.queue.filter (nwMoves m) ++
      (if e = [] ∧ b = true ∧ n = m ∧ (k = .made ∨ k = .deleted) then [⟨0, b, k, n⟩] else []) ∧
    (nwPost e b k n st).watches = st.watches ∧ (∀ d, nwIno d (nwPost e b k n st) = nwIno d st) := by
  rcases nwPost_cases (d := e) (b := b) (k := k) (n := n) (st := st) with ⟨e1, hno⟩ | ⟨v, hv, hi, e1⟩
  · rw [e1]
    refine ⟨?_, rfl, fun _ => rfl⟩
    rw [if_neg, List.append_nil]
    intro hc
    exact hno _ h.base (by rw [hc.1]; exact h.root)
  · rw [e1]
    refine ⟨?_, rfl, fun _ => rfl⟩
    have hvp : e = v.path := h.agree v hv e hi
    dsimp only
    rw [List.filter_append]
    congr 1
    by_cases hc : e = [] ∧ b = true ∧ n = m ∧ (k = .made ∨ k = .deleted)
    · rw [if_pos hc]
      have hv0 : v = ⟨0, 0, []⟩ := h.pathInj v hv _ h.base (by rw [← hvp]; exact hc.1)
      rw [hv0]
      have : nwMoves m ⟨0, b, k, n⟩ = true := by
        unfold nwMoves
        rcases hc.2.2.2 with x | x <;> simp [hc.2.1, hc.2.2.1, x]
      simp [this]
    · rw [if_neg hc]
      have : nwMoves m ⟨v.wd, b, k, n⟩ = false := by
        unfold nwMoves
        simp only [Bool.and_eq_false_imp, Bool.and_eq_true, beq_iff_eq, Bool.or_eq_false_iff, beq_eq_false_iff_ne]
        rintro ⟨⟨x1, x2⟩, x3⟩
        have hv0 : v = ⟨0, 0, []⟩ := h.wdInj v hv _ h.base x2
        have he : e = [] := by rw [hvp, hv0]
        exact ⟨fun x => hc ⟨he, x1, x3, .inl x⟩, fun x => hc ⟨he, x1, x3, .inr x⟩⟩
      simp [this]

theorem nwTracks_tick {m : CStr} {st : NwSt} (h : NwOk st) (ht : NwTracks m st) : NwTracks m (nwTick st) := by
  unfold nwTick
  cases hq : st.queue with
  | nil => exact ht
  | cons ev q =>
    have h1 := nw_pop_ok h hq
    dsimp only
    have hmv : st.queue.filter (nwMoves m) = (if nwMoves m ev then [ev] else []) ++ q.filter (nwMoves m) := by
      rw [hq, List.filter_cons]
      split <;> rfl
    -- an event that is not about the directory
    have other : nwMoves m ev = false → NwTracks m { st with queue := q } := by
      intro hn
      rw [hn] at hmv
      have hmv' : st.queue.filter (nwMoves m) = q.filter (nwMoves m) := hmv
      exact
        { there := fun i hi hE => ht.there i hi (by rw [hmv']; exact hE)
          last := fun i hi e he => ht.last i hi e (by rw [hmv']; exact he)
          stale := fun w hw hp hx => by
            have := ht.stale w hw hp hx
            rw [hmv'] at this
            exact this }
    split
    · rename_i hf
      apply other
      unfold nwMoves
      have : ev.wd ≠ 0 := fun x => by
        have := List.find?_eq_none.mp hf _ h.base
        simp [x] at this
      simp [this]
    · rename_i v hf
      have hv : v ∈ st.watches := List.mem_of_find?_eq_some hf
      have hwd := List.find?_some hf
      simp only [beq_iff_eq] at hwd
      split
      · rename_i hdir
        by_cases hp : ev.name :: v.path = [m]
        · injection hp with hp1 hp2
          have hv0 : v = ⟨0, 0, []⟩ := h.pathInj v hv _ h.base hp2
          have hwd0 : ev.wd = 0 := by rw [← hwd, hv0]
          have hname : nwName m = true := by
            have := (h.qLt ev (by rw [hq]; exact List.mem_cons_self)).2
            rwa [hp1] at this
          rw [hp1, hp2]
          cases hk : ev.kind with
          | made =>
            have hE : nwMoves m ev = true := by unfold nwMoves; simp [hdir, hwd0, hp1, hk]
            rw [hE] at hmv
            have hmv' : st.queue.filter (nwMoves m) = ev :: q.filter (nwMoves m) := hmv
            have hstale : ∀ w ∈ st.watches, w.path = [m] → nwIno [m] st ≠ some w.ino → ∃ e ∈ q.filter (nwMoves m), e.kind = .deleted := by
              intro w hw hp hx
              obtain ⟨e, he, hek⟩ := ht.stale w hw hp hx
              rw [hmv'] at he
              rcases List.mem_cons.mp he with he | he
              · rw [he, hk] at hek; cases hek
              · exact ⟨e, he, hek⟩
            have hlast : ∀ i, nwIno [m] st = some i → ∀ e, (q.filter (nwMoves m)).getLast? = some e → e.kind = .made := by
              intro i hi e he
              apply ht.last i hi e
              rw [hmv', List.getLast?_cons, he]
              rfl
            rcases nwDir_cases (kind := .made) (p := [m]) (st := { st with queue := q }) with e1 | ⟨_, e1⟩ | ⟨i, _, _, hi, hpn, hin, e1⟩ | ⟨w, _, _, hx, _⟩
            · rw [e1]
              refine { there := ?_, last := hlast, stale := hstale }
              intro i hi hE'
              -- nothing was done, so there is a watch
              unfold nwDir at e1
              cases hf2 : st.watches.find? (fun w => w.path == [m]) with
              | some w =>
                have hw := List.mem_of_find?_eq_some hf2
                have hwp := List.find?_some hf2
                simp only [beq_iff_eq] at hwp
                refine ⟨w, hw, hwp, ?_⟩
                by_cases hx : nwIno [m] st = some w.ino
                · rw [show nwIno [m] st = some i from hi] at hx
                  injection hx with hx
                  exact hx.symm
                · obtain ⟨e, he, _⟩ := hstale w hw hwp hx
                  rw [show q.filter (nwMoves m) = [] from hE'] at he
                  cases he
              | none =>
                exfalso
                have hi' : nwIno [m] { st with queue := q } = some i := hi
                simp only [hf2, nwDeep_one hname, Bool.false_eq_true, if_false, hi'] at e1
                split at e1
                · rename_i hany
                  obtain ⟨w, hw, hwi⟩ := List.any_eq_true.mp hany
                  simp only [beq_iff_eq] at hwi
                  have := h.agree w hw [m] (by rw [hwi]; exact hi)
                  have hnone := List.find?_eq_none.mp hf2 w hw
                  simp [← this] at hnone
                · have : st.next + 1 = st.next := congrArg NwSt.next e1
                  omega
            · rw [e1]
              refine { there := ?_, last := hlast, stale := hstale }
              intro i hi hE'
              unfold nwDir at e1
              cases hf2 : st.watches.find? (fun w => w.path == [m]) with
              | some w =>
                have hw := List.mem_of_find?_eq_some hf2
                have hwp := List.find?_some hf2
                simp only [beq_iff_eq] at hwp
                refine ⟨w, hw, hwp, ?_⟩
                by_cases hx : nwIno [m] st = some w.ino
                · rw [show nwIno [m] st = some i from hi] at hx
                  injection hx with hx
                  exact hx.symm
                · obtain ⟨e, he, _⟩ := hstale w hw hwp hx
                  rw [show q.filter (nwMoves m) = [] from hE'] at he
                  cases he
              | none =>
                exfalso
                have hi' : nwIno [m] { st with queue := q } = some i := hi
                simp only [hf2, nwDeep_one hname, Bool.false_eq_true, if_false, hi'] at e1
                split at e1
                · rename_i hany
                  obtain ⟨w, hw, hwi⟩ := List.any_eq_true.mp hany
                  simp only [beq_iff_eq] at hwi
                  have := h.agree w hw [m] (by rw [hwi]; exact hi)
                  have hnone := List.find?_eq_none.mp hf2 w hw
                  simp [← this] at hnone
                · have : st.next + 1 = st.next := congrArg NwSt.next e1
                  omega
            · rw [e1]
              refine { there := ?_, last := hlast, stale := ?_ }
              · intro j hj _
                have hij : nwIno [m] st = some j := hj
                rw [show nwIno [m] st = some i from hi] at hij
                injection hij with hij
                exact ⟨_, List.mem_cons_self, rfl, hij⟩
              · intro w hw hp hx
                rcases List.mem_cons.mp hw with hw | hw
                · subst hw
                  exact absurd hi hx
                · exact absurd hp (hpn w hw)
            · cases hx
          | deleted =>
            have hE : nwMoves m ev = true := by unfold nwMoves; simp [hdir, hwd0, hp1, hk]
            rw [hE] at hmv
            have hmv' : st.queue.filter (nwMoves m) = ev :: q.filter (nwMoves m) := hmv
            have hlast : ∀ i, nwIno [m] st = some i → ∀ e, (q.filter (nwMoves m)).getLast? = some e → e.kind = .made := by
              intro i hi e he
              apply ht.last i hi e
              rw [hmv', List.getLast?_cons, he]
              rfl
            have hthere : ∀ i, nwIno [m] st = some i → q.filter (nwMoves m) = [] → False := by
              intro i hi hE'
              have := ht.last i hi ev (by rw [hmv', hE']; rfl)
              rw [hk] at this
              cases this
            have ed : (nwDir .deleted [m] { st with queue := q }) =
                { st with queue := q, watches := st.watches.filter (fun w => w.path ≠ [m]) } := by
              unfold nwDir
              cases hf2 : st.watches.find? (fun w => w.path == [m]) with
              | none =>
                have : st.watches.filter (fun w => w.path ≠ [m]) = st.watches := by
                  rw [List.filter_eq_self]
                  intro w hw
                  have := List.find?_eq_none.mp hf2 w hw
                  simpa using this
                rw [this]
              | some w =>
                have hw := List.mem_of_find?_eq_some hf2
                have hwp := List.find?_some hf2
                simp only [beq_iff_eq] at hwp
                have : st.watches.filter (fun w => w.path ≠ [m]) = st.watches.filter (· ≠ w) := by
                  apply List.filter_congr
                  intro u hu
                  by_cases hx : u = w
                  · simp [hx, hwp]
                  · have : u.path ≠ [m] := fun y => hx (h.pathInj u hu w hw (by rw [y, hwp]))
                    simp [hx, this]
                rw [this]
            rw [ed]
            refine { there := fun i hi hE' => (hthere i hi hE').elim, last := hlast, stale := ?_ }
            intro w hw hp _
            have := (List.mem_filter.mp hw).2
            simp [hp] at this
          | written =>
            have hn : nwMoves m ev = false := by unfold nwMoves; simp [hk]
            have : nwDir .written [m] { st with queue := q } = { st with queue := q } := by
              rcases nwDir_cases (kind := .written) (p := [m]) (st := { st with queue := q }) with e1 | ⟨x, _⟩ | ⟨_, x, _⟩ | ⟨_, _, _, x, _⟩
              · exact e1
              · cases x
              · cases x
              · cases x
            rw [this]
            exact other hn
          | came =>
            have hn : nwMoves m ev = false := by unfold nwMoves; simp [hk]
            have : nwDir .came [m] { st with queue := q } = { st with queue := q } := by
              rcases nwDir_cases (kind := .came) (p := [m]) (st := { st with queue := q }) with e1 | ⟨x, _⟩ | ⟨_, x, _⟩ | ⟨_, _, _, x, _⟩
              · exact e1
              · cases x
              · cases x
              · cases x
            rw [this]
            exact other hn
        · have hn : nwMoves m ev = false := by
            unfold nwMoves
            simp only [Bool.and_eq_false_imp, Bool.and_eq_true, beq_iff_eq]
            rintro ⟨⟨_, x2⟩, x3⟩
            have hv0 : v = ⟨0, 0, []⟩ := h.wdInj v hv _ h.base (by rw [hwd, x2])
            exact absurd (by rw [x3, hv0]) hp
          have t1 := other hn
          rcases nwDir_cases (kind := ev.kind) (p := ev.name :: v.path) (st := { st with queue := q }) with e1 | ⟨_, e1⟩ | ⟨i, _, _, hi, _, _, e1⟩ | ⟨w, hw, hwp, _, e1⟩
          · rw [e1]; exact t1
          · rw [e1]
            exact { there := t1.there, last := t1.last, stale := t1.stale }
          · rw [e1]
            refine { there := ?_, last := t1.last, stale := ?_ }
            · intro j hj hE
              obtain ⟨u, hu, hu1, hu2⟩ := t1.there j hj hE
              exact ⟨u, List.mem_cons_of_mem _ hu, hu1, hu2⟩
            · intro u hu hup hx
              rcases List.mem_cons.mp hu with hu | hu
              · subst hu
                exact absurd hup hp
              · exact t1.stale u hu hup hx
          · rw [e1]
            refine { there := ?_, last := t1.last, stale := ?_ }
            · intro j hj hE
              obtain ⟨u, hu, hu1, hu2⟩ := t1.there j hj hE
              refine ⟨u, List.mem_filter.mpr ⟨hu, ?_⟩, hu1, hu2⟩
              simp only [ne_eq, decide_not, Bool.not_eq_true', decide_eq_false_iff_not]
              intro hx
              exact hp (by rw [← hwp, ← hx]; exact hu1)
            · intro u hu hup hx
              exact t1.stale u (List.mem_filter.mp hu).1 hup hx
      · rename_i hdir
        have hn : nwMoves m ev = false := by unfold nwMoves; simp [hdir]
        have t1 := other hn
        split
        · exact t1
        · exact { there := t1.there, last := t1.last, stale := t1.stale }

theorem nwTracks_step {m : CStr} {st : NwSt} (a : NwAct) (h : NwOk st) (ht : NwTracks m st) (ha : a ≠ .moveDir [] m) :
    NwTracks m (nwStep a st) := by
  -- a post that is not about the directory, to a state with other files or directories
  have plain : ∀ (s : NwSt) e b k n, NwOk s → s.queue = st.queue → s.watches = st.watches → nwIno [m] s = nwIno [m] st →
      ¬ (e = [] ∧ b = true ∧ n = m ∧ (k = .made ∨ k = .deleted)) → NwTracks m (nwPost e b k n s) := by
    intro s e b k n hs hq hw hi hc
    have ⟨a1, a2, a3⟩ := nwPost_moves (m := m) (n := n) (e := e) (b := b) (k := k) hs
    rw [if_neg hc, List.append_nil, hq] at a1
    refine { there := ?_, last := ?_, stale := ?_ }
    · intro i hii hE
      rw [a3, hi] at hii
      rw [a1] at hE
      rw [a2, hw]
      exact ht.there i hii hE
    · intro i hii ev hev
      rw [a3, hi] at hii
      rw [a1] at hev
      exact ht.last i hii ev hev
    · intro w hww hp hx
      rw [a2, hw] at hww
      rw [a3, hi] at hx
      rw [a1]
      exact ht.stale w hww hp hx
  have keep : ∀ (p f : ScPath), f ∈ st.files.filter (· ≠ p) → f ∈ st.files := fun p f hf => (List.mem_filter.mp hf).1
  cases a with
  | write e n =>
    unfold nwStep
    dsimp only
    split
    · rename_i hg
      refine plain _ _ _ _ _ (nw_files_ok h _ ?_) rfl rfl rfl (by simp)
      intro f hf
      rcases List.mem_cons.mp hf with x | hf
      · exact .inr ⟨n, e, x, hg.1, hg.2.1, by rw [x]; exact hg.2.2⟩
      · exact .inl (keep _ f hf)
    · exact ht
  | moveIn e n =>
    unfold nwStep
    dsimp only
    split
    · rename_i hg
      refine plain _ _ _ _ _ (nw_files_ok h _ ?_) rfl rfl rfl (by simp)
      intro f hf
      rcases List.mem_cons.mp hf with x | hf
      · exact .inr ⟨n, e, x, hg.1, hg.2.1, by rw [x]; exact hg.2.2⟩
      · exact .inl (keep _ f hf)
    · exact ht
  | unlink e n =>
    unfold nwStep
    dsimp only
    split
    · exact plain _ _ _ _ _ (nw_files_ok h _ (fun f hf => .inl (keep _ f hf))) rfl rfl rfl (by simp)
    · exact ht
  | mkdir e n =>
    unfold nwStep
    dsimp only
    split
    · rename_i hg
      have hok := nw_addDir_ok h hg.2.2.2
      by_cases hc : n :: e = [m]
      · injection hc with hc1 hc2
        subst hc1 hc2
        have ⟨a1, a2, a3⟩ := nwPost_moves (m := n) (n := n) (e := []) (b := true) (k := .made) hok
        rw [if_pos ⟨rfl, rfl, rfl, .inl rfl⟩] at a1
        refine { there := ?_, last := ?_, stale := ?_ }
        · intro i _ hE
          rw [a1] at hE
          simp at hE
        · intro i _ ev hev
          rw [a1, List.getLast?_concat] at hev
          injection hev with hev
          rw [← hev]
        · intro w hw hp _
          rw [a2] at hw
          obtain ⟨ev, h1, h2⟩ := ht.stale w hw hp (by rw [hg.2.2.1]; simp)
          refine ⟨ev, ?_, h2⟩
          rw [a1]
          exact List.mem_append_left _ h1
      · refine plain _ _ _ _ _ hok rfl rfl ?_ (fun x => hc (by rw [x.1, x.2.2.1]))
        rw [nwIno_add, if_neg hc, Option.or_none]
    · exact ht
  | moveDir e n =>
    unfold nwStep
    dsimp only
    split
    · rename_i hg
      have hok := nw_addDir_ok h hg.2.2.2
      have hc : n :: e ≠ [m] := fun x => by
        injection x with x1 x2
        exact ha (by rw [x1, x2])
      refine plain _ _ _ _ _ hok rfl rfl ?_ (fun x => hc (by rw [x.1, x.2.2.1]))
      rw [nwIno_add, if_neg hc, Option.or_none]
    · exact ht
  | rmdir e n =>
    unfold nwStep
    dsimp only
    split
    · rename_i hg
      have hok := nw_delDir_ok h hg.2.2
      by_cases hc : n :: e = [m]
      · injection hc with hc1 hc2
        subst hc1 hc2
        have ⟨a1, a2, a3⟩ := nwPost_moves (m := n) (n := n) (e := []) (b := true) (k := .deleted) hok
        rw [if_pos ⟨rfl, rfl, rfl, .inr rfl⟩] at a1
        have hnone : ∀ i, nwIno [n] (nwPost [] true .deleted n { st with dirs := st.dirs.filter (fun x => x.1 ≠ [n]) }) = some i → False := by
          intro i hi
          rw [a3, nwIno_del, if_pos rfl] at hi
          cases hi
        refine { there := fun i hi => (hnone i hi).elim, last := fun i hi => (hnone i hi).elim, stale := ?_ }
        intro w _ _ _
        rw [a1]
        exact ⟨_, List.mem_append_right _ (List.mem_singleton.mpr rfl), rfl⟩
      · refine plain _ _ _ _ _ hok rfl rfl ?_ (fun x => hc (by rw [x.1, x.2.2.1]))
        rw [nwIno_del, if_neg (fun x => hc x.symm)]
    · exact ht
  | tick => exact nwTracks_tick h ht

theorem nwTracks_run {m : CStr} {st : NwSt} (acts : List NwAct) (h : NwOk st) (ht : NwTracks m st) (ha : .moveDir [] m ∉ acts) :
    NwTracks m (nwRun acts st) := by
  induction acts generalizing st with
  | nil => exact ht
  | cons a r ih =>
    exact ih (nwStep_ok a h) (nwTracks_step a h ht (fun x => ha (by rw [x]; exact List.mem_cons_self)))
      (fun x => ha (List.mem_cons_of_mem _ x))

theorem nwTracks_init {m : CStr} {ds files : List ScPath} (hm : [m] ∉ ds) : NwTracks m (nwInit ds files) := by
  have hnone : ∀ i, nwIno [m] (nwInit ds files) = some i → False := by
    intro i hi
    rcases nwInit_ino.mp (Option.isSome_iff_exists.mpr ⟨i, hi⟩) with x | x
    · cases x
    · exact hm x
  exact
    { there := fun i hi => (hnone i hi).elim
      last := fun i hi => (hnone i hi).elim
      stale := fun w hw hp => by
        have : w = ⟨0, 0, []⟩ := List.mem_singleton.mp hw
        rw [this] at hp
        cases hp }

/-! ## A directory that is not watched -/

/-- The directory is there, is not watched, and no event will change that -/
structure NwBlind (m : CStr) (st : NwSt) : Prop where
  there : (nwIno [m] st).isSome = true
  off : ∀ w ∈ st.watches, w.path ≠ [m]
  quiet : ∀ ev ∈ st.queue, ev.isDir = true → ev.wd = 0 → ev.name = m → ev.kind ≠ .made

theorem nwBlind_tick {m n : CStr} {st : NwSt} (h : NwOk st) (hb : NwBlind m st) :
    NwBlind m (nwTick st) ∧ nwHears [n, m] (nwTick st) = nwHears [n, m] st := by
  unfold nwTick
  cases hq : st.queue with
  | nil => exact ⟨hb, rfl⟩
  | cons ev q =>
    have hb1 : NwBlind m { st with queue := q } :=
      { there := hb.there, off := hb.off, quiet := fun e he => hb.quiet e (by rw [hq]; exact List.mem_cons_of_mem _ he) }
    dsimp only
    split
    · exact ⟨hb1, rfl⟩
    · rename_i v hf
      have hv : v ∈ st.watches := List.mem_of_find?_eq_some hf
      have hwd := List.find?_some hf
      simp only [beq_iff_eq] at hwd
      split
      · rename_i hdir
        have scan : ∀ (p : ScPath) (s : NwSt), nwHears [n, m] (nwScan p s) = nwHears [n, m] s := by
          intro p s
          unfold nwHears nwScan
          dsimp only
          rw [List.filterMap_append]
          have : ((nwGlob p s).map fun f => (f ++ "run".toList :: p, NwKind.made)).filterMap
              (fun x => if x.1 = [n, m] ∧ x.2 ≠ .made then some x.2 else none) = [] := by
            rw [List.filterMap_eq_nil_iff]
            intro x hx
            obtain ⟨f, _, rfl⟩ := List.mem_map.mp hx
            simp
          rw [this, List.append_nil]
        rcases nwDir_cases (kind := ev.kind) (p := ev.name :: v.path) (st := { st with queue := q }) with e1 | ⟨_, e1⟩ | ⟨i, hk, _, _, _, _, e1⟩ | ⟨w, _, _, _, e1⟩
        · rw [e1]; exact ⟨hb1, rfl⟩
        · rw [e1]
          exact ⟨{ there := hb1.there, off := hb1.off, quiet := hb1.quiet }, scan _ _⟩
        · rw [e1]
          refine ⟨{ there := hb1.there, off := ?_, quiet := hb1.quiet }, scan _ _⟩
          intro w hw
          rcases List.mem_cons.mp hw with hw | hw
          · subst hw
            intro hc
            injection hc with c1 c2
            have hv0 : v = ⟨0, 0, []⟩ := h.pathInj v hv _ h.base c2
            exact hb.quiet ev (by rw [hq]; exact List.mem_cons_self) hdir (by rw [← hwd, hv0]) c1 hk
          · exact hb1.off w hw
        · rw [e1]
          exact ⟨{ there := hb1.there, off := fun u hu => hb1.off u (List.mem_filter.mp hu).1, quiet := hb1.quiet }, rfl⟩
      · split
        · exact ⟨hb1, rfl⟩
        · refine ⟨{ there := hb1.there, off := hb1.off, quiet := hb1.quiet }, ?_⟩
          unfold nwHears
          dsimp only
          rw [List.filterMap_append]
          have hne : ¬ (ev.name :: v.path = [n, m]) := fun x => by
            injection x with _ x2
            exact hb.off v hv x2
          simp [hne]

theorem nwBlind_step {m n : CStr} {st : NwSt} (a : NwAct) (h : NwOk st) (hb : NwBlind m st) (ha : a ≠ .rmdir [] m) :
    NwBlind m (nwStep a st) ∧ nwHears [n, m] (nwStep a st) = nwHears [n, m] st := by
  have post : ∀ (s : NwSt) e b k x, NwOk s → NwBlind m s → s.told = st.told → ¬ (b = true ∧ e = [] ∧ x = m ∧ k = .made) →
      NwBlind m (nwPost e b k x s) ∧ nwHears [n, m] (nwPost e b k x s) = nwHears [n, m] st := by
    intro s e b k x hs hbs htold hc
    have htold' : nwHears [n, m] s = nwHears [n, m] st := by unfold nwHears; rw [htold]
    rcases nwPost_cases (d := e) (b := b) (k := k) (n := x) (st := s) with ⟨e1, _⟩ | ⟨v, hv, hi, e1⟩
    · rw [e1]; exact ⟨hbs, htold'⟩
    · rw [e1]
      refine ⟨{ there := hbs.there, off := hbs.off, quiet := ?_ }, htold'⟩
      intro ev hev h1 h2 h3 h4
      rcases List.mem_append.mp hev with hev | hev
      · exact hbs.quiet ev hev h1 h2 h3 h4
      · rw [List.mem_singleton] at hev
        subst hev
        have hv0 : v = ⟨0, 0, []⟩ := hs.wdInj v hv _ hs.base h2
        exact hc ⟨h1, by rw [hs.agree v hv e hi, hv0], h3, h4⟩
  have keep : ∀ (p f : ScPath), f ∈ st.files.filter (· ≠ p) → f ∈ st.files := fun p f hf => (List.mem_filter.mp hf).1
  cases a with
  | write e x =>
    unfold nwStep
    dsimp only
    split
    · rename_i hg
      refine post _ _ _ _ _ (nw_files_ok h _ ?_) { there := hb.there, off := hb.off, quiet := hb.quiet } rfl (by simp)
      intro f hf
      rcases List.mem_cons.mp hf with y | hf
      · exact .inr ⟨x, e, y, hg.1, hg.2.1, by rw [y]; exact hg.2.2⟩
      · exact .inl (keep _ f hf)
    · exact ⟨hb, rfl⟩
  | moveIn e x =>
    unfold nwStep
    dsimp only
    split
    · rename_i hg
      refine post _ _ _ _ _ (nw_files_ok h _ ?_) { there := hb.there, off := hb.off, quiet := hb.quiet } rfl (by simp)
      intro f hf
      rcases List.mem_cons.mp hf with y | hf
      · exact .inr ⟨x, e, y, hg.1, hg.2.1, by rw [y]; exact hg.2.2⟩
      · exact .inl (keep _ f hf)
    · exact ⟨hb, rfl⟩
  | unlink e x =>
    unfold nwStep
    dsimp only
    split
    · exact post _ _ _ _ _ (nw_files_ok h _ (fun f hf => .inl (keep _ f hf))) { there := hb.there, off := hb.off, quiet := hb.quiet } rfl (by simp)
    · exact ⟨hb, rfl⟩
  | mkdir e x =>
    unfold nwStep
    dsimp only
    split
    · rename_i hg
      refine post _ _ _ _ _ (nw_addDir_ok h hg.2.2.2) { there := ?_, off := hb.off, quiet := hb.quiet } rfl ?_
      · rw [nwIno_add]
        cases hx : nwIno [m] st with
        | some j => rfl
        | none => have := hb.there; rw [hx] at this; cases this
      · rintro ⟨_, x2, x3, _⟩
        have := hb.there
        rw [← x3, ← x2, hg.2.2.1] at this
        cases this
    · exact ⟨hb, rfl⟩
  | moveDir e x =>
    unfold nwStep
    dsimp only
    split
    · rename_i hg
      refine post _ _ _ _ _ (nw_addDir_ok h hg.2.2.2) { there := ?_, off := hb.off, quiet := hb.quiet } rfl (by simp)
      rw [nwIno_add]
      cases hx : nwIno [m] st with
      | some j => rfl
      | none => have := hb.there; rw [hx] at this; cases this
    · exact ⟨hb, rfl⟩
  | rmdir e x =>
    unfold nwStep
    dsimp only
    split
    · rename_i hg
      have hne : ¬ [m] = x :: e := fun y => by
        injection y with y1 y2
        exact ha (by rw [← y1, ← y2])
      refine post _ _ _ _ _ (nw_delDir_ok h hg.2.2) { there := ?_, off := hb.off, quiet := hb.quiet } rfl (by simp)
      rw [nwIno_del, if_neg hne]
      exact hb.there
    · exact ⟨hb, rfl⟩
  | tick => exact nwBlind_tick h hb

theorem nwBlind_run {m n : CStr} {st : NwSt} (acts : List NwAct) (h : NwOk st) (hb : NwBlind m st) (ha : .rmdir [] m ∉ acts) :
    nwHears [n, m] (nwRun acts st) = nwHears [n, m] st := by
  induction acts generalizing st with
  | nil => rfl
  | cons a r ih =>
    have ⟨h1, h2⟩ := nwBlind_step (n := n) a h hb (fun x => ha (by rw [x]; exact List.mem_cons_self))
    rw [nwRun_cons, ih (nwStep_ok a h) h1 (fun x => ha (List.mem_cons_of_mem _ x)), h2]

/-! ## Depth -/

structure NwShallow (st : NwSt) : Prop where
  watch : ∀ w ∈ st.watches, w.path.length ≤ 1
  told : ∀ x ∈ st.told, x.2 ≠ .made → x.1.length ≤ 2

theorem nwShallow_post {e : ScPath} {b : Bool} {k : NwKind} {n : CStr} {st : NwSt} (h : NwShallow st) : NwShallow (nwPost e b k n st) := by
  rcases nwPost_cases (d := e) (b := b) (k := k) (n := n) (st := st) with ⟨e1, _⟩ | ⟨v, _, _, e1⟩
  · rw [e1]; exact h
  · rw [e1]; exact { watch := h.watch, told := h.told }

theorem nwShallow_step {st : NwSt} (a : NwAct) (h : NwShallow st) : NwShallow (nwStep a st) := by
  cases a with
  | tick =>
    show NwShallow (nwTick st)
    unfold nwTick
    cases hq : st.queue with
    | nil => exact h
    | cons ev q =>
      have h1 : NwShallow { st with queue := q } := { watch := h.watch, told := h.told }
      have scan : ∀ (p : ScPath) (s : NwSt), NwShallow s → NwShallow (nwScan p s) := by
        intro p s hs
        refine { watch := hs.watch, told := ?_ }
        intro x hx hk
        rcases List.mem_append.mp hx with hx | hx
        · exact hs.told x hx hk
        · obtain ⟨f, _, rfl⟩ := List.mem_map.mp hx
          exact absurd rfl hk
      dsimp only
      split
      · exact h1
      · rename_i v hf
        have hv : v ∈ st.watches := List.mem_of_find?_eq_some hf
        split
        · rcases nwDir_cases (kind := ev.kind) (p := ev.name :: v.path) (st := { st with queue := q }) with e1 | ⟨_, e1⟩ | ⟨i, _, hdeep, _, _, _, e1⟩ | ⟨w, _, _, _, e1⟩
          · rw [e1]; exact h1
          · rw [e1]; exact scan _ _ h1
          · rw [e1]
            refine scan _ _ { watch := ?_, told := h1.told }
            intro w hw
            rcases List.mem_cons.mp hw with hw | hw
            · subst hw
              cases hp : v.path with
              | nil => simp
              | cons k d =>
                rw [hp, nwDeep_two] at hdeep
                cases hdeep
            · exact h1.watch w hw
          · rw [e1]
            exact { watch := fun u hu => h1.watch u (List.mem_filter.mp hu).1, told := h1.told }
        · split
          · exact h1
          · refine { watch := h1.watch, told := ?_ }
            intro x hx hk
            rcases List.mem_append.mp hx with hx | hx
            · exact h1.told x hx hk
            · rw [List.mem_singleton] at hx
              subst hx
              have := h.watch v hv
              simp only [List.length_cons]
              omega
  | write e n => unfold nwStep; dsimp only; split <;> first | exact h | exact nwShallow_post { watch := h.watch, told := h.told }
  | moveIn e n => unfold nwStep; dsimp only; split <;> first | exact h | exact nwShallow_post { watch := h.watch, told := h.told }
  | unlink e n => unfold nwStep; dsimp only; split <;> first | exact h | exact nwShallow_post { watch := h.watch, told := h.told }
  | mkdir e n => unfold nwStep; dsimp only; split <;> first | exact h | exact nwShallow_post { watch := h.watch, told := h.told }
  | rmdir e n => unfold nwStep; dsimp only; split <;> first | exact h | exact nwShallow_post { watch := h.watch, told := h.told }
  | moveDir e n => unfold nwStep; dsimp only; split <;> first | exact h | exact nwShallow_post { watch := h.watch, told := h.told }

theorem nwShallow_run {st : NwSt} (acts : List NwAct) (h : NwShallow st) : NwShallow (nwRun acts st) := by
  induction acts generalizing st with
  | nil => exact h
  | cons a r ih => exact ih (nwShallow_step a h)

/-! ## The claims -/

theorem nwWaits_idle {w : ScWatch} {n : CStr} {st : NwSt} (h : NwIdle st) : nwWaits w n st = [] := by
  unfold nwWaits
  rw [show st.queue = [] from h]
  rfl

/-- Of a file in `/run` Finit is told all that happens to it, in order, whatever else happens.  Missing from the full claim: files in
    directories of `/run`, see `C105_dir`. -/
theorem C105_partial (ds files : List ScPath) (acts : List NwAct) (n : CStr) (hb : NwBoot ds files)
    (hi : NwIdle (nwRun acts (nwInit ds files))) :
    nwHears [n] (nwRun acts (nwInit ds files)) = nwHappens [] n acts (nwInit ds files) := by
  have := nwSeen_run (n := n) acts (nwInit_ok hb) (nwInit_seen ds files) (fun m e _ x => by cases x)
  rw [nwWaits_idle hi, List.append_nil] at this
  exact this

/-- Of a file in a directory of `/run` that was made since, Finit is told all that happens to it from when the events so far are read, as long
    as the directory is there -/
theorem C105_dir (ds files : List ScPath) (before after : List NwAct) (m n : CStr) (hb : NwBoot ds files) (hm : [m] ∉ ds)
    (hc : .moveDir [] m ∉ before) (hq : NwIdle (nwRun before (nwInit ds files)))
    (hd : (nwIno [m] (nwRun before (nwInit ds files))).isSome = true) (ha : .rmdir [] m ∉ after)
    (hi : NwIdle (nwRun (before ++ after) (nwInit ds files))) :
    nwHears [n, m] (nwRun (before ++ after) (nwInit ds files)) =
      nwHears [n, m] (nwRun before (nwInit ds files)) ++ nwHappens [m] n after (nwRun before (nwInit ds files)) := by
  have hok := nwRun_ok before (nwInit_ok hb)
  have ht := nwTracks_run before (nwInit_ok hb) (nwTracks_init (files := files) hm) hc
  obtain ⟨i, hi'⟩ := Option.isSome_iff_exists.mp hd
  have hq' : (nwRun before (nwInit ds files)).queue = [] := hq
  obtain ⟨w, hw, hwp, hwi⟩ := ht.there i hi' (by rw [hq']; rfl)
  have hs : NwSeen [m] w (nwRun before (nwInit ds files)) :=
    { mem := hw, path := hwp, ino := by rw [hi', hwi], calm := fun ev hev => by rw [hq'] at hev; cases hev }
  rw [nwRun_append] at hi ⊢
  have := nwSeen_run (n := n) after hok hs (fun k e hk x => by
    injection x with x1 x2
    exact ha (by rw [← x1, ← x2]; exact hk))
  rw [nwWaits_idle hi, nwWaits_idle hq, List.append_nil, List.append_nil] at this
  exact this

/-- A file that is written before Finit has read that its directory was made is not noticed, until something else happens to it: the look at
    the files that are there already has no effect -/
theorem C105_early (m n : CStr) (hm : nwName m = true) (hn : nwName n = true) (after : List NwAct)
    (ha : .rmdir [] m ∉ after) (hnot : nwHappens [m] n after (nwRun [.mkdir [] m, .write [m] n, .tick] (nwInit [] [])) = [])
    (hi : NwIdle (nwRun ([.mkdir [] m, .write [m] n, .tick] ++ after) (nwInit [] []))) :
    nwHappens [m] n ([.mkdir [] m, .write [m] n, .tick] ++ after) (nwInit [] []) = [.written] ∧
    nwHears [n, m] (nwRun ([.mkdir [] m, .write [m] n, .tick] ++ after) (nwInit [] [])) = [] := by
  have hb : NwBoot [] [] := ⟨by simp, by simp, by simp⟩
  have e1 : nwStep (.mkdir [] m) (nwInit [] []) = ⟨2, [([], 0), ([m], 1)], [], [⟨0, 0, []⟩], [⟨0, true, .made, m⟩], []⟩ := by
    simp [nwStep, nwInit, nwIno, nwPost, hm]
  have e2 : nwStep (.write [m] n) ⟨2, [([], 0), ([m], 1)], [], [⟨0, 0, []⟩], [⟨0, true, .made, m⟩], []⟩ =
      ⟨2, [([], 0), ([m], 1)], [[n, m]], [⟨0, 0, []⟩], [⟨0, true, .made, m⟩], []⟩ := by
    simp [nwStep, nwIno, nwPost, hn]
  have hdeep := nwDeep_one hm
  have e3 : ∃ t, nwStep .tick ⟨2, [([], 0), ([m], 1)], [[n, m]], [⟨0, 0, []⟩], [⟨0, true, .made, m⟩], []⟩ =
      ⟨3, [([], 0), ([m], 1)], [[n, m]], [⟨2, 1, [m]⟩, ⟨0, 0, []⟩], [], t⟩ ∧ ∀ x ∈ t, x.2 = .made := by
    refine ⟨(nwGlob [m] ⟨3, [([], 0), ([m], 1)], [[n, m]], [⟨2, 1, [m]⟩, ⟨0, 0, []⟩], [], []⟩).map fun p => (p ++ "run".toList :: [m], .made), ?_, ?_⟩
    · simp [nwStep, nwTick, nwDir, hdeep, nwIno, nwScan]
    · intro x hx
      obtain ⟨p, _, rfl⟩ := List.mem_map.mp hx
      rfl
  obtain ⟨t, e3, ht⟩ := e3
  have er : nwRun [.mkdir [] m, .write [m] n, .tick] (nwInit [] []) =
      ⟨3, [([], 0), ([m], 1)], [[n, m]], [⟨2, 1, [m]⟩, ⟨0, 0, []⟩], [], t⟩ := by
    rw [nwRun_cons, e1, nwRun_cons, e2, nwRun_cons, e3]
    rfl
  have hq : NwIdle (nwRun [.mkdir [] m, .write [m] n, .tick] (nwInit [] [])) := by rw [er]; rfl
  have hear : nwHears [n, m] (nwRun [.mkdir [] m, .write [m] n, .tick] (nwInit [] [])) = [] := by
    rw [er]
    unfold nwHears
    rw [List.filterMap_eq_nil_iff]
    intro x hx
    rw [if_neg]
    exact fun y => y.2 (ht x hx)
  constructor
  · rw [nwHappens_append, hnot, List.append_nil]
    show nwDoes [m] n _ _ ++ (nwDoes [m] n _ _ ++ (nwDoes [m] n _ _ ++ [])) = _
    rw [e1, e2]
    simp [nwDoes, e2]
  · rw [C105_dir [] [] _ after m n hb (by simp) (by simp) hq (by rw [er]; simp [nwIno]) ha hi, hear, hnot]
    rfl

/-- Files in a directory of `/run` that was there when Finit started to watch are never noticed, as long as it is not removed -/
theorem C105_boot (ds files : List ScPath) (acts : List NwAct) (m n : CStr) (hb : NwBoot ds files) (hm : [m] ∈ ds) (ha : .rmdir [] m ∉ acts) :
    nwHears [n, m] (nwRun acts (nwInit ds files)) = [] := by
  refine nwBlind_run acts (nwInit_ok hb) { there := nwInit_ino.mpr (.inr hm), off := ?_, quiet := fun ev hev => by cases hev } ha
  intro w hw
  have : w = ⟨0, 0, []⟩ := List.mem_singleton.mp hw
  rw [this]
  simp

/-- Files in a directory that is renamed to one of `/run` from elsewhere are never noticed, as long as it is not removed -/
theorem C105_moved (ds files : List ScPath) (before after : List NwAct) (m n : CStr) (hb : NwBoot ds files) (hm : [m] ∉ ds)
    (hc : .moveDir [] m ∉ before) (hq : NwIdle (nwRun before (nwInit ds files)))
    (hd : nwIno [m] (nwRun before (nwInit ds files)) = none) (hf : [m] ∉ (nwRun before (nwInit ds files)).files) (hn : nwName m = true)
    (ha : .rmdir [] m ∉ after) :
    nwHears [n, m] (nwRun (before ++ .moveDir [] m :: after) (nwInit ds files)) = nwHears [n, m] (nwRun before (nwInit ds files)) := by
  have hok := nwRun_ok before (nwInit_ok hb)
  have ht := nwTracks_run before (nwInit_ok hb) (nwTracks_init (files := files) hm) hc
  have hq' : (nwRun before (nwInit ds files)).queue = [] := hq
  rw [nwRun_append, nwRun_cons]
  generalize hst : nwRun before (nwInit ds files) = st at *
  have es : nwStep (.moveDir [] m) st = nwPost [] true .came m { st with dirs := st.dirs ++ [([m], st.next)], next := st.next + 1 } :=
    if_pos ⟨hn, by rw [hok.root]; rfl, hd, hf⟩
  have hok2 := nw_addDir_ok (q := [m]) hok hf
  have hoff : ∀ w ∈ st.watches, w.path ≠ [m] := by
    intro w hw hp
    obtain ⟨ev, hev, _⟩ := ht.stale w hw hp (by rw [hd]; simp)
    rw [hq'] at hev
    cases hev
  have hblind : NwBlind m (nwStep (.moveDir [] m) st) ∧ nwHears [n, m] (nwStep (.moveDir [] m) st) = nwHears [n, m] st := by
    rw [es]
    have hthere : (nwIno [m] { st with dirs := st.dirs ++ [([m], st.next)], next := st.next + 1 }).isSome = true := by
      rw [nwIno_add, hd, if_pos rfl]
      rfl
    rcases nwPost_cases (d := []) (b := true) (k := .came) (n := m)
        (st := { st with dirs := st.dirs ++ [([m], st.next)], next := st.next + 1 }) with ⟨e1, _⟩ | ⟨v, _, _, e1⟩
    · rw [e1]
      refine ⟨{ there := hthere, off := hoff, quiet := ?_ }, rfl⟩
      intro ev hev
      have : ev ∈ st.queue := hev
      rw [hq'] at this
      cases this
    · rw [e1]
      refine ⟨{ there := hthere, off := hoff, quiet := ?_ }, rfl⟩
      intro ev hev _ _ _
      rcases List.mem_append.mp hev with hev | hev
      · have : ev ∈ st.queue := hev
        rw [hq'] at this; cases this
      · rw [List.mem_singleton] at hev
        rw [hev]
        simp
  rw [nwBlind_run after (nwStep_ok _ hok) hblind.1 ha, hblind.2]

/-- Files further down are never noticed -/
theorem C105_deep (ds files : List ScPath) (acts : List NwAct) (d : ScPath) (j k n : CStr) :
    nwHears (n :: k :: j :: d) (nwRun acts (nwInit ds files)) = [] := by
  have h : NwShallow (nwRun acts (nwInit ds files)) := nwShallow_run acts
    { watch := fun w hw => by
        have : w = ⟨0, 0, []⟩ := List.mem_singleton.mp hw
        rw [this]
        simp
      told := fun x hx => by cases hx }
  unfold nwHears
  rw [List.filterMap_eq_nil_iff]
  intro x hx
  rw [if_neg]
  rintro ⟨e, hk⟩
  have := h.told x hx hk
  rw [e] at this
  simp at this

/-! ## Examples -/

def nwLib : List NwAct := [.mkdir [] "dbus".toList, .tick]

def nwDemo : List NwAct :=
  [.write ["dbus".toList] "pid".toList, .tick, .unlink ["dbus".toList] "pid".toList, .write [] "sshd.pid".toList, .write ["dbus".toList] "pid".toList,
   .tick, .tick, .tick]

example : nwHears ["pid".toList, "dbus".toList] (nwRun (nwLib ++ nwDemo) (nwInit [] [])) = [.written, .deleted, .written] := by
  rw [C105_dir [] [] nwLib nwDemo _ _ ⟨by simp, by simp, by simp⟩ (by simp) (by decide) (by unfold NwIdle; decide +kernel)
    (by decide +kernel) (by decide) (by unfold NwIdle; decide +kernel)]
  decide +kernel

example : nwHears ["sshd.pid".toList] (nwRun (nwLib ++ nwDemo) (nwInit [] [])) = [.written] := by
  rw [C105_partial [] [] _ _ ⟨by simp, by simp, by simp⟩ (by unfold NwIdle; decide +kernel)]
  decide +kernel

/-- `/run/dbus`, made when tmpfiles(8) was run before -/
example : nwHears ["pid".toList, "dbus".toList] (nwRun [.write ["dbus".toList] "pid".toList, .tick] (nwInit [["dbus".toList]] [])) = [] :=
  C105_boot _ _ _ _ _ ⟨by simp, by simp, by simp⟩ (by simp) (by decide)

example : nwHears ["pid".toList, "dbus".toList]
    (nwRun ([] ++ [.moveDir [] "dbus".toList, .write ["dbus".toList] "pid".toList, .tick]) (nwInit [] [])) = [] :=
  C105_moved [] [] [] _ _ _ ⟨by simp, by simp, by simp⟩ (by simp) (by simp) rfl (by decide +kernel) (by simp [nwRun, nwInit]) (by decide +kernel)
    (by decide)

/-- The claim is false: a daemon makes a directory and its PID file in it before Finit has read the first event -/
theorem C105_full_false : ¬ C105_full := by
  intro h
  have hi : NwIdle (nwRun ([.mkdir [] "dbus".toList, .write ["dbus".toList] "pid".toList, .tick] ++ []) (nwInit [] [])) := by
    unfold NwIdle
    decide +kernel
  have ⟨h1, h2⟩ := C105_early "dbus".toList "pid".toList (by decide +kernel) (by decide +kernel) [] (by simp) rfl hi
  have := h [] [] _ ["dbus".toList] "pid".toList ⟨by simp, by simp, by simp⟩ hi
  rw [h1] at this
  rw [h2] at this
  cases this

end Verif
