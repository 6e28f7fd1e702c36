import Verif.Wdhello

/-!
# C103: the watchdog daemon is told that the system goes down
-/

namespace Verif

/-! ## Specification -/

/-- No service but `k` says hello, and `k` stays in the configuration -/
def WhStays (k : Nat) (st : WhSt) : WhAct → Prop
  | .hello p => ∀ j ∈ st.order, j ≠ k → (st.svc j).pid ≠ p
  | .proc _ _ => True
  | .add j _ => j ≠ k
  | .remove j => j ≠ k
  | .free j => j ≠ k

def WhAll (P : WhSt → WhAct → Prop) : WhSt → List WhAct → Prop
  | _, [] => True
  | st, a :: r => P st a ∧ WhAll P (whStep a st) r

/-- Finit can tell its watchdog daemon: the pointer is to an object that is there -/
def WhSound (st : WhSt) : Prop := st.ub = false ∧ ∀ v, st.wdog = some v → (st.svc v).freed = false

/-- No service is removed while it is the watchdog daemon, and no object is given back that is still used otherwise -/
def WhKeeps (st : WhSt) : WhAct → Prop
  | .free j => st.wdog ≠ some j
  | .add j s => st.wdog ≠ some j ∧ j ∉ st.order ∧ s.freed = false
  | _ => True

/-- C103 as stated: when the system goes down, the process of the service that said hello last gets SIGPWR, and no process does if
    that service is not running; nothing else is signalled, and no memory is used that was given back.  It is false. -/
def C103_full : Prop :=
  ∀ (order : List Nat) (svc : Nat → WhSvc) (builtin : Option Nat) (before after : List WhAct) (k : Nat) (p : Int) (reboot : Bool),
    order.Nodup → (∀ j, (svc j).freed = false) → (∀ b, builtin = some b → b ∈ order) →
    let st := whRun before (whBoot order svc builtin)
    0 < p → k ∈ st.order → (st.svc k).pid = p → (∀ j ∈ st.order, j ≠ k → (st.svc j).pid ≠ p) →
    let fin := whRun (.hello p :: after) st
    WhAll (fun st a => match a with | .hello q => ∀ j ∈ st.order, j ≠ k → (st.svc j).pid ≠ q | _ => True) st (.hello p :: after) →
    WhDown.ub ∉ whDown reboot fin ∧ ∀ q s, .kill q s ∈ whDown reboot fin → k ∈ fin.order ∧ q = (fin.svc k).pid ∧ 1 < q

/-! ## Lemmas -/

theorem find_pid {l : List Nat} {k : Nat} {p : Nat → Bool} (hk : k ∈ l) (hp : p k = true) (ho : ∀ j ∈ l, j ≠ k → p j = false) :
    l.find? p = some k := by
  cases h : l.find? p with
  | none => exact absurd hp (by simpa using List.find?_eq_none.mp h k hk)
  | some j =>
    by_cases e : j = k
    · rw [e]
    · have := List.find?_some h
      rw [ho j (List.mem_of_find?_eq_some h) e] at this
      cases this

/-- Service `k` is the watchdog daemon and there -/
structure WhIs (k : Nat) (st : WhSt) : Prop where
  wdog : st.wdog = some k
  known : k ∈ st.order
  there : (st.svc k).freed = false
  ub : st.ub = false

theorem whIs_step {k : Nat} {st : WhSt} {a : WhAct} (h : WhIs k st) (hs : WhStays k st a) : WhIs k (whStep a st) := by
  cases a with
  | hello p =>
    show WhIs k (whHello p st)
    unfold whHello
    split
    · exact h
    · split
      · exact h
      · rename_i j hj
        have hjk : j = k := by
          by_cases e : j = k
          · exact e
          · have := List.find?_some hj
            exact absurd (by simpa using this) (hs j (List.mem_of_find?_eq_some hj) e)
        subst hjk
        rw [h.wdog]
        dsimp only
        rw [if_pos rfl]
        exact ⟨rfl, h.known, h.there, h.ub⟩
  | proc j p =>
    refine ⟨h.wdog, h.known, ?_, h.ub⟩
    show ((if k = j then { st.svc k with pid := p } else st.svc k) : WhSvc).freed = false
    split
    · exact h.there
    · exact h.there
  | add j s =>
    have hs : j ≠ k := hs
    refine ⟨h.wdog, List.mem_append_left _ h.known, ?_, h.ub⟩
    show ((if k = j then s else st.svc k) : WhSvc).freed = false
    rw [if_neg (Ne.symm hs)]
    exact h.there
  | remove j =>
    have hs : j ≠ k := hs
    refine ⟨h.wdog, ?_, h.there, h.ub⟩
    show k ∈ st.order.filter (· ≠ j)
    exact List.mem_filter.mpr ⟨h.known, by simpa using Ne.symm hs⟩
  | free j =>
    have hs : j ≠ k := hs
    refine ⟨h.wdog, h.known, ?_, h.ub⟩
    show ((if k = j then { st.svc k with freed := true } else st.svc k) : WhSvc).freed = false
    rw [if_neg (Ne.symm hs)]
    exact h.there

theorem whIs_run {k : Nat} (acts : List WhAct) : ∀ {st : WhSt}, WhIs k st → WhAll (WhStays k) st acts → WhIs k (whRun acts st) := by
  induction acts with
  | nil => exact fun h _ => h
  | cons a r ih => exact fun h hs => ih (whIs_step h hs.1) hs.2

theorem whSound_step {st : WhSt} {a : WhAct} (h : WhSound st) (ho : ∀ j ∈ st.order, (st.svc j).freed = false) (hk : WhKeeps st a)
    (hf : ∀ j, a = .free j → j ∉ st.order) :
    WhSound (whStep a st) ∧ ∀ j ∈ (whStep a st).order, ((whStep a st).svc j).freed = false := by
  cases a with
  | hello p =>
    show WhSound (whHello p st) ∧ ∀ j ∈ (whHello p st).order, ((whHello p st).svc j).freed = false
    unfold whHello
    split
    · exact ⟨h, ho⟩
    · split
      · exact ⟨h, ho⟩
      · rename_i k hj
        have hk := ho k (List.mem_of_find?_eq_some hj)
        split
        · exact ⟨⟨h.1, fun v e => by cases e; exact hk⟩, ho⟩
        · rename_i v hv
          have hvf := h.2 v hv
          split
          · exact ⟨⟨h.1, fun v e => by cases e; exact hk⟩, ho⟩
          · rw [if_neg (by rw [hvf]; decide)]
            split
            · exact ⟨⟨h.1, fun v e => by cases e; exact hk⟩, fun j hj => ho j ((List.mem_filter.mp hj).1)⟩
            · exact ⟨⟨h.1, fun v e => by cases e; exact hk⟩, ho⟩
  | proc j p =>
    have key : ∀ i, ((whStep (.proc j p) st).svc i).freed = (st.svc i).freed := by
      intro i
      show ((if i = j then { st.svc i with pid := p } else st.svc i) : WhSvc).freed = _
      split <;> rfl
    exact ⟨⟨h.1, fun v e => by rw [key]; exact h.2 v e⟩, fun i hi => by rw [key]; exact ho i hi⟩
  | add j s =>
    obtain ⟨h1, h2, h3⟩ := hk
    refine ⟨⟨h.1, fun v e => ?_⟩, fun i hi => ?_⟩
    · show ((if v = j then s else st.svc v) : WhSvc).freed = false
      split
      · exact h3
      · exact h.2 v e
    · show ((if i = j then s else st.svc i) : WhSvc).freed = false
      split
      · exact h3
      · rename_i hij
        rcases List.mem_append.mp hi with hi | hi
        · exact ho i hi
        · exact absurd (by simpa using hi) hij
  | remove j => exact ⟨h, fun i hi => ho i ((List.mem_filter.mp hi).1)⟩
  | free j =>
    have hk : st.wdog ≠ some j := hk
    have hjo := hf j rfl
    refine ⟨⟨h.1, fun v e => ?_⟩, fun i hi => ?_⟩
    · show ((if v = j then { st.svc v with freed := true } else st.svc v) : WhSvc).freed = false
      rw [if_neg (by rintro rfl; exact hk e)]
      exact h.2 v e
    · show ((if i = j then { st.svc i with freed := true } else st.svc i) : WhSvc).freed = false
      rw [if_neg (by rintro rfl; exact hjo hi)]
      exact ho i hi

/-! ## Theorems -/

/-- Missing from the full statement: a watchdog daemon that is not running, or no longer in the configuration, when the system goes down.
    Else exactly the process it has by then gets SIGPWR, and SIGTERM last if the system is to be started again, whatever happens to
    other services, and however often the daemon itself was started again since it said hello. -/
theorem C103_told_partial (st : WhSt) (k : Nat) (p : Int) (after : List WhAct) (reboot : Bool) (hs : WhSound st) (hp : 0 < p)
    (hk : k ∈ st.order) (hkp : (st.svc k).pid = p) (hkf : (st.svc k).freed = false)
    (ho : ∀ j ∈ st.order, j ≠ k → (st.svc j).pid ≠ p) (ha : WhAll (WhStays k) (whStep (.hello p) st) after)
    (hrun : 1 < ((whRun (.hello p :: after) st).svc k).pid) :
    whDown reboot (whRun (.hello p :: after) st) =
      .kill ((whRun (.hello p :: after) st).svc k).pid 30 ::
        (if reboot then [.kill ((whRun (.hello p :: after) st).svc k).pid 15] else []) := by
  have h1 : WhIs k (whStep (.hello p) st) := by
    show WhIs k (whHello p st)
    unfold whHello
    rw [if_neg (by omega), find_pid hk (by simp [hkp]) (fun j hj e => by simpa using ho j hj e)]
    dsimp only
    split
    · exact ⟨rfl, hk, hkf, hs.1⟩
    · rename_i v hv
      split
      · exact ⟨rfl, hk, hkf, hs.1⟩
      · rename_i hvk
        rw [if_neg (by rw [hs.2 v hv]; decide)]
        split
        · exact ⟨rfl, List.mem_filter.mpr ⟨hk, by simpa using Ne.symm hvk⟩, hkf, hs.1⟩
        · exact ⟨rfl, hk, hkf, hs.1⟩
  have h2 : WhIs k (whRun (.hello p :: after) st) := whIs_run after h1 ha
  generalize whRun (.hello p :: after) st = fin at h2 hrun ⊢
  unfold whDown
  rw [h2.wdog]
  dsimp only
  rw [if_neg (by rw [h2.there]; decide)]
  cases reboot with
  | false => rw [if_neg (by simp), if_neg (by decide)]
  | true => rw [if_pos ⟨rfl, hrun⟩, if_pos rfl]

/-- The watchdog daemon that comes with Finit is told, if no other says hello -/
theorem C103_builtin (order : List Nat) (svc : Nat → WhSvc) (b : Nat) (after : List WhAct) (reboot : Bool) (hb : b ∈ order)
    (hf : (svc b).freed = false) (ha : WhAll (WhStays b) (whBoot order svc (some b)) after)
    (hrun : 1 < ((whRun after (whBoot order svc (some b))).svc b).pid) :
    whDown reboot (whRun after (whBoot order svc (some b))) =
      .kill ((whRun after (whBoot order svc (some b))).svc b).pid 30 ::
        (if reboot then [.kill ((whRun after (whBoot order svc (some b))).svc b).pid 15] else []) := by
  have h2 : WhIs b (whRun after (whBoot order svc (some b))) := whIs_run after ⟨rfl, hb, hf, rfl⟩ ha
  generalize whRun after (whBoot order svc (some b)) = fin at h2 hrun ⊢
  unfold whDown
  rw [h2.wdog]
  dsimp only
  rw [if_neg (by rw [h2.there]; decide)]
  cases reboot with
  | false => rw [if_neg (by simp), if_neg (by decide)]
  | true => rw [if_pos ⟨rfl, hrun⟩, if_pos rfl]

example : whDown true (whRun [.proc 0 70] (whBoot [0, 1] (fun k => if k = 0 then { pid := 50, protect := true } else { pid := 60 }) (some 0))) =
    [.kill 70 30, .kill 70 15] :=
  C103_builtin _ _ 0 _ true (by decide) rfl (by simp [WhAll, WhStays]) (by decide)

/-- If no service is taken out of the configuration while it is the watchdog daemon, no memory is used that was given back -/
theorem C103_sound (acts : List WhAct) : ∀ (st : WhSt), WhSound st → (∀ j ∈ st.order, (st.svc j).freed = false) →
    WhAll WhKeeps st acts → WhAll (fun st a => ∀ j, a = .free j → j ∉ st.order) st acts →
    WhSound (whRun acts st) ∧ ∀ reboot, .ub ∉ whDown reboot (whRun acts st) := by
  induction acts with
  | nil =>
    intro st h _ _ _
    refine ⟨h, fun reboot => ?_⟩
    show WhDown.ub ∉ whDown reboot st
    unfold whDown
    split
    · simp
    · rename_i v hv
      rw [if_neg (by rw [h.2 v hv]; decide)]
      split <;> simp
  | cons a r ih =>
    intro st h ho hk hf
    obtain ⟨h1, h2⟩ := whSound_step h ho hk.1 hf.1
    exact ih _ h1 h2 hk.2 hf.2

/-- A watchdog daemon that was stopped, as all are that are not to run in runlevel 0 and 6: SIGPWR goes to the process group of Finit -/
theorem C103_group (st : WhSt) (k : Nat) (reboot : Bool) (h : st.wdog = some k) (hf : (st.svc k).freed = false)
    (h0 : (st.svc k).pid = 0) : whDown reboot st = [.kill 0 30] := by
  unfold whDown
  rw [h]
  dsimp only
  rw [if_neg (by rw [hf]; decide), h0, if_neg (by simp)]

/-- A watchdog daemon whose line is gone: its object is used after it was given back -/
theorem C103_dangling (st : WhSt) (k : Nat) (reboot : Bool) (h : st.wdog = some k) :
    .ub ∈ whDown reboot (whRun [.remove k, .free k] st) := by
  have hw : (whRun [.remove k, .free k] st).wdog = some k := h
  have hf : ((whRun [.remove k, .free k] st).svc k).freed = true := by
    show ((if k = k then { st.svc k with freed := true } else st.svc k) : WhSvc).freed = true
    rw [if_pos rfl]
  unfold whDown
  rw [hw]
  dsimp only
  rw [if_pos hf]
  exact List.mem_singleton.mpr rfl

/-- The built-in daemon, 0, and one in the configuration, 1 -/
def whDemo : WhSt := whBoot [0, 1] (fun k => if k = 0 then { pid := 50, protect := true } else { pid := 60 }) (some 0)

theorem C103_full_false : ¬ C103_full := by
  intro h
  have := (h [0, 1] (fun k => if k = 0 then { pid := 50, protect := true } else { pid := 60 }) (some 0) [] [.proc 1 0] 1 60 true
    (by decide) (by intro j; show ((if j = 0 then { pid := 50, protect := true } else { pid := 60 }) : WhSvc).freed = false; split <;> rfl) (by intro b e; cases e; decide) (by decide) (by decide) rfl
    (by
      intro j hj hne
      have : j = 0 := by
        have hj : j ∈ [0, 1] := hj
        simp at hj
        omega
      subst this
      decide)
    ⟨by
      intro j hj hne
      have : j = 0 := by
        have hj : j ∈ [0, 1] := hj
        simp at hj
        omega
      subst this
      decide, trivial, trivial⟩).2 0 30 (by decide)
  exact absurd this.2.2 (by decide)

/-! ## Examples -/

/-- The daemon of the configuration takes over, and is started again later -/
example : WhSound whDemo ∧ 1 ∈ whDemo.order ∧ (whDemo.svc 1).pid = 60 ∧ WhAll (WhStays 1) (whStep (.hello 60) whDemo) [.proc 1 0, .proc 1 61] ∧
    1 < ((whRun [.hello 60, .proc 1 0, .proc 1 61] whDemo).svc 1).pid ∧
    whDown true (whRun [.hello 60, .proc 1 0, .proc 1 61] whDemo) = [.kill 61 30, .kill 61 15] :=
  ⟨⟨rfl, fun v e => by cases e; rfl⟩, by decide, by decide, ⟨trivial, trivial, trivial⟩, by decide, by decide⟩

/-- The hypotheses of `C103_sound`, with the built-in daemon given back -/
example : WhAll WhKeeps whDemo [.hello 60, .free 0] ∧ WhAll (fun st a => ∀ j, a = .free j → j ∉ st.order) whDemo [.hello 60, .free 0] :=
  ⟨⟨trivial, by show (whStep (.hello 60) whDemo).wdog ≠ some 0; decide, trivial⟩,
    ⟨(fun j e => by cases e), (fun j e => by cases e; decide), trivial⟩⟩

example : (whRun [.hello 60, .proc 1 0] whDemo).wdog = some 1 ∧ ((whRun [.hello 60, .proc 1 0] whDemo).svc 1).pid = 0 := by decide

end Verif
