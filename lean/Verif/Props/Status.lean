import Verif.Sup.Exit
import Verif.Sup.Demo

/-!
# C42, C43: conditions about the state of services
-/

namespace Verif.Sup

open Verif (CStr CState)

section
variable {E : Env}

/-! ## Vocabulary -/

/-- Service `k` is known under a name of its own: no other service object, past or present, has the
    same one, no name contains a slash, and all are short enough for conditions about them to fit
    in the 43 characters that finit has for the path of a condition. -/
structure OwnName (w : World) (k : Key) : Prop where
  known : k < w.nextKey
  plain : ∀ j, j < w.nextKey → '/' ∉ (w.svc j).ident ∧ (w.svc j).ident.length ≤ 26
  ne : (w.svc k).ident ≠ []
  own : ∀ j, j < w.nextKey → j ≠ k → (w.svc j).ident ≠ (w.svc k).ident

instance (w : World) (k : Key) : Decidable (OwnName w k) :=
  decidable_of_iff (k < w.nextKey ∧
      (∀ j, j < w.nextKey → '/' ∉ (w.svc j).ident ∧ (w.svc j).ident.length ≤ 26) ∧
      (w.svc k).ident ≠ [] ∧
      ∀ j, j < w.nextKey → j ≠ k → (w.svc j).ident ≠ (w.svc k).ident)
    ⟨fun ⟨a, b, c, d⟩ => ⟨a, b, c, d⟩, fun ⟨a, b, c, d⟩ => ⟨a, b, c, d⟩⟩

/-- Condition `top/NAME/word` about service `k` is on. -/
def isOn (w : World) (k : Key) (top word : String) : Prop :=
  w.conds.get (top.toList ++ '/' :: ((w.svc k).ident ++ '/' :: word.toList)) = .on

instance (w : World) (k : Key) (top word : String) : Decidable (isOn w k top word) :=
  inferInstanceAs (Decidable (_ = _))

/-- The words finit uses for the status of a daemon, in conditions and in `initctl`. -/
def allStatus : List String :=
  ["halted", "missing", "crashed", "stopped", "busy", "restart", "conflict", "running", "unknown"]

/-- What a daemon that is halted is said to be, depending on why it is not running. -/
def whyHalted : Block → String
  | .none => "halted"
  | .missing => "missing"
  | .crashing => "crashed"
  | .user => "stopped"
  | .busy => "busy"
  | .restarting => "restart"
  | .conflict => "conflict"

/-- The state in which the supervisor was when it last changed the state of service `k`; none if
    it never did. -/
def lastSet (k : Key) : List (Core × Eff) → Option Core
  | [] => none
  | (c, .trans j _ _) :: t => if j = k then some c else lastSet k t
  | (_, .new j) :: t => if j = k then none else lastSet k t
  | _ :: t => lastSet k t

/-- What the conditions of a daemon should say: "running" when it is running or paused, the reason
    why it is not running when it has been halted, and nothing in between. -/
def told (w : World) (k : Key) : Option String :=
  match (w.svc k).state with
  | .running | .paused => some "running"
  | .halted => (lastSet k w.trace).map fun c => whyHalted (c.svc k).block
  | _ => none

/-! ## Proofs -/

theorem lastSet_hist (k : Key) (t : List (Core × Eff)) :
    lastSet k t = match (hist k t).head? with
      | some (c, .trans _ _ _) => some c
      | _ => none := by
  induction t with
  | nil => rfl
  | cons x t ih =>
    obtain ⟨c, e⟩ := x
    cases e with
    | trans j a b =>
      by_cases h : j = k
      · rw [hist_keep (by simp [Eff.about, h])]; simp [lastSet, h]
      · rw [hist_skip (by simp [Eff.about, h]), ← ih]; simp [lastSet, h]
    | new j =>
      by_cases h : j = k
      · rw [hist_keep (by simp [Eff.about, h])]; simp [lastSet, h]
      · rw [hist_skip (by simp [Eff.about, h]), ← ih]; simp [lastSet, h]
    | _ => rw [hist_skip rfl, ← ih]; rfl

theorem OwnName.sole {w : World} {k : Key} (h : OwnName w k) (hu : Unborn w) (ht : w.twice = false)
    {Z : Stanza → Prop} (hz : ∀ z ∈ (w.svc k).zs, Z z) : Sole k (w.svc k).ident Z w := by
  have un : ∀ j, ¬ j < w.nextKey → (w.svc j).ident = [] := fun j hj => (hu j (Nat.le_of_not_lt hj)).ident
  refine ⟨fun j => ?_, h.ne, fun j hj => ?_, fun _ => rfl, hz, ht⟩
  · by_cases hj : j < w.nextKey
    · exact ⟨(h.plain j hj).1, (h.plain j hj).2⟩
    · exact ⟨by rw [un j hj]; exact List.not_mem_nil, by rw [un j hj]; exact Nat.zero_le _⟩
  · by_cases hl : j < w.nextKey
    · exact h.own j hl hj
    · rw [un j hl]; exact fun e => h.ne e.symm

theorem Reach.unborn {w : World} (h : Reach E w) (hr : w.reent = false) : Unborn w :=
  (h.inv_born (P := fun _ => True) (fun _ _ => trivial) (fun _ _ _ _ _ _ _ _ _ _ _ _ => trivial) hr).1

theorem PubInv.on {T : Topic} (hT : T.Ok) {k : Key} {i : CStr} {w : World} (h : PubInv T k i w)
    (hm : w.mids = []) (hg : w.conds.rgen ≠ 0) (hi : Flat i) (hl : i.length ≤ 26) {z : CStr} (hz : z ∈ T.words) :
    w.conds.get (three T.top i z) = .on ↔ T.want (hist k w.trace).head? = some z := by
  obtain ⟨_, _, _, z4⟩ := hT.words z hz
  unfold CondStore.get
  rw [condPath_three hT.top hl z4]
  have hq : T.Q i (three T.top i z) := ⟨z, hz, rfl⟩
  have hr := h.rest (by rw [hm]; exact List.not_mem_nil) _ hq
  have want : T.Want i (hist k w.trace).head? (three T.top i z) ↔
      T.want (hist k w.trace).head? = some z := by
    refine ⟨?_, fun e => ⟨z, e, rfl⟩⟩
    rintro ⟨z', h1, h2⟩
    rw [(three_inj (tops_flat hT.top) (tops_flat hT.top) hi hi h2).2.2]; exact h1
  rw [← want, ← hr]
  unfold CondStore.getPath CondStore.getGen
  rcases h.link _ hq with e | e
  · rw [e]; simp
  · rw [e]; simp [hg]

theorem whyHalted_eq (s : Svc) :
    Svc.statusStr { s with state := .halted } = (whyHalted s.block).toList := by
  unfold Svc.statusStr whyHalted
  cases s.block <;> rfl

theorem allStatus_mem {z : String} (h : z ∈ allStatus) : z.toList ∈ statusWords := by
  revert z; decide

theorem toList_inj {a b : String} : a.toList = b.toList ↔ a = b := String.toList_inj

/-! ## Daemons -/

/-- **C43** Outside of transitions the conditions about the status of a daemon say what they
    should: "running" is on exactly when it is running or paused; after it has been halted exactly
    the one with the reason that held at that moment; in all other states none.

    Missing from the full claim: the reason is the one at the time of the last change of state (see
    `C43_gives_up_untold` for why).  Taken for granted is that the name is short, without slash and
    not used by another object, that the service has been a daemon all the time, that the
    generation of conditions has not wrapped around to 0, that `svc_set_state` has not been called
    for a service while it was already publishing the state of the same service, and that
    `sm_step` has not been re-entered. -/
theorem C43_status_is_told_partial {w : World} (h : Reach E w) (hr : w.reent = false)
    (ht : w.twice = false) (hg : w.conds.rgen ≠ 0) {k : Key} (hk : OwnName w k)
    (hz : ∀ z ∈ (w.svc k).zs, z.type = .service ∨ z.type = .sysv) {word : String}
    (hw : word ∈ allStatus) :
    isOn w k "service" word ↔ told w k = some word := by
  have hs := hk.sole (h.unborn hr) ht (Z := fun z => z.type.isDaemon = true) (fun z x => by
    rcases hz z x with e | e <;> rw [e] <;> rfl)
  have hi := (hs.tidy k)
  have inv := h.pubInv daemonTopic_ok hi.flat (fun lab a _ _ hty hs _ => daemon_spec (fun _ x => x) hty hs) hr hs
  have on := inv.on daemonTopic_ok h.mids hg hi.flat hi.short (allStatus_mem hw)
  refine Iff.trans (b := daemonTopic.want (hist k w.trace).head? = some word.toList) on ?_
  have st := inv.state
  unfold told
  rw [← st, lastSet_hist]
  show wantStatus _ = _ ↔ _
  cases e : (hist k w.trace).head? with
  | none => simp [wantStatus, tgt]
  | some x =>
    obtain ⟨c, f⟩ := x
    have hf : f.about k = true := by
      have : (c, f) ∈ hist k w.trace := List.mem_of_mem_head? e
      exact (List.mem_filter.mp this).2
    cases f with
    | trans j a b =>
      have hj : j = k := by simpa [Eff.about] using hf
      subst hj
      cases b with
      | halted => simp [wantStatus, tgt, whyHalted_eq, toList_inj]
      | running | paused =>
        show some "running".toList = some word.toList ↔ some "running" = some word
        rw [Option.some.injEq, Option.some.injEq, toList_inj]
      | _ => simp [wantStatus, tgt]
    | _ => simp [wantStatus, tgt]

/-- **C43** At most one of the status conditions of a daemon is on. -/
theorem C43_at_most_one_partial {w : World} (h : Reach E w) (hr : w.reent = false)
    (ht : w.twice = false) (hg : w.conds.rgen ≠ 0) {k : Key} (hk : OwnName w k)
    (hz : ∀ z ∈ (w.svc k).zs, z.type = .service ∨ z.type = .sysv) {a b : String}
    (ha : a ∈ allStatus) (hb : b ∈ allStatus) (h1 : isOn w k "service" a)
    (h2 : isOn w k "service" b) : a = b := by
  rw [C43_status_is_told_partial h hr ht hg hk hz ha] at h1
  rw [C43_status_is_told_partial h hr ht hg hk hz hb] at h2
  exact Option.some.inj (h1.symm.trans h2)

/-- **C43** If a daemon is running or halted, and the reason for not running it is the same as when
    its state changed last, then the status that is on is the status `initctl` shows. -/
theorem C43_agrees_partial {w : World} (h : Reach E w) (hr : w.reent = false)
    (ht : w.twice = false) (hg : w.conds.rgen ≠ 0) {k : Key} (hk : OwnName w k)
    (hz : ∀ z ∈ (w.svc k).zs, z.type = .service ∨ z.type = .sysv)
    (hs : (w.svc k).state = .running ∨ (w.svc k).state = .halted ∧
      ∃ c, lastSet k w.trace = some c ∧ (c.svc k).block = (w.svc k).block) :
    ∃ word ∈ allStatus, (w.svc k).statusStr = word.toList ∧ isOn w k "service" word ∧
      ∀ b ∈ allStatus, isOn w k "service" b → b = word := by
  have key : ∀ word ∈ allStatus, told w k = some word → (w.svc k).statusStr = word.toList →
      ∃ word ∈ allStatus, (w.svc k).statusStr = word.toList ∧ isOn w k "service" word ∧
        ∀ b ∈ allStatus, isOn w k "service" b → b = word := by
    intro word hm h1 h2
    have on := (C43_status_is_told_partial h hr ht hg hk hz hm).mpr h1
    exact ⟨word, hm, h2, on, fun b hb x => C43_at_most_one_partial h hr ht hg hk hz hb hm x on⟩
  rcases hs with e | ⟨e, c, hc, hb⟩
  · refine key "running" (by decide) (by unfold told; rw [e]) (by unfold Svc.statusStr; rw [e])
  · refine key (whyHalted (w.svc k).block) ?_ (by unfold told; rw [e, hc, ← hb]; rfl) ?_
    · cases (w.svc k).block <;> decide
    · rw [← whyHalted_eq]; unfold Svc.statusStr; rw [e]

/-- A daemon that crashes, is not to be restarted, and a task. -/
def demoTold (evs : List Ev) : World :=
  run (calm [{ name := "a".toList, levels := lv2, restartMax := 0 },
    { name := "t".toList, type := .task, levels := lv2 }]) 20 ([.boot, .bootCheck, .worker] ++ evs)

/-- Not vacuous: in the same execution "a" is running, and later halted because it is to be
    restarted. -/
example : OwnName (demoTold []) 0 ∧ (∀ z ∈ ((demoTold []).svc 0).zs, z.type = .service) ∧
    (demoTold []).reent = false ∧ (demoTold []).twice = false ∧ (demoTold []).conds.rgen ≠ 0 ∧
    ((demoTold []).svc 0).state = .running ∧ isOn (demoTold []) 0 "service" "running" := by
  decide +kernel

example : OwnName (demoTold [.exit 115 (.exited 1)]) 0 ∧
    (demoTold [.exit 115 (.exited 1)]).reent = false ∧ (demoTold [.exit 115 (.exited 1)]).twice = false ∧
    ((demoTold [.exit 115 (.exited 1)]).svc 0).state = .halted ∧
    (lastSet 0 (demoTold [.exit 115 (.exited 1)]).trace).map (fun c => (c.svc 0).block) =
      some ((demoTold [.exit 115 (.exited 1)]).svc 0).block ∧
    isOn (demoTold [.exit 115 (.exited 1)]) 0 "service" "restart" := by
  decide +kernel

/-- **C43** does not hold without the restriction: when the supervisor gives up on a service that
    keeps crashing the condition says "restart", not "crashed", although `initctl` shows the
    latter.  No condition tells of the fact. -/
theorem C43_gives_up_untold : ∃ (E : Env) (w : World), Reach E w ∧ w.reent = false ∧
    w.twice = false ∧ OwnName w 0 ∧ (∀ z ∈ (w.svc 0).zs, z.type = .service) ∧
    (w.svc 0).state = .halted ∧ (w.svc 0).statusStr = "crashed".toList ∧
    ¬ isOn w 0 "service" "crashed" ∧ isOn w 0 "service" "restart" :=
  ⟨_, demoTold [.exit 115 (.exited 1), .timer 0], run_reach _ _ _, by decide +kernel⟩

/-! ## Run/tasks -/

/-- **C42** When a run/task is done exactly one of its conditions is on, and which one depends on the
    exit status on record when it got done: "success" if it has been run and the status is 0.  In all
    other states both are off, in particular when it has been re-armed. -/
theorem C42_outcome_partial {w : World} (h : Reach E w) (hr : w.reent = false)
    (ht : w.twice = false) (hg : w.conds.rgen ≠ 0) {k : Key} (hk : OwnName w k) {t : SType} {top : String}
    (hty : (t = .run ∧ top = "run") ∨ (t = .task ∧ top = "task"))
    (hz : ∀ z ∈ (w.svc k).zs, z.type = t ∧ z.manual = false ∧ z.forking = false) :
    ((w.svc k).state = .done → ∃ c, lastSet k w.trace = some c ∧
      (isOn w k top "success" ↔ (c.svc k).started = true ∧ (c.svc k).status.rc = 0) ∧
      (isOn w k top "failure" ↔ ¬ ((c.svc k).started = true ∧ (c.svc k).status.rc = 0))) ∧
    ((w.svc k).state ≠ .done → ¬ isOn w k top "success" ∧ ¬ isOn w k top "failure") := by
  have hs := hk.sole (h.unborn hr) ht (Z := fun z => z.type = t ∧ z.manual = false ∧ z.forking = false) hz
  have hi := hs.tidy k
  have hrt : t.isRuntask = true := by rcases hty with ⟨e, _⟩ | ⟨e, _⟩ <;> rw [e] <;> rfl
  have htop : t.str = top.toList := by rcases hty with ⟨e, e2⟩ | ⟨e, e2⟩ <;> rw [e, e2] <;> rfl
  have inv := h.pubInv (taskTopic_ok hrt) hi.flat
    (fun lab a _ ha hty hs hl => task_spec hrt (fun _ x => x) ha hty hs hl) hr hs
  have on : ∀ word : String, word.toList ∈ outcomeWords →
      (isOn w k top word ↔ wantOutcome (hist k w.trace).head? = some word.toList) := by
    intro word hw
    have := inv.on (taskTopic_ok hrt) h.mids hg hi.flat hi.short hw
    unfold isOn
    rw [← htop]
    exact this
  have on1 := on "success" (by decide)
  have on2 := on "failure" (by decide)
  have st := inv.state
  refine ⟨fun hd => ?_, fun hd => ?_⟩
  · rw [hd] at st
    rw [lastSet_hist]
    cases e : (hist k w.trace).head? with
    | none => rw [e] at st; cases st
    | some x =>
      obtain ⟨c, f⟩ := x
      have hf : f.about k = true := by
        have : (c, f) ∈ hist k w.trace := List.mem_of_mem_head? e
        exact (List.mem_filter.mp this).2
      rw [e] at st on1 on2
      cases f with
      | trans j a b =>
        have hj : j = k := by simpa [Eff.about] using hf
        have hb : b = .done := st
        subst hj hb
        refine ⟨c, rfl, ?_, ?_⟩
        · rw [on1]; simp only [wantOutcome]
          by_cases hx : (c.svc j).started = true ∧ (c.svc j).status.rc = 0
          · rw [if_pos hx]; simp [hx]
          · rw [if_neg hx]
            exact ⟨fun e => absurd (Option.some.inj e) (by decide), fun h => absurd h hx⟩
        · rw [on2]; simp only [wantOutcome]
          by_cases hx : (c.svc j).started = true ∧ (c.svc j).status.rc = 0
          · rw [if_pos hx]
            exact ⟨fun e => absurd (Option.some.inj e) (by decide), fun h => absurd hx h⟩
          · rw [if_neg hx]; exact ⟨fun _ => hx, fun _ => rfl⟩
      | _ => cases st
  · rw [on1, on2, wantOutcome_tgt (by rw [st]; exact hd)]
    exact ⟨fun h => (nomatch h), fun h => (nomatch h)⟩

/-- The part of **C42** about the exit status: when a run/task without pre: script is done, "success"
    is on if the process that ran its command exited with status 0, and "failure" is on if it
    exited with another status, was killed by a signal, or was not run at all.

    Missing from the full claim: run/tasks with a pre: script and those started by the user, for
    which it is false (see below).  Taken for granted is what `C42_outcome_partial` takes for
    granted, that the task has not been taken off the list, and that there are no services whose
    process finit does not know for certain (forking, sysv, with stop: script, or notifying). -/
theorem C42_matches_exit_partial (hE : PlainEnv E) {w : World} (h : Reach E w) (hr : w.reent = false)
    (ht : w.twice = false) (hg : w.conds.rgen ≠ 0) {k : Key} (hk : OwnName w k) (ho : k ∈ w.order)
    {t : SType} {top : String} (hty : (t = .run ∧ top = "run") ∨ (t = .task ∧ top = "task"))
    (hz : ∀ z ∈ (w.svc k).zs, z.type = t ∧ z.manual = false ∧ z.forking = false ∧ z.pre = none)
    (hd : (w.svc k).state = .done) :
    (isOn w k top "success" ↔ lastExit k w.trace = some (.exited 0)) ∧
    (isOn w k top "failure" ↔ lastExit k w.trace ≠ some (.exited 0)) := by
  have hrt : t.isRuntask = true := by rcases hty with ⟨e, _⟩ | ⟨e, _⟩ <;> rw [e] <;> rfl
  obtain ⟨c, h1, h2, h3⟩ := (C42_outcome_partial h hr ht hg hk hty (fun z x =>
    ⟨(hz z x).1, (hz z x).2.1, (hz z x).2.2.1⟩)).1 hd
  have inv := h.exitInv hE hr ho (fun z x => ⟨by rw [(hz z x).1]; exact hrt, (hz z x).2.2.2⟩)
  have key : ((c.svc k).started = true ∧ (c.svc k).status.rc = 0) ↔
      lastExit k w.trace = some (.exited 0) := by
    have hst := h.stateOf k
    rw [hd, ← stateOf_hist] at hst
    rw [lastSet_hist] at h1
    cases e : hist k w.trace with
    | nil => rw [e] at hst; cases hst
    | cons x tl =>
      obtain ⟨c', f⟩ := x
      rw [e] at h1 hst
      have hf : f.about k = true := by
        have : (c', f) ∈ hist k w.trace := by rw [e]; exact List.mem_cons_self ..
        exact (List.mem_filter.mp this).2
      cases f with
      | trans j x y =>
        have hj : j = k := by simpa [Eff.about] using hf
        subst hj
        have hy : y = .done := by simpa [stateOf] using hst.symm
        subst hy
        have hc : c' = c := Option.some.inj h1
        subst hc
        obtain ⟨d1, d2⟩ := inv.done hd c' x tl e
        rw [d1, d2, inv.res.started]
        cases e2 : lastExit j w.trace with
        | none => simp
        | some st =>
          rw [inv.res.status st e2]
          cases st with
          | exited n => simp [WStatus.ok, WStatus.rc]
          | signaled n => simp [WStatus.ok]
      | _ => cases h1
  rw [h2, h3, key]
  exact ⟨Iff.rfl, Iff.rfl⟩

/-- A task with a pre: script, allowed in runlevels 2, 3 and 4. -/
def demoPre (evs : List Ev) : World :=
  run (calm [{ name := "t".toList, type := .task, pre := some 0, levels := lv234 }]) 20
    ([.boot, .bootCheck, .worker, .exit 109 (.exited 0)] ++ evs)

/-- Not vacuous: the task is running, done with success, done with failure, and re-armed and in
    its pre: script. -/
example : ∀ w ∈ [demoPre [], demoPre [.exit 115 (.exited 0)], demoPre [.exit 115 (.exited 3)],
      demoPre [.exit 115 (.exited 0), .apiRunlevel 3, .worker]],
    w.reent = false ∧ w.twice = false ∧ w.conds.rgen ≠ 0 ∧ OwnName w 0 ∧
    ∀ z ∈ (w.svc 0).zs, z.type = .task ∧ z.manual = false ∧ z.forking = false := by
  decide +kernel

example :
    (demoPre [.exit 115 (.exited 0)]).log.drop 14 = [.reap 115 (some (.exited 0)), .kill (-115) 9 .group 0,
      .trans 0 .running .stopping, .trans 0 .stopping .done] ∧
    isOn (demoPre [.exit 115 (.exited 0)]) 0 "task" "success" ∧
    isOn (demoPre [.exit 115 (.exited 3)]) 0 "task" "failure" ∧
    isOn (demoPre [.exit 115 (.signaled 9)]) 0 "task" "failure" ∧
    (demoPre [.exit 115 (.exited 0), .apiRunlevel 3, .worker]).log.drop 18 = [.runlevel 2 3,
      .trans 0 .done .halted, .sweep, .trans 0 .halted .waiting, .stopped, .trans 0 .waiting .setup,
      .spawn 120 0 .pre] := by
  decide +kernel

/-- A task without pre: script and a daemon. -/
def demoTask (evs : List Ev) : World :=
  run (calm [{ name := "t".toList, type := .task, levels := lv234 },
    { name := "a".toList, levels := lv234 }]) 20 ([.boot, .bootCheck, .worker] ++ evs)

/-- Not vacuous: the task ends in all three ways, and is run again in another runlevel. -/
example : PlainEnv (calm [{ name := "t".toList, type := .task, levels := lv234 },
    { name := "a".toList, levels := lv234 }]) := by
  intro t z hz
  unfold calm at hz
  dsimp only at hz
  split at hz
  · revert z; decide
  · cases hz

example : ∀ x ∈ [(demoTask [.exit 115 (.exited 0)], "success", some (.exited 0)),
      (demoTask [.exit 115 (.exited 3)], "failure", some (.exited 3)),
      (demoTask [.exit 115 (.signaled 9)], "failure", some (.signaled 9)),
      (demoTask [.exit 115 (.exited 3), .apiRunlevel 3, .worker, .exit 129 (.exited 0)], "success",
        some (.exited 0))],
    x.1.reent = false ∧ x.1.twice = false ∧ x.1.conds.rgen ≠ 0 ∧ OwnName x.1 0 ∧ 0 ∈ x.1.order ∧
    (∀ z ∈ (x.1.svc 0).zs, z.type = .task ∧ z.manual = false ∧ z.forking = false ∧ z.pre = none) ∧
    (x.1.svc 0).state = .done ∧ isOn x.1 0 "task" x.2.1 ∧ lastExit 0 x.1.trace = x.2.2 := by
  decide +kernel

/-- **C42** does not hold if "completes" includes failing in the pre: script: the second time round
    the pre: script is killed, the command is not run at all, and "success" is on.  `started` is
    left over from the first time, and the exit code of a killed process is 0. -/
theorem C42_killed_setup_is_success : ∃ (E : Env) (w v : World) (p : Int), Reach E w ∧
    v = handle E 20 (.exit p (.signaled 9)) w ∧ v.reent = false ∧ v.twice = false ∧ OwnName v 0 ∧
    (∀ z ∈ (v.svc 0).zs, z.type = .task ∧ z.manual = false ∧ z.forking = false) ∧
    (w.svc 0).state = .setup ∧ (w.svc 0).pid = p ∧
    (v.svc 0).state = .done ∧ isOn v 0 "task" "success" ∧
    v.log.drop w.log.length = [.reap p (some (.signaled 9)), .kill (-p) 9 .group 0, .trans 0 .setup .stopping,
      .trans 0 .stopping .done] :=
  ⟨_, demoPre [.exit 115 (.exited 0), .apiRunlevel 3, .worker], _, 120, run_reach _ _ _, rfl, by
    decide +kernel⟩

/-- A task to be started by the user, which has been done once. -/
def demoManual (evs : List Ev) : World :=
  run (calm [{ name := "t".toList, type := .task, manual := true, levels := lv234 }]) 20
    ([.boot, .bootCheck, .worker, .apiStart 0, .exit 113 (.exited 0)] ++ evs)

/-- **C42** does not hold of tasks started by the user: when the task is started again "success" is
    still on from the first time, while it is running; and when it fails both are on. -/
theorem C42_manual_keeps_outcome : ∃ (E : Env) (w v : World), Reach E w ∧ Reach E v ∧
    v.reent = false ∧ v.twice = false ∧ OwnName v 0 ∧
    (∀ z ∈ (v.svc 0).zs, z.type = .task ∧ z.manual = true ∧ z.forking = false) ∧
    (w.svc 0).state = .running ∧ isOn w 0 "task" "success" ∧
    (v.svc 0).state = .done ∧ isOn v 0 "task" "success" ∧ isOn v 0 "task" "failure" :=
  ⟨_, demoManual [.apiStart 0], demoManual [.apiStart 0, .exit 119 (.exited 1)],
    run_reach _ _ _, run_reach _ _ _, by decide +kernel⟩

end

end Verif.Sup
