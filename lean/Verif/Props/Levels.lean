import Verif.Sup.Levels
import Verif.Sup.Demo

/-!
# C20, C22, C23: runlevels, bootstrap and logins
-/

namespace Verif.Sup

open Verif (CStr CondStore)

section
variable {E : Env}

/-! ## C20 -/

/-- Spec: requests from the control API and from signals. -/
def Ev.request : Ev → Bool
  | .apiStart _ | .apiStop _ | .apiRestart _ | .apiReload _ | .apiSignal .. | .apiRunlevel _ | .reloadAll
  | .reboot .. => true
  | _ => false

/-- Everything from `w` on. -/
abbrev After (E : Env) (w v : World) : Prop := Later E (fun _ _ => True) w v

/-- The full claim of C20: in runlevel 0 and 6 a request starts nothing, and from then on nothing
    changes the runlevel, registers a service or changes the configuration of one. -/
def C20_full : Prop := ∀ (E : Env) (w : World), Reach E w → w.runlevel = 0 ∨ w.runlevel = 6 →
  (∀ n ev, ev.request = true → ∃ l, (handle E n ev w).trace = l ++ w.trace ∧
    ∀ c p k role, (c, .spawn p k role) ∉ l) ∧
  (∀ v, After E w v → v.runlevel = w.runlevel ∧ v.nextKey = w.nextKey ∧
    ∀ k, (v.svc k).cfg = (w.svc k).cfg)

/-- **C20, first part.**  In runlevel 0 and 6 every request but the one to send a signal is ignored
    altogether. -/
theorem C20_requests_ignored {w : World} (h : w.runlevel = 0 ∨ w.runlevel = 6) (n : Nat) (ev : Ev)
    (hq : ev.request = true) (hs : ∀ k sig, ev ≠ .apiSignal k sig) : handle E n ev w = w := by
  have hr : reserved w.runlevel = true := by
    rcases h with h | h <;> rw [h] <;> decide
  unfold handle
  extract_lets R
  split
  · rfl
  split
  · split
    · cases hq
    · rfl
  cases ev with
  | apiStart k => simp [hr]
  | apiStop k => simp [hr]
  | apiRestart k => simp [hr]
  | apiReload k => simp [hr]
  | apiSignal k sig => exact absurd rfl (hs k sig)
  | apiRunlevel l =>
    dsimp only
    rw [if_pos (by omega)]
  | reloadAll => simp [hr]
  | reboot six limit => simp [hr]
  | _ => cases hq

/-- A request to send a signal sends that signal and does nothing else. -/
theorem C20_signal_only {w : World} (n : Nat) (k : Key) (sig : Nat) :
    ∃ l, (handle E n (.apiSignal k sig) w).trace = l ++ w.trace ∧
      (∀ c e, (c, e) ∈ l → e = .kill (w.svc k).pid sig .api k) ∧
      (handle E n (.apiSignal k sig) w).svc = w.svc ∧
      (handle E n (.apiSignal k sig) w).runlevel = w.runlevel := by
  unfold handle
  extract_lets R
  have nop : ∃ l, w.trace = l ++ w.trace ∧ (∀ c e, (c, e) ∈ l → e = .kill (w.svc k).pid sig .api k) ∧
      w.svc = w.svc ∧ w.runlevel = w.runlevel := ⟨[], rfl, (fun _ _ h => nomatch h), rfl, rfl⟩
  split
  · exact nop
  split
  · exact nop
  dsimp only
  split
  · exact ⟨[(w.toCore, .kill (w.svc k).pid sig .api k)], rfl, fun c e h => by
      rw [List.mem_singleton] at h; injection h, rfl, rfl⟩
  · exact nop

/-- No request starts anything in runlevel 0 and 6. -/
theorem C20_requests_start_nothing {w : World} (h : w.runlevel = 0 ∨ w.runlevel = 6) (n : Nat) (ev : Ev)
    (hq : ev.request = true) : ∃ l, (handle E n ev w).trace = l ++ w.trace ∧
      ∀ c p k role, (c, .spawn p k role) ∉ l := by
  by_cases hs : ∃ k sig, ev = .apiSignal k sig
  · obtain ⟨k, sig, rfl⟩ := hs
    obtain ⟨l, e, hl, _⟩ := C20_signal_only (E := E) (w := w) n k sig
    exact ⟨l, e, fun c p k role hx => by have := hl c _ hx; cases this⟩
  · rw [C20_requests_ignored h n ev hq (fun k sig e => hs ⟨k, sig, e⟩)]
    exact ⟨[], rfl, fun _ _ _ _ h => nomatch h⟩

/-- **C20, second part, partial.**  Once the system has entered runlevel 0 or 6 nothing that happens
    changes the runlevel, registers a service, or changes the configuration of one.
    Missing: executions with re-entrant stepping (`reent`). -/
theorem C20_no_return_partial {w v : World} (hw : Reach E w) (hl : w.runlevel = 0 ∨ w.runlevel = 6)
    (h : After E w v) (hr : v.reent = false) :
    v.runlevel = w.runlevel ∧ v.nextKey = w.nextKey ∧ ∀ k, (v.svc k).cfg = (w.svc k).cfg := by
  have : (ctl v).runlevel = w.runlevel ∧ (ctl v).nextKey = w.nextKey ∧ (ctl v).cfg = (ctl w).cfg := by
    refine h.inv (P := fun v => (ctl v).runlevel = w.runlevel ∧ (ctl v).nextKey = w.nextKey ∧
      (ctl v).cfg = (ctl w).cfg) hw ?_ ⟨rfl, rfl, rfl⟩ hr
    intro n ev u hu _ hr' ⟨h1, h2, h3⟩
    obtain ⟨e1, e2, e3⟩ := (hu.moved n ev hr').fixed (fun hb => (hu.start_ctl hb).1)
      (hu.ending (hu.reent n ev hr')) (by rw [h1]; exact hl)
    exact ⟨e1.trans h1, e2.trans h2, e3.trans h3⟩
  exact ⟨this.1, this.2.1, fun k => congrFun this.2.2 k⟩

/-! ## C22 -/

/-- Handle events in order, each with its own fuel. -/
def after (E : Env) (evs : List (Nat × Ev)) (w : World) : World :=
  evs.foldl (fun w e => handle E e.1 e.2 w) w

/-- Spec: the one-second polls of bootstrap. -/
def Ev.isPoll : Ev → Bool
  | .bootCheck => true
  | _ => false

/-- How many there are. -/
def polls (evs : List (Nat × Ev)) : Nat := evs.countP (·.2.isPoll)

theorem after_snoc (evs : List (Nat × Ev)) (e : Nat × Ev) (w : World) :
    after E (evs ++ [e]) w = handle E e.1 e.2 (after E evs w) := by simp [after]

theorem polls_snoc (evs : List (Nat × Ev)) (e : Nat × Ev) :
    polls (evs ++ [e]) = polls evs + if e.2.isPoll then 1 else 0 := by
  simp [polls, List.countP_append, List.countP_cons]

theorem after_reach (evs : List (Nat × Ev)) {w : World} (h : Reach E w) : Reach E (after E evs w) := by
  induction evs generalizing w with
  | nil => exact h
  | cons e es ih => exact ih (.event e.1 e.2 h)

theorem Moved.polled {ev : Ev} {c d : Ctl} (h : Moved false ev c d) (hb : c.booted = true) (hc : Boots c)
    (hd : d.runlevel = 10) :
    c.runlevel = 10 ∧ d.bootTmo = c.bootTmo - if ev.isPoll then 1 else 0 := by
  have hcr : c.runlevel = 10 → c.bootWork = true ∧ c.runlevel = 10 ∧ c.newlevel = -1 ∧ c.sm = .bootstrapWait ∧
      c.down = false ∧ c.emerg = false ∧ 0 ≤ c.bootTmo ∧ c.bootTmo ≤ 120 := by
    intro e; rcases hc.st hb with h | h
    · exact h
    · omega
  have hlow : ∀ {x : Ctl}, Run false x d → x.runlevel = c.runlevel → x.newlevel ≤ 9 → c.runlevel = 10 := by
    intro x r e hn
    rcases hc.st hb with h | h
    · exact h.2.1
    · have := r.low ⟨by omega, hn⟩; omega
  cases h with
  | none _ _ hn =>
    refine ⟨hd, ?_⟩
    have := hcr hd
    cases ev <;> try (simp [Ev.isPoll]; done)
    rcases hn rfl with h | h | h <;> simp_all
  | boot _ _ nk cf hd' hb' h => rw [hb] at hb'; cases hb'
  | exit _ _ _ _ hd' hb h => exact ⟨hlow h rfl hc.new, by rw [h.rest.2.2.2.2.1]; simp [Ev.isPoll]⟩
  | timer _ _ _ hd' hb h => exact ⟨hlow h rfl hc.new, by rw [h.rest.2.2.2.2.1]; simp [Ev.isPoll]⟩
  | poll _ hb hw ht => exact ⟨hd, by simp [Ev.isPoll]⟩
  | pollDone _ _ hd' hb hw h =>
    rcases hc.st hb with hh | hh
    · have := h.up hh.2.2.2.1 hh.2.1 (by
        have := hc.cfg; have := hc.cmd
        dsimp only; split <;> omega) hh.2.2.2.2.1
      omega
    · exact absurd hw (by rw [hh.1]; decide)
  | runlevel l _ _ hd' hb hl hr h =>
    have hr := reserved_false hr
    have := hlow h rfl (by dsimp only; omega)
    omega
  | cfglevel l _ hb hl hr => exact ⟨hr, by simp [Ev.isPoll]⟩
  | reload _ _ hd' hb hr h =>
    have hr := reserved_false hr
    have := hlow h rfl hc.new
    omega
  | reboot six limit _ _ hd' hb hr h =>
    have hr := reserved_false hr
    have := hlow h rfl (by dsimp only; split <;> decide)
    omega
  | emergency _ hb he => exact ⟨hd, by simp [Ev.isPoll]⟩

theorem after_calm (evs : List (Nat × Ev)) {w : World} (h : Reach E w)
    (hr : (after E evs w).reent = false) (hf : (after E evs w).oof = false) :
    w.reent = false ∧ w.oof = false := by
  induction evs generalizing w with
  | nil => exact ⟨hr, hf⟩
  | cons e es ih =>
    obtain ⟨h1, h2⟩ := ih (.event e.1 e.2 h) hr hf
    exact ⟨h.reent _ _ h1, h.oof_of h2⟩

/-- Bootstrap, from some moment after its beginning. -/
theorem after_boots (evs : List (Nat × Ev)) {w : World} (h : Reach E w) (hb : Boots (ctl w))
    (hbo : w.booted = true) (hr : (after E evs w).reent = false) (hf : (after E evs w).oof = false) :
    Boots (ctl (after E evs w)) ∧ (after E evs w).booted = true ∧
    ((after E evs w).runlevel = 10 → w.runlevel = 10 ∧ (after E evs w).bootTmo = w.bootTmo - polls evs) := by
  induction evs generalizing w with
  | nil => exact ⟨hb, hbo, fun h => ⟨h, by simp [polls, after]⟩⟩
  | cons e es ih =>
    obtain ⟨h1, h2⟩ := after_calm es (.event e.1 e.2 h) hr hf
    have m := h.moved e.1 e.2 h1
    rw [h2] at m
    have hbo' : (handle E e.1 e.2 w).booted = true := by
      have : (ctl (handle E e.1 e.2 w)).booted = true := by
        obtain ⟨n, ev⟩ := e
        dsimp only at m ⊢
        generalize ctl (handle E n ev w) = d at m
        have key : ∀ {b : Bool} {x : Ctl}, Run b x d → x.booted = true → d.booted = true :=
          fun r e => r.rest.1.trans e
        cases m with
        | none _ _ hn => exact hbo
        | boot _ _ nk cf hd' hb' h => exact key h rfl
        | exit _ _ _ _ hd' hb h => exact key h hb
        | timer _ _ _ hd' hb h => exact key h hb
        | poll _ hb hw ht => exact hb
        | pollDone _ _ hd' hb hw h => exact key h hb
        | runlevel l _ _ hd' hb hl hr h => exact key h hb
        | cfglevel l _ hb hl hr => exact hb
        | reload _ _ hd' hb hr h => exact key h hb
        | reboot six limit _ _ hd' hb hr h => exact key h hb
        | emergency _ hb he => exact hb
      exact this
    obtain ⟨i1, i2, i3⟩ := ih (.event e.1 e.2 h) (m.boots h.start_ctl hb) hbo' hr hf
    refine ⟨i1, i2, fun hl => ?_⟩
    obtain ⟨j1, j2⟩ := i3 hl
    obtain ⟨k1, k2⟩ := m.polled hbo hb j1
    refine ⟨k1, ?_⟩
    show (after E es (handle E e.1 e.2 w)).bootTmo = _
    rw [j2]
    have e1 : (handle E e.1 e.2 w).bootTmo = w.bootTmo - if e.2.isPoll then 1 else 0 := k2
    rw [e1]
    simp only [polls, List.countP_cons]
    split <;> simp <;> omega

/-- PID 1 from the moment its main loop starts: configured runlevel, runlevel from the kernel command
    line (0: none), and the events it sees. -/
def boots (E : Env) (cfg cmd n : Nat) (evs : List (Nat × Ev)) : World :=
  after E evs (handle E n .boot (World.start cfg cmd))

theorem boots_reach (cfg cmd n : Nat) (evs : List (Nat × Ev)) : Reach E (boots E cfg cmd n evs) :=
  after_reach evs (.event n .boot (.start cfg cmd))

theorem boots_inv {cfg cmd n : Nat} {evs : List (Nat × Ev)} (h1 : cfg ≤ 9) (h2 : cmd ≤ 9)
    (hr : (boots E cfg cmd n evs).reent = false) (hf : (boots E cfg cmd n evs).oof = false) :
    Boots (ctl (boots E cfg cmd n evs)) ∧ (boots E cfg cmd n evs).booted = true ∧
    ((boots E cfg cmd n evs).runlevel = 10 → (boots E cfg cmd n evs).bootTmo = 120 - polls evs) := by
  have r1 : Reach E (handle E n .boot (World.start cfg cmd)) := .event n .boot (.start cfg cmd)
  obtain ⟨c1, c2⟩ := after_calm evs r1 hr hf
  have m := (Reach.start (E := E) cfg cmd).moved n .boot c1
  rw [c2] at m
  have b1 := m.boots (Reach.start (E := E) cfg cmd).start_ctl (Boots.start h1 h2)
  have hb : (ctl (handle E n .boot (World.start cfg cmd))).booted = true ∧
      (ctl (handle E n .boot (World.start cfg cmd))).bootTmo = 120 := by
    have e : handle E n .boot (World.start cfg cmd) =
      (mkRec E n).sm (confReload E { World.start cfg cmd with booted := true, bootWork := true }) := rfl
    rw [e] at c1 ⊢
    have c := Conf.reload (E := E) { World.start cfg cmd with booted := true, bootWork := true }
    have d : (confReload E { World.start cfg cmd with booted := true, bootWork := true }).down = false :=
      (congrArg Ctl.down c.eq).trans rfl
    have r := (sm_run (E := E) n _ d c1).rest
    exact ⟨r.1.trans ((congrArg Ctl.booted c.eq).trans rfl),
      r.2.2.2.2.1.trans ((congrArg Ctl.bootTmo c.eq).trans rfl)⟩
  obtain ⟨i1, i2, i3⟩ := after_boots evs r1 b1 hb.1 hr hf
  refine ⟨i1, i2, fun h => ?_⟩
  have e := (i3 h).2
  have e2 : (handle E n .boot (World.start cfg cmd)).bootTmo = 120 := hb.2
  rw [e2] at e
  exact e

/-- Spec: bootstrap waits for this run/task. -/
def BootTask (c : Core) (k : Key) : Prop :=
  k ∈ c.order ∧ ((c.svc k).type = .run ∨ (c.svc k).type = .task) ∧ enabled c k = true ∧
  conflicts c k = false ∧ ¬ "hook/svc/up".toList <:+: (c.svc k).cond ∧
  ¬ "hook/sys/up".toList <:+: (c.svc k).cond

theorem isInfix_iff (a : CStr) : ∀ s : CStr, isInfix a s = true ↔ a <:+: s := by
  intro s
  induction s with
  | nil => simp [isInfix]
  | cons c cs ih =>
    rw [isInfix, Bool.or_eq_true, ih, List.isPrefixOf_iff_prefix, List.infix_cons_iff]

theorem completed_iff (c : Core) : completed c = true ↔ ∀ k, BootTask c k → (c.svc k).once ≠ 0 := by
  unfold completed
  rw [List.all_eq_true]
  have ht : ∀ t : SType, t.isRuntask = true ↔ t = .run ∨ t = .task := by intro t; cases t <;> decide
  constructor
  · intro h k ⟨h1, h2, h3, h4, h5, h6⟩
    have := h k h1
    rw [← isInfix_iff] at h5 h6
    have h2 := (ht _).mpr h2
    simp only [Bool.not_eq_true] at h5 h6
    dsimp only at this
    rw [h2, h3, h4, h5, h6] at this
    simpa using this
  · intro h k hk
    by_cases hb : BootTask c k
    · simp [h k hb]
    · dsimp only
      rw [Bool.or_eq_true]
      refine .inl ?_
      cases h1 : (c.svc k).type.isRuntask <;> simp only [Bool.not_true, Bool.not_false, Bool.true_or, Bool.false_or]
      cases h3 : enabled c k <;> simp only [Bool.not_true, Bool.not_false, Bool.true_or, Bool.false_or]
      cases h4 : conflicts c k <;> simp only [Bool.true_or, Bool.false_or]
      rw [Bool.or_eq_true, isInfix_iff, isInfix_iff]
      by_cases h5 : "hook/svc/up".toList <:+: (c.svc k).cond
      · exact .inl h5
      · by_cases h6 : "hook/sys/up".toList <:+: (c.svc k).cond
        · exact .inr h6
        · exact absurd ⟨hk, (ht _).mp h1, h3, h4, h5, h6⟩ hb

/-- The full claim of C22. -/
def C22_full : Prop := ∀ (E : Env) (cfg cmd n : Nat) (evs : List (Nat × Ev)), cfg ≤ 9 → cmd ≤ 9 →
  (121 ≤ polls evs → (boots E cfg cmd n evs).runlevel ≠ 10) ∧
  ∀ m ev, (boots E cfg cmd n evs).runlevel = 10 → (handle E m ev (boots E cfg cmd n evs)).runlevel ≠ 10 →
    ev = .bootCheck ∧ (120 ≤ polls evs ∨
      ∀ k, BootTask (stepAll (mkRec E m) tyAny { boots E cfg cmd n evs with bootWork := false }).toCore k →
        ((stepAll (mkRec E m) tyAny { boots E cfg cmd n evs with bootWork := false }).svc k).once ≠ 0)

/-- **C22, bounded, partial.**  After at most 121 one-second polls bootstrap is over and the system
    has left runlevel S, whatever the run/tasks, the processes and the users do.
    Missing: executions with re-entrant stepping, and that the recursion of the code ends (`oof`). -/
theorem C22_bounded_partial (cfg cmd n : Nat) (evs : List (Nat × Ev)) (h1 : cfg ≤ 9) (h2 : cmd ≤ 9)
    (hp : 121 ≤ polls evs) (hr : (boots E cfg cmd n evs).reent = false)
    (hf : (boots E cfg cmd n evs).oof = false) : (boots E cfg cmd n evs).runlevel ≠ 10 := by
  obtain ⟨i1, i2, i3⟩ := boots_inv h1 h2 hr hf
  intro hl
  have e := i3 hl
  rcases i1.st i2 with h | h
  · have : 0 ≤ (boots E cfg cmd n evs).bootTmo := h.2.2.2.2.2.2.1
    omega
  · have : (boots E cfg cmd n evs).runlevel ≤ 9 := h.2
    omega

/-- **C22, never early, partial.**  The system leaves runlevel S only in such a poll, and before 120
    polls have passed only if, with every service stepped once more, no run/task that bootstrap waits
    for is still to be run.  Missing: as above. -/
theorem C22_not_early_partial (cfg cmd n : Nat) (evs : List (Nat × Ev)) (h1 : cfg ≤ 9) (h2 : cmd ≤ 9)
    (m : Nat) (ev : Ev) (hl : (boots E cfg cmd n evs).runlevel = 10)
    (hl2 : (handle E m ev (boots E cfg cmd n evs)).runlevel ≠ 10)
    (hr : (handle E m ev (boots E cfg cmd n evs)).reent = false)
    (hf : (handle E m ev (boots E cfg cmd n evs)).oof = false) :
    ev = .bootCheck ∧ (120 ≤ polls evs ∨
      ∀ k, BootTask (stepAll (mkRec E m) tyAny { boots E cfg cmd n evs with bootWork := false }).toCore k →
        ((stepAll (mkRec E m) tyAny { boots E cfg cmd n evs with bootWork := false }).svc k).once ≠ 0) := by
  have hw := boots_reach (E := E) cfg cmd n evs
  have hr0 := hw.reent m ev hr
  have hf0 := hw.oof_of hf
  obtain ⟨i1, i2, i3⟩ := boots_inv h1 h2 hr0 hf0
  have e := i3 hl
  rcases i1.st i2 with hh | hh
  rotate_left
  · have : (boots E cfg cmd n evs).runlevel ≤ 9 := hh.2
    omega
  generalize boots E cfg cmd n evs = w at *
  have mv := hw.moved m ev hr
  rw [hf] at mv
  have hev : ev = .bootCheck := by
    have hl2' : (ctl (handle E m ev w)).runlevel ≠ 10 := hl2
    generalize ctl (handle E m ev w) = d at mv hl2'
    have hs : ∀ {x : Ctl}, Run false x d → x.sm = .bootstrapWait → x.newlevel = -1 → x.runlevel = 10 → False := by
      intro x r a b c
      rw [r.wait a b] at hl2'
      exact hl2' c
    cases mv with
    | none _ _ hn => exact absurd hl hl2'
    | boot _ _ nk cf hd' hb' h => exact absurd (i2.symm.trans hb') (by decide)
    | exit _ _ _ _ hd' hb h => exact (hs h hh.2.2.2.1 hh.2.2.1 hl).elim
    | timer _ _ _ hd' hb h => exact (hs h hh.2.2.2.1 hh.2.2.1 hl).elim
    | poll _ hb hw ht => rfl
    | pollDone _ _ hd' hb hw h => rfl
    | runlevel l _ _ hd' hb hl3 hr h => exact absurd hl (reserved_false hr).2.2
    | cfglevel l _ hb hl3 hr => exact absurd hl hl2'
    | reload _ _ hd' hb hr h => exact absurd hl (reserved_false hr).2.2
    | reboot six limit _ _ hd' hb hr h => exact absurd hl (reserved_false hr).2.2
    | emergency _ hb he => exact absurd hl hl2'
  subst hev
  refine ⟨rfl, ?_⟩
  have hd : w.down = false := hh.2.2.2.2.1
  have hbw : w.bootWork = true := hh.1
  have eh : handle E m .bootCheck w = bootCheck E (mkRec E m) w := by
    unfold handle; simp [hd, i2, hbw]
  rw [eh] at hr hl2
  rcases bootCheck_run hd hw.basic.1 hr with ⟨_, _, e2⟩ | ⟨h3 | h3, _⟩
  · exact absurd ((congrArg Ctl.runlevel e2).trans hl) hl2
  · exact .inl (by omega)
  · exact .inr ((completed_iff _).mp h3)

/-! ## C23 -/

/-- Spec: nobody but root may log in in these runlevels. -/
def loginsOff (l : Nat) : Bool := l == 0 || l == 1 || l == 6

/-- The full claim of C23: after every change of runlevel the file that disables logins is there
    exactly in runlevel 0, 1 and 6. -/
def C23_full : Prop := ∀ (E : Env) (w : World) (n : Nat) (ev : Ev), Reach E w →
  (handle E n ev w).runlevel ≠ w.runlevel →
  (handle E n ev w).nologin = loginsOff (handle E n ev w).runlevel

/-- **C23, the rule, partial.**  What every change of runlevel really does to the file: coming from
    S, 0, 1 or 6 it is removed, whatever the new runlevel is; otherwise it is created in 0, 1 and 6 (and
    S) and left alone in all others.  Nothing else touches it.
    Missing: executions with re-entrant stepping, and that the recursion of the code ends. -/
theorem C23_rule_partial {w : World} (h : Reach E w) (n : Nat) (ev : Ev)
    (hr : (handle E n ev w).reent = false) (hf : (handle E n ev w).oof = false) :
    (handle E n ev w).nologin =
      if (handle E n ev w).runlevel = w.runlevel then w.nologin
      else if loginsOff w.runlevel ∨ w.runlevel = 10 then false
      else if loginsOff (handle E n ev w).runlevel ∨ (handle E n ev w).runlevel = 10 then true
      else w.nologin := by
  have hs := h.settled (h.reent n ev hr) (h.oof_of hf)
  obtain ⟨h1, h2⟩ := (h.moved n ev hr).nologin hs
  have key : ∀ l : Nat, (l = 1 ∨ reserved l = true) ↔ (loginsOff l = true ∨ l = 10) := by
    intro l; simp [reserved, loginsOff]; omega
  split
  · rename_i e; exact h1 e
  · rename_i e
    have := h2 e
    unfold nologinAfter at this
    simp only [key] at this
    exact this

/-- Spec: the runlevels at the start of PID 1 and after each event. -/
def levelsOf (E : Env) : List (Nat × Ev) → World → List Nat
  | [], w => [w.runlevel]
  | e :: es, w => w.runlevel :: levelsOf E es (handle E e.1 e.2 w)

/-- Spec: no change leads from one of S, 0, 1 and 6 directly to 0, 1 or 6. -/
def noShortcut : List Nat → Bool
  | a :: b :: l => (a == b || !((loginsOff a || a == 10) && loginsOff b)) && noShortcut (b :: l)
  | _ => true

theorem levelsOf_cons (evs : List (Nat × Ev)) (w : World) :
    ∃ l, levelsOf E evs w = w.runlevel :: l := by cases evs <;> exact ⟨_, rfl⟩

theorem exactly_of_path {evs : List (Nat × Ev)} : ∀ {w : World}, Reach E w → Boots (ctl w) →
    noShortcut (levelsOf E evs w) = true → (after E evs w).reent = false → (after E evs w).oof = false →
    w.nologin = loginsOff w.runlevel → (after E evs w).nologin = loginsOff (after E evs w).runlevel := by
  induction evs with
  | nil => intro w _ _ _ _ _ h; exact h
  | cons e es ih =>
    intro u hu hb hns hr hf hi
    have hn : noShortcut (levelsOf E es (handle E e.1 e.2 u)) = true ∧
        ((handle E e.1 e.2 u).runlevel ≠ u.runlevel →
        ¬ ((loginsOff u.runlevel = true ∨ u.runlevel = 10) ∧
          loginsOff (handle E e.1 e.2 u).runlevel = true)) := by
      rw [levelsOf] at hns
      obtain ⟨l, el⟩ := levelsOf_cons (E := E) es (handle E e.1 e.2 u)
      rw [el] at hns ⊢
      rw [noShortcut, Bool.and_eq_true] at hns
      refine ⟨hns.2, fun h1 h2 => ?_⟩
      have h3 : (u.runlevel == (handle E e.1 e.2 u).runlevel) = false := by simpa using Ne.symm h1
      have h4 : (loginsOff u.runlevel || u.runlevel == 10) = true := by simpa using h2.1
      simp [h3, h4, h2.2] at hns
    obtain ⟨r1, f1⟩ := after_calm es (.event e.1 e.2 hu) hr hf
    have m := hu.moved e.1 e.2 r1
    rw [f1] at m
    refine ih (.event e.1 e.2 hu) (m.boots hu.start_ctl hb) hn.1 hr hf ?_
    have ns := hn.2
    obtain ⟨n, ev⟩ := e
    dsimp only at *
    rw [C23_rule_partial hu n ev r1 f1]
    split
    · rename_i e; rw [e]; exact hi
    · rename_i e
      have ns := ns e
      have h10 : (handle E n ev u).runlevel ≠ 10 := by
        intro h10
        by_cases bo : u.booted = true
        · exact e (h10.trans ((m.polled bo hb h10).1).symm)
        · have bo : u.booted = false := by simpa using bo
          exact e (h10.trans (hu.start_ctl bo).1.symm)
      simp only [h10, or_false]
      split
      · rename_i e1
        cases hx : loginsOff (handle E n ev u).runlevel with
        | false => rfl
        | true => exact absurd ⟨e1, hx⟩ ns
      · rename_i e1
        simp only [not_or, Bool.not_eq_true] at e1
        split
        · rename_i e2; exact e2.symm
        · rename_i e2
          rw [hi, e1.1]
          simpa using e2

/-- **C23, partial.**  If the system never goes from one of the runlevels S, 0, 1 and 6 directly to
    0, 1 or 6, the file is there exactly in runlevel 0, 1 and 6.
    Missing: the changes S to 1, S to 0 or 6 and 1 to 0 or 6, see `C23_full_false`; re-entrant stepping and
    that the recursion of the code ends; and changes by the administrator. -/
theorem C23_exactly_partial {cfg cmd : Nat} (h1 : cfg ≤ 9) (h2 : cmd ≤ 9) (evs : List (Nat × Ev))
    (h : noShortcut (levelsOf E evs (World.start cfg cmd)) = true)
    (hr : (after E evs (World.start cfg cmd)).reent = false)
    (hf : (after E evs (World.start cfg cmd)).oof = false) :
    (after E evs (World.start cfg cmd)).nologin =
      loginsOff (after E evs (World.start cfg cmd)).runlevel :=
  exactly_of_path (.start cfg cmd) (Boots.start h1 h2) h hr hf rfl

end

/-! ## Examples -/

/-- A daemon `a` in runlevels 2, 3 and 4, and a task `t` in those and runlevel S. -/
def lvEnv : Env :=
  calm [{ name := "a".toList, levels := lv234 }, { name := "t".toList, type := .task, levels := lvS + lv234 }]

def lvRun (evs : List Ev) : World := run lvEnv 24 evs

theorem lvRun_reach (evs : List Ev) : Reach lvEnv (lvRun evs) := run_reach _ _ _

def fuel (evs : List Ev) : List (Nat × Ev) := evs.map (24, ·)

/-- C20: on the way to reboot, while `a` is still to be collected.  Requests do nothing. -/
def lvDown : List Ev := [.boot, .exit 111 (.exited 0), .bootCheck, .worker, .reboot true false]

example : (lvRun lvDown).runlevel = 6 ∧ (lvRun lvDown).down = false ∧
    (lvRun (lvDown ++ [.apiStart 0, .apiRunlevel 3, .reloadAll, .worker])).runlevel = 6 ∧
    (lvRun (lvDown ++ [.apiStart 0, .apiRunlevel 3, .reloadAll, .worker])).reent = false ∧
    Ev.request (.apiRunlevel 3) = true ∧
    (lvRun (lvDown.take 4 ++ [.apiRunlevel 3])).runlevel = 3 := by
  decide +kernel

/-- C22: the task never ends.  After 120 polls the system is still in runlevel S, after 121 it is in
    runlevel 2. -/
def lvStuck (n : Nat) : World := boots lvEnv 2 0 24 (List.replicate n (24, .bootCheck))

example : (lvStuck 120).runlevel = 10 ∧ (lvStuck 121).runlevel = 2 ∧ (lvStuck 121).reent = false ∧
    (lvStuck 121).oof = false := by
  decide +kernel

example : polls (List.replicate 121 (24, .bootCheck)) = 121 := by decide +kernel

/-- C22: the task ends, and the next poll leaves runlevel S. -/
def lvQuick (evs : List Ev) : World := boots lvEnv 2 0 24 (fuel (.exit 111 (.exited 0) :: evs))

example : (lvQuick []).runlevel = 10 ∧ (handle lvEnv 24 .bootCheck (lvQuick [])).runlevel = 2 ∧
    (handle lvEnv 24 .bootCheck (lvQuick [])).reent = false ∧
    (handle lvEnv 24 .bootCheck (lvQuick [])).oof = false ∧
    polls (fuel [.exit 111 (.exited 0)]) = 0 ∧
    BootTask (lvQuick []).toCore 1 ∧ ((lvQuick []).svc 1).once = 1 ∧
    (lvRun [.boot, .bootCheck]).runlevel = 10 ∧ ((lvRun [.boot, .bootCheck]).svc 1).once = 0 := by
  refine ⟨?_, ?_, ?_, ?_, ?_, ⟨?_, ?_, ?_, ?_, ?_, ?_⟩, ?_⟩ <;> try decide +kernel
  all_goals rw [← isInfix_iff]; decide +kernel

/-- C23: from runlevel 2 to 1 to 3 to 6. -/
def lvTour : List Ev := [.boot, .bootCheck, .apiRunlevel 1, .apiRunlevel 3]

def tourEnv : Env := calm []

example : levelsOf tourEnv (fuel (lvTour ++ [.reboot true false])) (World.start 2 0) = [10, 10, 2, 1, 3, 6] ∧
    noShortcut (levelsOf tourEnv (fuel (lvTour ++ [.reboot true false])) (World.start 2 0)) = true ∧
    (run tourEnv 24 (lvTour.take 3)).nologin = true ∧ (run tourEnv 24 lvTour).nologin = false ∧
    (after tourEnv (fuel (lvTour ++ [.reboot true false])) (World.start 2 0)).nologin = true ∧
    (after tourEnv (fuel (lvTour ++ [.reboot true false])) (World.start 2 0)).reent = false ∧
    (after tourEnv (fuel (lvTour ++ [.reboot true false])) (World.start 2 0)).oof = false := by
  decide +kernel

/-- **C23 is false**: rebooting from single user mode allows logins again ... -/
theorem C23_full_false : ¬ C23_full := by
  intro h
  have key : (run tourEnv 24 (lvTour.take 3)).runlevel = 1 ∧
      (handle tourEnv 24 (.reboot true false) (run tourEnv 24 (lvTour.take 3))).runlevel = 6 ∧
      (handle tourEnv 24 (.reboot true false) (run tourEnv 24 (lvTour.take 3))).nologin = false := by
    decide +kernel
  have := h tourEnv _ 24 (.reboot true false) (run_reach tourEnv 24 (lvTour.take 3)) (by
    rw [key.1, key.2.1]; decide)
  rw [key.2.1, key.2.2] at this
  cases this

/-- ... and so does booting into single user mode. -/
theorem C23_boot_to_single_user : ∃ w, Reach tourEnv w ∧ w.runlevel = 10 ∧
    (handle tourEnv 24 .bootCheck w).runlevel = 1 ∧ (handle tourEnv 24 .bootCheck w).nologin = false := by
  refine ⟨handle tourEnv 24 .boot (World.start 2 1), .event 24 .boot (.start 2 1), ?_⟩
  decide +kernel

end Verif.Sup
