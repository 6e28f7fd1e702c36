import Verif.Sup.Reload
import Verif.Sup.Esc

/-!
# Supervisor model: stopping comes before starting

After a runlevel change, or a reading of the configuration, every service is given its turn while
starting is held back (`sm.in_reload`).  Starting is let go only after every service told to stop
has stopped.
-/

namespace Verif.Sup

open Verif (CStr CondStore)

section
variable {E : Env}

/-- Entries that neither change the rules nor mark a phase. -/
def Dull (l : List (Core × Eff)) : Prop :=
  ∀ x ∈ l, x.2.rules = false ∧ x.2 ≠ .stopped ∧ x.2 ≠ .sweep

theorem Dull.noRules {l : List (Core × Eff)} (h : Dull l) : NoRules l := fun x hx => (h x hx).1

theorem lately_dull {x : Eff} {l t : List (Core × Eff)} (hl : ∀ y ∈ l, y.2.rules = false ∧ y.2 ≠ x) :
    lately x (l ++ t) = lately x t := by
  induction l with
  | nil => rfl
  | cons y l ih =>
    obtain ⟨c, e⟩ := y
    obtain ⟨h1, h2⟩ := hl (c, e) (by simp)
    rw [List.cons_append, lately, if_neg h2, h1]
    exact ih (fun y hy => hl y (by simp [hy]))

/-- How one atomic update affects `in_reload` and the phase of a change. -/
inductive Phase (a b : World) : Prop
  | dull (hi : b.inReload = a.inReload) (l : List (Core × Eff)) (ht : b.trace = l ++ a.trace)
      (hl : Dull l)
  | rules (hs : Soft a (a.sm = .bootstrap ∨ a.sm = .rlChange ∨ a.sm = .reloadChange))
      (hi : b.inReload = a.inReload) (c : Core) (e : Eff) (t : List (Core × Eff))
      (ht : b.trace = (c, e) :: t) (he : e.rules = true)
  | stopped (h : stopCompleted a.toCore = true) (hs : Soft a (a.sm = .rlWait ∨ a.sm = .reloadWait))
      (e : b = emit .stopped a)
  | sweep (hs : Soft a (a.inReload = true)) (e : b = emit .sweep a)
  | on (e : b = { a with inReload := true })
  | off (hs : Soft a (a.sm = .rlWait ∨ a.sm = .reloadWait)) (hq : Soft a (stopsSeen a.trace = true))
      (e : b = { a with inReload := false })

theorem Prim.phase {lab : Lab} {a b : World} (h : Prim E lab a b) : Phase a b := by
  have same : b.inReload = a.inReload → b.trace = a.trace → Phase a b :=
    fun h1 h2 => .dull h1 [] h2 (fun _ h => nomatch h)
  have one : ∀ x : Core × Eff, b.inReload = a.inReload → b.trace = x :: a.trace →
      (x.2.rules = false ∧ x.2 ≠ .stopped ∧ x.2 ≠ .sweep) → Phase a b :=
    fun x h1 h2 h3 => .dull h1 [x] h2 (fun y hy => by
      rw [List.mem_singleton] at hy; rw [hy]; exact h3)
  have two : ∀ x y : Core × Eff, b.inReload = a.inReload → b.trace = x :: y :: a.trace →
      (x.2.rules = false ∧ x.2 ≠ .stopped ∧ x.2 ≠ .sweep) →
      (y.2.rules = false ∧ y.2 ≠ .stopped ∧ y.2 ≠ .sweep) → Phase a b :=
    fun x y h1 h2 h3 h4 => .dull h1 [x, y] h2 (fun z hz => by
      rcases List.mem_cons.mp hz with hz | hz
      · rw [hz]; exact h3
      · rw [List.mem_singleton] at hz; rw [hz]; exact h4)
  cases h with
  | glob _ h => apply same <;> rw [h.1]
  | ub => exact same rfl rfl
  | state k new h =>
    obtain ⟨t, x, ht, e⟩ := setStateRaw_eq k new a
    rw [e] at same one ⊢
    dsimp only at same one ⊢
    split at same <;> split at one <;> split <;> try contradiction
    · exact same rfl rfl
    · exact one _ rfl rfl ⟨rfl, nofun, nofun⟩
  | pause k h hp he ha =>
    obtain ⟨t, x, ht, e⟩ := setStateRaw_eq k .paused (Sup.kill E (a.svc k).pid 19 .pause k a).2
    rw [e] at one two ⊢
    dsimp only at one two ⊢
    split at one <;> split at two <;> split <;> try contradiction
    · exact one _ rfl rfl ⟨rfl, nofun, nofun⟩
    · exact two _ _ rfl rfl ⟨rfl, nofun, nofun⟩ ⟨rfl, nofun, nofun⟩
  | retryForce k h ht hr hs =>
    obtain ⟨y, e2⟩ := timerCancel_eq k a
    rw [e2] at same one ⊢
    simp only [Sup.mod, upd_same, upd_upd] at same one ⊢
    obtain ⟨t, x, _, e⟩ := setStateRaw_eq k .running
      { a with svc := upd a.svc k { a.svc k with timer := none, armed := y,
                                                 restartTmo := (a.svc k).restartSaved } }
    rw [e] at same one ⊢
    dsimp only at same one ⊢
    split at same <;> split at one <;> split <;> try contradiction
    · exact same rfl rfl
    · exact one _ rfl rfl ⟨rfl, nofun, nofun⟩
  | retryRespawn k =>
    obtain ⟨y, e2⟩ := timerCancel_eq k a
    rw [e2] at same ⊢; exact same rfl rfl
  | retryGiveUp k =>
    obtain ⟨y, e2⟩ := timerCancel_eq k a
    rw [e2] at one ⊢; exact one _ rfl rfl ⟨rfl, nofun, nofun⟩
  | retryAgain k =>
    obtain ⟨y, e2⟩ := timerCancel_eq k a
    rw [e2] at one ⊢; exact one _ rfl rfl ⟨rfl, nofun, nofun⟩
  | confRead hs => exact .rules hs rfl _ _ _ rfl rfl
  | confEnd hs => exact .rules hs rfl _ _ _ rfl rfl
  | start k p x hp hl hb he hs =>
    have e := start_eq k p x a hs
    dsimp only at e
    rw [e] at two ⊢
    exact two _ _ rfl rfl ⟨rfl, nofun, nofun⟩ ⟨rfl, nofun, nofun⟩
  | startBad k p hp hl hb he hs hn =>
    rw [startParent_eq] at one ⊢
    exact one _ rfl rfl ⟨rfl, nofun, nofun⟩
  | scriptRun => exact two _ _ rfl rfl ⟨rfl, nofun, nofun⟩ ⟨rfl, nofun, nofun⟩
  | collect k p st =>
    obtain ⟨s', tr, t, e, es, _, etr⟩ := monitorHead_eq (E := E) k st (reap p (some st) a)
    rw [e] at one two ⊢
    rcases etr with rfl | rfl
    · exact one _ rfl rfl ⟨rfl, nofun, nofun⟩
    · exact two _ _ rfl rfl ⟨rfl, nofun, nofun⟩ ⟨rfl, nofun, nofun⟩
  | lost k st =>
    obtain ⟨s', tr, t, e, es, _, etr⟩ := monitorHead_eq (E := E) k st a
    rw [e] at same one ⊢
    rcases etr with rfl | rfl
    · exact same rfl rfl
    · exact one _ rfl rfl ⟨rfl, nofun, nofun⟩
  | regOld z k h hz hs =>
    have e : regObj z a = _ := regObj_some h
    rw [e]; exact .rules hs rfl _ _ _ rfl rfl
  | regNew z h hz hs =>
    have e : regObj z a = _ := regObj_none h
    rw [e]; exact .rules hs rfl _ _ _ rfl rfl
  | runlevel h => exact .rules (fun _ => .inr (.inl h)) rfl _ _ _ rfl rfl
  | stopped h hs => exact .stopped h hs rfl
  | sweep hs => exact .sweep (fun hr => (hs hr).2) rfl
  | reloadOn h => exact .on rfl
  | reloadOff h hq => exact .off h hq rfl
  | _ => first
    | exact same rfl rfl
    | exact one _ rfl rfl ⟨rfl, nofun, nofun⟩

/-- Service `k` has no process, or is on its way there.  Or its crash timer has expired lately,
    which puts a service to RUNNING whatever it was doing. -/
def Leaving (w : World) (k : Key) : Prop :=
  w.main k = [] ∨ (w.svc k).state = .stopping ∨ lately (.forced k) w.trace = true

/-- Service `k` has no process, or its crash timer has expired lately. -/
def Vacant (w : World) (k : Key) : Prop := w.main k = [] ∨ lately (.forced k) w.trace = true

/-- A stopping service with a process goes on stopping. -/
theorem stopping_stays {lab : Lab} {a b : World} {k : Key} {p : Int} (hr : a.reent = false)
    (hp1 : 1 < p) (hpl : PlainOk (a.svc k)) (hodd : (a.svc k).odd = false)
    (h : Prim E lab a b) (hp : (a.svc k).pid = p) (hs : (a.svc k).state = .stopping)
    (hn : k ≠ a.nextKey) :
    (b.svc k).state = .stopping ∨ ∃ c tl, a.trace = (c, .forced k) :: tl := by
  have hp0 : (a.svc k).pid ≠ 0 := by omega
  cases h.view k with
  | same h => rw [h]; exact .inl hs
  | mod s' h e => rw [e, h.state]; exact .inl hs
  | state new t x h ht e =>
    rw [e]
    left
    show new = .stopping
    cases h with
    | redo h => rcases h hr with h | h <;> rw [hs] at h <;> cases h
    | stopDone h => exact absurd (h hr).2.1 hp0
    | stopTear h => exact absurd (h hr).2.1 hp0
    | stopCleanup h => exact absurd (h hr).2.1 hp0
    | stopHalted h => exact absurd (h hr).2.1 hp0
    | lost h hp => exact absurd hp hp0
    | stop => rfl
    | setupFail => rfl
    | complete => rfl
    | forked p b h hf => exact absurd hf (by rw [(hpl hodd).1]; decide)
    | wake h | dead h | tearCleanup h | tearHalted h | cleanHalted h | doneHalted h | setupOk h
    | waitOff h | waitConflict h | waitSetup h | waitStart h | startOff h | startMissing h | crash h
    | pause h | cont h | pausedGone h => rw [hs] at h; cases h
  | force x h ht hr hs' hf e =>
    obtain ⟨c, tl, hf, _⟩ := hf
    exact .inr ⟨c, tl, hf⟩
  | respawn x h ht hr e => rw [e]; exact .inl hs
  | giveUp x h ht hr hs' hb hm hc e => rw [e]; exact .inl hs
  | again x sv tm h ht hr hs' hb hc e => rw [e]; exact .inl hs
  | age h hs' e => rw [e]; exact .inl hs
  | bump h e => rw [e]; exact .inl hs
  | marks r d hr hp' hs' e => rw [e]; exact .inl hs
  | start p x hp hl hb he hs' e => rw [hs] at hs'; cases hs'
  | startBad p x hp hl hb he hs' hn e => rw [hs] at hs'; cases hs'
  | script p role hp hl hr' h e => rw [e]; exact .inl hs
  | exit s' hp' hl hs' ht e => rw [e, hs']; exact .inl hs
  | delBoot h hb e => rw [e]; exact .inl hs
  | reg z h hz hs' ht e => rw [e]; exact .inl hs
  | new z h hb hz hs' ht e => exact absurd h hn

/-- Processes of the command of `k` come from one that `k` is enabled for. -/
theorem main_grows {lab : Lab} {a b : World} {k : Key} (h : Prim E lab a b) (hm : a.main k = []) :
    b.main k = [] ∨ enabled a.toCore k = true := by
  cases h.kids with
  | same hl hm' ht hr => left; rw [hm', hm]
  | spawn p j role hp hf hs hv ho hl hm' ht hr' =>
    by_cases hj : role = .main ∧ k = j
    · obtain ⟨hj, rfl⟩ := hj
      exact .inr (hs hj).2.1
    · left
      rw [hm']
      split
      · rename_i hmain
        rw [upd_other _ _ _ _ (fun e => hj ⟨hmain, e⟩)]; exact hm
      · exact hm
  | reap p c hf hv hl hm' ht hr => left; rw [hm']; show (a.main k).filter _ = []; rw [hm]; rfl
  | script p j role c hp hf hn hl hm' ht hr => left; rw [hm']; show (a.main k).filter _ = []; rw [hm]; rfl
  | adopt p hp hf hl hm' ht hr => left; rw [hm', hm]
  | new hn hl hm' ht hr =>
    left; rw [hm']
    unfold upd; split
    · rfl
    · exact hm

/-- The rules are the same after the update as before. -/
structure SameRules (a b : World) : Prop where
  sm : b.sm = a.sm
  level : b.runlevel = a.runlevel
  order : ∀ k ∈ b.order, k ∈ a.order ∧ (b.svc k).levels = (a.svc k).levels ∧
    (b.svc k).removed = (a.svc k).removed ∧ ((b.svc k).odd = (a.svc k).odd)

theorem SameRules.allowed {a b : World} (h : SameRules a b) {k : Key} (hk : k ∈ b.order) :
    Allowed b.toCore k ↔ Allowed a.toCore k := by
  unfold Allowed
  rw [(h.order k hk).2.1, (h.order k hk).2.2.1, h.level]

theorem cfg_levels {s t : Svc} (h : s.cfg = t.cfg) : s.levels = t.levels := by
  have := congrArg Svc.levels h; exact this
theorem cfg_odd {s t : Svc} (h : s.cfg = t.cfg) : s.odd = t.odd := by
  have := congrArg Svc.odd h; exact this

/-- Either the rules stay, or `sm_step` moves, or the rules have just changed. -/
theorem Prim.ruling {lab : Lab} {a b : World} (h : Prim E lab a b) (hr : a.reent = false) :
    (SameRules a b ∧ Phase a b) ∨ (∃ st, SmMod a st ∧ b = { a with sm := st }) ∨
    ((a.sm = .bootstrap ∨ a.sm = .rlChange ∨ a.sm = .reloadChange) ∧ b.sm = a.sm ∧
      stopsSeen b.trace = false ∧ swept b.trace = false) := by
  rcases h.smLevel with ⟨hsm, hl⟩ | hm
  rotate_left
  · exact .inr (.inl hm)
  have head : ∀ {c e t}, b.trace = (c, e) :: t → e.rules = true → e ≠ .stopped → e ≠ .sweep →
      stopsSeen b.trace = false ∧ swept b.trace = false := by
    intro c e t ht he h1 h2
    rw [ht]; simp [lately, he, h1, h2]
  have known : ∀ {e : Eff}, e.rules = true → e ≠ .stopped ∧ e ≠ .sweep := by
    intro e he
    constructor <;> rintro rfl <;> cases he
  have hph := h.phase
  cases hph with
  | rules hs hi c e t ht he =>
    right; right
    obtain ⟨h1, h2⟩ := known he
    exact ⟨hs hr, hsm, head ht he h1 h2⟩
  | dull hi l ht hl' =>
    have clash : ∀ {x : Core × Eff}, x :: a.trace = l ++ a.trace → x.2.rules = true → False := by
      intro x hx hx'
      cases l with
      | nil => have := congrArg List.length hx; simp at this
      | cons y l =>
        have := (hl' y (by simp)).1
        rw [← (List.cons.inj hx).1, hx'] at this
        cases this
    have lvl : b.runlevel = a.runlevel := by
      rcases hl with hl | hl
      · exact hl
      cases h with
      | glob _ h => rw [h.1]
      | state k new h =>
        obtain ⟨t, x, _, e⟩ := setStateRaw_eq k new a
        rw [e]
      | pause k =>
        obtain ⟨t, x, _, e⟩ := setStateRaw_eq k .paused (Sup.kill E (a.svc k).pid 19 .pause k a).2
        rw [e]; rfl
      | retryForce k =>
        obtain ⟨t, x, _, e⟩ := setStateRaw_eq k .running
          (mod k (fun s => { s with restartTmo := s.restartSaved }) (timerCancel k a))
        obtain ⟨y, e2⟩ := timerCancel_eq k a
        rw [e, e2]; rfl
      | retryRespawn k => obtain ⟨y, e2⟩ := timerCancel_eq k a; rw [e2]; rfl
      | retryGiveUp k => obtain ⟨y, e2⟩ := timerCancel_eq k a; rw [e2]; rfl
      | retryAgain k => obtain ⟨y, e2⟩ := timerCancel_eq k a; rw [e2]; rfl
      | start k p x hp hl hb he hs => rw [start_eq k p x a hs]
      | startBad k p => rw [startParent_eq]; rfl
      | collect k p st =>
        obtain ⟨s', tr, t, e, _⟩ := monitorHead_eq (E := E) k st (reap p (some st) a)
        rw [e]; rfl
      | lost k st =>
        obtain ⟨s', tr, t, e, _⟩ := monitorHead_eq (E := E) k st a
        rw [e]
      | regOld z k h => unfold regObj; rw [h]; rfl
      | regNew z h => unfold regObj; rw [h]; rfl
      | runlevel h =>
        exact (clash ht rfl).elim
      | _ => rfl
    cases h.regist with
    | same hc ho hn hb =>
      exact .inl ⟨⟨hsm, lvl, fun k hk => ⟨ho ▸ hk, cfg_levels (hc k), cfg_removed (hc k), cfg_odd (hc k)⟩⟩,
        .dull hi l ht hl'⟩
    | apply k z x y hk hf hr' hc hs e hh =>
      right; right
      refine ⟨hs hr, hsm, ?_⟩
      subst e
      cases et : a.trace with
      | nil => rw [et] at hh; simp at hh
      | cons y t =>
        have hb := @head y.1 y.2 t et
        rw [et] at hh hb
        have he : y.2.rules = true := by
          rcases hh with hh | hh <;> (have := Option.some.inj hh; dsimp only at this; rw [this]; rfl)
        obtain ⟨h1, h2⟩ := known he
        exact hb he h1 h2
    | read hs e => subst e; exact (clash ht rfl).elim
    | done hs e => subst e; exact (clash ht rfl).elim
    | reg z k h' hz hs e => subst e; rw [regOld_trace h'] at ht; exact (clash ht rfl).elim
    | new z h' hz hs e => subst e; rw [regNew_trace h'] at ht; exact (clash ht rfl).elim
    | del k ht' hr' hs e =>
      refine .inl ⟨⟨hsm, lvl, fun j hj => ?_⟩, .dull hi l ht hl'⟩
      subst e
      exact ⟨(List.mem_filter.mp hj).1, rfl, rfl, rfl⟩
    | delBoot k h' e =>
      refine .inl ⟨⟨hsm, lvl, fun j hj => ?_⟩, .dull hi l ht hl'⟩
      subst e
      refine ⟨(List.mem_filter.mp hj).1, ?_⟩
      simp only [svcDel, emit, mod, upd]; split
      · rename_i e; rw [← e]; exact ⟨rfl, rfl, rfl⟩
      · exact ⟨rfl, rfl, rfl⟩
  | stopped h' hs e =>
    subst e
    exact .inl ⟨⟨rfl, rfl, fun k hk => ⟨hk, rfl, rfl, rfl⟩⟩, .stopped h' hs rfl⟩
  | sweep hs e =>
    subst e
    exact .inl ⟨⟨rfl, rfl, fun k hk => ⟨hk, rfl, rfl, rfl⟩⟩, .sweep hs rfl⟩
  | on e =>
    subst e
    exact .inl ⟨⟨rfl, rfl, fun k hk => ⟨hk, rfl, rfl, rfl⟩⟩, .on rfl⟩
  | off hs hq e =>
    subst e
    exact .inl ⟨⟨rfl, rfl, fun k hk => ⟨hk, rfl, rfl, rfl⟩⟩, .off hs hq rfl⟩

theorem Vacant.prim {lab : Lab} {a b : World} (h : Prim E lab a b) (hs : SameRules a b) {k : Key}
    {l : List (Core × Eff)} (ht : b.trace = l ++ a.trace) (hl : NoRules l) (hk : k ∈ b.order)
    (hn : ¬ Allowed b.toCore k) (ha : Vacant a k) : Vacant b k := by
  rcases ha with ha | ha
  · rcases main_grows h ha with hm | hm
    · exact .inl hm
    · exact absurd ((hs.allowed hk).mpr (enabled_allowed hm)) hn
  · right; rw [ht]; exact lately_append hl ha

theorem Leaving.prim {lab : Lab} {a b : World} (ho : OrdOk a.toCore) (hr : a.reent = false)
    (hp : ProcOk a) (h : Prim E lab a b) (hs : SameRules a b) {k : Key}
    {l : List (Core × Eff)} (ht : b.trace = l ++ a.trace) (hl : NoRules l) (hk : k ∈ b.order)
    (hodd : (b.svc k).odd = false) (hn : ¬ Allowed b.toCore k) (ha : Leaving a k) : Leaving b k := by
  have gone : Vacant a k → Leaving b k := fun g => by
    rcases Vacant.prim h hs ht hl hk hn g with g | g
    · exact .inl g
    · exact .inr (.inr g)
  obtain ⟨hka, _, _, ho'⟩ := hs.order k hk
  rw [ho'] at hodd
  rcases ha with ha | ha | ha
  · exact gone (.inl ha)
  · rcases hp.tracks hr k hka hodd with hm | ⟨p, hm, hpid, _⟩
    · exact gone (.inl hm)
    · have hp1 : 1 < p := hp.books.live p (hp.books.main k p (by rw [hm]; simp))
      have hne : k ≠ a.nextKey := fun e => Nat.lt_irrefl _ (e ▸ ho.2 k hka)
      rcases stopping_stays hr hp1 (hp.plain k) hodd h hpid ha hne with h | ⟨c, tl, h⟩
      · exact .inr (.inl h)
      · exact gone (.inr (by rw [h]; simp [lately]))
  · exact gone (.inr ha)

/-- Stopping comes before starting. -/
structure Orderly (w : World) : Prop where
  /-- while the supervisor waits for services to stop, those that may not run are being stopped -/
  wait : w.oof = false → w.sm = .rlWait ∨ w.sm = .reloadWait → ∀ k ∈ w.order,
    (w.svc k).odd = false → ¬ Allowed w.toCore k → Leaving w k
  /-- once all have been seen stopped, they are gone -/
  seen : w.oof = false → stopsSeen w.trace = true → ∀ k ∈ w.order,
    (w.svc k).odd = false → ¬ Allowed w.toCore k → Vacant w k
  /-- and starting is held back until then -/
  hold : swept w.trace = true → w.inReload = false → stopsSeen w.trace = true
  /-- past the first phase of a change every service has been given its turn -/
  turn : w.sm = .rlWait ∨ w.sm = .rlClean ∨ w.sm = .reloadWait ∨ w.sm = .reloadClean →
    swept w.trace = true

theorem Prim.oof_false {lab : Lab} {a b : World} (h : Prim E lab a b) (hb : b.oof = false) :
    a.oof = false := by
  cases e : a.oof with
  | false => rfl
  | true => rw [h.oof e] at hb; cases hb

theorem Settled.leaving {w : World} (hp : ProcOk w) (hr : w.reent = false) {k : Key}
    (hk : k ∈ w.order) (hodd : (w.svc k).odd = false) (hn : ¬ Allowed w.toCore k)
    (hs : Settled w.toCore k) : Leaving w k := by
  rcases hp.tracks hr k hk hodd with hm | ⟨p, hm, hpid, hst⟩
  · exact .inl hm
  · have hp1 : 1 < p := hp.books.live p (hp.books.main k p (by rw [hm]; simp))
    rcases hs with hs | hs | hs
    · exact absurd hs hn
    · right; left
      rcases hst with h | h | h
      · rw [h] at hs; exact absurd hs (by decide)
      · rw [h] at hs; exact absurd hs (by decide)
      · exact h
    · have : (w.svc k).pid ≤ 1 := hs
      omega

theorem stopCompleted_pid {c : Core} (h : stopCompleted c = true) {k : Key} (hk : k ∈ c.order)
    (hs : (c.svc k).state = .stopping) : (c.svc k).pid ≤ 1 := by
  unfold stopCompleted at h
  have := List.all_eq_true.mp h k hk
  simp [hs] at this
  omega

theorem Orderly.prim {lab : Lab} {a b : World} (ho : OrdOk a.toCore) (hr : a.reent = false)
    (hp : ProcOk a) (h : Prim E lab a b) (ha : Orderly a) : Orderly b := by
  rcases h.ruling hr with ⟨hs, hph⟩ | ⟨st, hm, e⟩ | ⟨hs, hsm, h1, h2⟩
  · have ext : ∀ l, b.trace = l ++ a.trace → NoRules l →
        (b.oof = false → b.sm = .rlWait ∨ b.sm = .reloadWait → ∀ k ∈ b.order,
          (b.svc k).odd = false → ¬ Allowed b.toCore k → Leaving b k) ∧
        (b.oof = false → stopsSeen a.trace = true → ∀ k ∈ b.order,
          (b.svc k).odd = false → ¬ Allowed b.toCore k → Vacant b k) ∧
        (b.sm = .rlWait ∨ b.sm = .rlClean ∨ b.sm = .reloadWait ∨ b.sm = .reloadClean →
          swept b.trace = true) := by
      intro l ht hl
      refine ⟨?_, ?_, fun h => by rw [hs.sm] at h; rw [ht]; exact lately_append hl (ha.turn h)⟩
      · intro hoof hsm k hk hodd hn
        obtain ⟨hka, _, _, ho'⟩ := hs.order k hk
        rw [hs.sm] at hsm
        exact (ha.wait (h.oof_false hoof) hsm k hka (ho' ▸ hodd)
          (fun x => hn ((hs.allowed hk).mpr x))).prim ho hr hp h hs ht hl hk hodd hn
      · intro hoof hst k hk hodd hn
        obtain ⟨hka, _, _, ho'⟩ := hs.order k hk
        exact (ha.seen (h.oof_false hoof) hst k hka (ho' ▸ hodd)
          (fun x => hn ((hs.allowed hk).mpr x))).prim h hs ht hl hk hn
    cases hph with
    | rules hs' hi c e t ht he =>
      have no : stopsSeen b.trace = false ∧ swept b.trace = false := by
        have h1 : e ≠ .stopped := by rintro rfl; cases he
        have h2 : e ≠ .sweep := by rintro rfl; cases he
        rw [ht]; simp [lately, he, h1, h2]
      refine ⟨?_, fun _ h => (by rw [no.1] at h; cases h), fun h => (by rw [no.2] at h; cases h), ?_⟩
      rotate_left
      · intro hw
        rw [hs.sm] at hw
        rcases hs' hr with h | h | h <;> rw [h] at hw <;> rcases hw with hw | hw | hw | hw <;> cases hw
      intro _ hw
      rw [hs.sm] at hw
      rcases hs' hr with h | h | h <;> rw [h] at hw <;> rcases hw with hw | hw <;> cases hw
    | dull hi l ht hl =>
      obtain ⟨g1, g2, g3⟩ := ext l ht hl.noRules
      have e1 : stopsSeen b.trace = stopsSeen a.trace := by
        rw [ht]; exact lately_dull (fun y hy => ⟨(hl y hy).1, (hl y hy).2.1⟩)
      have e2 : swept b.trace = swept a.trace := by
        rw [ht]; exact lately_dull (fun y hy => ⟨(hl y hy).1, (hl y hy).2.2⟩)
      refine ⟨g1, fun h1 h2 => g2 h1 (e1 ▸ h2), fun h1 h2 => ?_, ?_⟩
      · rw [e1]; exact ha.hold (e2 ▸ h1) (hi ▸ h2)
      · exact g3
    | stopped hc hw e =>
      obtain ⟨g1, g2, g3⟩ := ext [(a.toCore, .stopped)] (by rw [e]; rfl)
        (fun x hx => by rw [List.mem_singleton] at hx; rw [hx]; rfl)
      subst e
      refine ⟨g1, fun hoof _ k hk hodd hn => ?_, fun _ _ => rfl, g3⟩
      have hk : k ∈ a.order := hk
      have hodd : (a.svc k).odd = false := hodd
      rcases ha.wait hoof (hw hr) k hk hodd hn with h | h | h
      · exact .inl h
      · have := stopCompleted_pid hc hk h
        left
        rcases hp.tracks hr k hk hodd with hm | ⟨p, hm, hpid, _⟩
        · exact hm
        · have hp1 : 1 < p := hp.books.live p (hp.books.main k p (by rw [hm]; simp))
          omega
      · right
        exact lately_append (l := [(a.toCore, .stopped)])
          (fun x hx => by rw [List.mem_singleton] at hx; rw [hx]; rfl) h
    | sweep hi e =>
      obtain ⟨g1, g2, g3⟩ := ext [(a.toCore, .sweep)] (by rw [e]; rfl)
        (fun x hx => by rw [List.mem_singleton] at hx; rw [hx]; rfl)
      subst e
      refine ⟨g1, fun h1 h2 => g2 h1 h2, fun _ h => ?_, g3⟩
      have h : a.inReload = false := h
      rw [hi hr] at h; cases h
    | on e =>
      obtain ⟨g1, g2, g3⟩ := ext [] (by rw [e]; rfl) (fun _ h => nomatch h)
      subst e
      exact ⟨g1, g2, fun _ h => (by cases h), g3⟩
    | off hw hq e =>
      obtain ⟨g1, g2, g3⟩ := ext [] (by rw [e]; rfl) (fun _ h => nomatch h)
      subst e
      exact ⟨g1, g2, fun _ _ => hq hr, g3⟩
  · subst e
    refine ⟨?_, ha.seen, ha.hold, fun hw => ?_⟩
    rotate_left
    · show swept a.trace = true
      cases hm with
      | rlWait h hq ht => exact ht hr
      | reloadWait h hq ht => exact ht hr
      | rlClean h2 => exact ha.turn (.inl (h2 hr).1)
      | reloadClean h2 => exact ha.turn (.inr (.inr (.inl (h2 hr).1)))
      | _ => rcases hw with hw | hw | hw | hw <;> cases hw
    intro hoof hw k hk hodd hn
    cases hm with
    | rlWait h hq => exact (hq hr hoof k hk).leaving (w := a) hp hr hk hodd hn
    | reloadWait h hq => exact (hq hr hoof k hk).leaving (w := a) hp hr hk hodd hn
    | _ => rcases hw with hw | hw <;> cases hw
  · refine ⟨?_, fun _ h => (by rw [h1] at h; cases h), fun h => (by rw [h2] at h; cases h), ?_⟩
    rotate_left
    · intro hw
      rw [hsm] at hw
      rcases hs with h | h | h <;> rw [h] at hw <;> rcases hw with hw | hw | hw | hw <;> cases hw
    intro _ hw
    rw [hsm] at hw
    rcases hs with h | h | h <;> rw [h] at hw <;> rcases hw with hw | hw <;> cases hw

theorem Orderly.start (cfg cmd : Nat) : Orderly (World.start cfg cmd) :=
  ⟨nofun, fun _ h => (by cases h), fun h => (by cases h), nofun⟩

/-- Every effect is recorded in an orderly state. -/
theorem Reach.orderly_at {w : World} (h : Reach E w) {c : Core} {e : Eff} {tl : List (Core × Eff)}
    (hx : (c, e) :: tl <:+ w.trace) (hs : ¬ Second e) :
    ∃ a, ProcOk a ∧ (a.reent = false → Orderly a) ∧ a.trace = tl ∧ SnapOf a c := by
  obtain ⟨a, ⟨h1, h2⟩, h3, h4⟩ := h.at (P := fun w => ProcOk w ∧ (w.reent = false → Orderly w))
    (fun cfg cmd => ⟨.start cfg cmd, fun _ => .start cfg cmd⟩)
    (fun lab a b ho p ih => ⟨ih.1.prim ho p, fun hr =>
      Orderly.prim ho (p.reent_false hr) ih.1 p (ih.2 (p.reent_false hr))⟩) hx hs
  exact ⟨a, h1, h2, h3, h4⟩

end

end Verif.Sup
