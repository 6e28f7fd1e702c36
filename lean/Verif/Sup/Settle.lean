import Verif.Sup.Refine

/-!
# Supervisor model: stepping every service settles those that may not run

`stepAll R tyAny` gives every service on the list its turn.  Afterwards a service that is not
allowed in the runlevel, or is marked for removal, is at rest, or stopping, or has no process.
-/

namespace Verif.Sup

open Verif (CStr CondStore)

section
variable {E : Env} {lab : Lab} {S : Key → Prop} {R : Rec}

/-- Once a service has been re-entered, that stays on record. -/
theorem Prim.reent {lab : Lab} {a b : World} (h : Prim E lab a b) (ha : a.reent = true) :
    b.reent = true := by
  cases h with
  | glob _ h =>
    exact h.2.1 ha
  | state k new h =>
    obtain ⟨t, x, _, e⟩ := setStateRaw_eq k new a
    rw [e]; exact ha
  | pause k =>
    obtain ⟨t, x, _, e⟩ := setStateRaw_eq k .paused (Sup.kill E (a.svc k).pid 19 .pause k a).2
    rw [e]; exact ha
  | retryForce k =>
    obtain ⟨t, x, _, e⟩ := setStateRaw_eq k .running
      (mod k (fun s => { s with restartTmo := s.restartSaved }) (timerCancel k a))
    obtain ⟨y, e2⟩ := timerCancel_eq k a
    rw [e, e2]; exact ha
  | retryRespawn k =>
    obtain ⟨y, e2⟩ := timerCancel_eq k a
    rw [e2]; exact ha
  | retryGiveUp k =>
    obtain ⟨y, e2⟩ := timerCancel_eq k a
    rw [e2]; exact ha
  | retryAgain k =>
    obtain ⟨y, e2⟩ := timerCancel_eq k a
    rw [e2]; exact ha
  | start k p x hp hl hb he hs =>
    rw [start_eq k p x a hs]; exact ha
  | startBad k p => rw [startParent_eq]; exact ha
  | collect k p st =>
    obtain ⟨s', tr, t, e, _⟩ := monitorHead_eq (E := E) k st (reap p (some st) a)
    rw [e]; exact ha
  | lost k st =>
    obtain ⟨s', tr, t, e, _⟩ := monitorHead_eq (E := E) k st a
    rw [e]; exact ha
  | regOld z k h =>
    unfold regObj; rw [h]; exact ha
  | regNew z h =>
    unfold regObj; rw [h]; exact ha
  | _ => exact ha

/-- The trace only grows. -/
theorem Prim.ext {a b : World} (h : Prim E lab a b) : ∃ l, b.trace = l ++ a.trace := by
  have raw : ∀ k new (w : World), ∃ l, (setStateRaw k new w).trace = l ++ w.trace := by
    intro k new w
    obtain ⟨t, x, _, e⟩ := setStateRaw_eq k new w
    rw [e]; dsimp only; split
    · exact ⟨[], rfl⟩
    · exact ⟨[_], rfl⟩
  cases h with
  | glob _ h => exact ⟨[], by rw [h.1]; rfl⟩
  | state k new h => exact raw k new a
  | pause k =>
    obtain ⟨l, e⟩ := raw k .paused (Sup.kill E (a.svc k).pid 19 .pause k a).2
    exact ⟨l ++ [_], by rw [e, List.append_assoc]; rfl⟩
  | retryForce k =>
    obtain ⟨l, e⟩ := raw k .running
      (mod k (fun s => { s with restartTmo := s.restartSaved }) (timerCancel k a))
    obtain ⟨y, e2⟩ := timerCancel_eq k a
    exact ⟨l, by rw [e, e2]; rfl⟩
  | retryRespawn k =>
    obtain ⟨y, e2⟩ := timerCancel_eq k a
    exact ⟨[], by rw [e2]; rfl⟩
  | retryGiveUp k =>
    obtain ⟨y, e2⟩ := timerCancel_eq k a
    exact ⟨[_], by rw [e2]; rfl⟩
  | retryAgain k =>
    obtain ⟨y, e2⟩ := timerCancel_eq k a
    exact ⟨[_], by rw [e2]; rfl⟩
  | start k p x hp hl hb he hs =>
    rw [start_eq k p x a hs]; exact ⟨[_, _], rfl⟩
  | startBad k p => rw [startParent_eq]; exact ⟨[_], rfl⟩
  | collect k p st =>
    obtain ⟨s', tr, t, e, _, _, ht⟩ := monitorHead_eq (E := E) k st (reap p (some st) a)
    rw [e]
    rcases ht with ht | ht
    · exact ⟨[_], by dsimp only; rw [ht]; rfl⟩
    · exact ⟨[_, _], by dsimp only; rw [ht]; rfl⟩
  | lost k st =>
    obtain ⟨s', tr, t, e, _, _, ht⟩ := monitorHead_eq (E := E) k st a
    rw [e]
    rcases ht with ht | ht
    · exact ⟨[], by dsimp only; rw [ht]; rfl⟩
    · exact ⟨[_], by dsimp only; rw [ht]; rfl⟩
  | regOld z k h =>
    unfold regObj; rw [h]; exact ⟨[_], rfl⟩
  | regNew z h =>
    unfold regObj; rw [h]; exact ⟨[_], rfl⟩
  | _ => first | exact ⟨[], rfl⟩ | exact ⟨[_], rfl⟩ | exact ⟨[_, _], rfl⟩

/-- Nothing in `l` changes the rules. -/
def NoRules (l : List (Core × Eff)) : Prop := ∀ x ∈ l, x.2.rules = false

theorem ruleCount_append {a b : World} {l : List (Core × Eff)} (h : b.trace = l ++ a.trace) :
    ruleCount b = (l.filter (fun x => x.2.rules)).length + ruleCount a := by
  unfold ruleCount; rw [h, List.filter_append, List.length_append]

theorem noRules_of {l : List (Core × Eff)} (h : (l.filter (fun x => x.2.rules)).length = 0) :
    NoRules l := by
  intro x hx
  cases hr : x.2.rules with
  | false => rfl
  | true =>
    have : x ∈ l.filter (fun x => x.2.rules) := List.mem_filter.mpr ⟨hx, hr⟩
    rw [List.length_eq_zero_iff.mp h] at this
    cases this

/-- A sequence of updates during which the rules did not change. -/
theorem Steps.ext {a b : World} (h : Steps E lab a b) : ∃ l, b.trace = l ++ a.trace := by
  induction h with
  | refl => exact ⟨[], rfl⟩
  | tail _ p ih =>
    obtain ⟨l, e⟩ := ih
    obtain ⟨m, e2⟩ := p.ext
    exact ⟨m ++ l, by rw [e2, e, List.append_assoc]⟩

theorem Steps.quiet {a b : World} (h : Steps E lab a b) (hc : ruleCount b = ruleCount a) :
    ∃ l, b.trace = l ++ a.trace ∧ NoRules l := by
  obtain ⟨l, e⟩ := h.ext
  refine ⟨l, e, noRules_of ?_⟩
  have := ruleCount_append e
  omega

theorem lately_append {x : Eff} {l t : List (Core × Eff)} (hl : NoRules l) (h : lately x t = true) :
    lately x (l ++ t) = true := by
  induction l with
  | nil => exact h
  | cons y l ih =>
    have hx := hl y (by simp)
    have ih := ih (fun y hy => hl y (by simp [hy]))
    obtain ⟨c, e⟩ := y
    have hx : e.rules = false := hx
    rw [List.cons_append, lately, hx]
    split
    · rfl
    · exact ih

/-- The last effect is not part of a registration. -/
def HeadOk (w : World) : Prop := ∀ k, w.trace.head?.map (·.2) ≠ some (.reg k) ∧
  w.trace.head?.map (·.2) ≠ some (.new k)

theorem HeadOk.append {a b : World} {l : List (Core × Eff)} (ha : HeadOk a) (h : b.trace = l ++ a.trace)
    (hl : NoRules l) : HeadOk b := by
  intro k
  rw [h]
  cases l with
  | nil => exact ha k
  | cons x l =>
    have hx := hl x (by simp)
    obtain ⟨c, e⟩ := x
    constructor <;>
    · intro hh
      have : e = _ := Option.some.inj hh
      rw [this] at hx
      simp [Eff.rules] at hx

/-- A label under which no timer fires and no pid file is written. -/
def still : Lab := .ev .worker

theorem Settled.same {c d : Core} {k : Key} (h : Settled c k) (hr : d.runlevel = c.runlevel)
    (hl : (d.svc k).levels = (c.svc k).levels) (hm : (d.svc k).removed = (c.svc k).removed)
    (hs : (d.svc k).state = (c.svc k).state) (hp : (d.svc k).pid = (c.svc k).pid) : Settled d k := by
  unfold Settled Allowed at *
  rw [hr, hl, hm, hs, hp]; exact h

theorem SvcMod.settled {w : World} {k : Key} {s' : Svc} (h : SvcMod E still w k s') (hh : HeadOk w)
    (hk : Settled w.toCore k) : Settled ({ w with svc := upd w.svc k s' } : World).toCore k := by
  have same : ∀ s : Svc, s.levels = (w.svc k).levels → s.removed = (w.svc k).removed →
      s.state = (w.svc k).state → s.pid = (w.svc k).pid →
      Settled ({ w with svc := upd w.svc k s } : World).toCore k := by
    intro s h1 h2 h3 h4
    refine hk.same rfl ?_ ?_ ?_ ?_ <;> simpa using by assumption
  have low : ∀ s : Svc, s.pid ≤ 1 → Settled ({ w with svc := upd w.svc k s } : World).toCore k := by
    intro s h1
    refine .inr (.inr ?_)
    simpa using h1
  cases h with
  | minor s' h => exact same _ (by rw [h]) (by rw [h]) (by rw [h]) (by rw [h])
  | forkedPid p b h => cases h
  | pidLost h hs => exact low _ (by simp)
  | pidOdd h hs => exact low _ (by simp)
  | pidNone h hs => exact low _ (by simp)
  | scriptFail role h => exact low _ (by simp)
  | apply z a c ho ht hb _ hz hx =>
    rcases hx with hx | hx
    · exact absurd hx (hh k).1
    · exact absurd hx (hh k).2
  | _ => exact same _ rfl rfl rfl rfl

theorem StateMod.settled {w : World} {k : Key} {new : SState} (h : StateMod still w k new)
    (hr : w.reent = false) (hk : Settled w.toCore k) : Settled (setStateRaw k new w).toCore k := by
  obtain ⟨t, x, _, e⟩ := setStateRaw_eq k new w
  rw [e]
  have en : enabled w.toCore k = true → Settled ({ w with
      svc := upd w.svc k { w.svc k with state := new, timer := t, armed := x } } : World).toCore k := by
    intro he
    refine .inl ?_
    have := enabled_allowed he
    unfold Allowed at *
    simpa using this
  have low : new.toNat ≤ SState.stopping.toNat → Settled ({ w with
      svc := upd w.svc k { w.svc k with state := new, timer := t, armed := x } } : World).toCore k := by
    intro hn
    refine .inr (.inl ?_)
    simpa using hn
  have al : Allowed w.toCore k → Settled ({ w with
      svc := upd w.svc k { w.svc k with state := new, timer := t, armed := x } } : World).toCore k := by
    intro this
    refine .inl ?_
    unfold Allowed at *
    simpa using this
  cases h with
  | wake h he => exact en he
  | redo h ht hm hb ha => exact al (ha hr)
  | setupOk h hp he hf => exact en he
  | waitSetup h he => exact en he
  | waitStart h he => exact en he
  | pause h hp he => exact en he
  | cont h hp he => exact en he
  | pausedGone h hp he => exact en he
  | forked p b h => cases h
  | _ => exact low (by decide)

theorem Prim.settled {a b : World} {k : Key} (h : Prim E still a b) (hb : b.reent = false)
    (hc : ruleCount b = ruleCount a) (hh : HeadOk a) (hk : Settled a.toCore k) :
    Settled b.toCore k := by
  have ha : a.reent = false := reent_false h.reent hb
  obtain ⟨l, he, hl⟩ := (Steps.one h).quiet hc
  have norule : ∀ c e, b.trace = (c, e) :: a.trace → e.rules = false := by
    intro c e hb
    have : l = [(c, e)] := by
      have : l ++ a.trace = [(c, e)] ++ a.trace := by rw [← he, hb]; rfl
      exact List.append_cancel_right this
    exact hl (c, e) (by rw [this]; simp)
  have oth : ∀ (s : Svc) (i : Key), b.svc = upd a.svc i s → b.runlevel = a.runlevel → k ≠ i →
      Settled b.toCore k := by
    intro s i hs hr hki
    refine hk.same hr ?_ ?_ ?_ ?_ <;> rw [hs, upd_other _ _ _ _ hki]
  cases h with
  | glob _ h => refine hk.same ?_ ?_ ?_ ?_ ?_ <;> rw [h.1]
  | svc i s' h =>
    by_cases e : k = i
    · subst e; exact h.settled hh hk
    · exact oth s' i rfl rfl e
  | state i new h =>
    by_cases e : k = i
    · subst e; exact h.settled ha hk
    · obtain ⟨t, x, _, e2⟩ := setStateRaw_eq i new a
      rw [e2] at oth ⊢
      exact oth _ i rfl rfl e
  | retryForce i h => cases h
  | forced i h => cases h
  | retryRespawn i h => cases h
  | retryGiveUp i h => cases h
  | retryAgain i sv tm h => cases h
  | age i h =>
    refine hk.same rfl ?_ ?_ ?_ ?_ <;>
    · simp only [Sup.mod, emit, upd]; split
      · rename_i e; rw [e]
      · rfl
  | bump i h =>
    refine hk.same rfl ?_ ?_ ?_ ?_ <;>
    · simp only [Sup.mod, emit, upd]; split
      · rename_i e; rw [e]
      · rfl
  | confRead hs => exact absurd (norule _ _ rfl) (by simp [Eff.rules])
  | confEnd hs => exact absurd (norule _ _ rfl) (by simp [Eff.rules])
  | pause i h hp he2 haf =>
    obtain ⟨t, x, _, e2⟩ := setStateRaw_eq i .paused (Sup.kill E (a.svc i).pid 19 .pause i a).2
    rw [e2] at oth ⊢
    by_cases e : k = i
    · subst e
      refine .inl ?_
      have := enabled_allowed he2
      unfold Allowed at *
      simpa [Sup.kill, emit] using this
    · exact oth _ i rfl rfl e
  | start i p x hp hlv hbl he2 hs =>
    rw [start_eq i p x a hs] at oth ⊢
    by_cases e : k = i
    · subst e
      refine .inl ?_
      have := enabled_allowed he2
      unfold Allowed at *
      simpa using this
    · exact oth _ i rfl rfl e
  | startBad i p hp hlv hbl he2 hs =>
    rw [startParent_eq] at oth ⊢
    by_cases e : k = i
    · subst e
      refine .inl ?_
      have := enabled_allowed he2
      unfold Allowed at *
      simpa [spawned, emit] using this
    · exact oth _ i rfl rfl e
  | script i p role hp hlv hr h hal =>
    by_cases e : k = i
    · subst e
      by_cases hpre : role = .pre
      · refine .inl ?_
        have := hal ha hpre
        unfold Allowed at *
        simpa [Sup.mod, spawned, emit] using this
      · refine .inr (.inl ?_)
        have hst : ((Sup.mod k (fun s => { s with pid := p }) (spawned p k role a)).svc k).state
            = (a.svc k).state := by simp [Sup.mod, spawned, emit]
        show ((Sup.mod k (fun s => { s with pid := p }) (spawned p k role a)).svc k).state.toNat ≤ _
        rw [hst]
        rcases h ha with h | h | h | h
        · exact absurd h.1 hpre
        · rw [h.2]; decide
        · rw [h.2]; decide
        · rw [h.2.1]; decide
    · exact oth _ i rfl rfl e
  | collect i p st =>
    obtain ⟨s', tr, t, e2, es, _⟩ := monitorHead_eq (E := E) i st (reap p (some st) a)
    rw [e2] at oth ⊢
    by_cases e : k = i
    · subst e
      refine .inr (.inr ?_)
      show (upd _ k s' k).pid ≤ 1
      rw [upd_same, es]; simp
    · exact oth _ i rfl rfl e
  | lost i st =>
    obtain ⟨s', tr, t, e2, es, _⟩ := monitorHead_eq (E := E) i st a
    rw [e2] at oth ⊢
    by_cases e : k = i
    · subst e
      refine .inr (.inr ?_)
      show (upd _ k s' k).pid ≤ 1
      rw [upd_same, es]; simp
    · exact oth _ i rfl rfl e
  | delBoot i h =>
    by_cases e : k = i
    · subst e
      refine .inr (.inr ?_)
      simp [svcDel, emit, Sup.mod]
    · exact oth _ i rfl rfl e
  | regOld z i h =>
    rw [regObj] at norule
    rw [h] at norule
    exact absurd (norule _ _ rfl) (by simp [Eff.rules])
  | regNew z h =>
    rw [regObj] at norule
    rw [h] at norule
    exact absurd (norule _ _ rfl) (by simp [Eff.rules])
  | runlevel h => exact absurd (norule _ _ rfl) (by simp [Eff.rules])
  | _ => exact hk.same rfl rfl rfl rfl rfl

theorem Steps.settled {a b : World} {k : Key} (h : Steps E still a b) (hb : b.reent = false)
    (hc : ruleCount b = ruleCount a) (hh : HeadOk a) (hk : Settled a.toCore k) :
    Settled b.toCore k := by
  induction h with
  | refl => exact hk
  | tail s p ih =>
    rename_i x y
    have hx : x.reent = false := reent_false p.reent hb
    obtain ⟨l, e1⟩ := s.ext
    obtain ⟨m, e2⟩ := p.ext
    have c1 := ruleCount_append e1
    have c2 := ruleCount_append e2
    have cx : ruleCount x = ruleCount a := by omega
    obtain ⟨l', e3, hl⟩ := s.quiet cx
    exact p.settled hb (by omega) (hh.append e3 hl) (ih hx cx)

theorem Good.count {a b : World} (h : Good E lab S a b) (hr : b.reent = false) :
    ruleCount b = ruleCount a := by
  have := congrArg Core.tick (h.frame hr).2.1; exact this

/-- The state `svc_set_state` leaves behind, when the service is being stepped. -/
theorem setState_state (h : ROk E lab R) {k : Key} {new : SState} {w : World} (_ : k ∈ w.stack)
    (hr : (setState R k new w).reent = false) :
    ((setState R k new w).svc k).state = new := by
  unfold setState at hr ⊢
  dsimp only at hr ⊢
  obtain ⟨f1, _, _, _, _, f6, _⟩ := setStateRaw_fields k new w
  split
  · exact f6
  · rename_i hne
    rw [if_neg hne] at hr
    obtain ⟨g, _⟩ := setStateConds_raw (E := E) (lab := lab) h (k := k) (new := new) (w := w) hne
    rw [(g.frame hr).1 k (by simp)]
    exact f6

/-- After `service_stop` the service has changed its state, or it has no process. -/
theorem serviceStop_settled (h : ROk E lab R) {k : Key} {w : World} (hk : k ∈ w.stack)
    (hs : SState.stopping.toNat < (w.svc k).state.toNat)
    (hr : (serviceStop E R k w).reent = false) :
    ((serviceStop E R k w).svc k).state.toNat ≤ SState.stopping.toNat ∨
      ((serviceStop E R k w).svc k).pid ≤ 1 := by
  obtain ⟨a, e⟩ := timerCancel_eq k w
  have halt : ∀ (v : World) (new : SState), new.toNat ≤ SState.stopping.toNat → k ∈ v.stack →
      (setState R k new v).reent = false →
      ((setState R k new v).svc k).state.toNat ≤ SState.stopping.toNat := by
    intro v new hn hv hr
    rw [setState_state h hv hr]; exact hn
  unfold serviceStop at hr ⊢
  rw [if_neg (by omega)] at hr ⊢
  rw [e] at hr ⊢
  revert hr
  extract_lets w1' w1 plain r w2 w3 r2 w4 r3 w5
  have k1 : k ∈ w1.stack := hk
  split
  · rename_i hp
    intro _
    have hp := (Bool.and_eq_true_iff.mp hp).2
    exact .inr (of_decide_eq_true hp)
  split
  · intro hr
    refine .inl (halt _ _ (by decide) ?_ hr)
    obtain ⟨b, e⟩ := serviceCleanup_eq k w2
    rw [e]; exact k1
  split
  · intro _
    refine .inr ?_
    simp [Sup.mod]
  · have k5 : k ∈ w5.stack := by
      have : w5.stack = w4.stack := (stopAct_frame (E := E) k w4).1
      rw [this]; exact k1
    split
    · intro hr
      refine .inl (halt _ _ (by decide) ?_ hr)
      obtain ⟨b, e⟩ := serviceCleanup_eq k w5
      rw [e]; exact k5
    · intro hr
      exact .inl (halt _ _ (by decide) k5 hr)

theorem enabled_false {c : Core} {k : Key} (h : ¬ Allowed c k) : enabled c k = false := by
  cases e : enabled c k with
  | false => rfl
  | true => exact absurd (enabled_allowed e) h

/-- One turn of a service that may not run: it changes state, is at rest or on its way there, or has
    no process. -/
theorem stepBranch_settled (h : ROk E lab R) {k : Key} {w : World} (hk : k ∈ w.stack)
    (ha : ¬ Allowed w.toCore k) (hr : (stepBranch E R k w).2.reent = false) :
    (stepBranch E R k w).1 = false ∧
    (((stepBranch E R k w).2.svc k).state ≠ (w.svc k).state ∨
      ((stepBranch E R k w).2.svc k).state.toNat ≤ SState.stopping.toNat ∨
      ((stepBranch E R k w).2.svc k).pid ≤ 1) := by
  have he := enabled_false ha
  have low : ∀ v : World, (w.svc k).state.toNat ≤ SState.stopping.toNat →
      ((v.svc k).state ≠ (w.svc k).state ∨ (v.svc k).state.toNat ≤ SState.stopping.toNat ∨
        (v.svc k).pid ≤ 1) := by
    intro v hs
    by_cases e : (v.svc k).state = (w.svc k).state
    · exact .inr (.inl (by rw [e]; exact hs))
    · exact .inl e
  revert hr
  unfold stepBranch
  rw [he]
  dsimp only
  split
  · rename_i hs; intro _; exact ⟨rfl, low _ (by rw [hs]; decide)⟩
  · rename_i hs; intro _; exact ⟨rfl, low _ (by rw [hs]; decide)⟩
  · rename_i hs; intro _; exact ⟨rfl, low _ (by rw [hs]; decide)⟩
  · rename_i hs; intro _; exact ⟨rfl, low _ (by rw [hs]; decide)⟩
  · rename_i hs; intro _; exact ⟨rfl, low _ (by rw [hs]; decide)⟩
  · rename_i hs; intro _; exact ⟨rfl, low _ (by rw [hs]; decide)⟩
  · rename_i hs
    unfold stepSetup
    rw [if_pos (by simp)]
    intro hr
    exact ⟨rfl, .inr (serviceStop_settled h hk (by rw [hs]; decide) hr)⟩
  · rename_i hs
    unfold stepWaiting
    rw [if_pos (by simp)]
    intro hr
    exact ⟨rfl, .inr (.inl (by rw [setState_state h hk hr]; decide))⟩
  · rename_i hs
    unfold stepStarting
    rw [if_pos (by simp)]
    intro hr
    exact ⟨rfl, .inr (.inl (by rw [setState_state h hk hr]; decide))⟩
  · rename_i hs
    unfold stepRunning
    rw [if_pos (by simp)]
    intro hr
    exact ⟨rfl, .inr (serviceStop_settled h hk (by rw [hs]; decide) hr)⟩
  · rename_i hs
    unfold stepPaused
    rw [if_pos (by simp)]
    intro hr
    refine ⟨rfl, .inr (serviceStop_settled h hk ?_ hr)⟩
    show SState.stopping.toNat < (w.svc k).state.toNat
    rw [hs]; decide

/-- What is assumed of the recursive calls. -/
structure SOk (E : Env) (R : Rec) : Prop where
  ok : ROk E still R
  step : ∀ k w, w.down = false → (R.step k w).reent = false → (R.step k w).oof = false →
    Settled (R.step k w).toCore k
  loop : ∀ k w, k ∈ w.stack → (R.loop k w).reent = false → (R.loop k w).oof = false →
    Settled (R.loop k w).toCore k

theorem stepLoop_settled (h : SOk E R) {k : Key} {w : World} (hk : k ∈ w.stack)
    (hr : (stepLoop E R k w).reent = false) (ho : (stepLoop E R k w).oof = false) :
    Settled (stepLoop E R k w).toCore k := by
  have gl := stepLoop_good h.ok (k := k) (w := w) hk
  by_cases ha : Allowed w.toCore k
  · exact .inl ((gl.allowed hr).mpr ha)
  have gb := stepBranch_good h.ok (k := k) (w := w) hk
  have hkb : k ∈ (stepBranch E R k w).2.stack := by rw [gb.stack]; exact hk
  have hb := stepBranch_settled h.ok hk ha
  revert hr ho
  unfold stepLoop
  generalize stepBranch E R k w = r at hb hkb
  obtain ⟨b, v⟩ := r
  dsimp only at hb hkb ⊢
  split
  · intro hr _
    have := (hb hr).1
    simp_all
  split
  · intro hr ho
    exact (h.loop k v hkb hr ho).same rfl rfl rfl rfl rfl
  · rename_i hs
    have hs : (v.svc k).state = (w.svc k).state := by simpa using hs
    have fin : v.reent = false → Settled v.toCore k := by
      intro hr
      rcases (hb hr).2 with h | h | h
      · exact absurd hs h
      · exact .inr (.inl h)
      · exact .inr (.inr h)
    split
    · intro hr _; exact (fin hr).same rfl rfl rfl rfl rfl
    · intro hr _; exact fin hr

theorem serviceStep_settled (h : SOk E R) (k : Key) (w : World) (hd : w.down = false)
    (hr : (serviceStep E R k w).reent = false) (ho : (serviceStep E R k w).oof = false) :
    Settled (serviceStep E R k w).toCore k := by
  revert hr ho
  unfold serviceStep
  rw [if_neg (by simp [hd])]
  extract_lets st w1 w2 w3
  intro hr ho
  exact (stepLoop_settled h (k := k) (w := w2) (List.mem_cons_self ..) hr ho).same rfl rfl rfl rfl rfl

theorem Good.down {a b : World} (h : Good E lab S a b) (hr : b.reent = false) : b.down = a.down := by
  have := congrArg Core.down (h.frame hr).2.1; exact this

theorem Good.order {a b : World} (h : Good E lab S a b) (hr : b.reent = false) :
    b.order = a.order := by
  have := congrArg Core.order (h.frame hr).2.1; exact this

theorem HeadOk.good {a b : World} (hh : HeadOk a) (h : Good E lab S a b) (ho : OrdOk a.toCore)
    (hr : b.reent = false) : HeadOk b := by
  obtain ⟨l, e, hl⟩ := (h.steps ho).quiet (h.count hr)
  exact hh.append e hl

theorem stepAll_iter (h : SOk E R) : ∀ (n : Nat) (suf pre : List Key) (w : World),
    OrdOk w.toCore → HeadOk w → w.down = false → w.order = pre ++ suf →
    (∀ k ∈ pre, Settled w.toCore k) →
    let w' := iter (fun k w => if tyAny (w.svc k).type then R.step k w else w) n suf.head? w
    w'.reent = false → w'.oof = false → ∀ k ∈ w.order, Settled w'.toCore k := by
  intro n
  induction n with
  | zero =>
    intro suf pre w _ _ _ he hp
    cases suf with
    | nil => intro w' _ _ k hk; exact hp k (by rw [List.append_nil] at he; rw [← he]; exact hk)
    | cons x xs => intro w' _ ho; exact absurd ho (by simp [w', iter])
  | succ n ih =>
    intro suf pre w ho hh hd he hp
    cases suf with
    | nil => intro w' _ _ k hk; exact hp k (by rw [List.append_nil] at he; rw [← he]; exact hk)
    | cons x xs =>
      have hx : x ∈ w.order := by rw [he]; simp
      have hnd := ho.1
      rw [he] at hnd
      have hxp : x ∉ pre := fun h => by
        have := (List.nodup_append.mp hnd).2.2 x h x (by simp)
        exact this rfl
      have hn : nextOf w.toCore x = xs.head? := by
        unfold nextOf
        rw [if_pos hx, he]
        have : (pre ++ x :: xs).dropWhile (· ≠ x) = x :: xs := by
          rw [List.dropWhile_append_of_pos (by intro a ha; have : a ≠ x := (fun e => hxp (by rw [← e]; exact ha)); simpa using this)]
          simp
        rw [this]; rfl
      unfold iter
      simp only [List.head?_cons, hn, tyAny, if_true]
      intro hr hoof
      -- what the rest of the loop does
      have rest : Good E still (fun j => j ∈ (R.step x w).stack) (R.step x w)
          (iter (fun k w => R.step k w) n xs.head? (R.step x w)) := iter_good (fun k w => h.ok.step k w) _ _ _
      have g := h.ok.step x w
      have hr1 : (R.step x w).reent = false := reent_false rest.mono hr
      have st1 := g.steps ho
      have ho1 := st1.ord ho
      have hoof1 : (R.step x w).oof = false := by
        cases h1 : (R.step x w).oof with
        | false => rfl
        | true => rw [(rest.steps ho1).oof h1] at hoof; cases hoof
      have e1 : (R.step x w).order = w.order := g.order hr1
      have := ih xs (pre ++ [x]) (R.step x w) ho1 (hh.good g ho hr1) ((g.down hr1).trans hd)
        (by rw [e1, he]; simp) (by
          intro j hj
          rcases List.mem_append.mp hj with hj | hj
          · exact st1.settled hr1 (g.count hr1) hh (hp j hj)
          · rw [List.mem_singleton.mp hj]; exact h.step x w hd hr1 hoof1)
      simp only [tyAny, if_true] at this
      intro k hk
      exact this hr hoof k (by rw [e1]; exact hk)

/-- Once every service has had its turn, those that may not run are settled. -/
theorem stepAll_settled (h : SOk E R) {w : World} (ho : OrdOk w.toCore) (hh : HeadOk w)
    (hd : w.down = false) (hr : (stepAll R tyAny w).reent = false)
    (hoof : (stepAll R tyAny w).oof = false) :
    ∀ k ∈ (stepAll R tyAny w).order, Settled (stepAll R tyAny w).toCore k := by
  have g := stepAll_good h.ok tyAny w
  rw [g.order hr]
  exact stepAll_iter h R.fuel w.order [] w ho hh hd rfl (by simp) hr hoof

end

end Verif.Sup
