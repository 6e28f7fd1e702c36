import Verif.Sup.Publish

/-!
# Supervisor model: how the command of a run/task ended
-/

namespace Verif.Sup

open Verif (CStr CondStore)

section
variable {E : Env}

/-- Spec: how the process running the command of service `k` that was collected last has ended. -/
def lastExit (k : Key) : List (Core × Eff) → Option WStatus
  | [] => none
  | (_, .reap p (some st)) :: t => if p ∈ mainAlive k t then some st else lastExit k t
  | _ :: t => lastExit k t

theorem lastExit_kids (k : Key) (t : List (Core × Eff)) : lastExit k (kids t) = lastExit k t := by
  induction t with
  | nil => rfl
  | cons x t ih =>
    obtain ⟨c, e⟩ := x
    cases e with
    | spawn q j role => rw [kids_keep rfl]; simp [lastExit, ih]
    | reap q st =>
      rw [kids_keep rfl]
      cases st <;> simp [lastExit, ih, mainAlive_kids]
    | _ => rw [kids_skip rfl]; simp [lastExit, ih]

/-- How an atomic update changes what is known about the end of the command of `k`. -/
inductive Ends (E : Env) (a b : World) (k : Key) : Prop
  | same (ht : lastExit k b.trace = lastExit k a.trace) (h1 : (b.svc k).started = (a.svc k).started)
      (h2 : (b.svc k).status = (a.svc k).status)
  | new (ht : lastExit k b.trace = lastExit k a.trace) (hk : k = a.nextKey)
      (h1 : (b.svc k).started = false)
  | collect (j : Key) (p : Int) (st : WStatus) (hl : p ∈ a.live) (hf : findByPid a.toCore p = some j)
      (hp : (a.svc j).pid = p) (h1 : 1 < p) (e : b = monitorHead E j st (reap p (some st) a))
  | other (p : Int) (st : WStatus) (hl : p ∈ a.live) (hf : findByPid a.toCore p = none ∨ p ≤ 1)
      (e : b = reap p (some st) a)
  | lost (j : Key) (st : WStatus) (hl : (a.svc j).pid ∉ a.live) (h1 : 1 < (a.svc j).pid)
      (hk : j ∈ a.order) (e : b = monitorHead E j st a)

theorem Prim.ends {lab : Lab} {a b : World} (h : Prim E lab a b) (k : Key) : Ends E a b k := by
  have same : lastExit k b.trace = lastExit k a.trace → b.svc = a.svc → Ends E a b k :=
    fun h1 h2 => .same h1 (by rw [h2]) (by rw [h2])
  have one : ∀ {j s}, lastExit k b.trace = lastExit k a.trace → b.svc = upd a.svc j s →
      s.started = (a.svc j).started → s.status = (a.svc j).status → Ends E a b k := by
    intro j s h1 h2 h3 h4
    by_cases hj : k = j
    · subst hj
      exact .same h1 (by rw [h2, upd_same]; exact h3) (by rw [h2, upd_same]; exact h4)
    · exact .same h1 (by rw [h2, upd_other _ _ _ _ hj]) (by rw [h2, upd_other _ _ _ _ hj])
  cases h with
  | glob _ h => apply same <;> rw [h.1]
  | ub => exact same rfl rfl
  | svc j s' h =>
    refine one rfl rfl ?_ ?_
    · cases h with
      | minor _ h => rw [h]
      | apply z x y =>
        obtain ⟨_, _, _, _, _, _, _, _, _, _, _, _, e⟩ := applyStanza_eq z x y (a.svc j)
        rw [e]
      | _ => rfl
    · cases h with
      | minor _ h => rw [h]
      | apply z x y =>
        obtain ⟨_, _, _, _, _, _, _, _, _, _, _, _, e⟩ := applyStanza_eq z x y (a.svc j)
        rw [e]
      | _ => rfl
  | state j new h =>
    obtain ⟨t, x, _, e⟩ := setStateRaw_eq j new a
    rw [e] at one ⊢
    refine one ?_ rfl rfl rfl
    dsimp only; split <;> rfl
  | pause j =>
    obtain ⟨t, x, _, e⟩ := setStateRaw_eq j .paused (Sup.kill E (a.svc j).pid 19 .pause j a).2
    rw [e] at one ⊢
    refine one ?_ rfl rfl rfl
    dsimp only; split <;> rfl
  | retryForce j =>
    obtain ⟨y, e2⟩ := timerCancel_eq j a
    rw [e2] at one ⊢
    simp only [Sup.mod, upd_same, upd_upd] at one ⊢
    obtain ⟨t, x, _, e⟩ := setStateRaw_eq j .running
      { a with svc := upd a.svc j { a.svc j with timer := none, armed := y,
                                                 restartTmo := (a.svc j).restartSaved } }
    rw [e] at one ⊢
    simp only [upd_same, upd_upd] at one ⊢
    refine one ?_ rfl rfl rfl
    split <;> rfl
  | retryRespawn j =>
    obtain ⟨y, e2⟩ := timerCancel_eq j a
    rw [e2] at one ⊢
    simp only [Sup.mod, upd_same, upd_upd] at one ⊢
    exact one trivial rfl rfl rfl
  | retryGiveUp j =>
    obtain ⟨y, e2⟩ := timerCancel_eq j a
    rw [e2] at one ⊢
    simp only [Sup.mod, emit, upd_same, upd_upd] at one ⊢
    exact one rfl rfl rfl rfl
  | retryAgain j =>
    obtain ⟨y, e2⟩ := timerCancel_eq j a
    rw [e2] at one ⊢
    simp only [Sup.mod, emit, upd_same, upd_upd] at one ⊢
    exact one rfl rfl rfl rfl
  | start j p x hp hl hb he hs =>
    rw [start_eq j p x a hs] at one ⊢
    exact one rfl rfl rfl rfl
  | startBad j p =>
    rw [startParent_eq] at one ⊢
    exact one rfl rfl rfl rfl
  | collect j p st hl hf hp h1 h => exact .collect j p st hl hf hp h1 rfl
  | collectOther p st hl hf h => exact .other p st hl hf rfl
  | lost j st hl h1 hk => exact .lost j st hl h1 hk rfl
  | age j => exact one rfl rfl rfl rfl
  | bump j => exact one rfl rfl rfl rfl
  | dirty => exact .same rfl rfl rfl
  | confRead =>
    exact .same rfl (by rw [markDynamic_svc]; rfl) (by rw [markDynamic_svc]; rfl)
  | confEnd =>
    exact .same rfl (by rw [markUnavail_svc]; rfl) (by rw [markUnavail_svc]; rfl)
  | script j p role => exact one rfl rfl rfl rfl
  | delBoot j => exact one rfl rfl rfl rfl
  | regOld z j h =>
    have e : regObj z a = Sup.mod j (fun s => { s with
        type := z.type, block := if z.manual then s.block else .none
        odd := s.odd || z.odd, zs := z :: s.zs, removed := false }) (Sup.emit (.reg j) a) := by
      unfold regObj; rw [h]
    rw [e] at one ⊢
    exact one rfl rfl rfl rfl
  | regNew z h =>
    unfold regObj; rw [h]
    by_cases hk : k = a.nextKey
    · exact .new rfl hk (by simp only [Sup.emit]; rw [hk, upd_same])
    · refine .same rfl ?_ ?_ <;> (simp only [Sup.emit]; rw [upd_other _ _ _ _ hk])
  | _ => exact same rfl rfl

/-- The service objects only have a pre: script if some stanza says so. -/
def PreZs (s : Svc) : Prop := s.pre = true → ∃ z ∈ s.zs, z.pre.isSome = true

theorem PreZs.prim {lab : Lab} {a b : World} (k : Key) (h : Prim E lab a b)
    (ha : PreZs (a.svc k)) : PreZs (b.svc k) := by
  cases h.view k with
  | same e => rw [e]; exact ha
  | mod s' h e =>
    rw [e]
    cases h with
    | minor _ h => rw [h]; exact ha
    | apply z x y ho ht hb hk hz =>
      obtain ⟨_, _, _, _, _, _, _, _, _, _, _, _, e⟩ := applyStanza_eq z x y (a.svc k)
      rw [e]; exact fun hp => ⟨z, hz, hp⟩
    | _ => exact ha
  | exit s' hp hl hs ht e => rw [e, hs]; exact ha
  | reg z h hz hs ht e =>
    rw [e]; intro hp
    obtain ⟨y, hy, e⟩ := ha hp
    exact ⟨y, List.mem_cons_of_mem _ hy, e⟩
  | new z h hb hz hs ht e => rw [e]; intro hp; cases hp
  | state new t x h ht e => rw [e]; exact ha
  | force x h ht hr hs hf e => rw [e]; exact ha
  | respawn x h ht hr e => rw [e]; exact ha
  | giveUp x h ht hr hs hb hm hc e => rw [e]; exact ha
  | again x sv tm h ht hr hs hb hc e => rw [e]; exact ha
  | age h hs e => rw [e]; exact ha
  | bump h e => rw [e]; exact ha
  | marks r d hr hp hs e => rw [e]; exact ha
  | start p x hp hl hb he hs e hv ht => rw [e]; exact ha
  | startBad p x hp hl hb he hs hn e hv ht => rw [e]; exact ha
  | script p role hp hl hr h e hv ht => rw [e]; exact ha
  | delBoot h hb e => rw [e]; exact ha

/-- What holds of the process of a run/task without pre: script. -/
structure ExitOwn (k : Key) (w : World) : Prop where
  setup : (w.svc k).state ≠ .setup
  own : 1 < (w.svc k).pid → (w.svc k).pid ∈ w.main k ∨ (w.svc k).state = .teardown ∨
    (w.svc k).state = .cleanup

theorem ExitOwn.prim {lab : Lab} {a b : World} {k : Key} (hr : a.reent = false)
    (hf : (a.svc k).forking = false) (hpre : (a.svc k).pre = false) (hl : lab ≠ .retry k)
    (hkb : k ∈ b.order) (hbb : Books b) (ho : OwnsPid b)
    (hn : (a.svc k).notify ≠ .systemd ∧ (a.svc k).notify ≠ .s6)
    (h : Prim E lab a b) (ha : ExitOwn k a) (hnk : k < a.nextKey) : ExitOwn k b := by
  -- the process of the command stays what it is as long as it has not been collected
  have main : ∀ p, p ∈ a.main k → p ∈ b.live → p ∈ b.main k := by
    intro p h1 h2
    cases h.kids with
    | same hl hm ht hr => rw [hm]; exact h1
    | spawn q j role hp hf hs hv ho hl hm ht hr' =>
      rw [hm]; split
      · by_cases hj : k = j
        · subst hj; rw [upd_same]; exact List.mem_cons_of_mem _ h1
        · rw [upd_other _ _ _ _ hj]; exact h1
      · exact h1
    | reap q c hf hv hl hm ht hr =>
      rw [hm]; rw [hl] at h2
      exact List.mem_filter.mpr ⟨h1, (List.mem_filter.mp h2).2⟩
    | script q j role c hp hf hn hl hm ht hr =>
      rw [hm]; rw [hl] at h2
      exact List.mem_filter.mpr ⟨h1, (List.mem_filter.mp h2).2⟩
    | adopt q hp hf hl hm ht hr => rw [hm]; exact h1
    | new hn hl hm ht hr => rw [hm, upd_other _ _ _ _ (Nat.ne_of_lt hnk)]; exact h1
  have keep : (b.svc k).pid = (a.svc k).pid → (b.svc k).state = (a.svc k).state → ExitOwn k b := by
    intro h1 h2
    refine ⟨by rw [h2]; exact ha.setup, fun hp => ?_⟩
    have hv := (ho k hkb hp).1
    rw [h1] at hp hv ⊢
    rw [h2]
    rcases ha.own hp with h | h
    · exact .inl (main _ h hv)
    · exact .inr h
  have gone : (b.svc k).pid ≤ 1 → (b.svc k).state = (a.svc k).state → ExitOwn k b := fun h1 h2 =>
    ⟨by rw [h2]; exact ha.setup, fun hp => absurd hp (by omega)⟩
  cases h.view k with
  | same e => exact keep (by rw [e]) (by rw [e])
  | mod s' h e =>
    cases h with
    | minor _ h => rw [h] at e; exact keep (by rw [e]) (by rw [e])
    | forkedPid p x h hf' => rw [hf' hr] at hf; cases hf
    | pidLost | pidOdd | pidNone | scriptFail => exact gone (by rw [e]; simp) (by rw [e])
    | apply z x y =>
      obtain ⟨_, _, _, _, _, _, _, _, _, _, _, _, e'⟩ := applyStanza_eq z x y (a.svc k)
      rw [e'] at e; exact keep (by rw [e]) (by rw [e])
    | _ => exact keep (by rw [e]) (by rw [e])
  | state new t x h ht e =>
    have hns : new ≠ .setup := by
      intro hs; subst hs
      cases h with
      | waitSetup h he ha hr hc hp => rw [hpre] at hp; cases hp
    refine ⟨by rw [e]; exact hns, fun hp => ?_⟩
    have hv := (ho k hkb hp).1
    have e1 : (b.svc k).pid = (a.svc k).pid := by rw [e]
    rw [e1] at hp hv ⊢
    rcases ha.own hp with h' | h' | h'
    · exact .inl (main _ h' hv)
    · exfalso
      cases h with
      | tearCleanup _ h0 | tearHalted _ h0 => omega
      | stopDone h | stopTear h | stopCleanup h | stopHalted h => have := (h hr).1; rw [h'] at this; cases this
      | redo h => rcases h hr with h | h <;> rw [h'] at h <;> cases h
      | stop h | lost h => rw [h'] at h; revert h; decide
      | forked p b h hf' => rw [hf'] at hf; cases hf
      | _ h => rw [h'] at h; cases h
    · exfalso
      cases h with
      | cleanHalted _ h0 => omega
      | stopDone h | stopTear h | stopCleanup h | stopHalted h => have := (h hr).1; rw [h'] at this; cases this
      | redo h => rcases h hr with h | h <;> rw [h'] at h <;> cases h
      | stop h | lost h => rw [h'] at h; revert h; decide
      | forked p b h hf' => rw [hf'] at hf; cases hf
      | _ h => rw [h'] at h; cases h
  | force x h ht hr hs hf e => exact absurd h hl
  | respawn x h ht hr e => exact absurd h hl
  | giveUp x h ht hr hs hb hm hc e => exact absurd h hl
  | again x sv tm h ht hr hs hb hc e => exact absurd h hl
  | age h hs e => exact keep (by rw [e]) (by rw [e])
  | bump h e => exact keep (by rw [e]) (by rw [e])
  | marks r d hr hp hs e => exact keep (by rw [e]) (by rw [e])
  | start p x hp' hl hb he hs e hv ht =>
    refine ⟨by rw [e]; simp, fun _ => .inl ?_⟩
    obtain ⟨c, ht⟩ := ht
    rw [hbb.spec k, ht, e]; simp [mainAlive]
  | startBad p x hp' hl hb he hs hn' e hv ht =>
    rcases hn' with h | h
    · exact absurd h hn.1
    · exact absurd h hn.2
  | script p role hp' hl' hro h e hv ht =>
    have hs : (b.svc k).state = (a.svc k).state := by rw [e]
    refine ⟨by rw [hs]; exact ha.setup, fun _ => ?_⟩
    rw [hs]
    rcases h hr with ⟨_, h⟩ | ⟨_, h⟩ | ⟨_, h⟩ | ⟨_, _, _, h⟩
    · exact absurd h ha.setup
    · exact .inr (.inl h)
    · exact .inr (.inr h)
    · exact absurd h hl
  | exit s' hp' hl hs ht e => rw [hs] at e; exact gone (by rw [e]; simp) (by rw [e])
  | delBoot h hb e => exact absurd hkb hb
  | reg z h hz hs ht e => exact keep (by rw [e]) (by rw [e])
  | new z h => exact absurd hnk (by rw [h]; exact Nat.lt_irrefl _)

theorem monitorHead_task (k : Key) (st : WStatus) (w : World) (ht : (w.svc k).type.isRuntask = true)
    (hf : (w.svc k).forking = false) (hs : (w.svc k).state ≠ .setup) :
    (((w.svc k).state = .teardown ∨ (w.svc k).state = .cleanup) →
      ((monitorHead E k st w).svc k).started = (w.svc k).started ∧
      ((monitorHead E k st w).svc k).status = (w.svc k).status) ∧
    (¬ ((w.svc k).state = .teardown ∨ (w.svc k).state = .cleanup) →
      ((monitorHead E k st w).svc k).started = st.ok ∧
      ((monitorHead E k st w).svc k).status = st) := by
  have hd : ((w.svc k).type.isDaemon || decide ((w.svc k).type = .tty)) = false := by
    cases e : (w.svc k).type <;> rw [e] at ht <;> first | (cases ht; done) | rfl
  refine ⟨fun h => ?_, fun h => ?_⟩
  · unfold monitorHead
    extract_lets x w1
    rw [if_pos (Or.inr h)]
    obtain ⟨y, e⟩ := timerCancel_eq k w1
    rw [e]
    have hx : x ≠ .setup := hs
    simp only [Sup.mod, upd_same, hx, if_false]
    exact ⟨rfl, rfl⟩
  · unfold monitorHead
    extract_lets x w1
    rw [if_neg (fun h' => h'.elim hs h), hf]
    simp only [Bool.false_and]
    have e : ((w1.svc k).type.isDaemon || decide ((w1.svc k).type = .tty)) = false := hd
    rw [e]
    simp [Sup.mod]

theorem monitorHead_other {k j : Key} (st : WStatus) (w : World) (hj : k ≠ j) :
    (monitorHead E j st w).svc k = w.svc k := by
  obtain ⟨s', tr, t, e, _⟩ := monitorHead_eq (E := E) j st w
  rw [e]; exact upd_other _ _ _ _ hj

theorem monitorHead_lastExit (k j : Key) (st : WStatus) (w : World) :
    lastExit k (monitorHead E j st w).trace = lastExit k w.trace := by
  obtain ⟨s', tr, t, e, _, _, h⟩ := monitorHead_eq (E := E) j st w
  rw [e]; dsimp only
  rcases h with h | h <;> rw [h] <;> rfl

/-- No command of a service that does not exist has ended. -/
theorem lastExit_none {lab : Lab} {a b : World} (k : Key) (hb : Books a) (h : Prim E lab a b)
    (ha : a.nextKey ≤ k → lastExit k a.trace = none) :
    a.nextKey ≤ k → lastExit k b.trace = none := by
  intro hk'
  have h0 := ha hk'
  have hm : mainAlive k a.trace = [] := by rw [← hb.spec k]; exact hb.fresh k hk'
  have hreap : ∀ p st, lastExit k (reap p (some st) a).trace = none := by
    intro p st
    show (if p ∈ mainAlive k a.trace then some st else lastExit k a.trace) = none
    rw [hm, if_neg List.not_mem_nil]; exact h0
  cases h.ends k with
  | same ht | new ht => rw [ht]; exact h0
  | collect j p st hl hf hp h1 e => rw [e, monitorHead_lastExit]; exact hreap p st
  | other p st hl hf e => rw [e]; exact hreap p st
  | lost j st hl h1 hk e => rw [e, monitorHead_lastExit]; exact h0

/-- What is on record about how a run/task ended is how its command did. -/
structure ExitRes (k : Key) (w : World) : Prop where
  started : (w.svc k).started = ((lastExit k w.trace).map WStatus.ok).getD false
  status : ∀ st, lastExit k w.trace = some st → (w.svc k).status = st

theorem findByPid_look {c : Core} {p : Int} {k : Key} (hf : findByPid c p = some k) :
    k ∈ c.order ∧ (c.svc k).pid = p := by
  refine ⟨List.mem_of_find?_eq_some hf, ?_⟩
  have := List.find?_some hf
  simpa using this

/-- Which ends of processes make a difference for a run/task. -/
theorem Ends.cases {a b : World} {k : Key} (hk : k ∈ a.order) (hnk : k < a.nextKey)
    (hbk : Books a) (htr : Tracks a k) (ho : OwnsPid a) (hx : ExitOwn k a)
    (hty : (a.svc k).type.isRuntask = true) (hf : (a.svc k).forking = false) (h : Ends E a b k) :
    (lastExit k b.trace = lastExit k a.trace ∧ (b.svc k).started = (a.svc k).started ∧
      (b.svc k).status = (a.svc k).status) ∨
    (∃ st, lastExit k b.trace = some st ∧ (b.svc k).started = st.ok ∧ (b.svc k).status = st ∧
      ((a.svc k).state = .running ∨ (a.svc k).state = .paused ∨ (a.svc k).state = .stopping)) := by
  have look : ∀ p, p ∈ a.main k → (a.svc k).pid = p ∧ 1 < p ∧
      ((a.svc k).state = .running ∨ (a.svc k).state = .paused ∨ (a.svc k).state = .stopping) := by
    intro p hp
    rcases htr with h | ⟨q, h1, h2, h3⟩
    · rw [h] at hp; cases hp
    · rw [h1] at hp
      have := List.mem_singleton.mp hp
      subst this
      exact ⟨h2, hbk.live p (hbk.main k p (by rw [h1]; exact List.mem_cons_self ..)), h3⟩
  have htrc : ∀ p st, lastExit k (reap p (some st) a).trace =
      if p ∈ a.main k then some st else lastExit k a.trace := by
    intro p st; rw [hbk.spec k]; rfl
  cases h with
  | same ht h1 h2 => exact .inl ⟨ht, h1, h2⟩
  | new ht h => exact absurd hnk (by rw [h]; exact Nat.lt_irrefl _)
  | collect j p st hl hfd hp h1 e =>
    subst e
    rw [monitorHead_lastExit, htrc]
    by_cases hm : p ∈ a.main k
    · obtain ⟨q1, _, q3⟩ := look p hm
      have hj : j = k := by
        have h2 := (ho j (findByPid_look hfd).1 (by rw [hp]; exact h1)).2
        have h3 := (ho k hk (by rw [q1]; exact h1)).2
        rw [hp] at h2; rw [q1, h2] at h3
        exact Option.some.inj h3
      subst hj
      right
      rw [if_pos hm]
      obtain ⟨_, m2⟩ := monitorHead_task (E := E) j st (reap p (some st) a) hty hf hx.setup
      obtain ⟨m3, m4⟩ := m2 (by
        show ¬ ((a.svc j).state = .teardown ∨ (a.svc j).state = .cleanup)
        rcases q3 with h | h | h <;> rw [h] <;> decide)
      exact ⟨st, rfl, m3, m4, q3⟩
    · left
      rw [if_neg hm]
      refine ⟨rfl, ?_⟩
      by_cases hj : k = j
      · subst hj
        obtain ⟨m1, _⟩ := monitorHead_task (E := E) k st (reap p (some st) a) hty hf hx.setup
        refine m1 ?_
        rcases hx.own (by rw [hp]; exact h1) with h | h
        · rw [hp] at h; exact absurd h hm
        · exact h
      · rw [monitorHead_other _ _ hj]; exact ⟨rfl, rfl⟩
  | other p st hl hfd e =>
    subst e
    rw [htrc]
    left
    rw [if_neg]
    · exact ⟨rfl, rfl, rfl⟩
    · intro hm
      obtain ⟨q1, q2, _⟩ := look p hm
      rcases hfd with h | h
      · have := List.find?_eq_none.mp h k hk
        simp [q1] at this
      · omega
  | lost j st hl h1 hjo e =>
    subst e
    rw [monitorHead_lastExit]
    left
    refine ⟨rfl, ?_⟩
    exact absurd (ho j hjo h1).1 hl

theorem ExitRes.step {a b : World} {k : Key} (h : ExitRes k a)
    (hc : (lastExit k b.trace = lastExit k a.trace ∧ (b.svc k).started = (a.svc k).started ∧
      (b.svc k).status = (a.svc k).status) ∨
    (∃ st, lastExit k b.trace = some st ∧ (b.svc k).started = st.ok ∧ (b.svc k).status = st ∧
      ((a.svc k).state = .running ∨ (a.svc k).state = .paused ∨ (a.svc k).state = .stopping))) :
    ExitRes k b := by
  rcases hc with ⟨h1, h2, h3⟩ | ⟨st, h1, h2, h3, _⟩
  · exact ⟨by rw [h1, h2]; exact h.started, by rw [h1, h3]; exact h.status⟩
  · refine ⟨by rw [h1, h2]; rfl, ?_⟩
    rw [h1, h3]; intro s e; exact Option.some.inj e

theorem hist_mine (k : Key) (t : List (Core × Eff)) : hist k (mine k t) = hist k t := by
  unfold hist mine
  rw [List.filter_filter]
  refine List.filter_congr fun x _ => ?_
  obtain ⟨c, e⟩ := x
  cases e <;> simp [Eff.about, Eff.key]

/-- While a run/task is done, what is on record about it stays as it was when it got done. -/
def DoneRec (k : Key) (w : World) : Prop :=
  (w.svc k).state = .done → ∀ c x tl, hist k w.trace = (c, .trans k x .done) :: tl →
    (c.svc k).started = (w.svc k).started ∧ (c.svc k).status = (w.svc k).status

theorem DoneRec.prim {lab : Lab} {a b : World} {k : Key}
    (hc : (lastExit k b.trace = lastExit k a.trace ∧ (b.svc k).started = (a.svc k).started ∧
      (b.svc k).status = (a.svc k).status) ∨
    (∃ st, lastExit k b.trace = some st ∧ (b.svc k).started = st.ok ∧ (b.svc k).status = st ∧
      ((a.svc k).state = .running ∨ (a.svc k).state = .paused ∨ (a.svc k).state = .stopping)))
    (hl : lab ≠ .retry k) (hkb : k ∈ b.order) (hnk : k < a.nextKey) (h : Prim E lab a b)
    (ha : DoneRec k a) : DoneRec k b := by
  have keep : (b.svc k).state = (a.svc k).state → hist k (mine k b.trace) = hist k (mine k a.trace) →
      DoneRec k b := by
    intro h1 h2 hd c x tl ht
    rw [hist_mine, hist_mine] at h2
    rw [h2] at ht
    rw [h1] at hd
    rcases hc with ⟨_, h3, h4⟩ | ⟨_, _, _, _, h5⟩
    · rw [h3, h4]; exact ha hd c x tl ht
    · rw [hd] at h5; rcases h5 with h | h | h <;> cases h
  cases h.turn k with
  | same e hm => exact keep (by rw [e]) (by rw [hm])
  | mod s' h e hm => exact keep (by rw [e]; exact h.state) (by rw [hm])
  | state new t x n h ht e hm =>
    by_cases hs : (a.svc k).state = new
    · rw [if_pos hs] at hm
      exact keep (by rw [e]; exact hs.symm) (by rw [hm])
    · rw [if_neg hs] at hm
      intro hd c y tl hh
      rw [← hist_mine, hm, hist_keep (by simp [Eff.about])] at hh
      injection hh with hh _
      injection hh with hh _
      rw [e, ← hh]
      simp
  | force x y h => exact absurd h hl
  | respawn x h => exact absurd h hl
  | giveUp x h => exact absurd h hl
  | again x sv tm h => exact absurd h hl
  | age h hs e hm => exact keep (by rw [e]) (by rw [hm, hist_skip rfl])
  | bump h e hm => exact keep (by rw [e]) (by rw [hm, hist_skip rfl])
  | forced h => exact absurd h hl
  | lifted h ha e hm => exact keep (by rw [e]) (by rw [hm, hist_skip rfl])
  | asked e hm => exact keep (by rw [e]) (by rw [hm, hist_skip rfl])
  | marks r d hr hp hs e hm => exact keep (by rw [e]) (by rw [hm])
  | start p x c hp hl hb he hs e hm =>
    intro hd; rw [e] at hd; cases hd
  | startBad p x hp hl hb he hs hn e hm => exact keep (by rw [e]) (by rw [hm, hist_skip rfl])
  | script p role hp hl hr h e hm => exact keep (by rw [e]) (by rw [hm])
  | exit s' hp hs ht e hm => rw [hs] at e; exact keep (by rw [e]) (by rw [hm])
  | del e hr hb => exact absurd hkb hb
  | delBoot h hb => exact absurd hkb hb
  | reg z h hz hs e hm => exact keep (by rw [e]) (by rw [hm, hist_skip rfl])
  | new z h => exact absurd hnk (by rw [h]; exact Nat.lt_irrefl _)

/-- Stanzas of run/tasks that have no pre: script. -/
def PlainTask (z : Stanza) : Prop := z.type.isRuntask = true ∧ z.pre = none

structure ExitInv (k : Key) (w : World) : Prop where
  own : ExitOwn k w
  res : ExitRes k w
  done : DoneRec k w

theorem Reach.exitInv (hE : PlainEnv E) {w : World} (h : Reach E w) (hr : w.reent = false) {k : Key}
    (hk : k ∈ w.order) (hz : ∀ z ∈ (w.svc k).zs, PlainTask z) : ExitInv k w := by
  refine (h.inv_born (P := fun w => OwnOk w ∧ Typed k w ∧ PreZs (w.svc k) ∧
    (w.nextKey ≤ k → lastExit k w.trace = none) ∧
    (w.reent = false → k ∈ w.order → (∀ z ∈ (w.svc k).zs, PlainTask z) → ExitInv k w)) ?_ ?_ hr).2.2.2.2.2
    hr hk hz
  · intro cfg cmd
    exact ⟨.start cfg cmd, .start k cfg cmd, fun h => (by cases h), fun _ => rfl, fun _ h => (nomatch h)⟩
  · intro w0 ev a b p0 hz0 ho ha ua ub pr ⟨a1, a2, a3, a4, a5⟩
    have hl : (∀ z ∈ (a.svc k).zs, z.type.isRuntask = true) → labOf w0 ev ≠ .retry k := by
      intro x e
      exact (p0.2.1.calm (fun z y => x z (hz0 k z y))).1 (labOf_retry e).2
    have b1 : OwnOk b := a1.prim hE ho pr
    have b4 := lastExit_none k a1.proc.books pr a4
    refine ⟨b1, a2.prim ho ha ua hl pr, a3.prim k pr, fun x => b4 (Nat.le_trans pr.nextKey x),
      fun hrb hkb hzb => ?_⟩
    by_cases hnk : k < a.nextKey
    · have hka : k ∈ a.order := (pr.order k hkb).resolve_right (Nat.ne_of_lt hnk)
      have hza : ∀ z ∈ (a.svc k).zs, PlainTask z := fun z hz =>
        hzb z (zs_sub (fun k hk => (ua k hk).zs) k pr z hz)
      have hlk := hl fun z x => (hza z x).1
      obtain ⟨i1, i2, i3⟩ := a5 ha hka hza
      have hpl := a1.proc.plain k (a1.odd k)
      have hpre : (a.svc k).pre = false := by
        cases e : (a.svc k).pre with
        | false => rfl
        | true =>
          obtain ⟨z, h1, h2⟩ := a3 e
          rw [(hza z h1).2] at h2; cases h2
      have hty : (a.svc k).type.isRuntask = true := by
        obtain ⟨z, h1, h2⟩ := a2.type hnk
        rw [h2]; exact (hza z h1).1
      have hc := (pr.ends k).cases hka hnk a1.proc.books (a1.proc.tracks ha k hka (a1.odd k))
        (a1.owns ha) i1 hty hpl.1
      exact ⟨i1.prim ha hpl.1 hpre hlk hkb b1.proc.books (b1.owns hrb) hpl.2.2.2 pr hnk, i2.step hc,
        i3.prim hc hlk hkb hnk pr⟩
    · have hn := Nat.le_of_not_lt hnk
      have hkn : k = a.nextKey := (pr.order k hkb).resolve_left fun x => hnk (ho.2 k x)
      have hb := b4 hn
      rcases pr.created with e | ⟨_, z, e⟩
      · exact absurd ((pr.ord ho).2 k hkb) (by rw [e]; exact hnk)
      · rw [← hkn] at e
        exact ⟨⟨by rw [e]; simp, by rw [e]; simp⟩, ⟨by rw [hb, e]; rfl, by rw [hb]; simp⟩,
          fun hd => by rw [e] at hd; cases hd⟩

end

end Verif.Sup
