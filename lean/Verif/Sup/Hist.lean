import Verif.Sup.Inv

/-!
# Supervisor model: the history of one service

The state of a service is determined by the state changes recorded in the trace.
-/

namespace Verif.Sup

open Verif (CStr CondStore)

section
variable {E : Env}

/-- Does this effect change the state of service `k`? -/
def Eff.about (k : Key) : Eff → Bool
  | .trans j _ _ => decide (j = k)
  | .new j => decide (j = k)
  | _ => false

/-- The part of the trace that is about the state of `k`. -/
def hist (k : Key) (t : List (Core × Eff)) : List (Core × Eff) := t.filter (fun x => x.2.about k)

/-- How one atomic update affects the state of service `k`. -/
inductive StChange (a b : World) (k : Key) : Prop
  | same (h : (b.svc k).state = (a.svc k).state) (ht : hist k b.trace = hist k a.trace)
  | trans (c : Core) (new : SState) (h : (b.svc k).state = new) (hne : (a.svc k).state ≠ new)
      (hc : EffOk c (.trans k (a.svc k).state new))
      (ht : hist k b.trace = (c, .trans k (a.svc k).state new) :: hist k a.trace)
  | new (h : (b.svc k).state = .halted) (hk : k = a.nextKey)
      (ht : hist k b.trace = (a.toCore, .new k) :: hist k a.trace)

theorem hist_skip {k : Key} {x : Core × Eff} {t : List (Core × Eff)} (h : x.2.about k = false) :
    hist k (x :: t) = hist k t := by
  simp [hist, h]

theorem hist_keep {k : Key} {x : Core × Eff} {t : List (Core × Eff)} (h : x.2.about k = true) :
    hist k (x :: t) = x :: hist k t := by
  simp [hist, h]

theorem upd_state {f : Key → Svc} {k j : Key} {s : Svc} (h : s.state = (f k).state) :
    (upd f k s j).state = (f j).state := by
  simp only [upd]; split
  · rename_i e; rw [e, h]
  · rfl

theorem SnapOf.state {a : World} {c : Core} (h : SnapOf a c) (k : Key) :
    (c.svc k).state = (a.svc k).state := by
  rcases h with rfl | ⟨j, t, x, r, rfl⟩
  · rfl
  · exact upd_state (f := a.svc) (k := j) rfl

theorem Minor.state {s s' : Svc} (h : Minor s s') : s'.state = s.state := by rw [h]

theorem parseCond_eq (a : Option CStr) (s : Svc) :
    ∃ c h o, parseCond a s = { s with cond := c, sighup := h, once := o } := by
  unfold parseCond
  dsimp only
  split
  · split <;> exact ⟨_, _, _, rfl⟩
  · split
    · split <;> split <;> split <;> exact ⟨_, _, _, rfl⟩
    · split <;> split <;> exact ⟨_, _, _, rfl⟩

/-- What registration changes in an existing object. -/
theorem applyStanza_eq (z : Stanza) (x y : Bool) (s : Svc) :
    ∃ c h o dv sh t1 t2 t3 t4 rt d ad, applyStanza z x y s =
      { s with
        levels := z.levels, cond := c, sighup := h, once := o, dev := dv, sighalt := sh
        killdelay := z.killdelay, pre := z.pre.isSome, post := z.post.isSome, ready := z.ready.isSome
        cleanup := z.cleanup.isSome, preTmo := t1, postTmo := t2, readyTmo := t3, cleanupTmo := t4
        reloadScript := z.reloadScript, stopScript := z.stopScript, notify := z.notify
        conflict := z.conflict, ifstmt := z.ifstmt, manual := z.manual, respawn := z.respawn
        forking := z.forking, restartMax := z.restartMax, restartTmo := rt, oncrash := z.oncrash
        dirty := d, argsDirty := ad, removed := false, protect := s.protect || z.static } := by
  unfold applyStanza
  obtain ⟨c, h, o, e⟩ := parseCond_eq z.cond { s with levels := z.levels }
  extract_lets s1 s2 s3 s4 ad s5
  have e2 : s2 = { s with levels := z.levels, cond := c, sighup := h, once := o } := e
  have e4 : ∃ rt, s4 = { s3 with restartTmo := rt } := by
    by_cases hc : s3.type.isDaemon = true ∧ s3.restartTmo = 0
    · exact ⟨_, if_pos hc⟩
    · exact ⟨s3.restartTmo, if_neg hc⟩
  have e5 : ∃ d ad, s5 = { s4 with dirty := d, argsDirty := ad } := by
    by_cases hc : (y || ad) = true
    · exact ⟨_, _, if_pos hc⟩
    · exact ⟨_, _, if_neg hc⟩
  obtain ⟨rt, e4⟩ := e4
  obtain ⟨d, ad', e5⟩ := e5
  rw [e5, e4]
  clear e4 e5
  clear_value s4 s5 ad
  refine ⟨c, h, o, s3.dev, s3.sighalt, s3.preTmo, s3.postTmo, s3.readyTmo, s3.cleanupTmo, rt, d, ad', ?_⟩
  clear_value s2
  subst e2
  rfl
theorem applyStanza_state (z : Stanza) (x y : Bool) (s : Svc) :
    (applyStanza z x y s).state = s.state := by
  obtain ⟨_, _, _, _, _, _, _, _, _, _, _, _, e⟩ := applyStanza_eq z x y s
  rw [e]

theorem SvcMod.state {lab : Lab} {w : World} {k : Key} {s' : Svc} (h : SvcMod E lab w k s') :
    s'.state = (w.svc k).state := by
  cases h with
  | minor _ h => exact h.state
  | apply z a c => exact applyStanza_state _ _ _ _
  | _ => rfl

theorem Prim.stChange {lab : Lab} {a b : World} (h : Prim E lab a b) (j : Key) : StChange a b j := by
  have same : b.svc = a.svc → b.trace = a.trace → StChange a b j := fun h1 h2 =>
    .same (by rw [h1]) (by rw [h2])
  cases h with
  | glob _ h => apply same <;> rw [h.1]
  | ub => exact same rfl rfl
  | svc k s' h => exact .same (upd_state h.state) rfl
  | state k new h =>
    obtain ⟨t, x, ht, e⟩ := setStateRaw_eq k new a
    rw [e]
    by_cases hs : (a.svc k).state = new
    · refine .same (upd_state hs.symm) ?_
      simp only [if_pos hs]
    · by_cases hj : j = k
      · subst hj
        refine .trans _ new (by simp) hs (.trans lab a j new t x h hs ht) ?_
        simp only [if_neg hs]
        exact hist_keep (by simp [Eff.about])
      · refine .same (by simp [upd, hj]) ?_
        simp only [if_neg hs]
        exact hist_skip (by simp [Eff.about, Ne.symm hj])
  | pause k h hp he ha =>
    obtain ⟨t, x, ht, e⟩ := setStateRaw_eq k .paused (Sup.kill E (a.svc k).pid 19 .pause k a).2
    have hne : ((Sup.kill E (a.svc k).pid 19 .pause k a).2.svc k).state ≠ .paused := by
      show (a.svc k).state ≠ .paused
      rw [h]; decide
    rw [e]
    by_cases hj : j = k
    · subst hj
      refine .trans _ .paused (by simp) hne
        (.trans lab (Sup.kill E (a.svc j).pid 19 .pause j a).2 j .paused t x (.pause h hp he ha) hne ht) ?_
      simp only [if_neg hne]
      exact (hist_keep (by simp [Eff.about])).trans (congrArg _ (hist_skip rfl))
    · refine .same (by simp [upd, hj]; rfl) ?_
      simp only [if_neg hne]
      exact (hist_skip (by simp [Eff.about, Ne.symm hj])).trans (hist_skip rfl)
  | retryForce k h ht hr hs =>
    obtain ⟨y, e2⟩ := timerCancel_eq k a
    rw [e2]
    simp only [Sup.mod, upd_same, upd_upd]
    obtain ⟨t, x, _, e⟩ := setStateRaw_eq k .running
      { a with svc := upd a.svc k { a.svc k with timer := none, armed := y,
                                                 restartTmo := (a.svc k).restartSaved } }
    rw [e]
    simp only [upd_same, upd_upd]
    by_cases hr : (a.svc k).state = .running
    · refine .same (upd_state hr.symm) ?_
      simp only [if_pos hr]
    · by_cases hj : j = k
      · subst hj
        have g := EffOk.force { a.toCore with
          svc := upd a.svc j { a.svc j with timer := t, armed := x, restartTmo := (a.svc j).restartSaved } } j
          (by simpa using hr) (by simpa using hs)
        refine .trans _ .running (by simp) hr (by simpa using g) ?_
        simp only [if_neg hr]
        exact hist_keep (by simp [Eff.about])
      · refine .same (by simp [upd, hj]) ?_
        simp only [if_neg hr]
        exact hist_skip (by simp [Eff.about, Ne.symm hj])
  | retryRespawn k =>
    obtain ⟨y, e2⟩ := timerCancel_eq k a
    rw [e2]
    simp only [Sup.mod, upd_same, upd_upd]
    exact .same (upd_state rfl) rfl
  | retryGiveUp k h ht hr hs hb hm hc =>
    obtain ⟨y, e2⟩ := timerCancel_eq k a
    rw [e2]
    simp only [Sup.mod, emit, upd_same, upd_upd]
    exact .same (upd_state rfl) (hist_skip rfl)
  | retryAgain k sv tm h ht hr hs hb hc =>
    obtain ⟨y, e2⟩ := timerCancel_eq k a
    rw [e2]
    simp only [Sup.mod, emit, upd_same, upd_upd]
    exact .same (upd_state rfl) (hist_skip rfl)
  | age k h hs => exact .same (upd_state rfl) (hist_skip rfl)
  | forced => exact .same rfl (hist_skip rfl)
  | asked => exact .same rfl (hist_skip rfl)
  | lifted => exact .same rfl (hist_skip rfl)
  | bump k h => exact .same (upd_state rfl) (hist_skip rfl)
  | dirty => exact .same rfl rfl
  | confRead | confEnd =>
    refine .same ?_ (hist_skip rfl)
    simp only [markDynamic, markUnavail]; split <;> rfl
  | kill k tgt sig why h => exact .same rfl (hist_skip rfl)
  | rebootSelf k h hb ho => exact .same rfl (hist_skip rfl)
  | start k p x hp hl hb he hs =>
    have e := start_eq k p x a hs
    dsimp only at e
    rw [e]
    by_cases hj : j = k
    · subst hj
      refine .trans { a.toCore with
          svc := upd a.svc j { a.svc j with pid := p, watch := (a.svc j).watch || x, dirty := false, argsDirty := false }
          runBlock := if (a.svc j).type = .run then p else a.runBlock
          live := p :: a.live
          main := upd a.main j (p :: a.main j) } .running (by simp) (by rw [hs]; decide) ?_ ?_
      · rw [hs]; exact .run _ j (by simpa using hs) (by simpa using hp)
      · refine (hist_keep (by simp [Eff.about])).trans ?_
        rw [hist_skip rfl]
        exact congrArg (fun s => (_, Eff.trans j s .running) :: hist j a.trace) hs.symm
    · refine .same (by simp [upd, hj]) ?_
      exact (hist_skip (by simp [Eff.about, Ne.symm hj])).trans (hist_skip rfl)
  | startBad k p hp hl hb he hs hn =>
    rw [startParent_eq]
    exact .same (upd_state rfl) (hist_skip rfl)
  | script k p role hp hl hr h => exact .same (upd_state rfl) (hist_skip rfl)
  | readyScript k p hp hl h => exact .same rfl (hist_skip rfl)
  | sysvStop k p hp hl h => exact .same rfl (hist_skip rfl)
  | scriptRun k p role hp hl hr => exact .same rfl ((hist_skip rfl).trans (hist_skip rfl))
  | collect k p st hl hf hp h1 h =>
    obtain ⟨s', tr, t, e, es, _, etr⟩ := monitorHead_eq (E := E) k st (reap p (some st) a)
    rw [e]
    refine .same (upd_state (by rw [es])) ?_
    rcases etr with etr | etr
    · show hist j tr = _; rw [etr]; exact hist_skip rfl
    · show hist j tr = _; rw [etr]; exact (hist_skip rfl).trans (hist_skip rfl)
  | collectOther p st => exact .same rfl (hist_skip rfl)
  | lost k st hl h1 =>
    obtain ⟨s', tr, t, e, es, _, etr⟩ := monitorHead_eq (E := E) k st a
    rw [e]
    refine .same (upd_state (by rw [es])) ?_
    rcases etr with etr | etr
    · show hist j tr = _; rw [etr]
    · show hist j tr = _; rw [etr]; exact (hist_skip rfl)
  | assoc => exact same rfl rfl
  | adopt => exact same rfl rfl
  | unblock => exact same rfl rfl
  | conds => exact same rfl rfl
  | mid => exact same rfl rfl
  | del k ht hr hs => exact .same rfl (hist_skip rfl)
  | delBoot k h => exact .same (upd_state rfl) (hist_skip rfl)
  | regOld z k h hz hs =>
    unfold regObj; rw [h]
    exact .same (upd_state rfl) (hist_skip rfl)
  | regNew z h hz hs =>
    unfold regObj; rw [h]
    by_cases hj : j = a.nextKey
    · subst hj
      exact .new (by simp [emit]) rfl (hist_keep (by simp [Eff.about]))
    · exact .same (by simp [upd, hj, emit]) (hist_skip (by simp [Eff.about, Ne.symm hj]))
  | sm => exact same rfl rfl
  | runlevel h => exact .same rfl (hist_skip rfl)
  | reloadOn => exact same rfl rfl
  | stopped | sweep => exact .same rfl (hist_skip rfl)
  | reloadOff => exact same rfl rfl
  | bootDone => exact same rfl rfl
  | freeUp => exact same rfl rfl
  | free => exact same rfl rfl
  | shutdown h => exact .same rfl (hist_skip rfl)

/-- Spec: the state of `k` according to the recorded state changes (most recent first). -/
def stateOf (k : Key) : List (Core × Eff) → SState
  | [] => .halted
  | (_, .trans j _ b) :: t => if j = k then b else stateOf k t
  | (_, .new j) :: t => if j = k then .halted else stateOf k t
  | _ :: t => stateOf k t

theorem stateOf_hist (k : Key) (t : List (Core × Eff)) : stateOf k (hist k t) = stateOf k t := by
  induction t with
  | nil => rfl
  | cons x t ih =>
    obtain ⟨c, e⟩ := x
    cases e with
    | trans j p q =>
      by_cases hj : j = k
      · rw [hist_keep (by simp [Eff.about, hj])]; simp [stateOf, hj]
      · rw [hist_skip (by simp [Eff.about, hj])]; simp [stateOf, hj, ih]
    | new j =>
      by_cases hj : j = k
      · rw [hist_keep (by simp [Eff.about, hj])]; simp [stateOf, hj]
      · rw [hist_skip (by simp [Eff.about, hj])]; simp [stateOf, hj, ih]
    | _ => rw [hist_skip (by rfl)]; simp [stateOf, ih]

/-- The state of every service is the one reached by its last recorded state change. -/
theorem Reach.stateOf {w : World} (h : Reach E w) (k : Key) : (w.svc k).state = stateOf k w.trace := by
  refine Reach.inv (P := fun w => (w.svc k).state = Sup.stateOf k w.trace) (fun _ _ => rfl) ?_ h
  intro lab a b _ p ih
  rw [← stateOf_hist]
  rcases p.stChange k with ⟨h1, h2⟩ | ⟨c, new, h1, h2, h3, h4⟩ | ⟨h1, h2, h3⟩
  · rw [h1, h2, stateOf_hist]; exact ih
  · rw [h1, h4]; simp [Sup.stateOf]
  · rw [h1, h3]; simp [Sup.stateOf]

end

end Verif.Sup
