import Verif.Sup.Paths
import Verif.Sup.Crash

/-!
# Supervisor model: conditions published about services
-/

namespace Verif.Sup

open Verif (CStr CondStore)

section
variable {E : Env}

/-! ## Objects that have not been created -/

/-- An object that has not been created. -/
structure Virgin (s : Svc) : Prop where
  state : s.state = .halted
  levels : s.levels = 0
  removed : s.removed = false
  type : s.type = .service
  forking : s.forking = false
  respawn : s.respawn = false
  ready : s.ready = false
  timer : s.timer = none
  block : s.block = .none ∨ s.block = .user
  pid : s.pid = 0
  name : s.name = []
  id : s.id = []
  zs : s.zs = []

theorem Virgin.mod {lab : Lab} {w : World} {k : Key} {s' : Svc} (ho : OrdOk w.toCore)
    (hr : w.reent = false) (hk : w.nextKey ≤ k) (hl : lab ≠ .retry k)
    (h : SvcMod E lab w k s') (v : Virgin (w.svc k)) : Virgin s' := by
  have hb1 : (w.svc k).block ≠ .restarting := by rcases v.block with e | e <;> rw [e] <;> decide
  have hb2 : (w.svc k).block ≠ .crashing := by rcases v.block with e | e <;> rw [e] <;> decide
  have hb3 : (w.svc k).block ≠ .conflict := by rcases v.block with e | e <;> rw [e] <;> decide
  have hst := v.state
  have scr : ∀ role, ¬ ScriptState lab k role (w.svc k) := by
    intro role h
    rcases h with ⟨_, h⟩ | ⟨_, h⟩ | ⟨_, h⟩ | ⟨_, _, _, h⟩
    · rw [hst] at h; cases h
    · rw [hst] at h; cases h
    · rw [hst] at h; cases h
    · exact hl h
  cases h with
  | minor _ h =>
    rw [h]; exact ⟨v.state, v.levels, v.removed, v.type, v.forking, v.respawn, v.ready, v.timer, v.block, v.pid, v.name, v.id, v.zs⟩
  | armedOff => exact ⟨v.state, v.levels, v.removed, v.type, v.forking, v.respawn, v.ready, v.timer, v.block, v.pid, v.name, v.id, v.zs⟩
  | cancel => exact ⟨v.state, v.levels, v.removed, v.type, v.forking, v.respawn, v.ready, rfl, v.block, v.pid, v.name, v.id, v.zs⟩
  | unblockCond h => exact absurd h hb1
  | unblockConflict h => exact absurd h hb3
  | blockRestart h => rw [hst] at h; cases h
  | unblockRespawn h hr => rw [v.respawn] at hr; cases hr
  | blockMissing h => rw [hst] at h; cases h
  | blockConflict h => rw [hst] at h; cases h
  | blockCrash h => have := (h hr).1; rw [hst] at this; cases this
  | blockManual h => have := (h hr).1; rw [hst] at this; cases this
  | apiUnblock => exact ⟨v.state, v.levels, v.removed, v.type, v.forking, v.respawn, v.ready, v.timer, .inl rfl, v.pid, v.name, v.id, v.zs⟩
  | apiBlock => exact ⟨v.state, v.levels, v.removed, v.type, v.forking, v.respawn, v.ready, v.timer, .inr rfl, v.pid, v.name, v.id, v.zs⟩
  | forkedUnblock p b h hf => rw [v.forking] at hf; cases hf
  | forkedPid p b h hf => have := hf hr; rw [v.forking] at this; cases this
  | pidLost | pidOdd | pidNone => exact ⟨v.state, v.levels, v.removed, v.type, v.forking, v.respawn, v.ready, v.timer, v.block, rfl, v.name, v.id, v.zs⟩
  | scriptFail role h => exact absurd (h hr) (scr role)
  | armRetry b ht h =>
    rcases h with h | h
    · exact absurd (h hr).2.1 hb1
    · exact absurd h hl
  | armScript b role ht h => exact absurd (h hr) (scr role)
  | armReady b ht h => rw [v.ready] at h; cases h
  | apply z a c h1 h2 h3 h4 => exact absurd (ho.2 k h4) (Nat.not_lt.mpr hk)

theorem Virgin.noState {lab : Lab} {w : World} {k : Key} {new : SState} (hr : w.reent = false)
    (v : Virgin (w.svc k)) (h : StateMod lab w k new) : False := by
  have hst := v.state
  cases h with
  | wake h he => exact enabled_levels he v.levels
  | redo h ht => rw [v.type] at ht; cases ht
  | dead h hr => rw [v.removed] at hr; cases hr
  | stopDone h ht => rw [v.type] at ht; cases ht
  | stopTear h | stopCleanup h | stopHalted h => have := (h hr).1; rw [hst] at this; cases this
  | stop h | lost h => rw [hst] at h; revert h; decide
  | forked p b h hf => rw [v.forking] at hf; cases hf
  | _ h => rw [hst] at h; cases h

/-- Objects that have not been created are blank. -/
def Unborn (w : World) : Prop := ∀ k, w.nextKey ≤ k → Virgin (w.svc k)

theorem Unborn.prim {lab : Lab} {a b : World} (ho : OrdOk a.toCore) (hr : a.reent = false)
    (hl : ∀ k, lab = .retry k → k < a.nextKey) (h : Prim E lab a b) (ha : Unborn a) : Unborn b := by
  intro k hk
  have hk' : a.nextKey ≤ k := Nat.le_trans h.nextKey hk
  have v := ha k hk'
  have hl' : lab ≠ .retry k := fun e => absurd (hl k e) (Nat.not_lt.mpr hk')
  cases h.view k with
  | same h => rw [h]; exact v
  | mod s' h e => rw [e]; exact v.mod ho hr hk' hl' h
  | state new t x h ht e => exact (v.noState hr h).elim
  | force x h => exact absurd h hl'
  | respawn x h => exact absurd h hl'
  | giveUp x h => exact absurd h hl'
  | again x sv tm h => exact absurd h hl'
  | age h hs e => rw [v.state] at hs; cases hs
  | bump h e => rw [v.state] at h; rcases h with h | h <;> cases h
  | marks r d hr hp hs e =>
    rw [e]
    have : r = (a.svc k).removed := Classical.byContradiction fun hx =>
      absurd (ho.2 k (hp hx).1) (Nat.not_lt.mpr hk')
    exact ⟨v.state, v.levels, by rw [this]; exact v.removed, v.type, v.forking, v.respawn, v.ready,
      v.timer, v.block, v.pid, v.name, v.id, v.zs⟩
  | start p x hp hl hb he hs e hv ht => rw [v.state] at hs; cases hs
  | startBad p x hp hl hb he hs hn e hv ht => rw [v.state] at hs; cases hs
  | script p role hp hl hro h e hv ht =>
    exfalso
    rcases h hr with ⟨_, h⟩ | ⟨_, h⟩ | ⟨_, h⟩ | ⟨_, _, _, h⟩
    · rw [v.state] at h; cases h
    · rw [v.state] at h; cases h
    · rw [v.state] at h; cases h
    · exact hl' h
  | exit s' hp hl hs ht e => rw [v.pid] at hp; exact absurd hp (by decide)
  | delBoot h hb e =>
    rw [e]; exact ⟨v.state, v.levels, v.removed, v.type, v.forking, v.respawn, v.ready, v.timer, v.block, rfl, v.name, v.id, v.zs⟩
  | reg z h hz hs ht e => exact absurd (ho.2 k (regFind_mem h)) (Nat.not_lt.mpr hk')
  | new z h hb => exact absurd hb (Nat.not_lt.mpr hk)

/-- As `Reach.inv_soft`, with what is known about objects that have not been created, and about
    the state `w0` in which the event arrived. -/
theorem Reach.inv_born {P : World → Prop} (h0 : ∀ cfg cmd, P (World.start cfg cmd))
    (hp : ∀ w0 ev a b, P w0 → (∀ k, ∀ z ∈ (w0.svc k).zs, z ∈ (a.svc k).zs) →
      OrdOk a.toCore → a.reent = false → Unborn a → Unborn b → Prim E (labOf w0 ev) a b → P a → P b)
    {w : World} (h : Reach E w) (hr : w.reent = false) : Unborn w ∧ P w := by
  induction h with
  | start cfg cmd => exact ⟨fun k _ => by constructor <;> first | rfl | exact .inl rfl, h0 cfg cmd⟩
  | @event w n ev hw ih =>
    have hrw := hw.reent n ev hr
    obtain ⟨u, p⟩ := ih hrw
    have := (hw.steps n ev).inv_soft
      (P := fun v => OrdOk v.toCore ∧ w.nextKey ≤ v.nextKey ∧ Unborn v ∧
        (∀ k, ∀ z ∈ (w.svc k).zs, z ∈ (v.svc k).zs) ∧ P v) (by
        intro a b ha pr x
        obtain ⟨x1, x2, x3, x5, x4⟩ := x
        have hu : Unborn b := x3.prim x1 ha (by
          intro k hk
          obtain ⟨_, ht⟩ := labOf_retry hk
          refine Nat.lt_of_lt_of_le (Nat.lt_of_not_le fun hn => ?_) x2
          rw [(u k hn).timer] at ht; cases ht) pr
        exact ⟨pr.ord x1, Nat.le_trans x2 pr.nextKey, hu,
          fun k z hz => zs_sub (fun k hk => (x3 k hk).zs) k pr z (x5 k z hz),
          hp _ _ a b p x5 x1 ha x3 hu pr x4⟩)
      hr ⟨hw.basic.1, Nat.le_refl _, u, fun _ _ h => h, p⟩
    exact this.2.2.1 |> fun h => ⟨h, this.2.2.2.2⟩

/-! ## Transitions and the notes about them -/

/-- Nothing happens to the state of `j`, except that it may be created. -/
def Rest (a b : World) (j : Key) : Prop :=
  ((b.svc j).state = (a.svc j).state ∧ hist j b.trace = hist j a.trace) ∨
  (j = a.nextKey ∧ j < b.nextKey ∧ (b.svc j).state = .halted ∧
    hist j b.trace = (a.toCore, .new j) :: hist j a.trace)

/-- Why the state of `k` is set to `new`. -/
inductive SetBy (lab : Lab) (a : World) (k : Key) : SState → Prop
  | mod (new : SState) (h : StateMod lab a k new) : SetBy lab a k new
  | start (h : (a.svc k).state = .starting) : SetBy lab a k .running
  | force (h : lab = .retry k) (ht : (a.svc k).timer = some .retry) : SetBy lab a k .running

/-- How one atomic update affects conditions and the states of services. -/
inductive PubStep (lab : Lab) (a b : World) : Prop
  | same (hc : b.conds = a.conds) (hm : b.mids = a.mids) (ht : b.twice = a.twice)
      (hs : ∀ j, Rest a b j)
  | push (m : Mid) (c : Core) (hc : b.conds = a.conds) (hm : b.mids = m :: a.mids)
      (ht : b.twice = (a.twice || decide (m.key ∈ a.mids.map (·.key))))
      (hl : m.left = a.conds.files.map (·.1)) (hn : m.made = none) (hf : m.fresh = true)
      (ho : m.old = (a.svc m.key).state) (hne : m.old ≠ (b.svc m.key).state)
      (hh : hist m.key b.trace = (c, .trans m.key m.old (b.svc m.key).state) :: hist m.key a.trace)
      (hw : (c.svc m.key).block = m.was.block ∧ (c.svc m.key).started = m.was.started ∧
        (c.svc m.key).status = m.was.status)
      (he : SetBy lab a m.key (b.svc m.key).state)
      (hs : ∀ j, j ≠ m.key → (b.svc j).state = (a.svc j).state ∧ hist j b.trace = hist j a.trace)
  | conds (st : CondStore) (h : CondMod lab a st) (e : b = { a with conds := st })
  | mid (m : Mid) (ms : List Mid) (st : CondStore) (ms' : List Mid) (hm : a.mids = m :: ms)
      (h : MidMod a m ms st ms') (e : b = { a with conds := st, mids := ms' })

/-- `setStateRaw`, applied to a state that differs from `a` in other respects only. -/
theorem PubStep.raw {lab : Lab} {a w : World} (k : Key) (new : SState) (hc : w.conds = a.conds)
    (hm : w.mids = a.mids) (ht : w.twice = a.twice)
    (hs : ∀ j, (w.svc j).state = (a.svc j).state ∧ hist j w.trace = hist j a.trace)
    (he : SetBy lab a k new) :
    PubStep lab a (setStateRaw k new w) := by
  obtain ⟨t, x, hx, e⟩ := setStateRaw_eq k new w
  rw [e]
  by_cases hn : (w.svc k).state = new
  · refine .same hc (by simp only [if_pos hn]; exact hm) (by simp only [if_pos hn]; exact ht) ?_
    intro j
    refine .inl ⟨(upd_state hn.symm).trans (hs j).1, ?_⟩
    simp only [if_pos hn]; exact (hs j).2
  · refine .push (midOf k w) { w.toCore with svc := upd w.svc k { w.svc k with timer := t, armed := x } }
      hc ?_ ?_ ?_ rfl rfl ?_ ?_ ?_ ?_ ?_ ?_
    · simp only [if_neg hn]; rw [hm]
    · simp only [if_neg hn]; rw [hm, ht]; rfl
    · show w.conds.files.map (·.1) = _; rw [hc]
    · exact (hs k).1
    · show (w.svc k).state ≠ (upd w.svc k _ k).state
      rw [upd_same]; exact hn
    · show hist k _ = (_, Eff.trans k (w.svc k).state (upd w.svc k _ k).state) :: _
      rw [upd_same]
      simp only [if_neg hn]
      exact (hist_keep (by simp [Eff.about])).trans (congrArg _ (hs k).2)
    · show ((upd w.svc k _ k).block = _ ∧ _ ∧ _)
      simp only [midOf, upd_same]; simp
    · show SetBy lab a k (upd w.svc k _ k).state
      rw [upd_same]; exact he
    · intro j hj
      have hj : j ≠ k := hj
      refine ⟨by show (upd w.svc k _ j).state = _; rw [upd_other _ _ _ _ hj]; exact (hs j).1, ?_⟩
      simp only [if_neg hn]
      exact (hist_skip (by simp [Eff.about, Ne.symm hj])).trans (hs j).2

theorem Prim.pub {lab : Lab} {a b : World} (h : Prim E lab a b) : PubStep lab a b := by
  cases h with
  | glob _ h =>
    refine .same ?_ ?_ ?_ (fun j => .inl ⟨?_, ?_⟩) <;> rw [h.1]
  | ub => exact .same rfl rfl rfl (fun j => .inl ⟨rfl, rfl⟩)
  | svc k s' h => exact .same rfl rfl rfl (fun j => .inl ⟨upd_state h.state, rfl⟩)
  | state k new h => exact .raw k new rfl rfl rfl (fun j => ⟨rfl, rfl⟩) (.mod new h)
  | pause k h hp he ha =>
    exact .raw k .paused rfl rfl rfl (fun j => ⟨rfl, hist_skip rfl⟩) (.mod _ (.pause h hp he ha))
  | retryForce k h ht hr hs =>
    obtain ⟨y, e2⟩ := timerCancel_eq k a
    rw [e2]
    simp only [Sup.mod, upd_same, upd_upd]
    exact .raw k .running rfl rfl rfl (fun j => ⟨upd_state rfl, rfl⟩) (.force h ht)
  | retryRespawn k =>
    obtain ⟨y, e2⟩ := timerCancel_eq k a
    rw [e2]
    simp only [Sup.mod, upd_same, upd_upd]
    exact .same rfl rfl rfl (fun j => .inl ⟨upd_state rfl, rfl⟩)
  | retryGiveUp k h ht hr hs hb hm hc =>
    obtain ⟨y, e2⟩ := timerCancel_eq k a
    rw [e2]
    simp only [Sup.mod, emit, upd_same, upd_upd]
    exact .same rfl rfl rfl (fun j => .inl ⟨upd_state rfl, hist_skip rfl⟩)
  | retryAgain k sv tm h ht hr hs hb hc =>
    obtain ⟨y, e2⟩ := timerCancel_eq k a
    rw [e2]
    simp only [Sup.mod, emit, upd_same, upd_upd]
    exact .same rfl rfl rfl (fun j => .inl ⟨upd_state rfl, hist_skip rfl⟩)
  | age k h hs => exact .same rfl rfl rfl (fun j => .inl ⟨upd_state rfl, hist_skip rfl⟩)
  | bump k h => exact .same rfl rfl rfl (fun j => .inl ⟨upd_state rfl, hist_skip rfl⟩)
  | forced | asked | lifted => exact .same rfl rfl rfl (fun j => .inl ⟨rfl, hist_skip rfl⟩)
  | dirty => exact .same rfl rfl rfl (fun j => .inl ⟨rfl, rfl⟩)
  | confRead | confEnd =>
    refine .same rfl rfl rfl (fun j => .inl ⟨?_, hist_skip rfl⟩)
    simp only [markDynamic, markUnavail]; split <;> rfl
  | kill | rebootSelf => exact .same rfl rfl rfl (fun j => .inl ⟨rfl, hist_skip rfl⟩)
  | start k p x hp hl hb he hs =>
    rw [startParent_eq]
    refine .raw k .running rfl rfl rfl (fun j => ⟨?_, hist_skip rfl⟩) (.start hs)
    simp only [Sup.mod, spawned, emit, upd_same, upd_upd]; exact upd_state rfl
  | startBad k p hp hl hb he hs hn =>
    rw [startParent_eq]
    exact .same rfl rfl rfl (fun j => .inl ⟨upd_state rfl, hist_skip rfl⟩)
  | script k p role hp hl hr h =>
    exact .same rfl rfl rfl (fun j => .inl ⟨upd_state rfl, hist_skip rfl⟩)
  | readyScript k p hp hl h => exact .same rfl rfl rfl (fun j => .inl ⟨rfl, hist_skip rfl⟩)
  | sysvStop k p hp hl h => exact .same rfl rfl rfl (fun j => .inl ⟨rfl, hist_skip rfl⟩)
  | scriptRun k p role hp hl hr =>
    exact .same rfl rfl rfl (fun j => .inl ⟨rfl, (hist_skip rfl).trans (hist_skip rfl)⟩)
  | collect k p st hl hf hp h1 h =>
    obtain ⟨s', tr, t, e, es, _, etr⟩ := monitorHead_eq (E := E) k st (reap p (some st) a)
    rw [e]
    refine .same rfl rfl rfl (fun j => .inl ⟨upd_state (by rw [es]), ?_⟩)
    rcases etr with etr | etr
    · show hist j tr = _; rw [etr]; exact hist_skip rfl
    · show hist j tr = _; rw [etr]; exact (hist_skip rfl).trans (hist_skip rfl)
  | collectOther p st => exact .same rfl rfl rfl (fun j => .inl ⟨rfl, hist_skip rfl⟩)
  | lost k st hl h1 =>
    obtain ⟨s', tr, t, e, es, _, etr⟩ := monitorHead_eq (E := E) k st a
    rw [e]
    refine .same rfl rfl rfl (fun j => .inl ⟨upd_state (by rw [es]), ?_⟩)
    rcases etr with etr | etr
    · show hist j tr = _; rw [etr]
    · show hist j tr = _; rw [etr]; exact (hist_skip rfl)
  | conds st h => exact .conds st h rfl
  | mid m ms st ms' hm h => exact .mid m ms st ms' hm h rfl
  | del k ht hr hs => exact .same rfl rfl rfl (fun j => .inl ⟨rfl, hist_skip rfl⟩)
  | delBoot k h => exact .same rfl rfl rfl (fun j => .inl ⟨upd_state rfl, hist_skip rfl⟩)
  | regOld z k h hz hs =>
    unfold regObj; rw [h]
    exact .same rfl rfl rfl (fun j => .inl ⟨upd_state rfl, hist_skip rfl⟩)
  | regNew z h hz hs =>
    unfold regObj; rw [h]
    refine .same rfl rfl rfl (fun j => ?_)
    by_cases hj : j = a.nextKey
    · subst hj
      exact .inr ⟨rfl, Nat.lt_succ_self _, by simp [emit], hist_keep (by simp [Eff.about])⟩
    · exact .inl ⟨by simp [upd, hj, emit], hist_skip (by simp [Eff.about, Ne.symm hj])⟩
  | runlevel h => exact .same rfl rfl rfl (fun j => .inl ⟨rfl, hist_skip rfl⟩)
  | stopped | sweep | shutdown => exact .same rfl rfl rfl (fun j => .inl ⟨rfl, hist_skip rfl⟩)
  | _ => exact .same rfl rfl rfl (fun j => .inl ⟨rfl, rfl⟩)

end

end Verif.Sup
