import Verif.Sup.Prim

/-!
# Supervisor model: closed forms of the atomic updates
-/

namespace Verif.Sup

open Verif (CStr CondStore)

section
variable {E : Env}

theorem upd_upd {α : Type} (f : Key → α) (k : Key) (x y : α) : upd (upd f k x) k y = upd f k y := by
  funext j; simp only [upd]; split <;> rfl

theorem upd_self {α : Type} (f : Key → α) (k : Key) : upd f k (f k) = f := by
  funext j; simp only [upd]; split
  · rename_i e; rw [e]
  · rfl

theorem timerCancel_eq (k : Key) (w : World) :
    ∃ a, timerCancel k w = { w with svc := upd w.svc k { w.svc k with timer := none, armed := a } } := by
  unfold timerCancel; split
  · exact ⟨false, rfl⟩
  · rename_i h
    have h' : (w.svc k).timer = none := by simpa using h
    refine ⟨(w.svc k).armed, ?_⟩
    rw [show ({ w.svc k with timer := none, armed := (w.svc k).armed } : Svc) = w.svc k by
      rw [← h'], upd_self]

theorem serviceCleanup_eq (k : Key) (w : World) : ∃ a, serviceCleanup k w =
    { w with svc := upd w.svc k { w.svc k with timer := none, armed := a, watch := false,
                                               starting := false, pid := 0 } } := by
  unfold serviceCleanup
  obtain ⟨a, e⟩ := timerCancel_eq k w
  refine ⟨a, ?_⟩
  rw [e]; simp only [Sup.mod, upd_same, upd_upd]

theorem kill_eq (tgt : Int) (sig : Nat) (why : Why) (k : Key) (w : World) :
    (kill E tgt sig why k w).2 = { emit (.kill tgt sig why k) w with tick := w.tick + 1 } := rfl

theorem monitorHead_eq (k : Key) (st : WStatus) (w : World) :
    ∃ (s' : Svc) (tr : List (Core × Eff)) (t : Nat),
      monitorHead E k st w = { w with svc := upd w.svc k s', trace := tr, tick := t } ∧
      s' = { w.svc k with pid := 0, status := s'.status, started := s'.started,
                          starting := s'.starting, watch := s'.watch, timer := s'.timer,
                          armed := s'.armed } ∧
      ((s'.timer = (w.svc k).timer ∧ s'.armed = (w.svc k).armed) ∨ s'.timer = none) ∧
      (tr = w.trace ∨ tr = (w.toCore, .kill (-(w.svc k).pid) 9 .group k) :: w.trace) := by
  unfold monitorHead
  extract_lets x w1
  have e1 : w1 = { emit (.kill (-(w.svc k).pid) 9 .group k) w with tick := w.tick + 1 } := rfl
  split
  · obtain ⟨a, e⟩ := timerCancel_eq k w1
    rw [e, e1]
    simp only [Sup.mod, upd_same, upd_upd, emit]
    exact ⟨_, _, _, rfl, rfl, .inr rfl, .inr rfl⟩
  · split
    · exact ⟨_, _, w.tick, rfl, rfl, .inl ⟨rfl, rfl⟩, .inl rfl⟩
    · split
      · obtain ⟨a, e⟩ := serviceCleanup_eq k (mod k (fun s => { s with status := st }) w1)
        rw [e, e1]
        simp only [Sup.mod, upd_same, upd_upd, emit]
        exact ⟨_, _, _, rfl, rfl, .inr rfl, .inr rfl⟩
      · rw [e1]
        simp only [Sup.mod, emit]
        exact ⟨_, _, _, rfl, rfl, .inl ⟨rfl, rfl⟩, .inr rfl⟩

theorem timerAfter_eq (k : Key) (tmo : Int) (cb : Cb) (w : World) :
    ∃ t a, timerAfter k tmo cb w = { w with svc := upd w.svc k { w.svc k with timer := t, armed := a } } := by
  unfold timerAfter; split
  · exact ⟨(w.svc k).timer, (w.svc k).armed, by rw [upd_self]⟩
  · split
    · exact ⟨(w.svc k).timer, (w.svc k).armed, by rw [upd_self]⟩
    · exact ⟨_, _, rfl⟩

/-- The kill timer after entering STOPPING. -/
theorem stopTimer_eq (k : Key) (w : World) :
    ∃ t a, timerAfter k (w.svc k).killdelay .kill (timerCancel k w) =
      { w with svc := upd w.svc k { w.svc k with timer := t, armed := a } } ∧
      t = (if (w.svc k).killdelay = 0 then none else some .kill) ∧
      ((w.svc k).killdelay ≠ 0 → a = decide (0 < (w.svc k).killdelay)) := by
  obtain ⟨a, e⟩ := timerCancel_eq k w
  rw [e]
  unfold timerAfter
  split
  · rename_i h; exact ⟨none, a, rfl, rfl, fun x => absurd h x⟩
  · rename_i h
    rw [if_neg (by simp)]
    refine ⟨some .kill, decide (0 < (w.svc k).killdelay), ?_, rfl, fun _ => rfl⟩
    simp only [Sup.mod, upd_same, upd_upd]

/-- The timer fields after `svc_set_state`. -/
def stTimer (new : SState) (s : Svc) (t : Option Cb) (a : Bool) : Prop :=
  (new ≠ .stopping → t = s.timer ∧ a = s.armed) ∧
  (new = .stopping → t = (if s.killdelay = 0 then none else some .kill) ∧
    (s.killdelay ≠ 0 → a = decide (0 < s.killdelay)))

/-- The note made when the state of service `k` is about to change. -/
def midOf (k : Key) (w : World) : Mid := ⟨k, w.svc k, w.conds.files.map (·.1), none, true⟩

theorem setStateRaw_eq (k : Key) (new : SState) (w : World) :
    ∃ t a, stTimer new (w.svc k) t a ∧
      setStateRaw k new w =
        { w with
          svc := upd w.svc k { w.svc k with state := new, timer := t, armed := a }
          mids := if (w.svc k).state = new then w.mids else midOf k w :: w.mids
          twice := if (w.svc k).state = new then w.twice
            else w.twice || decide (k ∈ w.mids.map (·.key))
          trace := if (w.svc k).state = new then w.trace
            else ({ w.toCore with svc := upd w.svc k { w.svc k with timer := t, armed := a } },
                  .trans k (w.svc k).state new) :: w.trace } := by
  unfold setStateRaw
  by_cases hn : new = .stopping
  · obtain ⟨t, a, e, h1, h2⟩ := stopTimer_eq k w
    refine ⟨t, a, ⟨fun h => absurd hn h, fun _ => ⟨h1, h2⟩⟩, ?_⟩
    rw [if_pos hn, e]
    dsimp only
    simp only [upd_same]
    by_cases hs : (w.svc k).state = new
    · subst hs; simp only [if_true]
    · rw [if_neg hs, if_neg hs]
      simp only [Sup.mod, emit, upd_same, upd_upd, if_neg hs, midOf]
  · refine ⟨(w.svc k).timer, (w.svc k).armed, ⟨fun _ => ⟨rfl, rfl⟩, fun h => absurd h hn⟩, ?_⟩
    rw [if_neg hn]
    dsimp only
    by_cases hs : (w.svc k).state = new
    · subst hs; simp only [if_true]; rw [upd_self]
    · rw [if_neg hs, if_neg hs, upd_self]
      simp only [Sup.mod, emit, if_neg hs, midOf]

theorem startParent_eq (k : Key) (p : Int) (b : Bool) (w : World) :
    startParent k p b w =
      { w with svc := upd w.svc k { w.svc k with pid := p, watch := (w.svc k).watch || b }
               runBlock := if (w.svc k).type = .run then p else w.runBlock } := by
  unfold startParent
  simp only [Sup.mod, upd_same]
  split <;> rfl

/-- The world after the command of `k` has been started. -/
theorem start_eq (k : Key) (p : Int) (b : Bool) (w : World) (hs : (w.svc k).state = .starting) :
    setStateRaw k .running (mod k (fun s => { s with dirty := false, argsDirty := false })
      (startParent k p b (spawned p k .main w))) =
    let s1 : Svc := { w.svc k with pid := p, watch := (w.svc k).watch || b, dirty := false,
                                   argsDirty := false }
    let rb := if (w.svc k).type = .run then p else w.runBlock
    let mn := upd w.main k (p :: w.main k)
    { w with
      svc := upd w.svc k { s1 with state := .running }
      runBlock := rb
      live := p :: w.live
      main := mn
      mids := { midOf k w with was := s1 } :: w.mids
      twice := w.twice || decide (k ∈ w.mids.map (·.key))
      trace := ({ w.toCore with svc := upd w.svc k s1, runBlock := rb, live := p :: w.live,
                                main := mn }, .trans k .starting .running) ::
               (w.toCore, .spawn p k .main) :: w.trace } := by
  rw [startParent_eq]
  simp only [spawned, emit, Sup.mod, upd_same, upd_upd, if_true]
  unfold setStateRaw
  simp only [upd_same, hs, Sup.mod, emit, upd_upd, reduceCtorEq, if_false, midOf]

theorem mark_keep {c : Prop} [Decidable c] {r : Bool} (h : r = true) :
    (if c then true else r) = true := by
  split
  · rfl
  · exact h

theorem mark_new {c : Prop} [Decidable c] {r : Bool} (h : (if c then true else r) ≠ r) : c := by
  split at h
  · assumption
  · exact absurd rfl h

/-- What marking for removal does to one service. -/
theorem markDynamic_svc (j : Key) (w : World) :
    (markDynamic w).svc j = { w.svc j with
      removed := if j ∈ w.order ∧ (w.svc j).protect = false then true else (w.svc j).removed
      dirty := (w.svc j).dirty } := by
  simp only [markDynamic]; split <;> rfl

theorem markUnavail_svc (j : Key) (w : World) :
    (markUnavail w).svc j = { w.svc j with
      removed := if j ∈ w.order ∧ (w.svc j).ifstmt ≠ [] ∧ ifthenConf w.toCore (w.svc j).ifstmt = false ∧
        (w.svc j).protect = false then true else (w.svc j).removed
      dirty := (w.svc j).dirty } := by
  simp only [markUnavail]; split <;> rfl

end

end Verif.Sup
