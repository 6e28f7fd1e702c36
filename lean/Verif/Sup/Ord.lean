import Verif.Sup.Eqs

/-!
# Supervisor model: the service list holds each object once
-/

namespace Verif.Sup

theorem OrdOk.filter {c : Core} (h : OrdOk c) (k : Key) :
    OrdOk { c with order := c.order.filter (· ≠ k) } :=
  ⟨h.1.filter _, fun j hj => h.2 j (List.mem_filter.mp hj).1⟩

theorem Prim.ord {E : Env} {lab : Lab} {a b : World} (h : Prim E lab a b) (ha : OrdOk a.toCore) :
    OrdOk b.toCore := by
  have same : b.order = a.order → b.nextKey = a.nextKey → OrdOk b.toCore := by
    intro e1 e2; unfold OrdOk; rw [e1, e2]; exact ha
  cases h with
  | glob _ h => apply same <;> rw [h.1]
  | state k new h =>
    obtain ⟨t, x, _, e⟩ := setStateRaw_eq k new a
    apply same <;> rw [e]
  | pause k =>
    obtain ⟨t, x, ht, e⟩ := setStateRaw_eq k .paused (Sup.kill E (a.svc k).pid 19 .pause k a).2
    apply same <;> rw [e] <;> rfl
  | retryForce k =>
    obtain ⟨t, x, _, e⟩ := setStateRaw_eq k .running
      (mod k (fun s => { s with restartTmo := s.restartSaved }) (timerCancel k a))
    obtain ⟨y, e2⟩ := timerCancel_eq k a
    apply same <;> rw [e, e2] <;> rfl
  | retryRespawn k =>
    obtain ⟨y, e2⟩ := timerCancel_eq k a
    apply same <;> rw [e2] <;> rfl
  | retryGiveUp k =>
    obtain ⟨y, e2⟩ := timerCancel_eq k a
    apply same <;> rw [e2] <;> rfl
  | retryAgain k =>
    obtain ⟨y, e2⟩ := timerCancel_eq k a
    apply same <;> rw [e2] <;> rfl
  | start k p x hp hl hb he hs =>
    rw [start_eq k p x a hs]; exact ha
  | startBad k p => rw [startParent_eq]; exact ha
  | collect k p st =>
    obtain ⟨s', tr, t, e, _⟩ := monitorHead_eq (E := E) k st (reap p (some st) a)
    rw [e]; exact ha
  | lost k st =>
    obtain ⟨s', tr, t, e, _⟩ := monitorHead_eq (E := E) k st a
    rw [e]; exact ha
  | del k => exact ha.filter k
  | delBoot k => exact ha.filter k
  | regOld z k h =>
    unfold regObj; rw [h]; exact ha
  | regNew z h =>
    unfold regObj; rw [h]
    refine ⟨?_, ?_⟩
    · show (a.order ++ [a.nextKey]).Nodup
      rw [List.nodup_append]
      refine ⟨ha.1, by simp, ?_⟩
      intro x hx y hy
      have := ha.2 x hx
      simp only [List.mem_singleton] at hy
      subst hy; exact Nat.ne_of_lt this
    · show ∀ k ∈ a.order ++ [a.nextKey], k < a.nextKey + 1
      intro k hk
      rcases List.mem_append.mp hk with hk | hk
      · exact Nat.lt_succ_of_lt (ha.2 k hk)
      · simp only [List.mem_singleton] at hk
        subst hk; exact Nat.lt_succ_self _
  | _ => exact ha

theorem Steps.ord {E : Env} {lab : Lab} {a b : World} (h : Steps E lab a b) (ha : OrdOk a.toCore) :
    OrdOk b.toCore :=
  h.inv (P := fun w => OrdOk w.toCore) (fun _ _ p => p.ord) ha

/-- Once the fuel of the model has run out, that stays on record. -/
theorem Prim.oof {E : Env} {lab : Lab} {a b : World} (h : Prim E lab a b) (ha : a.oof = true) :
    b.oof = true := by
  cases h with
  | glob _ h =>
    exact h.2.2.1 ha
  | state k new h =>
    obtain ⟨t, x, _, e⟩ := setStateRaw_eq k new a
    rw [e]; exact ha
  | pause k =>
    obtain ⟨t, x, _, e⟩ := setStateRaw_eq k .paused (Sup.kill E (a.svc k).pid 19 .pause k a).2
    rw [e]; exact ha
  | retryForce k =>
    obtain ⟨t, x, _, e⟩ := setStateRaw_eq k .running
      (mod k (fun s => { s with restartTmo := s.restartSaved }) (timerCancel k a))
    obtain ⟨y, e2⟩ := timerCancel_eq k a
    rw [e, e2]; exact ha
  | retryRespawn k =>
    obtain ⟨y, e2⟩ := timerCancel_eq k a
    rw [e2]; exact ha
  | retryGiveUp k =>
    obtain ⟨y, e2⟩ := timerCancel_eq k a
    rw [e2]; exact ha
  | retryAgain k =>
    obtain ⟨y, e2⟩ := timerCancel_eq k a
    rw [e2]; exact ha
  | start k p x hp hl hb he hs =>
    rw [start_eq k p x a hs]; exact ha
  | startBad k p => rw [startParent_eq]; exact ha
  | collect k p st =>
    obtain ⟨s', tr, t, e, _⟩ := monitorHead_eq (E := E) k st (reap p (some st) a)
    rw [e]; exact ha
  | lost k st =>
    obtain ⟨s', tr, t, e, _⟩ := monitorHead_eq (E := E) k st a
    rw [e]; exact ha
  | regOld z k h =>
    unfold regObj; rw [h]; exact ha
  | regNew z h =>
    unfold regObj; rw [h]; exact ha
  | _ => exact ha

theorem Steps.oof {E : Env} {lab : Lab} {a b : World} (h : Steps E lab a b) (ha : a.oof = true) :
    b.oof = true :=
  h.inv (P := fun w => w.oof = true) (fun _ _ p => p.oof) ha

end Verif.Sup
