import Verif.Sup.Freeze
import Verif.Sup.Demo

/-!
# C16: frozen processes
-/

namespace Verif.Sup

open Verif (CStr CondStore)

section
variable {E : Env}

/-- The full claim of C16.  A running command that the supervisor has frozen and not told to go on
    belongs to a paused service, and the halt signal is never sent to a frozen command. -/
def C16_full : Prop := ∀ (E : Env) (w : World), Reach E w → ∀ k p,
  (k ∈ w.order → p ∈ mainAlive k w.trace → frozen k p w.trace → (w.svc k).state = .paused) ∧
  (∀ c sig tl, (c, .kill p sig .halt k) :: tl <:+ w.trace → k ∈ c.order → p ∈ mainAlive k tl →
    ¬ frozen k p tl)

/-- **C16, partial.**  As `C16_full` for services that are neither forking, sysv, nor with
    stop:script or systemd/s6 notification, unless the crash timer of the service expires while it is
    paused.  Missing: those services, and executions with re-entrant stepping. -/
theorem C16_frozen_continues_partial {w : World} (h : Reach E w) (hr : w.reent = false)
    (k : Key) (p : Int) :
    (k ∈ w.order → (w.svc k).odd = false → p ∈ mainAlive k w.trace → frozen k p w.trace →
      ¬ since p (ForcedPaused k) w.trace → (w.svc k).state = .paused) ∧
    (∀ c sig tl, (c, .kill p sig .halt k) :: tl <:+ w.trace → k ∈ c.order → (c.svc k).odd = false →
      p ∈ mainAlive k tl → ¬ since p (ForcedPaused k) tl → ¬ frozen k p tl) := by
  obtain ⟨h1, h2⟩ := h.frz k hr
  constructor
  · intro hk hodd hp hz hf
    rw [← h.procOk.books.spec] at hp
    exact (h1 hk hodd p hp hz).resolve_right hf
  · intro c sig tl hx hk hodd hp hf hz
    obtain ⟨a, ha, e, hs⟩ := h.at (P := fun w => Books w) Books.start
      (fun _ _ _ ho p ih => ih.prim ho p) hx (by intro h; cases h)
    have : p ∈ c.main k := by
      have e2 : c.main = a.main := by
        rcases hs with hs | ⟨_, _, _, _, hs⟩ <;> rw [hs]
      rw [e2, ha.spec, e]; exact hp
    exact hf (h2 c p sig tl hx hk hodd this hz)

instance (p : Int) (e : Eff) : Decidable (Thaws p e) :=
  match e with
  | .kill q s why j =>
    if h : q = p ∧ s = 18 then .isTrue (.inl ⟨why, j, by rw [h.1, h.2]⟩)
    else .isFalse (by
      rintro (⟨_, _, e⟩ | ⟨_, _, e⟩)
      · injection e with e1 e2; exact h ⟨e1, e2⟩
      · cases e)
  | .spawn q j role =>
    if h : q = p then .isTrue (.inr ⟨j, role, by rw [h]⟩)
    else .isFalse (by
      rintro (⟨_, _, e⟩ | ⟨_, _, e⟩)
      · cases e
      · injection e with e1; exact h e1)
  | .reap .. | .trans .. | .rebootSelf _ | .shutdown | .runlevel .. | .new _ | .reg _ | .del _ | .retry _
  | .giveUp _ | .age _ | .bump _ | .forced _ | .lifted _ | .asked _ | .conf _
  | .confEnd | .stopped | .sweep =>
    .isFalse (by rintro (⟨_, _, e⟩ | ⟨_, _, e⟩) <;> cases e)

instance decFrozen (k : Key) (p : Int) : (t : List (Core × Eff)) → Decidable (frozen k p t)
  | [] => .isFalse id
  | (_, _) :: t =>
    have := decFrozen k p t
    inferInstanceAs (Decidable (_ ∨ (_ ∧ _)))

/-- A service waiting for a network condition, which goes into flux on reload. -/
def demoFrz (forking : Bool) (evs : List Ev) : World :=
  run (calm [{ name := "a".toList, levels := lv234, cond := some "net/x".toList, forking := forking }]) 20
    ([.boot, .bootCheck, .worker, .condSet "net/x".toList true, .worker, .reloadAll, .worker] ++ evs)

theorem demoFrz_reach (forking : Bool) (evs : List Ev) :
    Reach (calm [{ name := "a".toList, levels := lv234, cond := some "net/x".toList, forking := forking }])
      (demoFrz forking evs) := run_reach _ _ _

/-- Not vacuous: a is frozen after the reload, and continued before it is stopped. -/
example : 0 ∈ (demoFrz false []).order ∧ ((demoFrz false []).svc 0).odd = false ∧
    (demoFrz false []).reent = false ∧
    mainAlive 0 (demoFrz false []).trace = [113] ∧ frozen 0 113 (demoFrz false []).trace ∧
    ((demoFrz false []).svc 0).state = .paused ∧
    (demoFrz false [.apiStop 0]).log.drop 17 =
      [.asked 0, .kill 113 18 .cont 0, .kill 113 15 .halt 0, .trans 0 .paused .stopping] := by
  decide +kernel

/-- **C16 is false** for a forking service: when its pid file is written while it is frozen, the
    service goes to RUNNING without SIGCONT, and the halt signal is then sent to a frozen process. -/
theorem C16_forking_stays_frozen : ¬ C16_full := by
  intro h
  have key : 0 ∈ (demoFrz true [.pidfile 0 113 true]).order ∧
      113 ∈ mainAlive 0 (demoFrz true [.pidfile 0 113 true]).trace ∧
      frozen 0 113 (demoFrz true [.pidfile 0 113 true]).trace ∧
      ((demoFrz true [.pidfile 0 113 true]).svc 0).state = .running := by
    decide +kernel
  obtain ⟨k1, k2, k3, k4⟩ := key
  have := (h _ _ (demoFrz_reach true [.pidfile 0 113 true]) 0 113).1 k1 k2 k3
  cases k4.symm.trans this

/-- The second half of `C16_full` fails in the same way. -/
theorem C16_forking_halted_frozen : ∃ w c tl, Reach
    (calm [{ name := "a".toList, levels := lv234, cond := some "net/x".toList, forking := true }]) w ∧
    (c, .kill 113 15 .halt 0) :: tl <:+ w.trace ∧ 0 ∈ c.order ∧ 113 ∈ mainAlive 0 tl ∧ frozen 0 113 tl := by
  have key : ((demoFrz true [.pidfile 0 113 true, .apiStop 0]).trace.drop 1).head?.any (fun x =>
        decide (x.2 = .kill 113 15 .halt 0) && decide (0 ∈ x.1.order)) = true ∧
      113 ∈ mainAlive 0 ((demoFrz true [.pidfile 0 113 true, .apiStop 0]).trace.drop 2) ∧
      frozen 0 113 ((demoFrz true [.pidfile 0 113 true, .apiStop 0]).trace.drop 2) := by
    decide +kernel
  obtain ⟨k1, k2, k3⟩ := key
  have hr := demoFrz_reach true [.pidfile 0 113 true, .apiStop 0]
  cases et : (demoFrz true [.pidfile 0 113 true, .apiStop 0]).trace.drop 1 with
  | nil => rw [et] at k1; cases k1
  | cons x t =>
    obtain ⟨c, e⟩ := x
    rw [et] at k1
    simp only [List.head?_cons, Option.any_some, Bool.and_eq_true, decide_eq_true_eq] at k1
    have e2 : (demoFrz true [.pidfile 0 113 true, .apiStop 0]).trace.drop 2 = t := by
      have := congrArg (List.drop 1) et
      rw [List.drop_drop] at this
      exact this
    rw [e2] at k2 k3
    refine ⟨_, c, t, hr, ?_, k1.2, k2, k3⟩
    rw [← k1.1, ← et]
    exact List.drop_suffix 1 _

end

end Verif.Sup
