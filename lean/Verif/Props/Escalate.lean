import Verif.Sup.Esc
import Verif.Sup.Demo

/-!
# C14: stopping escalates to SIGKILL
-/

namespace Verif.Sup

open Verif (CStr CondStore)

section
variable {E : Env}

theorem worker_ne (k : Key) : Lab.ev .worker ≠ .ev (.timer k) := by
  intro h; injection h with h; cases h

/-- The timer of `k` expires. -/
theorem timerFire_esc {w : World} (h : Reach E w) {k : Key} (n : Nat)
    (ht : (w.svc k).timer ≠ some .retry) (hr : (timerFire E (mkRec E n) k w).reent = false)
    (hw : w.reent = false) (ha : Esc k w) : Esc k (timerFire E (mkRec E n) k w) := by
  unfold timerFire at hr ⊢
  split
  · exact ha
  rename_i harm
  rw [if_neg harm] at hr
  -- the timer is no longer armed
  generalize e1 : (if k ∈ w.freed then { w with ub := true } else w : World) = w1 at hr ⊢
  have b1 : EscBase w1 ∧ OrdOk w1.toCore ∧ Esc k w1 ∧ w1.svc = w.svc ∧ w1.reent = false := by
    rw [← e1]; split
    · rename_i hf
      exact ⟨h.escBase.prim h.basic.1 (Prim.ub (E := E) (lab := .ev .worker) w k hf (.inl (by simpa using harm))),
        (Prim.ub (E := E) (lab := .ev .worker) w k hf (.inl (by simpa using harm))).ord h.basic.1,
        ha.prim hw (worker_ne k) h.escBase (Prim.ub (E := E) w k hf (.inl (by simpa using harm))), rfl, hw⟩
    · exact ⟨h.escBase, h.basic.1, ha, rfl, hw⟩
  clear e1
  obtain ⟨bb, bo, ba, bs, br⟩ := b1
  have harm1 : (w1.svc k).armed = true := by rw [bs]; simpa using harm
  have p2 : Prim E (.ev (.timer k)) w1 (mod k (fun s => { s with armed := false }) w1) :=
    .svc w1 k _ (.armedOff (.inl rfl) harm1)
  dsimp only at hr ⊢
  generalize e2 : mod k (fun s => { s with armed := false }) w1 = w2 at hr ⊢
  rw [e2] at p2
  have bb2 := bb.prim bo p2
  have bo2 := p2.ord bo
  have s2 : w2.svc k = { w1.svc k with armed := false } := by rw [← e2]; simp [Sup.mod]
  have t2 : (w2.svc k).timer = (w1.svc k).timer := by rw [s2]
  have esc2 : (w1.svc k).timer ≠ some .kill → Esc k w2 := by
    intro hne h1 h2 h3 h4 p hp
    have hp1 : p ∈ w1.main k := by rw [← e2] at hp; exact hp
    rw [s2] at h2 h3 h4
    rcases ba (by rw [← e2] at h1; exact h1) h2 h3 h4 p hp1 with h | h
    · exact absurd h.1 hne
    · right; rw [← e2]; exact h
  have br2 : w2.reent = false := by rw [← e2]; exact br
  split at hr
  · rename_i hn
    exact esc2 (by rw [← t2, hn]; simp)
  · rename_i hkl
    have ek : (w1.svc k).timer = some .kill := by rw [← t2]; exact hkl
    unfold serviceKill at hr ⊢
    obtain ⟨x, ec⟩ := timerCancel_eq k w2
    have p3 : Prim E (.ev (.timer k)) w2 (timerCancel k w2) := by
      have : timerCancel k w2 = { w2 with svc := upd w2.svc k { w2.svc k with timer := none, armed := false } } := by
        unfold timerCancel
        rw [if_pos (by rw [hkl]; rfl)]; rfl
      rw [this]
      exact .svc w2 k _ (.cancel (.fired rfl hkl))
    have bb3 := bb2.prim bo2 p3
    have bo3 := p3.ord bo2
    have br3 : (timerCancel k w2).reent = false := by rw [ec]; exact br2
    have es3 : ((timerCancel k w2).svc k) = { w2.svc k with timer := none, armed := x } := by
      rw [ec]; simp
    dsimp only at hr ⊢
    generalize timerCancel k w2 = w3 at *
    -- the command, if there is one, is the process in `pid`
    have main3 : k ∈ w3.order → (w3.svc k).odd = false → ∀ p ∈ w3.main k, (w3.svc k).pid = p ∧ p ∈ w3.live ∧ 1 < p := by
      intro h1 h2 p hp
      rcases bb3.proc.tracks br3 k h1 h2 with h | ⟨q, h3, h4, _⟩
      · rw [h] at hp; cases hp
      · rw [h3, List.mem_singleton] at hp; subst hp
        have hl := bb3.proc.books.main k p (by rw [h3]; exact List.mem_cons_self ..)
        exact ⟨h4, hl, bb3.proc.books.live p hl⟩
    by_cases hp1 : (w3.svc k).pid ≤ 1
    · rw [if_pos hp1]
      intro h1 h2 h3 h4 p hp
      obtain ⟨e, _, h⟩ := main3 h1 h2 p hp
      omega
    · rw [if_neg hp1] at hr ⊢
      by_cases hlv : (w3.svc k).pid ∈ w3.live
      · have e : (procExists E (w3.svc k).pid w3).1 = true := by simp [procExists, hlv]
        rw [e]
        simp only [Bool.not_true, Bool.false_eq_true, if_false]
        rw [kill_eq]
        intro h1 h2 h3 h4 p hp
        obtain ⟨e, _, _⟩ := main3 h1 h2 p hp
        exact .inr (.inl (.inl ⟨.escalate, k, by rw [e]⟩))
      · by_cases hpe : (procExists E (w3.svc k).pid w3).1 = true
        · rw [hpe]
          simp only [Bool.not_true, Bool.false_eq_true, if_false]
          rw [kill_eq]
          intro h1 h2 h3 h4 p hp
          obtain ⟨e, hl, _⟩ := main3 h1 h2 p hp
          rw [e] at hlv
          exact absurd hl hlv
        · have hpe : (procExists E (w3.svc k).pid w3).1 = false := by simpa using hpe
          rw [hpe] at hr ⊢
          simp only [Bool.not_false, if_true] at hr ⊢
          have e3 : (procExists E (w3.svc k).pid w3).2 = { w3 with tick := w3.tick + 1 } := rfl
          rw [e3] at hr ⊢
          have p4 : Prim E (.ev .worker) w3 { w3 with tick := w3.tick + 1 } :=
            .glob _ _ ⟨rfl, id, id, .inl rfl⟩
          have esc3 : Esc k w3 := by
            intro h1 h2 h3 h4 p hp
            obtain ⟨e, hl, _⟩ := main3 h1 h2 p hp
            rw [e] at hlv
            exact absurd hl hlv
          have bb4 := bb3.prim bo3 p4
          have g : SmGood E (.ev .worker) { w3 with tick := w3.tick + 1 }
              (monitor E (mkRec E n) (w3.svc k).pid (.exited 0) { w3 with tick := w3.tick + 1 }) :=
            (monitor_sm (w := { w3 with tick := w3.tick + 1 }) (mkRec_ok n) hlv).1
          exact Esc.steps (g.steps bo3) (worker_ne k) bo3 bb4 hr (esc3.prim br3 (worker_ne k) bb3 p4)
  · rename_i hn
    exact absurd (by rw [← bs, ← t2]; exact hn) ht
  · rename_i hn
    have e2' := esc2 (by rw [← t2, hn]; simp)
    have g : SmGood E (.ev .worker) w2 (serviceKillScript E k w2) := serviceKillScript_sm k w2
    exact Esc.steps (g.steps bo2) (worker_ne k) bo2 bb2 hr e2'
  · rename_i hn
    have e2' := esc2 (by rw [← t2, hn]; simp)
    have g : SmGood E (.ev .worker) w2 (scriptKill E k w2) := scriptKill_sm k w2
    exact Esc.steps (g.steps bo2) (worker_ne k) bo2 bb2 hr e2'

theorem Reach.esc {w : World} (h : Reach E w) (k : Key) (hr : w.reent = false) : Esc k w := by
  induction h with
  | start cfg cmd => intro h; cases h
  | @event w n ev hw ih =>
    have hwr := hw.reent n ev hr
    by_cases hl : labOf w ev = .ev (.timer k)
    · have hev := labOf_ev hl
      subst hev
      have ht : (w.svc k).timer ≠ some .retry := by
        intro h
        unfold labOf at hl
        dsimp only at hl
        rw [if_pos h] at hl
        cases hl
      unfold handle at hr ⊢
      dsimp only at hr ⊢
      split
      · exact ih hwr
      rename_i h1
      rw [if_neg h1] at hr
      split
      · exact ih hwr
      rename_i h2
      rw [if_neg h2] at hr
      exact timerFire_esc hw n ht hr hwr (ih hwr)
    · exact Esc.steps (hw.steps n ev) hl hw.basic.1 hw.escBase hr (ih hwr)

/-- The full claim of C14: whenever a registered service is stopping and its command has not been
    collected, the kill timer is set and armed or SIGKILL has been sent to that process. -/
def C14_full : Prop := ∀ (E : Env) (w : World), Reach E w → ∀ k ∈ w.order,
  (w.svc k).state = .stopping → ∀ p ∈ mainAlive k w.trace,
  ((w.svc k).timer = some .kill ∧ (w.svc k).armed = true) ∨ since p (SigKill p) w.trace

/-- **C14, partial.**  As `C14_full` for services that are neither forking, sysv, nor with
    stop:script or systemd/s6 notification, without ready:script, and with a positive kill delay (the
    parser accepts nothing else); unless the user issues another request for the service while it
    is stopping.  Missing: the same for those services, and executions with re-entrant stepping. -/
theorem C14_stop_escalates_partial {w : World} (h : Reach E w) (hr : w.reent = false) {k : Key}
    (hk : k ∈ w.order) (hplain : (w.svc k).odd = false)
    (hcfg : ∀ z ∈ (w.svc k).zs, z.ready = none ∧ 0 < z.killdelay)
    (hs : (w.svc k).state = .stopping) {p : Int} (hp : p ∈ mainAlive k w.trace)
    (hq : ¬ since p (AskedStopping k) w.trace) :
    ((w.svc k).timer = some .kill ∧ (w.svc k).armed = true) ∨ since p (SigKill p) w.trace := by
  rw [← h.procOk.books.spec] at hp
  rcases h.esc k hr hk hplain hcfg hs p hp with h | h | h
  · exact .inl h
  · exact .inr h
  · exact absurd h hq

/-- A service that does not react to its halt signal. -/
def demoEsc (evs : List Ev) : World :=
  run (calm [{ name := "a".toList, levels := lv234 }]) 20 ([.boot, .bootCheck, .worker] ++ evs)

/-- a is asked to stop: the timer is pending, and once it has expired SIGKILL has been sent. -/
example : ((demoEsc [.apiStop 0]).svc 0).state = .stopping ∧ 0 ∈ (demoEsc [.apiStop 0]).order ∧
    mainAlive 0 (demoEsc [.apiStop 0]).trace = [112] ∧ ((demoEsc [.apiStop 0]).svc 0).odd = false ∧
    (demoEsc [.apiStop 0]).reent = false ∧
    (∀ z ∈ ((demoEsc [.apiStop 0]).svc 0).zs, z.ready = none ∧ 0 < z.killdelay) ∧
    ((demoEsc [.apiStop 0]).svc 0).timer = some .kill ∧
    (demoEsc [.apiStop 0, .timer 0]).log.getLast? = some (.kill 112 9 .escalate 0) ∧
    mainAlive 0 (demoEsc [.apiStop 0, .timer 0]).trace = [112] := by
  decide +kernel

theorem not_since {p : Int} {Q : Core → Eff → Prop} {t : List (Core × Eff)}
    (h : ∀ x ∈ t, ¬ Q x.1 x.2) : ¬ since p Q t := by
  induction t with
  | nil => exact fun h => h
  | cons x t ih =>
    intro hs
    obtain ⟨c, e⟩ := x
    rcases hs with hs | hs
    · exact h _ (List.mem_cons_self ..) hs
    · exact ih (fun x hx => h x (List.mem_cons_of_mem _ hx)) hs.2

/-- Is this a SIGKILL? -/
def Eff.sigkill : Eff → Bool
  | .kill _ 9 _ _ => true
  | _ => false

theorem no_sigkill {p : Int} {t : List (Core × Eff)} (h : t.all (fun x => !x.2.sigkill) = true) :
    ¬ since p (SigKill p) t := by
  refine not_since ?_
  rintro x hx ⟨why, k, e⟩
  have := List.all_eq_true.mp h x hx
  rw [e] at this
  cases this

/-- **C14 is false** when the user repeats the request: the second `initctl stop` cancels the kill
    timer, and nothing sets it again. -/
theorem C14_second_stop_cancels_escalation : ¬ C14_full := by
  intro h
  have key : 0 ∈ (demoEsc [.apiStop 0, .apiStop 0]).order ∧
      ((demoEsc [.apiStop 0, .apiStop 0]).svc 0).state = .stopping ∧
      112 ∈ mainAlive 0 (demoEsc [.apiStop 0, .apiStop 0]).trace ∧
      ((demoEsc [.apiStop 0, .apiStop 0]).svc 0).timer = none ∧
      (demoEsc [.apiStop 0, .apiStop 0]).trace.all (fun x => !x.2.sigkill) = true := by
    decide +kernel
  obtain ⟨k1, k2, k3, k4, k5⟩ := key
  rcases h _ _ (run_reach _ _ _) 0 k1 k2 112 k3 with h | h
  · cases k4.symm.trans h.1
  · exact no_sigkill k5 h

/-- A service with a ready script, stopped while the script is running. -/
def demoReadyEsc : World :=
  run (calm [{ name := "a".toList, levels := lv234, ready := some 3000 }]) 20
    [.boot, .bootCheck, .worker, .pidfile 0 112 true, .apiStop 0, .exit 115 (.exited 0)]

/-- **C14 is false** with a ready script: when the script exits while the service is stopping, the
    kill timer is cancelled. -/
theorem C14_ready_script_cancels_escalation : ∃ w, Reach
    (calm [{ name := "a".toList, levels := lv234, ready := some 3000 }]) w ∧ 0 ∈ w.order ∧
    (w.svc 0).state = .stopping ∧ 112 ∈ mainAlive 0 w.trace ∧ (w.svc 0).timer = none ∧
    ¬ since 112 (SigKill 112) w.trace := by
  have key : 0 ∈ demoReadyEsc.order ∧ (demoReadyEsc.svc 0).state = .stopping ∧
      112 ∈ mainAlive 0 demoReadyEsc.trace ∧ (demoReadyEsc.svc 0).timer = none := by
    decide +kernel
  obtain ⟨k1, k2, k3, k4⟩ := key
  refine ⟨demoReadyEsc, run_reach _ _ _, k1, k2, k3, k4, not_since ?_⟩
  have k5 : demoReadyEsc.trace.all (fun x => match x.2 with | .kill 112 9 _ _ => false | _ => true) = true := by
    decide +kernel
  rintro x hx ⟨why, k, e⟩
  have := List.all_eq_true.mp k5 x hx
  rw [e] at this
  cases this

end

end Verif.Sup
