import Verif.Sup.Crash
import Verif.Sup.Demo

/-!
# C12: a crashing service is given up after the configured number of restarts

`crashStarts`, `lifts`, `gaveUp`, `crashPending` are defined in `Verif/Sup/CrashSpec.lean` on the
trace of effects alone.
-/

namespace Verif.Sup

open Verif (CStr CondStore)

section
variable {E : Env}

/-! ## The property -/

/-- C12 in full: whatever the limit, the number of starts that follow a crash is at most the limit
    between two interventions without a stable period in between (the last reading of the
    configuration is an intervention), and no start happens between giving up and an intervention. -/
def C12_full : Prop :=
  ∀ (E : Env) (w : World), Reach E w → ∀ k,
    (∀ z ∈ (w.svc k).zs, z.respawn = false ∧ 0 ≤ z.restartMax) →
    (crashStarts k w.trace : Int) ≤ (w.svc k).restartMax ∧
    ∀ c p tl, (c, Eff.spawn p k .main) :: tl <:+ w.trace → gaveUp k tl = false

/-- **C12**, partial: as long as no service has been re-entered and for services that are neither
    `respawn` nor forking and whose limits fit a signed char, between two interventions and
    without a stable period, the number of starts after a crash exceeds the limit only by crashes
    that were let go because the conditions of the service were gone. -/
theorem C12_restarts_limited_partial {w : World} (h : Reach E w) (hr : w.reent = false) (k : Key)
    (hz : ∀ z ∈ (w.svc k).zs, z.respawn = false ∧ z.forking = false ∧ 0 ≤ z.restartMax ∧
      z.restartMax ≤ 127)
    (hb : ∀ x ∈ w.trace, x.2 ≠ .bump k) :
    (crashStarts k w.trace : Int) ≤ (w.svc k).restartMax + lifts k w.trace := by
  have hc := h.crashes
  obtain ⟨h1, h2, h3⟩ := hc.pend hr k (fun z hx => ⟨(hz z hx).1, (hz z hx).2.1⟩)
  have hf := fits_of (h3 (fun z hx => (hz z hx).2.2) (fun x hx => hb x (mem_mine.mp hx).1))
  obtain ⟨_, _, _, h4⟩ := h2 hf
  have h5 : 0 ≤ (w.svc k).restartMax := by
    rcases (hc.fromZs k).2.2 with e | ⟨z, hx, e⟩
    · omega
    · have := hz z hx; omega
  have h6 := h1.2.2
  have h7 : (retries k w.trace : Int) ≤ (w.svc k).restartMax := by
    by_cases h0 : 0 < retries k w.trace
    · exact h4 h0 (by omega)
    · omega
  omega

/-- **C12**, partial: every start of a service that is neither `respawn` nor forking comes after
    the crash handler has answered the last crash (or someone intervened, or the conditions of the
    service were gone), and never while the service is given up. -/
theorem C12_no_start_after_giving_up_partial {w : World} (h : Reach E w) {k : Key} {c : Core} {p : Int}
    {tl : List (Core × Eff)} (hx : (c, Eff.spawn p k .main) :: tl <:+ w.trace) (hr : c.reent = false)
    (hz : ∀ z ∈ (c.svc k).zs, z.respawn = false ∧ z.forking = false) :
    crashPending k tl = false ∧ gaveUp k tl = false := by
  obtain ⟨a, ha, rfl, hs⟩ := h.at Crashes.start (fun _ _ _ ho p ih => Crashes.prim ho p ih) hx
    (by intro h; cases h)
  have he := h.effOk (hx.subset (List.mem_cons_self ..))
  have hbl : (a.svc k).block = .none := by
    rw [← hs.block k]
    cases he with
    | start _ _ _ _ _ _ he => exact enabled_block he
    | script _ _ _ _ _ _ hr => exact absurd rfl hr
  obtain ⟨⟨h1, h2, _⟩, _⟩ := ha.pend (by rw [← hs.reent]; exact hr) k (fun z hz' => hz z (by rw [hs.zs]; exact hz'))
  rw [hbl] at h1 h2
  constructor
  · cases hp : crashPending k a.trace with
    | false => rfl
    | true => cases (h1 hp).1
  · cases hp : gaveUp k a.trace with
    | false => rfl
    | true =>
      rcases h2 hp with g | g
      · cases g
      · cases g.1

/-- **C12**, partial: a service that has been given up is marked crashed. -/
theorem C12_given_up_is_crashed_partial {w : World} (h : Reach E w) (hr : w.reent = false) {k : Key}
    (hz : ∀ z ∈ (w.svc k).zs, z.respawn = false ∧ z.forking = false)
    (ht : (w.svc k).type.isRuntask = false) (hg : gaveUp k w.trace = true) :
    (w.svc k).block = .crashing := by
  rcases ((h.crashes.pend hr k hz).1).2.1 hg with g | g
  · exact g
  · rw [ht] at g; cases g.2

/-- **C12**: a limit above 127 is never reached: the restart counter is a signed char, so a service
    with such a limit is never given up however often it crashes. -/
theorem C12_limit_above_127_never_given_up {w : World} (h : Reach E w) {k : Key} {c : Core}
    (hx : (c, Eff.giveUp k) ∈ w.trace) : (c.svc k).restartMax ≤ 127 := by
  obtain ⟨l, tl, e⟩ := List.append_of_mem hx
  have hsuf : (c, Eff.giveUp k) :: tl <:+ w.trace := ⟨l, e.symm⟩
  have he := h.effOk hx
  obtain ⟨a, ha, _, hs⟩ := h.at (P := fun w => -128 ≤ (w.svc k).restartCnt ∧ (w.svc k).restartCnt ≤ 127)
    (fun _ _ => (by decide : (-128 : Int) ≤ 0 ∧ (0 : Int) ≤ 127)) (fun _ _ _ _ p ih => cnt_range k p ih)
    hsuf (by intro h; cases h)
  cases he with
  | giveUp _ _ h1 h2 h3 h4 =>
    have : (c.svc k).restartCnt = (a.svc k).restartCnt := by
      rcases hs with rfl | ⟨j, t, x, r, rfl⟩
      · rfl
      · by_cases hj : k = j
        · subst hj; simp
        · simp [upd_other _ _ _ _ hj]
    omega

/-- Feed events to a world. -/
def go (E : Env) (evs : List Ev) (w : World) : World := evs.foldl (fun w e => handle E 20 e w) w

theorem go_reach {w : World} (h : Reach E w) (evs : List Ev) : Reach E (go E evs w) := foldl_reach evs h

/-- A service with restart limit 1 that needs the condition `usr/x`. -/
def flapEnv : Env :=
  calm [{ name := "a".toList, levels := lv234, restartMax := 1, cond := some "usr/x".toList }]

/-- The service crashes, then its condition goes away and comes back before the restart delay is over. -/
def flap (w : World) : World :=
  go flapEnv [.exit (w.svc 0).pid (.exited 1), .worker, .condClear "usr/x".toList true,
    .condSet "usr/x".toList true, .worker] w

def demoFlap : World := flap (flap (run flapEnv 20 [.boot, .bootCheck, .worker, .condSet "usr/x".toList true]))

/-- **C12 is false**: a service whose condition goes away while it waits for its restart delay is
    started again without being counted. -/
theorem C12_flapping_condition_is_not_counted : ¬ C12_full := by
  intro h
  have hr : Reach flapEnv demoFlap := go_reach (go_reach (run_reach _ _ _) _) _
  have key : (∀ z ∈ (demoFlap.svc 0).zs, z.respawn = false ∧ 0 ≤ z.restartMax) ∧
      ¬ ((crashStarts 0 demoFlap.trace : Int) ≤ (demoFlap.svc 0).restartMax) := by decide +kernel
  exact key.2 (h flapEnv demoFlap hr 0 key.1).1

/-- A service with restart limit 2 crashes three times. -/
def crashEnv : Env := calm [{ name := "a".toList, levels := lv234, restartMax := 2 }]

def crashOnce (w : World) : World :=
  go crashEnv [.exit (w.svc 0).pid (.exited 1), .worker, .timer 0, .worker] w

def demoGiveUp : World := crashOnce (crashOnce (crashOnce (run crashEnv 20 [.boot, .bootCheck, .worker])))

theorem demoGiveUp_reach : Reach crashEnv demoGiveUp :=
  go_reach (go_reach (go_reach (run_reach _ _ _) _) _) _

/-- The hypotheses of the theorems are met, the limit is reached, and the service is given up. -/
example : demoGiveUp.reent = false ∧ demoGiveUp.oof = false ∧
    (∀ z ∈ (demoGiveUp.svc 0).zs, z.respawn = false ∧ z.forking = false ∧ 0 ≤ z.restartMax ∧
      z.restartMax ≤ 127) ∧ (∀ x ∈ demoGiveUp.trace, x.2 ≠ .bump 0) ∧
    crashStarts 0 demoGiveUp.trace = 2 ∧ (demoGiveUp.svc 0).restartMax = 2 ∧ lifts 0 demoGiveUp.trace = 0 ∧
    gaveUp 0 demoGiveUp.trace = true ∧ (demoGiveUp.svc 0).block = .crashing ∧
    (∃ x ∈ demoGiveUp.trace, x.2 = .giveUp 0) ∧ (∃ x ∈ demoGiveUp.trace, startOf 0 x = true) := by
  decide +kernel

end

end Verif.Sup
