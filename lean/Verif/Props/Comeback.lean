import Verif.Sup.Await
import Verif.Sup.Demo

/-!
# C61: a crashed service is tried again
-/

namespace Verif.Sup

open Verif (CStr CondStore)

section
variable {E : Env}

/-- The full claim of C61: whenever a registered service has crashed and is to be tried again, the
    timer after which it is tried is running. -/
def C61_full : Prop := ∀ (E : Env) (w : World), Reach E w → ∀ k ∈ w.order,
  (w.svc k).state = .halted → (w.svc k).block = .restarting →
  (w.svc k).timer = some .retry ∧ (w.svc k).armed = true

/-- **C61, partial.**  The command of a running service ends although the service should run.
    Then from that moment on, whatever else happens, the service is halted, marked as restarting and
    its timer is running, until that timer expires or the user asks for something, a condition of
    the service goes away, its configuration is read again or it is removed.

    Asked of the service: a daemon or tty, without `respawn`, not forking, without ready:script,
    and with a positive delay (the parser sets one).  Missing: the services excluded here, and
    executions with re-entrant stepping. -/
theorem C61_crash_sets_timer_partial {w v : World} (h : Reach E w) {k : Key} {p : Int} {st : WStatus} {n : Nat}
    (hb : w.booted = true) (hd : w.down = false) (hl : p ∈ w.live) (hp1 : 1 < p)
    (hk : k ∈ w.order) (hp : (w.svc k).pid = p) (hu : ∀ j ∈ w.order, (w.svc j).pid = p → j = k)
    (hs : (w.svc k).state = .running) (he : enabled w.toCore k = true)
    (ht : (w.svc k).type.isDaemon = true ∨ (w.svc k).type = .tty)
    (hresp : (w.svc k).respawn = false) (htmo : 0 < (w.svc k).restartTmo)
    (hfk : (w.svc k).forking = false) (hz : ∀ z ∈ (w.svc k).zs, z.ready = none)
    (hv : Later E (fun _ ev => ev ≠ .timer k) (handle E (n + 1) (.exit p st) w) v)
    (hr : v.reent = false) :
    Awaits (v.svc k) ∨ Ended k w.trace v.trace := by
  have hf : findByPid w.toCore p = some k := by
    cases hf : findByPid w.toCore p with
    | none =>
      have := List.find?_eq_none.mp hf k hk
      simp [hp] at this
    | some j =>
      obtain ⟨h1, h2⟩ := findByPid_some hf
      rw [hu j h1 h2]
  have hw : Reach E (handle E (n + 1) (.exit p st) w) := .event _ _ h
  have hr0 : (handle E (n + 1) (.exit p st) w).reent = false := by
    have : ∀ {v}, Later E (fun _ ev => ev ≠ .timer k) (handle E (n + 1) (.exit p st) w) v →
        v.reent = false → (handle E (n + 1) (.exit p st) w).reent = false := by
      intro v hv
      induction hv with
      | refl => exact id
      | event m ev hv _ ih => exact fun hr => ih ((hv.reach hw).reent m ev hr)
    exact this hv hr
  have g := h.crashed (n := n) (st := st) hb hd hl hp1 hf hs he
    (by rcases ht with ht | ht <;> rw [ht] <;> simp) hresp htmo hfk hz hr0
  rcases (g.later hw hv hr).2 with h | h
  · exact .inl h.awaits
  · exact .inr h

/-- Spec: as many attempts as the configuration allows have been made. -/
def TooMany (s : Svc) : Prop := s.restartMax ≠ -1 ∧ s.restartMax ≤ s.restartCnt

instance (s : Svc) : Decidable (TooMany s) := by unfold TooMany; infer_instance

/-- Spec: nothing but its being blocked keeps the service from running in this state. -/
def MayRun (c : Core) (k : Key) : Prop :=
  (c.svc k).levels.testBit c.runlevel = true ∧ (c.svc k).removed = false ∧
  ifthenRun c.conds (c.svc k).ifstmt = true ∧ ((c.svc k).type = .tty → c.bootstrap = false)

theorem stepHalted_waits {lab : Lab} {n : Nat} {k : Key} {w : World} (ho : OrdOk w.toCore)
    (hst : w.stack = []) (hd : w.down = false) (hs : (w.svc k).state = .halted)
    (he : enabled w.toCore k = true) :
    ∃ l c, (serviceStep E (mkRec E n) k w).trace = l ++ (c, .trans k .halted .waiting) :: w.trace := by
  have h : ROk E lab (mkRec E n) := mkRec_ok n
  unfold serviceStep
  rw [if_neg (by rw [hd]; simp)]
  have et : touch k w = w := by unfold touch; rw [hst, if_neg (by simp)]
  dsimp only
  rw [et]
  generalize e1 : ({ w with stack := k :: w.stack } : World) = w1
  have f1 : w1.svc = w.svc := by rw [← e1]
  have f2 : enabled w1.toCore k = true := by rw [← e1]; exact he
  have f3 : k ∈ w1.stack := by rw [← e1]; exact List.mem_cons_self ..
  have f4 : w1.trace = w.trace := by rw [← e1]
  have f5 : OrdOk w1.toCore := by rw [← e1]; exact ho
  have eb : stepBranch E (mkRec E n) k w1 = (false, setState (mkRec E n) k .waiting w1) := by
    unfold stepBranch
    dsimp only
    rw [f2]
    split <;> rename_i hx <;> rw [f1, hs] at hx <;>
      first | (unfold stepHalted; rw [if_pos rfl]) | cases hx
  have hs1 : (w1.svc k).state = .halted := by rw [f1]; exact hs
  have hm : StateMod lab w1 k .waiting := .wake hs1 f2
  have g := setState_oth h hm
  have o2 := (g.steps f5).ord f5
  have key : ∃ l c, (setState (mkRec E n) k .waiting w1).trace = l ++ (c, .trans k .halted .waiting) :: w.trace := by
    unfold setState
    dsimp only
    rw [if_neg (by rw [hs1]; decide)]
    have hn : (w1.svc k).state ≠ .waiting := by rw [hs1]; decide
    obtain ⟨g2, _⟩ := setStateConds_raw (E := E) h (new := .waiting) hn
    have e0 : (setStateRaw k .waiting w1).trace = (w1.toCore, .trans k .halted .waiting) :: w.trace := by
      have e9 : (if SState.waiting = .stopping then timerAfter k (w1.svc k).killdelay .kill (timerCancel k w1)
          else w1) = w1 := if_neg (by decide)
      unfold setStateRaw
      dsimp only
      rw [e9, if_neg hn, ← f4, hs1]
      rfl
    have o0 : OrdOk (setStateRaw k .waiting w1).toCore :=
      ((setStateRaw_pre (E := E) (S := fun _ => False) hm (fun h => h)).steps f5).ord f5
    obtain ⟨l, e⟩ := (g2.steps o0).ext
    exact ⟨l, w1.toCore, by rw [e, e0]⟩
  unfold stepLoop
  dsimp only
  rw [eb]
  dsimp only
  rw [if_neg (by simp)]
  have hk2 : k ∈ (setState (mkRec E n) k .waiting w1).stack := by rw [g.stack]; exact f3
  generalize setState (mkRec E n) k .waiting w1 = w2 at g o2 key hk2 ⊢
  obtain ⟨l, c, e⟩ := key
  split
  · obtain ⟨m, e2⟩ := ((h.loop k w2 hk2).steps o2).ext
    refine ⟨m ++ l, c, ?_⟩
    show ((mkRec E n).loop k w2).trace = _
    rw [e2, e, List.append_assoc]
  · split
    · exact ⟨l, c, e⟩
    · exact ⟨l, c, e⟩

/-- **C61: what happens when the timer expires.**  Unless restarts are switched off
    (`/tmp/norespawn`), a service that has crashed and may still run is taken out of its halted
    state, that is, it is tried again; if it has been tried as often as its configuration allows,
    it is given up instead. -/
theorem C61_timer_tries_again {w : World} (h : Reach E w) {k : Key} {n : Nat}
    (hb : w.booted = true) (hd : w.down = false) (hw : Awaits (w.svc k))
    (hresp : (w.svc k).respawn = false) (hno : E.ask w.tick = 0) :
    (TooMany (w.svc k) → ∃ l c, (handle E (n + 1) (.timer k) w).trace = l ++ (c, .giveUp k) :: w.trace) ∧
    (¬ TooMany (w.svc k) → MayRun w.toCore k → ∃ l c c',
      (handle E (n + 1) (.timer k) w).trace =
        l ++ (c', .trans k .halted .waiting) :: (c, .retry k) :: w.trace) := by
  obtain ⟨h1, h2, h3, h4⟩ := hw
  have ho := h.basic.1
  have hst := h.basic.2.1
  unfold handle
  dsimp only
  rw [if_neg (by rw [hd]; simp), if_neg (by rw [hb]; simp)]
  unfold timerFire
  rw [if_neg (by rw [h4]; simp)]
  dsimp only
  generalize e1 : (if k ∈ w.freed then { w with ub := true } else w : World) = w1
  have f1 : w1.svc = w.svc ∧ w1.trace = w.trace ∧ w1.tick = w.tick ∧ w1.stack = [] ∧ w1.down = false ∧
      w1.order = w.order ∧ w1.nextKey = w.nextKey ∧ w1.runlevel = w.runlevel ∧ w1.conds = w.conds ∧
      w1.bootstrap = w.bootstrap ∧ OrdOk w1.toCore := by
    rw [← e1]; split <;> exact ⟨rfl, rfl, rfl, hst, hd, rfl, rfl, rfl, rfl, rfl, ho⟩
  obtain ⟨f1, f2, f3, f4, f5, f6, f7, f8, f9, f10, f11⟩ := f1
  have et : ((mod k (fun s => { s with armed := false }) w1).svc k).timer = some .retry := by
    simp only [Sup.mod, upd_same, f1]; exact h3
  rw [et]
  dsimp only
  generalize e2 : mod k (fun s => { s with armed := false }) w1 = w2
  have g1 : w2.svc k = { w.svc k with armed := false } := by rw [← e2]; simp [Sup.mod, f1]
  have g2 : w2.trace = w.trace ∧ w2.tick = w.tick ∧ w2.stack = [] ∧ w2.down = false ∧
      w2.runlevel = w.runlevel ∧ w2.conds = w.conds ∧ w2.bootstrap = w.bootstrap ∧ OrdOk w2.toCore := by
    rw [← e2]; exact ⟨f2, f3, f4, f5, f8, f9, f10, f11⟩
  clear e2
  obtain ⟨g2, g3, g4, g5, g6, g7, g8, g9⟩ := g2
  unfold serviceRetry
  obtain ⟨a, e3⟩ := timerCancel_eq k w2
  dsimp only
  rw [e3]
  generalize e4 : ({ w2 with svc := upd w2.svc k { w2.svc k with timer := none, armed := a } } : World) = w3
  have i1 : w3.svc k = { w.svc k with timer := none, armed := a } := by rw [← e4]; simp [g1]
  have i2 : w3.trace = w.trace ∧ w3.tick = w.tick ∧ w3.stack = [] ∧ w3.down = false ∧
      w3.runlevel = w.runlevel ∧ w3.conds = w.conds ∧ w3.bootstrap = w.bootstrap ∧ OrdOk w3.toCore := by
    rw [← e4]; exact ⟨g2, g3, g4, g5, g6, g7, g8, g9⟩
  clear e4 e3
  obtain ⟨i2, i3, i4, i5, i6, i7, i8, i9⟩ := i2
  have ea : (askB E w3).1 = false := by unfold askB; simp [i3, hno]
  rw [ea, if_neg (by simp)]
  have es : (askB E w3).2.svc k = w3.svc k := rfl
  generalize e5 : (askB E w3).2 = w4
  have j2 : w4.svc k = w3.svc k ∧ w4.trace = w.trace ∧ w4.stack = [] ∧ w4.down = false ∧
      w4.runlevel = w.runlevel ∧ w4.conds = w.conds ∧ w4.bootstrap = w.bootstrap ∧ OrdOk w4.toCore := by
    rw [← e5]; exact ⟨rfl, i2, i4, i5, i6, i7, i8, i9⟩
  clear e5 es ea
  obtain ⟨j1, j2, j3, j4, j5, j6, j7, j8⟩ := j2
  rw [i1] at j1
  rw [if_neg (by rw [j1]; simp [hresp]), if_neg (by rw [j1]; simp [h1, h2])]
  have hR : ∀ lab, ROk E lab (mkRec E (n + 1)) := fun lab => mkRec_ok (n + 1)
  constructor
  · intro hm
    rw [if_pos (by rw [j1]; exact hm)]
    generalize e6 : mod k (fun s => { s with block := .crashing, restartCnt := 0, restartTmo := s.restartSaved })
      (emit (.giveUp k) w4) = w5
    have k1 : w5.trace = (w4.toCore, .giveUp k) :: w.trace := by rw [← e6, ← j2]; rfl
    have k2 : OrdOk w5.toCore := by rw [← e6]; exact j8
    have key : ∀ w6 : World, OrdOk w6.toCore → (∃ l, w6.trace = l ++ w5.trace) →
        ∃ l c, ((mkRec E (n + 1)).step k w6).trace = l ++ (c, .giveUp k) :: w.trace := by
      intro w6 o6 ⟨l, e⟩
      obtain ⟨m, e2⟩ := (((hR (.ev .worker)).step k w6).steps o6).ext
      exact ⟨m ++ l, w4.toCore, by rw [e2, e, k1, List.append_assoc]⟩
    split
    · refine key _ ?_ ⟨[(w5.toCore, .rebootSelf k)], rfl⟩
      exact k2
    · split
      · rename_i hoc hpost
        have hf : ∀ w : World, OrdOk w.toCore → OrdOk (scriptFork E k .post (·.postTmo) w).toCore ∧
            ∃ l, (scriptFork E k .post (·.postTmo) w).trace = l ++ w.trace := by
          intro w o
          have fk : OrdOk (fork E k .post w).2.toCore ∧ ∃ l, (fork E k .post w).2.trace = l ++ w.trace := by
            unfold fork; extract_lets; split
            · exact ⟨o, [_], rfl⟩
            · exact ⟨o, [], rfl⟩
          unfold scriptFork
          dsimp only
          split
          · exact fk
          · unfold timerAfter
            split
            · exact fk
            · split
              · exact fk
              · exact fk
        exact key _ (hf w5 k2).1 (hf w5 k2).2
      · exact key _ k2 ⟨[], rfl⟩
    · exact key _ k2 ⟨[], rfl⟩
  · intro hm hrun
    rw [if_neg (by rw [j1]; exact hm)]
    generalize e6 : mod k (fun s =>
      let cnt := schar (s.restartCnt + 1)
      let saved := if cnt = 1 then s.restartTmo else s.restartSaved
      let tmo : Int := if cnt ≤ s.restartMax.tdiv 2 then 2000 else 5000
      { s with restartCnt := cnt, restartSaved := saved, restartTmo := max s.restartTmo tmo,
               block := .none }) (emit (.retry k) w4) = w5
    have k1 : w5.trace = (w4.toCore, .retry k) :: w.trace := by rw [← e6, ← j2]; rfl
    have k2 : OrdOk w5.toCore := by rw [← e6]; exact j8
    have k3 : w5.stack = [] ∧ w5.down = false ∧ w5.runlevel = w.runlevel ∧ w5.conds = w.conds ∧
        w5.bootstrap = w.bootstrap := by rw [← e6]; exact ⟨j3, j4, j5, j6, j7⟩
    have k4 : ∃ a b c, w5.svc k = { w4.svc k with restartCnt := a, restartSaved := b, restartTmo := c, block := .none } := by
      rw [← e6]; exact ⟨_, _, _, by simp only [Sup.mod, emit, upd_same]; rfl⟩
    clear e6
    obtain ⟨x, y, z, k4⟩ := k4
    rw [j1] at k4
    obtain ⟨k31, k32, k33, k34, k35⟩ := k3
    have hen : enabled w5.toCore k = true := by
      obtain ⟨m1, m2, m3, m4⟩ := hrun
      unfold enabled
      dsimp only
      rw [k4, k33, k34, k35]
      dsimp only
      rw [m1, m2, m3]
      by_cases htt : (w.svc k).type = .tty
      · rw [m4 htt]; simp
      · simp [htt]
    have estep : (mkRec E (n + 1)).step = serviceStep E (mkRec E n) := rfl
    rw [estep]
    obtain ⟨l, c, e⟩ := stepHalted_waits (E := E) (lab := .ev .worker) (n := n) k2 k31 k32
      (by rw [k4]; exact h1) hen
    rw [k1] at e
    refine ⟨l, w4.toCore, c, ?_⟩
    obtain ⟨t, b, e7⟩ := timerAfter_eq k ((serviceStep E (mkRec E n) k w5).svc k).restartTmo .retry
      (serviceStep E (mkRec E n) k w5)
    rw [e7]; exact e

/-- One service that crashes. -/
def demoComeback (evs : List Ev) : World :=
  run (calm [{ name := "a".toList, levels := lv234 }]) 20 ([.boot, .bootCheck, .worker] ++ evs)

/-- The hypotheses of both theorems are met, and the service is back after the timer has
    expired. -/
example : (demoComeback []).booted = true ∧ (demoComeback []).down = false ∧ 112 ∈ (demoComeback []).live ∧
    (demoComeback []).order = [0] ∧ ((demoComeback []).svc 0).pid = 112 ∧
    ((demoComeback []).svc 0).state = .running ∧ enabled (demoComeback []).toCore 0 = true ∧
    ((demoComeback []).svc 0).type = .service ∧ ((demoComeback []).svc 0).respawn = false ∧
    0 < ((demoComeback []).svc 0).restartTmo ∧ ((demoComeback []).svc 0).forking = false ∧
    (∀ z ∈ ((demoComeback []).svc 0).zs, z.ready = none) ∧
    (demoComeback [.exit 112 (.exited 1), .worker, .interval]).reent = false ∧
    ((demoComeback [.exit 112 (.exited 1), .worker, .interval]).svc 0).armed = true ∧
    ((demoComeback [.exit 112 (.exited 1), .timer 0]).svc 0).state = .running ∧
    ((demoComeback [.exit 112 (.exited 1), .timer 0]).svc 0).pid = 120 := by decide +kernel

example : ¬ TooMany ((demoComeback [.exit 112 (.exited 1)]).svc 0) ∧
    Awaits ((demoComeback [.exit 112 (.exited 1)]).svc 0) ∧
    MayRun (demoComeback [.exit 112 (.exited 1)]).toCore 0 := by
  unfold Awaits MayRun; decide +kernel

/-! ## Where it fails -/

/-- Restarts are switched off at the moment the timer expires. -/
def demoNoRespawn : World :=
  run { calm [{ name := "a".toList, levels := lv234 }] with ask := fun t => if t = 15 then 1 else 0 } 20
    [.boot, .bootCheck, .worker, .exit 112 (.exited 1), .timer 0]

/-- **C61 is false** if `/tmp/norespawn` exists at the moment the timer expires: the timer is gone
    and nothing sets it again when that file is removed (src/service.c:2475-2478). -/
theorem C61_norespawn_is_forever : ¬ C61_full := by
  intro h
  have key : 0 ∈ demoNoRespawn.order ∧ (demoNoRespawn.svc 0).state = .halted ∧
      (demoNoRespawn.svc 0).block = .restarting ∧ (demoNoRespawn.svc 0).armed = false := by decide +kernel
  have : (demoNoRespawn.svc 0).armed = true := (h _ _ (run_reach _ _ _) 0 key.1 key.2.1 key.2.2.1).2
  rw [key.2.2.2] at this
  cases this

/-- The first fork fails once; then the service crashes, comes back, stays up long enough to count
    as restarted, and crashes again. -/
def demoZeroDelay : World :=
  run { calm [{ name := "a".toList, levels := lv234 }] with pid := fun t => if t = 12 then -1 else 100 + t } 20
    [.boot, .bootCheck, .worker, .exit 116 (.exited 1), .timer 0, .timer 0, .exit 124 (.exited 1)]

/-- **C61 is false** also without that file: a start that failed counts as an attempt, so the
    configured delay is not saved at the first retry, and when the service has come back its delay
    is set to what was never saved, 0.  The next crash then sets no timer
    (src/service.c:2482-2484,2511-2512,2827). -/
theorem C61_delay_lost : ¬ C61_full := by
  intro h
  have key : 0 ∈ demoZeroDelay.order ∧ (demoZeroDelay.svc 0).state = .halted ∧
      (demoZeroDelay.svc 0).block = .restarting ∧ (demoZeroDelay.svc 0).armed = false := by decide +kernel
  have : (demoZeroDelay.svc 0).armed = true := (h _ _ (run_reach _ _ _) 0 key.1 key.2.1 key.2.2.1).2
  rw [key.2.2.2] at this
  cases this

/-- The service crashes while its ready:script runs, and the script ends after it. -/
def demoReadyScript : World :=
  run (calm [{ name := "a".toList, levels := lv234, ready := some 3000 }]) 20
    [.boot, .bootCheck, .worker, .pidfile 0 112 true, .exit 112 (.exited 1), .exit 115 (.exited 0)]

/-- **C61 is false** for a service with a ready:script: the end of the script cancels whatever timer
    the service has (src/service.c:189-209, `service_script_del`). -/
theorem C61_ready_script_cancels : ¬ C61_full := by
  intro h
  have key : 0 ∈ demoReadyScript.order ∧ (demoReadyScript.svc 0).state = .halted ∧
      (demoReadyScript.svc 0).block = .restarting ∧ (demoReadyScript.svc 0).armed = false := by decide +kernel
  have : (demoReadyScript.svc 0).armed = true := (h _ _ (run_reach _ _ _) 0 key.1 key.2.1 key.2.2.1).2
  rw [key.2.2.2] at this
  cases this

end

end Verif.Sup
