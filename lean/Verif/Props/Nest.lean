import Verif.Sup.NestFree
import Verif.Sup.Demo
import Verif.Props.Start
import Verif.Props.Proc
import Verif.Props.Stop
import Verif.Props.Crash
import Verif.Props.Escalate
import Verif.Props.Freeze
import Verif.Props.Levels
import Verif.Props.Reload
import Verif.Props.Quiet
import Verif.Props.Free
import Verif.Props.Status
import Verif.Props.Comeback

/-!
# C62: acting on a service never interrupts acting on the same service

Changing the state of a service changes conditions, and changing a condition steps all services that
wait for it, on top of what is going on.  The flag `reent` of the model records that the service being
stepped, or the run of the state machine going on, has been entered once more; `twice` records
that the state of a service has been changed while its last change was being published.
-/

namespace Verif.Sup

open Verif (CStr CondStore)

section
variable {E : Env}

/-- The full claim of C62. -/
def C62_full : Prop := ∀ (E : Env) (w : World), Reach E w → w.reent = false ∧ w.twice = false

/-- A service that waits for a condition of its own: it is to run while it is halted. -/
def demoRing : World :=
  run (calm [{ name := "a".toList, levels := lv2, cond := some "service/a/halted".toList }]) 24
    [.boot, .bootCheck, .worker, .apiRunlevel 3, .worker]

/-- **C62 is false** for services that wait for themselves. -/
theorem C62_false_for_rings : ¬ C62_full := by
  intro h
  have h1 := (h _ _ (run_reach _ _ _) : demoRing.reent = false ∧ _).1
  have h2 : demoRing.reent = true := by decide +kernel
  rw [h2] at h1; cases h1

/-- Two forking services share a pid file, the process ends, and the settings of the second change.
    No service waits for anything. -/
def demoLost : World :=
  run { calm [{ name := "a".toList, levels := lv234, forking := true },
              { name := "b".toList, levels := lv234, forking := true }] with
        ask := fun t => if t = 30 ∨ t = 37 then 1 else 0 } 20
    [.boot, .bootCheck, .worker, .worker, .adopt 500, .pidfile 0 500 true, .pidfile 1 500 true,
     .exit 500 (.exited 0), .confTouch, .reloadAll, .worker]

/-- **C62 is false** for forking services, whatever waits for what: if the process named in the pid
    file is gone when SIGHUP is to be sent, `service_reload` has the state machine run from inside
    the step (src/service.c:1206-1209). -/
theorem C62_false_for_lost_processes : ¬ C62_full := by
  intro h
  have h1 := (h _ _ (run_reach _ _ _) : demoLost.reent = false ∧ _).1
  have h2 : demoLost.reent = true := by decide +kernel
  rw [h2] at h1; cases h1

/-- What is asked of the configuration, over all the times it is read:
    each service waits only for conditions of services before it, in some order of the services;
    no service is forking, sysv, has a stop:script or systemd/s6 notification; and what is for
    runlevel S alone is a run or task not told of changes by SIGHUP. -/
def Layered (E : Env) : Prop := (∃ rank, Ranked E rank) ∧ PlainEnv E ∧ BootOk E

/-- **C62, partial.**  With an layered configuration no service is ever stepped while it is being
    stepped, the state machine is never entered while it is running, and no service changes its
    state while its last change is being published.
    Missing: other configurations (for cycles and for forking services it is false). -/
theorem C62_no_overlap_partial (hE : Layered E) {w : World} (h : Reach E w) :
    w.reent = false ∧ w.twice = false := by
  obtain ⟨⟨rank, hR⟩, hP, hB⟩ := hE
  exact h.fine hP hB hR

/-! ### Checking that a configuration is layered -/

/-- How the conditions of a service begin, before its name. -/
def kinds : List CStr :=
  [['p', 'i', 'd', '/'], ['s', 'e', 'r', 'v', 'i', 'c', 'e', '/'], ['t', 'a', 's', 'k', '/'],
   ['r', 'u', 'n', '/'], ['t', 't', 'y', '/'], ['s', 'y', 's', 'v', '/']]

/-- The services that `n` may be a condition of. -/
def parts (n : CStr) : List CStr :=
  kinds.flatMap fun s => if s.isPrefixOf n then
    (List.range (n.length + 1)).map fun b => (n.drop s.length).take b else []

theorem mem_parts {s i t : CStr} (hs : s ∈ kinds) : i ∈ parts (s ++ i ++ t) := by
  refine List.mem_flatMap.mpr ⟨s, hs, ?_⟩
  rw [if_pos (by rw [List.isPrefixOf_iff_prefix, List.append_assoc]; exact List.prefix_append ..)]
  refine List.mem_map.mpr ⟨i.length, ?_, ?_⟩
  · simp; omega
  · simp

/-- A check of one stanza of a finite configuration. -/
def rankOk (rank : CStr → Nat) (zs : List Stanza) (z : Stanza) : Bool :=
  z.waits.all fun n => decide (n.length ≤ 42) && (parts n).all fun j =>
    decide (Told j n → rank j < rank z.full ∧
      (z.type = .tty → ∀ y ∈ zs, y.type = .tty → y.dev = z.dev → rank j < rank y.full))

theorem told_part {i n : CStr} (hn : n.length ≤ 42) (h : Told i n) : i ∈ parts n := by
  have inner : ∀ m ∈ condsOf i, ∃ s ∈ kinds, ∃ t, m = s ++ i ++ t := by
    intro m hm
    unfold condsOf at hm
    rcases List.mem_cons.mp hm with rfl | hm
    · exact ⟨_, .head _, [], (List.append_nil _).symm⟩
    rcases List.mem_cons.mp hm with rfl | hm
    · exact ⟨_, .tail _ (.head _), _, rfl⟩
    rcases List.mem_append.mp hm with hm | hm
    · obtain ⟨x, _, rfl⟩ := List.mem_map.mp hm
      exact ⟨_, .tail _ (.head _), "/".toList ++ x.toList, List.append_assoc ..⟩
    · obtain ⟨x, _, hm⟩ := List.mem_flatMap.mp hm
      have hk : x.str ++ ['/'] ∈ kinds := by cases x <;> decide
      have e : ∀ r, x.str ++ '/' :: i ++ r = x.str ++ ['/'] ++ i ++ r := by
        intro r; simp only [List.append_assoc, List.cons_append, List.nil_append]
      rcases List.mem_cons.mp hm with rfl | hm
      · exact ⟨_, hk, _, e _⟩
      · rw [List.mem_singleton.mp hm]
        exact ⟨_, hk, _, e _⟩
  rcases h with h | ⟨m, hm, hu⟩
  · obtain ⟨s, hk, t, rfl⟩ := inner n h
    exact mem_parts hk
  · obtain ⟨s, hk, t, rfl⟩ := inner m hm
    have hp : dirSlash (condPath (s ++ i ++ t)) <+: n := List.isPrefixOf_iff_prefix.mp hu
    have hle := hp.length_le
    have h1 : (condPath (s ++ i ++ t)) <+: dirSlash (condPath (s ++ i ++ t)) := by
      unfold dirSlash; split
      · exact List.prefix_refl _
      · exact List.prefix_append ..
    have hl := h1.length_le
    have he : condPath (s ++ i ++ t) = s ++ i ++ t := by
      unfold condPath at hl hle ⊢
      apply List.take_of_length_le
      rw [List.length_take] at hl
      omega
    rw [he] at h1
    obtain ⟨r, hr⟩ := h1.trans (he ▸ hp)
    rw [← hr, List.append_assoc (s ++ i)]
    exact mem_parts hk

/-- A configuration whose stanzas are all among finitely many can be checked. -/
theorem ranked_of_check {rank : CStr → Nat} {zs : List Stanza} (hz : ∀ t, ∀ z ∈ E.conf t, z ∈ zs)
    (h : zs.all (rankOk rank zs) = true) : Ranked E rank := by
  intro t z hzt i hi n hn j hj
  have := List.all_eq_true.mp (List.all_eq_true.mp h z (hz t z hzt)) n hn
  simp only [Bool.and_eq_true, decide_eq_true_eq] at this
  have := of_decide_eq_true (List.all_eq_true.mp this.2 j (told_part this.1 hj)) hj
  rcases hi with rfl | ⟨ht, t', y, hy, h1, h2, rfl⟩
  · exact this.1
  · exact this.2 ht y (hz t' y hy) h1 h2

/-- A database, a web server that waits for it to be ready, and a task that waits for both; the
    web server may need a hardware check in runlevel S. -/
def webConf : List Stanza :=
  [{ name := "check".toList, type := .task, levels := lvS },
   { name := "db".toList, levels := lv234 },
   { name := "web".toList, levels := lv234, cond := some "service/db/ready,pid/db,usr/go".toList },
   { name := "job".toList, type := .task, levels := lv2, cond := some "pid/web,service/db/running".toList }]

def webRank (n : CStr) : Nat :=
  if n = "db".toList then 1 else if n = "web".toList then 2 else if n = "job".toList then 3 else 0

/-- Not vacuous: this configuration is layered. -/
theorem web_layered : Layered (calm webConf) := by
  have hz : ∀ t, ∀ z ∈ (calm webConf).conf t, z ∈ webConf := by
    intro t z hz
    unfold calm at hz
    dsimp only at hz
    split at hz
    · exact hz
    · cases hz
  refine ⟨⟨webRank, ranked_of_check hz (by decide +kernel)⟩, ?_, ?_⟩
  · intro t z h
    have : ∀ z ∈ webConf, z.odd = false := by decide +kernel
    exact this z (hz t z h)
  · intro t z h hb
    have : ∀ z ∈ webConf, bootMask z.levels → z.type.isRuntask = true ∧
        ∀ y ∈ webConf, y.full = z.full → y.hups = false := by decide +kernel
    obtain ⟨h1, h2⟩ := this z (hz t z h) hb
    exact ⟨h1, fun t' y hy => h2 y (hz t' y hy)⟩

/-- The system is booted, the database reports that it is ready, and the user sets usr/go. -/
def demoWeb : World :=
  run (calm webConf) 24
    [.boot, .exit 117 (.exited 0), .bootCheck, .worker, .pidfile 1 127 true,
     .condSet "usr/go".toList true, .pidfile 2 133 true]

/-- Not vacuous: the web server and then the task are started by the conditions they wait for. -/
example : Reach (calm webConf) demoWeb ∧ demoWeb.oof = false ∧ demoWeb.order = [1, 2, 3] ∧
    (demoWeb.svc 2).state = .running ∧ mainAlive 2 demoWeb.trace = [133] ∧
    (demoWeb.svc 3).state = .running ∧ mainAlive 3 demoWeb.trace = [138] :=
  ⟨run_reach _ _ _, by decide +kernel⟩

/-! ### What follows for the other properties

In each of these the hypothesis that no service has been re-entered, which is about the execution,
is replaced by one about the configuration. -/

/-- The configuration alone decides whether any entry of the trace was made after re-entrancy. -/
theorem Layered.entry (hE : Layered E) {w : World} (h : Reach E w) {c : Core} {e : Eff}
    {tl : List (Core × Eff)} (hx : (c, e) :: tl <:+ w.trace) (hs : ¬ Second e) : c.reent = false := by
  have key : ∀ c e tl, (c, e) :: tl <:+ w.trace → ¬ Second e → c.reent = true → w.reent = true := by
    refine Reach.inv (P := fun w => ∀ c e tl, (c, e) :: tl <:+ w.trace → ¬ Second e → c.reent = true →
      w.reent = true) ?_ ?_ h
    · intro _ _ c e tl h
      have := h.length_le
      simp [World.start] at this
    · intro lab a b _ p ih c e tl hx hs hc
      rcases p.snap.2 c e tl hx with h | h
      · exact p.reent (ih c e tl h hs hc)
      · rcases h.2 with h | h
        · exact absurd h hs
        · exact p.reent (h.2.reent ▸ hc)
  cases hc : c.reent with
  | false => rfl
  | true =>
    have := key c e tl hx hs hc
    rw [(C62_no_overlap_partial hE h).1] at this
    cases this

/-- **C07** (signals), see `C07_never_pid_one_partial`. -/
theorem C07_never_pid_one_layered_partial (hE : Layered E) {w : World} (h : Reach E w) {c : Core}
    {tgt : Int} {sig : Nat} {why : Why} {k : Key} {tl : List (Core × Eff)}
    (hx : (c, .kill tgt sig why k) :: tl <:+ w.trace) (hg : why ≠ .group) :
    tgt ≠ 1 ∧ (1 < tgt ∨ tgt < -1 ∨ ((tgt = 0 ∨ tgt = -1) ∧ (why = .pause ∨ why = .cont ∨ why = .api))) :=
  C07_never_pid_one_partial hE.2.1 h hx (hE.entry h hx (by rintro ⟨⟩; exact hg rfl))

/-- **C09** (one process), see `C09_one_main_process_partial`: when the command of a registered service is
    started, no process started earlier as its command is left. -/
theorem C09_one_main_process_layered_partial (hE : Layered E) {w : World} (h : Reach E w) {c : Core}
    {p : Int} {k : Key} {tl : List (Core × Eff)} (hx : (c, .spawn p k .main) :: tl <:+ w.trace)
    (hk : k ∈ c.order) : mainAlive k tl = [] :=
  C09_one_main_process_plain_partial hE.2.1 h hx hk (hE.entry h hx (by rintro ⟨⟩))

/-- **C12** (crash limit), see `C12_restarts_limited_partial`. -/
theorem C12_restarts_limited_layered_partial (hE : Layered E) {w : World} (h : Reach E w) (k : Key)
    (hz : ∀ z ∈ (w.svc k).zs, z.respawn = false ∧ z.forking = false ∧ 0 ≤ z.restartMax ∧
      z.restartMax ≤ 127)
    (hb : ∀ x ∈ w.trace, x.2 ≠ .bump k) :
    (crashStarts k w.trace : Int) ≤ (w.svc k).restartMax + lifts k w.trace :=
  C12_restarts_limited_partial h (C62_no_overlap_partial hE h).1 k hz hb

/-- **C13** (stopped by the user), see `C13_user_stop_lasts_partial`. -/
theorem C13_user_stop_lasts_layered_partial (hE : Layered E) {w : World} (h : Reach E w) {k : Key}
    (hk : k ∈ w.order) (hd : w.down = false) (hres : reserved w.runlevel = false) (n : Nat) {v : World}
    (hv : Later E (fun _ ev => ev ≠ .apiStart k ∧ ev ≠ .apiRestart k ∧ ev ≠ .apiReload k ∧
      ∀ p b, ev ≠ .pidfile k p b) (handle E n (.apiStop k) w) v) :
    ∃ l, v.trace = l ++ w.trace ∧
      ((∃ c, (c, .reg k) ∈ l) ∨ ∀ c p, (c, .spawn p k .main) ∉ l) :=
  C13_user_stop_lasts_partial h hk hd hres n hv
    (C62_no_overlap_partial hE (hv.reach (h.event n (.apiStop k)))).1

/-- **C14** (SIGKILL follows), see `C14_stop_escalates_partial`. -/
theorem C14_stop_escalates_layered_partial (hE : Layered E) {w : World} (h : Reach E w) {k : Key}
    (hk : k ∈ w.order) (hcfg : ∀ z ∈ (w.svc k).zs, z.ready = none ∧ 0 < z.killdelay)
    (hs : (w.svc k).state = .stopping) {p : Int} (hp : p ∈ mainAlive k w.trace)
    (hq : ¬ since p (AskedStopping k) w.trace) :
    ((w.svc k).timer = some .kill ∧ (w.svc k).armed = true) ∨ since p (SigKill p) w.trace :=
  C14_stop_escalates_partial h (C62_no_overlap_partial hE h).1 hk ((h.ownOk hE.2.1).odd k) hcfg hs hp hq

/-- **C15** (whose process), see `C15_attribution_partial`. -/
theorem C15_attribution_layered_partial (hE : Layered E) {w : World} (h : Reach E w) :
    (∀ k ∈ w.order, 1 < (w.svc k).pid →
      (w.svc k).pid ∈ w.live ∧ startedFor (w.svc k).pid w.trace = some k) ∧
    (∀ i ∈ w.order, ∀ j ∈ w.order, 1 < (w.svc i).pid → (w.svc i).pid = (w.svc j).pid → i = j) ∧
    (∀ p k, 1 < p → findByPid w.toCore p = some k → startedFor p w.trace = some k) ∧
    (∀ k ∈ w.order, ∀ p ∈ mainAlive k w.trace, findByPid w.toCore p = some k) :=
  C15_attribution_partial hE.2.1 h (C62_no_overlap_partial hE h).1

/-- **C16** (frozen), see `C16_frozen_continues_partial`. -/
theorem C16_frozen_continues_layered_partial (hE : Layered E) {w : World} (h : Reach E w)
    (k : Key) (p : Int) (hk : k ∈ w.order) (hp : p ∈ mainAlive k w.trace) (hz : frozen k p w.trace)
    (hf : ¬ since p (ForcedPaused k) w.trace) : (w.svc k).state = .paused :=
  (C16_frozen_continues_partial h (C62_no_overlap_partial hE h).1 k p).1 hk ((h.ownOk hE.2.1).odd k) hp hz hf

/-- **C20** (no way back from a shutdown), see `C20_no_return_partial`. -/
theorem C20_no_return_layered_partial (hE : Layered E) {w v : World} (hw : Reach E w)
    (hl : w.runlevel = 0 ∨ w.runlevel = 6) (h : After E w v) :
    v.runlevel = w.runlevel ∧ v.nextKey = w.nextKey ∧ ∀ k, (v.svc k).cfg = (w.svc k).cfg :=
  C20_no_return_partial hw hl h (C62_no_overlap_partial hE (h.reach hw)).1

/-- **C41** (no use after free), see `C41_plain_configuration_partial`: a condition on the configuration
    only. -/
theorem C41_no_use_after_free_layered_partial (hE : Layered E) {w : World}
    (hc : ∀ t, ∀ z ∈ E.conf t, z.ready = none ∧ z.levels &&& (2 ^ 32 - 1 - 2 ^ 10) ≠ 0)
    (h : Reach E w) :
    w.ub = false ∧ w.freed.Nodup ∧
    ∀ k ∈ w.freed, k ∉ w.order ∧ k ∉ w.gc ∧
      (w.svc k).armed = false ∧ (w.svc k).watch = false ∧ ∀ p, (p, k) ∉ w.assoc := by
  refine C41_plain_configuration_partial (fun t z hz => ?_) h (C62_no_overlap_partial hE h).1
  have hp := hE.2.1 t z hz
  simp only [Stanza.odd, Bool.or_eq_false_iff, decide_eq_false_iff_not] at hp
  exact ⟨(hc t z hz).1, hp.1.2, hp.2, (hc t z hz).2⟩

/-- **C42** (outcome of run/tasks), see `C42_matches_exit_partial`. -/
theorem C42_matches_exit_layered_partial (hE : Layered E) {w : World} (h : Reach E w)
    (hg : w.conds.rgen ≠ 0) {k : Key} (hk : OwnName w k) (ho : k ∈ w.order)
    {t : SType} {top : String} (hty : (t = .run ∧ top = "run") ∨ (t = .task ∧ top = "task"))
    (hz : ∀ z ∈ (w.svc k).zs, z.type = t ∧ z.manual = false ∧ z.forking = false ∧ z.pre = none)
    (hd : (w.svc k).state = .done) :
    (isOn w k top "success" ↔ lastExit k w.trace = some (.exited 0)) ∧
    (isOn w k top "failure" ↔ lastExit k w.trace ≠ some (.exited 0)) := by
  obtain ⟨h1, h2⟩ := C62_no_overlap_partial hE h
  exact C42_matches_exit_partial hE.2.1 h h1 h2 hg hk ho hty hz hd

/-- **C43** (status conditions), see `C43_status_is_told_partial`. -/
theorem C43_status_is_told_layered_partial (hE : Layered E) {w : World} (h : Reach E w)
    (hg : w.conds.rgen ≠ 0) {k : Key} (hk : OwnName w k)
    (hz : ∀ z ∈ (w.svc k).zs, z.type = .service ∨ z.type = .sysv) {word : String}
    (hw : word ∈ allStatus) :
    isOn w k "service" word ↔ told w k = some word := by
  obtain ⟨h1, h2⟩ := C62_no_overlap_partial hE h
  exact C43_status_is_told_partial h h1 h2 hg hk hz hw

/-- **C61** (tried again), see `C61_crash_sets_timer_partial`. -/
theorem C61_crash_sets_timer_layered_partial (hE : Layered E) {w v : World} (h : Reach E w) {k : Key}
    {p : Int} {st : WStatus} {n : Nat}
    (hb : w.booted = true) (hd : w.down = false) (hp1 : 1 < p)
    (hk : k ∈ w.order) (hp : (w.svc k).pid = p)
    (hs : (w.svc k).state = .running) (he : enabled w.toCore k = true)
    (ht : (w.svc k).type.isDaemon = true ∨ (w.svc k).type = .tty)
    (hresp : (w.svc k).respawn = false) (htmo : 0 < (w.svc k).restartTmo)
    (hz : ∀ z ∈ (w.svc k).zs, z.ready = none)
    (hv : Later E (fun _ ev => ev ≠ .timer k) (handle E (n + 1) (.exit p st) w) v) :
    Awaits (v.svc k) ∨ Ended k w.trace v.trace := by
  obtain ⟨h1, h2, _⟩ := C15_attribution_layered_partial hE h
  refine C61_crash_sets_timer_partial h hb hd (hp ▸ (h1 k hk (hp ▸ hp1)).1) hp1 hk hp ?_ hs he ht hresp htmo
    (((h.ownOk hE.2.1).proc.plain k) ((h.ownOk hE.2.1).odd k)).1 hz hv (C62_no_overlap_partial hE (hv.reach (h.event (n + 1) (.exit p st)))).1
  intro j hj hjp
  exact h2 j hj k hk (by rw [hjp]; exact hp1) (hjp.trans hp.symm)

end

end Verif.Sup
