import Verif.Sup.Later
import Verif.Sup.Demo

/-!
# Properties of processes: C07, C08, C09, C15, C19

`(c, e) :: tl <:+ w.trace` for a reachable world `w` says that in some execution the effect `e`
happens in state `c`, and `tl` is everything that has happened before.
-/

namespace Verif.Sup

open Verif (CStr CondStore)

section
variable {E : Env}

/-! ## C07 -/

/-- The full claim of C07. -/
def C07_full : Prop := ∀ (E : Env) (w : World), Reach E w →
  ∀ (c : Core) (tgt : Int) (sig : Nat) (why : Why) (k : Key),
    (c, .kill tgt sig why k) ∈ w.trace → 1 < tgt ∨ tgt < -1

/-- A service with a pre script and a condition crashes; when it is restarted the fork of the pre
    script fails; the crash timer then puts the service to RUNNING; a reload follows. -/
def demoForkFail : World :=
  run { calm [{ name := "a".toList, levels := lv234, pre := some 3000, cond := some "usr/x".toList }] with
        pid := fun t => if t < 16 then 100 + t else -1 } 20
    [.boot, .condSet "usr/x".toList true, .bootCheck, .worker, .exit 109 (.exited 0), .worker,
     .exit 115 (.exited 1), .timer 0, .worker, .timer 0, .reloadAll]

/-- **C07 is false**: one failed fork can end in `kill(-1, SIGSTOP)`, which freezes every process
    of the system. -/
theorem C07_sigstop_to_everyone : ¬ C07_full := by
  intro h
  have key : ∃ x ∈ demoForkFail.trace, x.2 = .kill (-1) 19 .pause 0 := by decide +kernel
  obtain ⟨⟨c, e⟩, h1, h2⟩ := key
  simp only at h2
  subst h2
  have := h _ _ (run_reach _ _ _) c (-1) 19 .pause 0 h1
  omega

/-- a crashes, a and b are dropped from the configuration, the crash timer of a puts it to RUNNING
    without a process, the user signals a. -/
def demoSignalZero : World :=
  run (calm [{ name := "a".toList, levels := lv234 }, { name := "b".toList, levels := lv234 }] 22) 20
    [.boot, .bootCheck, .worker, .exit 115 (.exited 1), .reloadAll, .timer 0, .apiSignal 0 15]

/-- **C07 is false**, second witness: without any failing system call, `initctl signal` can end in
    `kill(0, sig)`, which signals the process group of PID 1. -/
theorem C07_signal_to_own_group : ¬ C07_full := by
  intro h
  have key : ∃ x ∈ demoSignalZero.trace, x.2 = .kill 0 15 .api 0 := by decide +kernel
  obtain ⟨⟨c, e⟩, h1, h2⟩ := key
  simp only at h2
  subst h2
  have := h _ _ (run_reach _ _ _) c 0 15 .api 0 h1
  omega

/-- **C07, partial.**  Every signal sent to stop a service, to enforce a stop (SIGKILL), to end a
    script that overruns, to clean up a process group, or to make a service re-read its
    configuration is addressed to a pid above 1 or a process group above 1.  Missing: SIGSTOP and
    SIGCONT around condition changes and signals requested by the user, for which it is false. -/
theorem C07_signal_targets_partial {w : World} (h : Reach E w) {c : Core} {tgt : Int} {sig : Nat}
    {why : Why} {k : Key} (hx : (c, .kill tgt sig why k) ∈ w.trace)
    (hw : why ≠ .pause ∧ why ≠ .cont ∧ why ≠ .api) : 1 < tgt ∨ tgt < -1 := by
  have := h.effOk hx
  generalize he : Eff.kill tgt sig why k = e at this
  cases this with
  | kill lab w k' tgt' sig' why' h =>
    injection he with e1 e2 e3 e4
    subst e1; subst e2; subst e3; subst e4
    cases h with
    | halt h => exact .inl h
    | escalate h => exact .inl h
    | readyTimeout p h => exact .inl h
    | scriptTimeout h => exact .inl h
    | group p h => right; omega
    | pause => exact absurd rfl hw.1
    | cont => exact absurd rfl hw.2.1
    | hup h => exact .inl h
    | api => exact absurd rfl hw.2.2
  | killGroup _ p _ hp => injection he with e1; right; omega
  | _ => cases he

/-- What a signal is sent for, in which state of the service, and which one it is -/
def Fitting (s : Svc) (tgt : Int) (sig : Nat) : Why → Prop
  | .halt => tgt = s.pid ∧ sig = s.sighalt ∧ (s.state = .running ∨ s.state = .paused ∨ s.state = .starting ∨
      s.state = .waiting ∨ s.state = .setup)
  | .pause => tgt = s.pid ∧ sig = 19 ∧ s.state = .running
  | .cont => tgt = s.pid ∧ sig = 18 ∧ s.state = .paused
  | .hup => tgt = s.pid ∧ sig = 1 ∧ s.state = .running
  | .api => tgt = s.pid ∧ s.state = .running
  | .escalate | .scriptTimeout => tgt = s.pid ∧ sig = 9
  | .readyTimeout | .group => sig = 9

/-- **C07, which signals.**  The signal and the state of the service fit what it is sent for: the configured stop signal
    to a service that is up, SIGSTOP to a running and SIGCONT to a frozen one, SIGHUP and what the user asks for to a
    running one, and SIGKILL where something takes too long; and but for SIGKILL to what is left of it, always to the
    process the service has at that time. -/
theorem C07_which_signals {w : World} (h : Reach E w) {c : Core} {tgt : Int} {sig : Nat}
    {why : Why} {k : Key} (hx : (c, .kill tgt sig why k) ∈ w.trace) : Fitting (c.svc k) tgt sig why := by
  have := h.effOk hx
  generalize he : Eff.kill tgt sig why k = e at this
  cases this with
  | kill lab w k' tgt' sig' why' h =>
    injection he with e1 e2 e3 e4
    subst e1; subst e2; subst e3; subst e4
    cases h with
    | halt h hs =>
      refine ⟨rfl, rfl, ?_⟩
      revert hs
      cases (w.svc k).state <;> simp [SState.toNat]
    | escalate h => exact ⟨rfl, rfl⟩
    | readyTimeout p h => exact rfl
    | scriptTimeout h => exact ⟨rfl, rfl⟩
    | group p h => exact rfl
    | pause _ hs => exact ⟨rfl, rfl, hs⟩
    | cont hs => exact ⟨rfl, rfl, hs⟩
    | hup h hs => exact ⟨rfl, rfl, hs⟩
    | api _ hs => exact ⟨rfl, hs⟩
  | killGroup _ p _ hp => injection he with e1 e2 e3 e4; subst e3; exact e2
  | _ => cases he

/-- What `pid` can be, for plain services. -/
def PidForm (w : World) : Prop := ∀ k, (w.svc k).pid = -1 ∨ (w.svc k).pid = 0 ∨ 1 < (w.svc k).pid

theorem PidForm.prim {lab : Lab} {a b : World} (hr : a.reent = false)
    (hodd : ∀ k, (a.svc k).odd = false) (hpl : ∀ k, PlainOk (a.svc k)) (h : Prim E lab a b)
    (ih : PidForm a) : PidForm b := by
  intro k
  have ih := ih k
  cases h.view k with
  | same h => rw [h]; exact ih
  | mod s' h e =>
    rw [e]
    cases h with
    | minor _ h => rw [h]; exact ih
    | forkedPid p x h hf =>
      have := (hpl k (hodd k)).1
      rw [hf hr] at this; cases this
    | pidLost => exact .inr (.inl rfl)
    | pidOdd => exact .inr (.inl rfl)
    | pidNone => exact .inr (.inl rfl)
    | scriptFail => exact .inl rfl
    | apply z x y =>
      obtain ⟨_, _, _, _, _, _, _, _, _, _, _, _, e⟩ := applyStanza_eq z x y (a.svc k)
      rw [e]; exact ih
    | _ => exact ih
  | state new t x h ht e => rw [e]; exact ih
  | force x h ht hr hs hf e => rw [e]; exact ih
  | respawn x h ht hr e => rw [e]; exact ih
  | giveUp x h ht hr hs hb hm hc e => rw [e]; exact ih
  | again x sv tm h ht hr hs hb hc e => rw [e]; exact ih
  | age h hs e => rw [e]; exact ih
  | bump h e => rw [e]; exact ih
  | marks r d hr hp hs e => rw [e]; exact ih
  | start p x hp hl hb he hs e => rw [e]; exact .inr (.inr hp)
  | startBad p x hp hl hb he hs hn e => rw [e]; exact .inr (.inr hp)
  | script p role hp hl hr h e => rw [e]; exact .inr (.inr hp)
  | exit s' hp hl hs ht e => rw [e, hs]; exact .inr (.inl rfl)
  | delBoot h hb e => rw [e]; exact .inr (.inl rfl)
  | reg z h hz hs ht e => rw [e]; exact ih
  | new z h hb hz hs ht e => rw [e]; exact .inr (.inl rfl)

/-- **C07, PID 1 itself, partial.**  With plain services only (no forking services, sysv scripts,
    stop:script, systemd or s6 notification) no signal is ever addressed to pid 1; and apart from
    the cases of the witnesses above (0 and -1, for SIGSTOP, SIGCONT and user signals) all targets
    are above 1 or below -1. -/
theorem C07_never_pid_one_partial (hE : PlainEnv E) {w : World} (h : Reach E w) {c : Core} {tgt : Int}
    {sig : Nat} {why : Why} {k : Key} {tl : List (Core × Eff)}
    (hx : (c, .kill tgt sig why k) :: tl <:+ w.trace) (hr : c.reent = false) :
    tgt ≠ 1 ∧ (1 < tgt ∨ tgt < -1 ∨ ((tgt = 0 ∨ tgt = -1) ∧ (why = .pause ∨ why = .cont ∨ why = .api))) := by
  have hm : (c, .kill tgt sig why k) ∈ w.trace := hx.subset (List.mem_cons_self ..)
  by_cases hw : why ≠ .pause ∧ why ≠ .cont ∧ why ≠ .api
  · have := C07_signal_targets_partial h hm hw
    exact ⟨by omega, by omega⟩
  · have hw' : why = .pause ∨ why = .cont ∨ why = .api := by
      cases why <;> simp_all
    have hns : ¬ Second (.kill tgt sig why k) := by
      intro h2
      cases h2
      rcases hw' with h | h | h <;> cases h
    obtain ⟨a, ha, _, hsn⟩ := Reach.at
      (P := fun w => OwnOk w ∧ (w.reent = false → PidForm w))
      (fun _ _ => ⟨OwnOk.start _ _, fun _ _ => .inr (.inl rfl)⟩)
      (fun lab a b ho p ih => ⟨ih.1.prim hE ho p, fun hb =>
        PidForm.prim (p.reent_false hb) ih.1.odd ih.1.proc.plain p (ih.2 (p.reent_false hb))⟩)
      h hx hns
    have hpf := ha.2 (hsn.reent ▸ hr) k
    rw [← hsn.pid k] at hpf
    have ht : tgt = (c.svc k).pid := by
      have := h.effOk hm
      generalize he : Eff.kill tgt sig why k = e at this
      cases this with
      | kill lab w k' tgt' sig' why' h =>
        injection he with e1 e2 e3 e4
        subst e1; subst e2; subst e3; subst e4
        cases h with
        | pause => rfl
        | cont => rfl
        | api => rfl
        | _ => rcases hw' with h | h | h <;> cases h
      | killGroup _ p _ hp => injection he with e1 e2 e3; subst e3; rcases hw' with h | h | h <;> cases h
      | _ => cases he
    rw [ht]
    rcases hpf with h | h | h
    · exact ⟨by omega, .inr (.inr ⟨.inr h, hw'⟩)⟩
    · exact ⟨by omega, .inr (.inr ⟨.inl h, hw'⟩)⟩
    · exact ⟨by omega, .inl h⟩

/-- A running service is stopped by the user: SIGTERM to its process. -/
def demoStop : World :=
  run (calm [{ name := "a".toList, levels := lv234 }]) 20 [.boot, .bootCheck, .worker, .apiStop 0]

example : ∃ x ∈ demoStop.trace, x.2 = .kill 112 15 .halt 0 ∧ x.1.reent = false := by decide +kernel

example : PlainEnv (calm [{ name := "a".toList, levels := lv234 }]) := by
  intro t z hz
  simp only [calm] at hz
  split at hz
  · simp only [List.mem_singleton] at hz; subst hz; decide
  · cases hz

/-! ## C08 -/

/-- **C08.**  Whenever the command of any service is started, every `run` command started before
    has been collected.  (`runAlive`, in `Verif/Sup/Kids.lean`, reads the uncollected `run`
    commands off the trace of forks and collected children.) -/
theorem C08_nothing_starts_during_run {w : World} (h : Reach E w) {c : Core} {p : Int} {k : Key}
    {tl : List (Core × Eff)} (hx : (c, .spawn p k .main) :: tl <:+ w.trace) : runAlive tl = [] := by
  obtain ⟨a, ha, ht, hs⟩ := Reach.at (P := Books) Books.start (fun _ _ _ ho p ih => ih.prim ho p)
    h hx (fun h => by cases h)
  have hb : c.runBlock = 0 := by
    cases h.effOk (hx.subset (List.mem_cons_self ..)) with
    | start _ _ _ hp hl hb he hs => exact hb
    | script _ _ _ _ hp hl hr => exact absurd rfl hr
  have hb' : a.runBlock = 0 := by
    rcases hs with rfl | ⟨j, t, x, r, rfl⟩ <;> exact hb
  rw [← ht]
  cases e : runAlive a.trace with
  | nil => rfl
  | cons q l =>
    have h1 := ha.run q (by rw [e]; exact List.mem_cons_self ..)
    have h2 := ha.live q h1.2
    rw [hb'] at h1
    omega

/-- A run task and a service: the service is started after the run task has been collected. -/
def demoRun : World :=
  run (calm [{ name := "a".toList, levels := lv234, type := .run },
             { name := "b".toList, levels := lv234 }]) 20
    [.boot, .bootCheck, .worker, .worker, .exit 115 (.exited 0), .worker]

example : ∃ x ∈ demoRun.trace, x.2 = .spawn 115 0 .main ∧ (x.1.svc 0).type = .run := by decide +kernel

example : ∃ x ∈ demoRun.trace, x.2 = .spawn 126 1 .main := by decide +kernel

/-! ## C09 -/

/-- The full claim of C09, for registered services: when the command of `k` is started no process
    started earlier as the command of `k` is left. -/
def C09_full : Prop := ∀ (E : Env) (w : World), Reach E w →
  ∀ (c : Core) (p : Int) (k : Key) (tl : List (Core × Eff)),
    (c, .spawn p k .main) :: tl <:+ w.trace → k ∈ c.order → mainAlive k tl = []

/-- The stop:script of a returns 1 when the user stops it; the user then starts it again. -/
def demoStopScript : World :=
  run { calm [{ name := "a".toList, levels := lv234, stopScript := true }] with
        ask := fun t => if t = 17 then 1 else 0 } 20
    [.boot, .bootCheck, .worker, .apiStop 0, .apiStart 0]

theorem mem_suffix {α : Type} {x : α} {l : List α} (h : x ∈ l) : ∃ tl, x :: tl <:+ l := by
  obtain ⟨l1, l2, e⟩ := List.append_of_mem h
  exact ⟨l2, l1, e.symm⟩

/-- Cut the trace at the first (most recent) entry that satisfies `f`. -/
def cutAt (f : Eff → Bool) : List (Core × Eff) → Option ((Core × Eff) × List (Core × Eff))
  | [] => none
  | x :: t => if f x.2 then some (x, t) else cutAt f t

theorem cutAt_suffix {f : Eff → Bool} {t : List (Core × Eff)} {x : Core × Eff}
    {tl : List (Core × Eff)} (h : cutAt f t = some (x, tl)) : x :: tl <:+ t ∧ f x.2 = true := by
  induction t with
  | nil => cases h
  | cons y t ih =>
    unfold cutAt at h
    split at h
    · rename_i hf
      injection h with h; injection h with h1 h2
      subst h1; subst h2
      exact ⟨List.suffix_refl _, hf⟩
    · have := ih h
      exact ⟨this.1.trans (List.suffix_cons _ _), this.2⟩

/-- **C09 is false**: when a stop:script returns 1 the process is forgotten although it runs, and
    the next start creates a second one. -/
theorem C09_second_instance : ¬ C09_full := by
  intro h
  have key : ∃ x ∈ (cutAt (Eff.isStart 0) demoStopScript.trace).toList, x.1.2 = .spawn 122 0 .main ∧
      0 ∈ x.1.1.order ∧ mainAlive 0 x.2 = [112] := by decide +kernel
  obtain ⟨⟨⟨c, e⟩, tl⟩, h1, h2, h3, h4⟩ := key
  have h5 := (cutAt_suffix (Option.mem_toList.mp h1)).1
  simp only at h2 h3 h4 h5
  subst h2
  have := h _ _ (run_reach _ _ _) c 122 0 tl h5 h3
  rw [h4] at this; cases this

/-- **C09, partial.**  When the command of a registered plain service is started, no process started
    earlier as its command is left: all have been collected.  Plain (`odd = false`): no stanza for
    it ever made it forking, sysv, gave it a stop:script or systemd/s6 notification.  Missing:
    services that are not plain (for stop:script it is false), services that are no longer
    registered, and executions in which a service is stepped from inside its own step through a
    cycle of conditions (`reent`). -/
theorem C09_one_main_process_partial {w : World} (h : Reach E w) {c : Core} {p : Int} {k : Key}
    {tl : List (Core × Eff)} (hx : (c, .spawn p k .main) :: tl <:+ w.trace) (hk : k ∈ c.order)
    (hodd : (c.svc k).odd = false) (hr : c.reent = false) : mainAlive k tl = [] := by
  obtain ⟨a, ha, ht, hs⟩ := Reach.at (P := ProcOk) ProcOk.start (fun _ _ _ ho p ih => ih.prim ho p)
    h hx (fun h => by cases h)
  have hst : (c.svc k).state = .starting := by
    cases h.effOk (hx.subset (List.mem_cons_self ..)) with
    | start _ _ _ hp hl hb he hs => exact hs
    | script _ _ _ _ hp hl hr => exact absurd rfl hr
  rw [← ht, ← ha.books.spec k]
  have := ha.tracks (by rw [← hs.reent]; exact hr) k (by rw [← hs.order]; exact hk)
    (by rw [← hs.odd k]; exact hodd)
  rcases this with h | ⟨q, _, _, h⟩
  · exact h
  · rw [← hs.state k, hst] at h
    rcases h with h | h | h <;> cases h

/-- The same, with the assumption on the configuration files. -/
theorem C09_one_main_process_plain_partial (hE : PlainEnv E) {w : World} (h : Reach E w) {c : Core}
    {p : Int} {k : Key} {tl : List (Core × Eff)} (hx : (c, .spawn p k .main) :: tl <:+ w.trace)
    (hk : k ∈ c.order) (hr : c.reent = false) : mainAlive k tl = [] := by
  obtain ⟨a, ha, ht, hs⟩ := Reach.at (P := OwnOk) OwnOk.start (fun _ _ _ ho p ih => ih.prim hE ho p)
    h hx (fun h => by cases h)
  exact C09_one_main_process_partial h hx hk (by rw [hs.odd k]; exact ha.odd k) hr

/-- A service crashes and is started again. -/
def demoCrash : World :=
  run (calm [{ name := "a".toList, levels := lv234 }]) 20
    [.boot, .bootCheck, .worker, .exit 112 (.exited 1), .timer 0]

example : ∃ x ∈ (cutAt (Eff.isStart 0) demoCrash.trace).toList, x.1.2 = .spawn 120 0 .main ∧
    0 ∈ x.1.1.order ∧ (x.1.1.svc 0).odd = false ∧ x.1.1.reent = false ∧
    (∃ y ∈ x.2, y.2 = .spawn 112 0 .main) := by decide +kernel

/-! ## C15 -/

/-- The full claim of C15. -/
def C15_full : Prop := ∀ (E : Env) (w : World), Reach E w →
  (∀ i ∈ w.order, ∀ j ∈ w.order, 1 < (w.svc i).pid → (w.svc i).pid = (w.svc j).pid → i = j) ∧
  ∀ p k, 1 < p → findByPid w.toCore p = some k → startedFor p w.trace = some k

/-- Two forking services whose pid files name the same process. -/
def demoTwoPids : World :=
  run (calm [{ name := "a".toList, levels := lv234, forking := true },
             { name := "b".toList, levels := lv234, forking := true }]) 20
    [.boot, .bootCheck, .worker, .worker, .adopt 500, .pidfile 0 500 true, .pidfile 1 500 true]

/-- **C15 is false** for forking services: their pid files are believed. -/
theorem C15_pid_files_are_believed : ¬ C15_full := by
  intro h
  have key : 0 ∈ demoTwoPids.order ∧ 1 ∈ demoTwoPids.order ∧ (demoTwoPids.svc 0).pid = 500 ∧
      (demoTwoPids.svc 1).pid = 500 := by decide +kernel
  obtain ⟨h0, h1, h2, h3⟩ := key
  have := (h _ _ (run_reach _ _ _)).1 0 h0 1 h1 (by show 1 < (demoTwoPids.svc 0).pid; omega)
    (by show (demoTwoPids.svc 0).pid = (demoTwoPids.svc 1).pid; omega)
  cases this

/-- **C15, partial.**  With plain services only, and no service stepped from inside its own step:
    (1) every process a registered service tracks is an uncollected process that was started for
    that very service, (2) no two registered services track the same process, (3) the lookup made
    when a process ends finds only the service it was started for, and (4) it does find it for
    every process that is the command of a registered service.  Missing: forking services (for
    which it is false) and other services that are not plain. -/
theorem C15_attribution_partial (hE : PlainEnv E) {w : World} (h : Reach E w) (hr : w.reent = false) :
    (∀ k ∈ w.order, 1 < (w.svc k).pid →
      (w.svc k).pid ∈ w.live ∧ startedFor (w.svc k).pid w.trace = some k) ∧
    (∀ i ∈ w.order, ∀ j ∈ w.order, 1 < (w.svc i).pid → (w.svc i).pid = (w.svc j).pid → i = j) ∧
    (∀ p k, 1 < p → findByPid w.toCore p = some k → startedFor p w.trace = some k) ∧
    (∀ k ∈ w.order, ∀ p ∈ mainAlive k w.trace, findByPid w.toCore p = some k) := by
  have ho := h.ownOk hE
  have hown := ho.owns hr
  have uniq : ∀ i ∈ w.order, ∀ j ∈ w.order, 1 < (w.svc i).pid → (w.svc i).pid = (w.svc j).pid → i = j := by
    intro i hi j hj hp he
    have h1 := (hown i hi hp).2
    have h2 := (hown j hj (he ▸ hp)).2
    rw [← he, h1] at h2
    injection h2
  have look : ∀ {p k}, findByPid w.toCore p = some k → k ∈ w.order ∧ (w.svc k).pid = p := by
    intro p k hf
    refine ⟨List.mem_of_find?_eq_some hf, ?_⟩
    have := List.find?_some hf
    simpa using this
  refine ⟨hown, uniq, ?_, ?_⟩
  · intro p k hp hf
    obtain ⟨h1, h2⟩ := look hf
    have := (hown k h1 (by rw [h2]; exact hp)).2
    rw [h2] at this; exact this
  · intro k hk p hp
    rw [← ho.proc.books.spec k] at hp
    have hp1 := ho.proc.books.live p (ho.proc.books.main k p hp)
    rcases ho.proc.tracks hr k hk (ho.odd k) with h0 | ⟨q, h1, h2, _⟩
    · rw [h0] at hp; cases hp
    · rw [h1] at hp
      have hq := List.mem_singleton.mp hp
      subst hq
      cases hf : findByPid w.toCore p with
      | none =>
        have := List.find?_eq_none.mp hf k hk
        simp [h2] at this
      | some j =>
        obtain ⟨g1, g2⟩ := look hf
        rw [uniq j g1 k hk (by rw [g2]; exact hp1) (by rw [g2, h2])]

example : ∃ k ∈ demoCrash.order, 1 < (demoCrash.svc k).pid ∧ demoCrash.reent = false := by decide +kernel

/-! ## C19 -/

/-- The full claim of C19: the system is taken down only in runlevel 0 or 6, and no process is
    left that was started as the command of a registered service not allowed in that runlevel. -/
def C19_full : Prop := ∀ (E : Env) (w : World), Reach E w →
  ∀ (c : Core) (tl : List (Core × Eff)), (c, .shutdown) :: tl <:+ w.trace →
    (c.runlevel = 0 ∨ c.runlevel = 6) ∧
    ∀ k ∈ c.order, (c.svc k).levels.testBit c.runlevel = false → mainAlive k tl = []

/-- The time limit given with a shutdown request expires while a is stopping. -/
def demoLimit : World :=
  run (calm [{ name := "a".toList, levels := lv234 }]) 20
    [.boot, .bootCheck, .worker, .reboot true true, .emergency]

/-- **C19 is false** when a shutdown is requested with a time limit and the limit expires. -/
theorem C19_time_limit : ¬ C19_full := by
  intro h
  have key : ∃ x ∈ (cutAt (fun e => decide (e = .shutdown)) demoLimit.trace).toList,
      x.1.2 = .shutdown ∧ 0 ∈ x.1.1.order ∧
      (x.1.1.svc 0).levels.testBit x.1.1.runlevel = false ∧ mainAlive 0 x.2 = [112] := by decide +kernel
  obtain ⟨⟨⟨c, e⟩, tl⟩, h1, h2, h3, h4, h5⟩ := key
  have h6 := (cutAt_suffix (Option.mem_toList.mp h1)).1
  simp only at h2 h3 h4 h5 h6
  subst h2
  have := (h _ _ (run_reach _ _ _) c tl h6).2 0 h3 h4
  rw [h5] at this; cases this

/-- **C19, partial.**  The system is taken down only in runlevel 0 or 6, or when the time limit given
    with a shutdown request has expired (`emerg`).  In the former case no process is left that was
    started as the command of a registered plain service that is not allowed in the runlevel, was
    removed or is blocked.  Missing: the time limit (for which it is false), services that are not
    plain, and re-entrant executions. -/
theorem C19_shutdown_last_partial {w : World} (h : Reach E w) {c : Core} {tl : List (Core × Eff)}
    (hx : (c, .shutdown) :: tl <:+ w.trace) :
    c.emerg = true ∨
    ((c.runlevel = 0 ∨ c.runlevel = 6) ∧
     (c.reent = false → ∀ k ∈ c.order, (c.svc k).odd = false →
       ((c.svc k).levels.testBit c.runlevel = false ∨ (c.svc k).removed = true ∨
        (c.svc k).block ≠ .none) → mainAlive k tl = [])) := by
  obtain ⟨a, ha, ht, hs⟩ := Reach.at (P := ProcOk) ProcOk.start (fun _ _ _ ho p ih => ih.prim ho p)
    h hx (fun h => by cases h)
  cases h.effOk (hx.subset (List.mem_cons_self ..)) with
  | shutdownLimit _ h => exact .inl h
  | shutdown _ hrl hsm hf =>
    right
    refine ⟨hrl, ?_⟩
    intro hr k hk hodd hcause
    have hen : enabled c k = false := by
      unfold enabled
      dsimp only
      rcases hcause with h | h | h
      · simp [h]
      · simp [h]
      · simp [h]
    have := ha.tracks (by rw [← hs.reent]; exact hr) k (by rw [← hs.order]; exact hk)
      (by rw [← hs.odd k]; exact hodd)
    rw [← ht, ← ha.books.spec k]
    rcases this with h | ⟨q, _, _, h⟩
    · exact h
    · exfalso
      rw [← hs.state k] at h
      rcases hf k hk with g | g | g
      · rw [hen] at g; cases g
      · rw [g.2] at h; rcases h with h | h | h <;> cases h
      · split at g <;> (rw [g] at h; rcases h with h | h | h <;> cases h)

/-- A reboot: a is stopped and collected, then the system is taken down. -/
def demoReboot : World :=
  run (calm [{ name := "a".toList, levels := lv234 }]) 20
    [.boot, .bootCheck, .worker, .reboot true false, .exit 112 (.exited 0)]

example : ∃ x ∈ demoReboot.trace, x.2 = .shutdown ∧ x.1.reent = false ∧ 0 ∈ x.1.order ∧
    (x.1.svc 0).odd = false ∧ (x.1.svc 0).levels.testBit x.1.runlevel = false ∧ x.1.emerg = false := by
  decide +kernel

end

end Verif.Sup
