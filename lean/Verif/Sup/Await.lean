import Verif.Sup.Esc

/-!
# Supervisor model: a crashed service waiting to be tried again
-/

namespace Verif.Sup

open Verif (CStr CondStore)

section
variable {E : Env}

/-! ## Specification -/

/-- Spec: the service has crashed, and the timer after which it is tried again is running. -/
def Awaits (s : Svc) : Prop :=
  s.state = .halted ∧ s.block = .restarting ∧ s.timer = some .retry ∧ s.armed = true

/-- Spec: what ends the wait of `k` before its timer has expired: the user asks for something, one
    of its conditions is gone, its configuration is read again, or it is removed. -/
def EndsWait (k : Key) (e : Eff) : Prop :=
  e = .asked k ∨ e = .lifted k ∨ e = .reg k ∨ e = .new k ∨ e = .trans k .halted .dead

/-- Spec: something that ends the wait of `k` has happened since the trace was `t0`. -/
def Ended (k : Key) (t0 t : List (Core × Eff)) : Prop :=
  ∃ l, t = l ++ t0 ∧ ∃ c e, (c, e) ∈ l ∧ EndsWait k e

/-! ## Preservation -/

/-- What is known of a waiting service. -/
structure Await (s : Svc) : Prop where
  awaits : Awaits s
  pid : s.pid = 0
  respawn : s.respawn = false
  forking : s.forking = false
  ready : ∀ z ∈ s.zs, z.ready = none

/-- The wait goes on, or something that ends it has happened since the trace was `t0`. -/
def Goes (k : Key) (t0 : List (Core × Eff)) (w : World) : Prop :=
  (∃ x l, w.trace = x :: l ++ t0) ∧ (Await (w.svc k) ∨ Ended k t0 w.trace)

theorem Ended.mono {k : Key} {t0 t m : List (Core × Eff)} (h : Ended k t0 t) : Ended k t0 (m ++ t) := by
  obtain ⟨l, e, c, x, hx, hq⟩ := h
  exact ⟨m ++ l, by rw [e, List.append_assoc], c, x, List.mem_append_right _ hx, hq⟩

theorem Ended.head {k : Key} {t0 : List (Core × Eff)} {w : World} (hn : ∃ x l, w.trace = x :: l ++ t0)
    {e : Eff} (hh : w.trace.head?.map (·.2) = some e) (he : EndsWait k e) : Ended k t0 w.trace := by
  obtain ⟨x, l, ht⟩ := hn
  refine ⟨x :: l, ht, x.1, x.2, List.mem_cons_self .., ?_⟩
  rw [ht] at hh
  have : x.2 = e := by simpa using hh
  rw [this]; exact he

theorem Goes.prim {lab : Lab} {a b : World} {k : Key} {t0 : List (Core × Eff)} (hr : a.reent = false)
    (hl : lab ≠ .ev (.timer k)) (hl2 : lab ≠ .retry k) (hba : EscBase a)
    (h : Prim E lab a b) (ha : Goes k t0 a) : Goes k t0 b := by
  obtain ⟨hn, ha⟩ := ha
  obtain ⟨⟨m, hm⟩, _⟩ := h.snap
  have hn' : ∃ x l, b.trace = x :: l ++ t0 := by
    obtain ⟨x, l, e⟩ := hn
    rw [← hm, e]
    cases m with
    | nil => exact ⟨x, l, rfl⟩
    | cons y m => exact ⟨y, m ++ x :: l, by simp⟩
  refine ⟨hn', ?_⟩
  rcases ha with ha | ha
  case inr => right; rw [← hm]; exact ha.mono
  have old : Ended k t0 a.trace → Await (b.svc k) ∨ Ended k t0 b.trace := by
    intro h; right; rw [← hm]; exact h.mono
  have hmine : ∀ {c e}, mine k b.trace = (c, e) :: mine k a.trace → EndsWait k e →
      Await (b.svc k) ∨ Ended k t0 b.trace := by
    intro c e hx he
    right
    obtain ⟨x, l, ht⟩ := hn
    refine ⟨m ++ (x :: l), by rw [← hm, ht, List.append_assoc], c, e, ?_, he⟩
    refine List.mem_append_left _ ?_
    have e1 : mine k b.trace = mine k m ++ mine k a.trace := by
      rw [← hm]; exact List.filter_append ..
    rw [e1] at hx
    have : mine k m = [(c, e)] := List.append_cancel_right (hx.trans (List.singleton_append).symm)
    have := (mem_mine (k := k) (x := (c, e)) (t := m)).mp (by rw [this]; exact List.mem_cons_self ..)
    exact this.1
  obtain ⟨⟨h1, h2, h3, h4⟩, h5, h6, h7, h8⟩ := ha
  have hen : enabled a.toCore k = true → False := by
    intro h
    have := enabled_block h
    rw [h2] at this; cases this
  have noScript : ∀ {role}, ¬ ScriptState lab k role (a.svc k) := by
    intro role h
    rcases h with h | h | h | h <;>
      first
      | (rw [h1] at h; exact absurd h.2 (by decide))
      | (rw [h2] at h; exact absurd h.2.2.1 (by decide))
  cases h.turn k with
  | same e => left; rw [e]; exact ⟨⟨h1, h2, h3, h4⟩, h5, h6, h7, h8⟩
  | mod s' h e =>
    cases h with
    | minor _ h => left; rw [e, h]; exact ⟨⟨h1, h2, h3, h4⟩, h5, h6, h7, h8⟩
    | armedOff h =>
      rcases h with h | h
      · exact absurd h hl
      · exact absurd h.1 hl2
    | cancel h =>
      cases h with
      | up h => rw [h1] at h; exact absurd h (by decide)
      | over h => rw [h1] at h; rcases h with h | h <;> cases h
      | forked h hf => rw [h7] at hf; cases hf
      | noProc h hs => exact absurd h1 hs
      | readyExit q h =>
        obtain ⟨z, hz, e⟩ := hba.assoc q k h
        rw [h8 z hz] at e; cases e
      | fired h => exact absurd h hl
      | retry h => exact absurd h hl2
      | cond h ha hh => exact old (.head hn hh (.inr (.inl rfl)))
      | asked h =>
        obtain ⟨c, tl, et, es⟩ := h
        exact old (.head hn (by rw [et]; rfl) (.inl rfl))
    | unblockCond h ha ht => rw [h3] at ht; cases ht
    | unblockConflict h => rw [h2] at h; cases h
    | blockRestart h => rw [h1] at h; cases h
    | unblockRespawn h hr => rw [h6] at hr; cases hr
    | blockMissing h => rw [h1] at h; cases h
    | blockConflict h => rw [h1] at h; cases h
    | blockCrash h => have := (h hr).1; rw [h1] at this; cases this
    | blockManual h => have := (h hr).1; rw [h1] at this; cases this
    | apiUnblock h hh => exact old (.head hn hh (.inl rfl))
    | apiBlock h ht hh => exact old (.head hn hh (.inl rfl))
    | forkedUnblock p b h hf => rw [h7] at hf; cases hf
    | forkedPid p b h hf => have := hf hr; rw [h7] at this; cases this
    | pidLost h hs => rw [h1] at hs; exact absurd hs (by decide)
    | pidOdd h hs => rw [h1] at hs; exact absurd hs (by decide)
    | pidNone h hs => rw [h1] at hs; cases hs
    | scriptFail role h => exact absurd (h hr) noScript
    | armRetry x ht => rw [h3] at ht; cases ht
    | armScript x r ht => rw [h3] at ht; cases ht
    | armReady x ht => rw [h3] at ht; cases ht
    | apply z x y ho ht hb hk hz hh =>
      rcases hh with hh | hh
      · exact old (.head hn hh (.inr (.inr (.inl rfl))))
      · exact old (.head hn hh (.inr (.inr (.inr (.inl rfl)))))
  | state new t x n h ht e hx =>
    cases h with
    | wake h he => exact (hen he).elim
    | redo h ht hm hb => have := hb hr; rw [h2] at this; cases this
    | dead h =>
      rw [if_neg (by rw [h1]; decide), h1] at hx
      exact hmine hx (.inr (.inr (.inr (.inr rfl))))
    | tearCleanup h => rw [h1] at h; cases h
    | tearHalted h => rw [h1] at h; cases h
    | cleanHalted h => rw [h1] at h; cases h
    | doneHalted h => rw [h1] at h; cases h
    | stopDone h => have := (h hr).1; rw [h1] at this; cases this
    | stopTear h => have := (h hr).1; rw [h1] at this; cases this
    | stopCleanup h => have := (h hr).1; rw [h1] at this; cases this
    | stopHalted h => have := (h hr).1; rw [h1] at this; cases this
    | setupFail h => rw [h1] at h; cases h
    | setupOk h => rw [h1] at h; cases h
    | waitOff h => rw [h1] at h; cases h
    | waitConflict h => rw [h1] at h; cases h
    | waitSetup h => rw [h1] at h; cases h
    | waitStart h => rw [h1] at h; cases h
    | startOff h => rw [h1] at h; cases h
    | startMissing h => rw [h1] at h; cases h
    | crash h => rw [h1] at h; cases h
    | complete h => rw [h1] at h; cases h
    | pause h => rw [h1] at h; cases h
    | cont h => rw [h1] at h; cases h
    | pausedGone h => rw [h1] at h; cases h
    | lost h => rw [h1] at h; exact absurd h (by decide)
    | stop h => rw [h1] at h; exact absurd h (by decide)
    | forked p b h hf => rw [h7] at hf; cases hf
  | force x y h => exact absurd h hl2
  | respawn x h => exact absurd h hl2
  | giveUp x h => exact absurd h hl2
  | again x sv tm h => exact absurd h hl2
  | age h hs => rw [h1] at hs; cases hs
  | bump h => rw [h1] at h; rcases h with h | h <;> cases h
  | forced h => exact absurd h hl2
  | lifted h ha e hm => exact hmine hm (.inr (.inl rfl))
  | asked e hm => exact hmine hm (.inl rfl)
  | marks r d hr hp hs e => left; rw [e]; exact ⟨⟨h1, h2, h3, h4⟩, h5, h6, h7, h8⟩
  | start p x c hp hlv hb he hs => rw [h1] at hs; cases hs
  | startBad p x hp hlv hb he hs => rw [h1] at hs; cases hs
  | script p role hp hlv hrr h => exact absurd (h hr) noScript
  | exit s' hp => rw [h5] at hp; exact absurd hp (by decide)
  | del h hr' e hs => rw [h1] at hs; rcases hs with hs | hs <;> cases hs
  | delBoot h hb e => left; rw [e]; exact ⟨⟨h1, h2, h3, h4⟩, rfl, h6, h7, h8⟩
  | reg z h hz hs e hm => exact hmine hm (.inr (.inr (.inl rfl)))
  | new z h hb hz hs e hm => exact hmine hm (.inr (.inr (.inr (.inl rfl))))

theorem Goes.steps {lab : Lab} {a b : World} {k : Key} {t0 : List (Core × Eff)}
    (h : Steps E lab a b) (hl : lab ≠ .ev (.timer k)) (hl2 : lab ≠ .retry k) (ho : OrdOk a.toCore)
    (hba : EscBase a) (hr : b.reent = false) (ha : Goes k t0 a) : Goes k t0 b := by
  have := h.inv_soft (P := fun w => OrdOk w.toCore ∧ EscBase w ∧ Goes k t0 w)
    (fun a b hr p x => ⟨p.ord x.1, x.2.1.prim x.1 p, x.2.2.prim hr hl hl2 x.2.1 p⟩) hr ⟨ho, hba, ha⟩
  exact this.2.2

theorem await_worker_ne (k : Key) : Lab.ev .worker ≠ .ev (.timer k) := by
  intro h; injection h with h; cases h

theorem labOf_timer {w : World} {ev : Ev} {k : Key} (h : ev ≠ .timer k) :
    labOf w ev ≠ .ev (.timer k) ∧ labOf w ev ≠ .retry k := by
  cases ev with
  | timer j =>
    have hj : j ≠ k := fun e => h (by rw [e])
    unfold labOf; dsimp only
    split
    · exact ⟨nofun, fun e => hj (by injection e)⟩
    · exact ⟨fun e => hj (by injection e with e; injection e), nofun⟩
  | _ =>
    refine ⟨?_, nofun⟩
    intro e
    unfold labOf at e; dsimp only at e
    injection e with e
    cases e

/-- The wait goes on through later events, unless something ends it. -/
theorem Goes.later {w v : World} {k : Key} {t0 : List (Core × Eff)} (h : Reach E w)
    (hv : Later E (fun _ ev => ev ≠ .timer k) w v) (hr : v.reent = false) (ha : Goes k t0 w) :
    Goes k t0 v := by
  refine hv.inv h ?_ ha hr
  intro n ev u hu hok hr ih
  exact ih.steps (hu.steps n ev) (labOf_timer hok).1 (labOf_timer hok).2 hu.basic.1 hu.escBase hr

/-! ## The crash -/

theorem monitorHead_daemon (k : Key) (st : WStatus) (w : World) (hs : (w.svc k).state = .running)
    (hf : (w.svc k).forking = false)
    (ht : ((w.svc k).type.isDaemon || decide ((w.svc k).type = .tty)) = true) :
    ∃ (a : Bool) (t : Nat), monitorHead E k st w =
      { w with
        svc := upd w.svc k { w.svc k with
                              pid := 0, status := st, starting := false, watch := false,
                              timer := none, armed := a },
        trace := (w.toCore, .kill (-(w.svc k).pid) 9 .group k) :: w.trace, tick := t } := by
  unfold monitorHead
  dsimp only
  rw [if_neg (by rw [hs]; simp), if_neg (by rw [hf]; simp)]
  have e : ((kill E (-(w.svc k).pid) 9 .group k w).2.svc k) = w.svc k := rfl
  rw [if_pos (by rw [e]; exact ht)]
  obtain ⟨a, e2⟩ := serviceCleanup_eq k (mod k (fun s => { s with status := st })
    (kill E (-(w.svc k).pid) 9 .group k w).2)
  rw [e2]
  refine ⟨a, w.tick + 1, ?_⟩
  simp only [Sup.mod, upd_same, upd_upd, Sup.kill, emit]

/-- A running service whose process is gone is put on hold, and its timer is armed. -/
theorem stepRunning_await {lab : Lab} {R : Rec} (h : ROk E lab R) {k : Key} {w : World}
    (hk : k ∈ w.stack) (hs : (w.svc k).state = .running) (he : enabled w.toCore k = true)
    (hp : (w.svc k).pid = 0) (ht : ((w.svc k).type.isDaemon || decide ((w.svc k).type = .tty)) = true)
    (hresp : (w.svc k).respawn = false) (htm : (w.svc k).timer = none) (htmo : 0 < (w.svc k).restartTmo)
    (hf : (w.svc k).forking = false) (hz : ∀ z ∈ (w.svc k).zs, z.ready = none)
    (hr : (stepRunning E R k true w).2.reent = false) :
    (stepRunning E R k true w).1 = true ∧ Await ((stepRunning E R k true w).2.svc k) := by
  unfold stepRunning at hr ⊢
  rw [if_neg (by simp), if_pos ⟨hp, ht⟩] at hr ⊢
  dsimp only at hr ⊢
  have hm : StateMod lab (mod k (fun s => { s with block := .restarting }) w) k .halted := by
    refine .crash ?_ ?_ ?_ ?_ ?_ <;> simp only [Sup.mod, upd_same]
    · exact hs
    · exact hp
    · exact enabled_removed he
    · exact ht
  have ha := setState_after h hm (w := mod k (fun s => { s with block := .restarting }) w) hk rfl
  have e1 : ((mod k (fun s => { s with block := .restarting }) w).svc k)
      = { w.svc k with block := .restarting } := by simp [Sup.mod]
  rw [setStateRaw_timer (by decide), e1] at ha
  generalize setState R k .halted (mod k (fun s => { s with block := .restarting }) w) = w2 at hr ha ⊢
  have hr2 : w2.reent = false := by
    split at hr
    · obtain ⟨t, a, e⟩ := timerAfter_eq k (w2.svc k).restartTmo .retry w2
      rw [e] at hr; exact hr
    · exact hr
  have ha := ha hr2
  have e2 : (w2.svc k).respawn = false := by rw [ha]; exact hresp
  have e3 : (w2.svc k).restartTmo = (w.svc k).restartTmo := by rw [ha]
  have e4 : (w2.svc k).timer = none := by rw [ha]; exact htm
  rw [if_pos (by rw [e2]; rfl)]
  refine ⟨rfl, ?_⟩
  unfold timerAfter
  rw [if_neg (by rw [e3]; omega), if_neg (by rw [e4]; simp)]
  have e5 : ((mod k (fun s => { s with timer := some .retry, armed := decide (0 < (w2.svc k).restartTmo) }) w2).svc k)
      = { w2.svc k with timer := some .retry, armed := decide (0 < (w2.svc k).restartTmo) } := by
    simp [Sup.mod]
  rw [e5, ha]
  exact ⟨⟨rfl, rfl, rfl, by simpa using htmo⟩, hp, hresp, hf, hz⟩

theorem serviceStep_await {lab : Lab} {R : Rec} (h : ROk E lab R) {k : Key} {w : World}
    (hst : w.stack = []) (hd : w.down = false) (hs : (w.svc k).state = .running)
    (he : enabled w.toCore k = true)
    (hp : (w.svc k).pid = 0) (ht : ((w.svc k).type.isDaemon || decide ((w.svc k).type = .tty)) = true)
    (hresp : (w.svc k).respawn = false) (htm : (w.svc k).timer = none) (htmo : 0 < (w.svc k).restartTmo)
    (hf : (w.svc k).forking = false) (hz : ∀ z ∈ (w.svc k).zs, z.ready = none)
    (hr : (serviceStep E R k w).reent = false) : Await ((serviceStep E R k w).svc k) := by
  unfold serviceStep at hr ⊢
  rw [if_neg (by rw [hd]; simp)] at hr ⊢
  dsimp only at hr ⊢
  have et : touch k w = w := by unfold touch; rw [hst, if_neg (by simp)]
  rw [et] at hr ⊢
  generalize e1 : ({ w with stack := k :: w.stack } : World) = w1 at hr ⊢
  have f1 : w1.svc = w.svc := by rw [← e1]
  have f2 : enabled w1.toCore k = true := by rw [← e1]; exact he
  have f3 : k ∈ w1.stack := by rw [← e1]; exact List.mem_cons_self ..
  unfold stepLoop at hr ⊢
  dsimp only at hr ⊢
  have eb : stepBranch E R k w1 = stepRunning E R k true w1 := by
    unfold stepBranch
    dsimp only
    rw [f2]
    split <;> rename_i hx <;> rw [f1, hs] at hx <;> first | cases hx | rfl
  rw [eb] at hr ⊢
  have key := stepRunning_await (E := E) (R := R) h f3 (by rw [f1]; exact hs) f2 (by rw [f1]; exact hp)
    (by rw [f1]; exact ht) (by rw [f1]; exact hresp) (by rw [f1]; exact htm) (by rw [f1]; exact htmo)
    (by rw [f1]; exact hf) (by rw [f1]; exact hz)
  have hg : (stepRunning E R k true w1).1 = true := by
    -- the branch taken does not depend on what is found later
    cases hc : (stepRunning E R k true w1).2.reent with
    | false => exact (key hc).1
    | true =>
      exfalso
      revert hr
      split
      · intro hr; exact absurd hr (by rw [hc]; simp)
      · split
        · intro hr
          have hk2 : k ∈ (stepRunning E R k true w1).2.stack := by
            have := (stepRunning_good h f3 (by rw [f1]; exact hs) f2.symm).stack
            rw [this]; exact f3
          have := (h.loop k _ hk2).mono hc
          have hr : (R.loop k (stepRunning E R k true w1).2).reent = false := hr
          rw [this] at hr; cases hr
        · split
          · intro hr
            have hr : (stepRunning E R k true w1).2.reent = false := hr
            rw [hc] at hr; cases hr
          · intro hr; rw [hc] at hr; cases hr
  rw [if_pos hg] at hr ⊢
  exact (key hr).2

theorem cleanBootstrap_reent {k : Key} {w : World} : (cleanBootstrap k w).reent = w.reent := by
  unfold cleanBootstrap; split
  · unfold svcDel; rfl
  · rfl

/-- The process of a running service ends although the service should run: the service waits to
    be tried again. -/
theorem Reach.crashed {w : World} (h : Reach E w) {k : Key} {p : Int} {st : WStatus} {n : Nat}
    (hb : w.booted = true) (hd : w.down = false) (hl : p ∈ w.live) (hp1 : 1 < p)
    (hf : findByPid w.toCore p = some k) (hs : (w.svc k).state = .running)
    (he : enabled w.toCore k = true)
    (ht : ((w.svc k).type.isDaemon || decide ((w.svc k).type = .tty)) = true)
    (hresp : (w.svc k).respawn = false) (htmo : 0 < (w.svc k).restartTmo)
    (hfk : (w.svc k).forking = false) (hz : ∀ z ∈ (w.svc k).zs, z.ready = none)
    (hr : (handle E (n + 1) (.exit p st) w).reent = false) :
    Goes k w.trace (handle E (n + 1) (.exit p st) w) := by
  unfold handle at hr ⊢
  dsimp only at hr ⊢
  rw [if_neg (by rw [hd]; simp), if_neg (by rw [hb]; simp), if_pos hl] at hr ⊢
  unfold monitor at hr ⊢
  rw [if_neg (by omega)] at hr ⊢
  have hst := h.basic.2.1
  dsimp only at hr ⊢
  have e0 : (if (reap p (some st) w).stack ≠ [] then { reap p (some st) w with reent := true }
      else reap p (some st) w : World) = reap p (some st) w := by
    rw [if_neg]; simp [reap, emit, hst]
  rw [e0] at hr ⊢
  have ef : findByPid (reap p (some st) w).toCore p = some k := hf
  rw [ef] at hr ⊢
  dsimp only at hr ⊢
  obtain ⟨hk, hpid⟩ := findByPid_some hf
  have p2 : Prim E (.ev (.exit p st)) w (monitorHead E k st (reap p (some st) w)) :=
    .collect w k p st hl hf hpid hp1 rfl
  obtain ⟨a, t, e2⟩ := monitorHead_daemon (E := E) k st (reap p (some st) w) hs hfk ht
  have b2 := h.escBase.prim h.basic.1 p2
  have o2 := p2.ord h.basic.1
  generalize monitorHead E k st (reap p (some st) w) = w2 at hr p2 e2 b2 o2 ⊢
  have s2 : w2.svc k = { w.svc k with
      pid := 0, status := st, starting := false, watch := false, timer := none, armed := a } := by
    rw [e2]; simp [reap, emit]
  have k2 : w2.stack = [] ∧ w2.down = false ∧ w2.order = w.order ∧ p ∉ w2.live := by
    rw [e2]; exact ⟨hst, hd, rfl, by simp [reap, emit]⟩
  have en2 : enabled w2.toCore k = true := by
    rw [← he]
    apply enabled_congr <;> first | (rw [s2]) | (rw [e2]; rfl)
  have t2 : ∃ x l, w2.trace = x :: l ++ w.trace := by
    rw [e2]; exact ⟨_, [_], rfl⟩
  clear e2 e0 ef
  obtain ⟨k21, k22, k23, k24⟩ := k2
  unfold monitorTail at hr ⊢
  dsimp only at hr ⊢
  generalize e3 : (if p = w2.runBlock then
      { mod k (fun s => { s with dirty := false, argsDirty := false }) w2 with runBlock := 0 } else w2 : World) = w3 at hr ⊢
  have g3 : SmGood E (.ev .worker) w2 w3 := by
    rw [← e3]; split
    · rename_i e
      have g : Good E (.ev .worker) (fun _ => False) w2
          (mod k (fun s => { s with dirty := false, argsDirty := false }) w2) := .minor rfl (fun h => h)
      refine g.sm.trans (.of_prim (.unblock _ ?_) rfl id)
      show w2.runBlock ∉ w2.live
      rw [← e]; exact k24
    · exact .refl w2
  have s3 : ∃ x y, w3.svc k = { w2.svc k with dirty := x, argsDirty := y } := by
    rw [← e3]; split
    · exact ⟨false, false, by simp [Sup.mod]⟩
    · exact ⟨_, _, rfl⟩
  have r3 : w3.down = false ∧ w3.order = w2.order ∧ w3.trace = w2.trace ∧ enabled w3.toCore k = true := by
    rw [← e3]; split
    · refine ⟨k22, rfl, rfl, ?_⟩
      rw [← en2]
      apply enabled_congr <;> first | rfl | (simp [Sup.mod])
    · exact ⟨k22, rfl, rfl, en2⟩
  clear e3
  obtain ⟨x, y, s3⟩ := s3
  obtain ⟨r31, r32, r33, r34⟩ := r3
  have st3 := g3.steps o2
  have o3 := st3.ord o2
  have b3 : EscBase w3 := (st3.inv (P := fun w => OrdOk w.toCore ∧ EscBase w)
    (fun _ _ p x => ⟨p.ord x.1, x.2.prim x.1 p⟩) ⟨o2, b2⟩).2
  have stk3 : w3.stack = [] := g3.stack.trans k21
  have estep : (mkRec E (n + 1)).step = serviceStep E (mkRec E n) := rfl
  rw [estep] at hr ⊢
  have g4 : Good E (.ev .worker) (fun j => j ∈ w3.stack) w3 (serviceStep E (mkRec E n) k w3) :=
    serviceStep_good (mkRec_ok n) k w3
  have g6 := fun v => (mkRec_ok (E := E) (lab := .ev .worker) (n + 1)).sm v
  have hr5 : (cleanBootstrap k (serviceStep E (mkRec E n) k w3)).reent = false :=
    reent_false (g6 _).mono hr
  have hr4 : (serviceStep E (mkRec E n) k w3).reent = false := by
    rw [← cleanBootstrap_reent (k := k)]; exact hr5
  have a4 : Await ((serviceStep E (mkRec E n) k w3).svc k) := by
    refine serviceStep_await (lab := .ev .worker) (mkRec_ok n) stk3 r31 ?_ r34 ?_ ?_ ?_ ?_ ?_ ?_ ?_ hr4 <;>
      rw [s3, s2]
    · exact hs
    · exact ht
    · exact hresp
    · exact htmo
    · exact hfk
    · exact hz
  have ho4 : k ∈ (serviceStep E (mkRec E n) k w3).order := by
    have e0 : (Glob (serviceStep E (mkRec E n) k w3)).order = (Glob w3).order :=
      congrArg Core.order (g4.frame hr4).2.1
    have e1 : (serviceStep E (mkRec E n) k w3).order = w3.order := e0
    rw [e1, r32, k23]; exact hk
  have st4 := g4.steps o3
  have o4 := st4.ord o3
  have b4 := (st4.inv (P := fun w => OrdOk w.toCore ∧ EscBase w)
    (fun _ _ p x => ⟨p.ord x.1, x.2.prim x.1 p⟩) ⟨o3, b3⟩).2
  have n4 : ∃ x l, (serviceStep E (mkRec E n) k w3).trace = x :: l ++ w.trace := by
    obtain ⟨m, hm⟩ := st4.ext
    obtain ⟨x, l, e⟩ := t2
    rw [hm, r33, e]
    cases m with
    | nil => exact ⟨x, l, rfl⟩
    | cons y m => exact ⟨y, m ++ x :: l, by simp⟩
  generalize serviceStep E (mkRec E n) k w3 = w4 at hr hr4 hr5 a4 ho4 st4 o4 b4 n4 ⊢
  have g5 : SmGood E (.ev .worker) w4 (cleanBootstrap k w4) := cleanBootstrap_sm (fun _ => ho4)
  have st5 := g5.trans (g6 (cleanBootstrap k w4))
  exact Goes.steps (st5.steps o4) (await_worker_ne k) nofun o4 b4 hr ⟨n4, .inl a4⟩

end

end Verif.Sup
