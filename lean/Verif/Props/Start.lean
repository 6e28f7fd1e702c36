import Verif.Sup.View
import Verif.Sup.Demo
import Verif.CondLemmas
import Verif.CStrLemmas

/-!
# Properties of starting services: C10, C11, C17, C18

A theorem about `(c, e) ∈ w.trace` for a reachable world `w` is a theorem about every moment
`c` of every execution at which `e` happens.
-/

namespace Verif.Sup

open Verif (CStr CondStore)

section
variable {E : Env}

theorem enabled_iff {c : Core} {k : Key} (h : enabled c k = true) :
    (c.svc k).block = .none ∧ (c.svc k).removed = false ∧
    (c.svc k).levels.testBit c.runlevel = true ∧
    ((c.svc k).type = .tty → c.bootstrap = false) := by
  unfold enabled at h
  dsimp only at h
  split at h
  · cases h
  · rename_i h1
    split at h
    · cases h
    · rename_i h2
      split at h
      · cases h
      · split at h
        · cases h
        · split at h
          · cases h
          · rename_i h3
            simp only [Bool.or_eq_true, decide_eq_true_eq, not_or, Bool.not_eq_true] at h2
            refine ⟨by simpa using h2.2, h2.1, by simpa using h1, ?_⟩
            intro ht
            simpa [ht] using h3

/-! ## C10 -/

/-- **C10.**  Whenever the command of a service is started, the service is not blocked (by the
    user, for crashing, missing, a conflict ...), not removed, and the current runlevel is one
    of its runlevels.  TTYs in addition are never started during bootstrap. -/
theorem C10_started_only_when_enabled {w : World} (h : Reach E w) {c : Core} {p : Int} {k : Key}
    (hx : (c, .spawn p k .main) ∈ w.trace) :
    (c.svc k).block = .none ∧ (c.svc k).removed = false ∧
    (c.svc k).levels.testBit c.runlevel = true ∧
    ((c.svc k).type = .tty → c.bootstrap = false) := by
  cases h.effOk hx with
  | start _ _ _ hp hl hb he hs => exact enabled_iff he
  | script _ _ _ _ hp hl hr => exact absurd rfl hr

/-! ## C11 -/

/-- Spec (most recent first): the state in which service `k` last left WAITING, provided it has
    since then only moved on to SETUP and STARTING. -/
def leftWaiting (k : Key) : List (Core × Eff) → Option Core
  | [] => none
  | (c, .trans j a b) :: t =>
    if j = k then
      if a = .waiting ∧ (b = .setup ∨ b = .starting) then some c
      else if a = .setup ∧ b = .starting then leftWaiting k t
      else none
    else leftWaiting k t
  | (_, .new j) :: t => if j = k then none else leftWaiting k t
  | _ :: t => leftWaiting k t

theorem leftWaiting_hist (k : Key) (t : List (Core × Eff)) :
    leftWaiting k (hist k t) = leftWaiting k t := by
  induction t with
  | nil => rfl
  | cons x t ih =>
    obtain ⟨c, e⟩ := x
    cases e with
    | trans j p q =>
      by_cases hj : j = k
      · rw [hist_keep (by simp [Eff.about, hj])]; simp [leftWaiting, hj, ih]
      · rw [hist_skip (by simp [Eff.about, hj])]; simp [leftWaiting, hj, ih]
    | new j =>
      by_cases hj : j = k
      · rw [hist_keep (by simp [Eff.about, hj])]; simp [leftWaiting, hj]
      · rw [hist_skip (by simp [Eff.about, hj])]; simp [leftWaiting, hj, ih]
    | _ => rw [hist_skip (by rfl)]; simp [leftWaiting, ih]

/-- May service `k` be started, as far as conditions, conflicts and reloads are concerned?
    (Spec, except that the conflict check is the one of the code, see C18.) -/
def MayStart (c : Core) (k : Key) : Prop :=
  (∀ n, IsMember isComma n (c.svc k).cond → c.conds.get n = .on) ∧ c.inReload = false ∧
  conflicts c k = false

theorem aggOn {c : Core} {k : Key} (h : aggCond c k = .on) :
    ∀ n, IsMember isComma n (c.svc k).cond → c.conds.get n = .on := by
  intro n hn
  unfold aggCond CondStore.aggStr CondStore.agg at h
  rw [aggLoop_spec] at h
  rw [← mem_tokens_iff] at hn
  cases hg : c.conds.get n with
  | on => rfl
  | off =>
    rw [if_pos (.inr ⟨n, hn, hg⟩)] at h; cases h
  | flux =>
    split at h
    · cases h
    · split at h
      · cases h
      · rename_i _ h2; exact absurd (.inr ⟨n, hn, hg⟩) h2

theorem effOk_waiting {c : Core} {k : Key} {b : SState} (h : EffOk c (.trans k .waiting b))
    (hb : b = .setup ∨ b = .starting) : MayStart c k := by
  generalize he : Eff.trans k .waiting b = e at h
  cases h with
  | trans lab w k' new t a h hne ht =>
    injection he with e1 e2 e3
    subst e1; subst e3
    have fin : aggCond w.toCore k = .on → w.inReload = false → conflicts w.toCore k = false →
        MayStart { w.toCore with svc := upd w.svc k { w.svc k with timer := t, armed := a } } k := by
      intro h1 h2 h3
      refine ⟨?_, h2, ?_⟩
      · have := aggOn h1
        simpa [upd_same] using this
      · have e : ∀ l, conflictsLoop { w.toCore with
            svc := upd w.svc k { w.svc k with timer := t, armed := a } } l = conflictsLoop w.toCore l := by
          have ef : ∀ n, findByStr { w.toCore with
              svc := upd w.svc k { w.svc k with timer := t, armed := a } } n = findByStr w.toCore n := by
            intro n
            simp only [findByStr, find]
            congr 1
            funext j
            simp only [upd]
            split
            · rename_i e; subst e; rfl
            · rfl
          intro l
          induction l with
          | nil => rfl
          | cons x l ih =>
            simp only [conflictsLoop, ef, ih]
            split
            · simp only [upd]; split
              · rename_i e; subst e; rfl
              · rfl
            · rfl
        unfold conflicts at h3 ⊢
        simp only [upd_same, e]
        exact h3
    rcases hb with rfl | rfl
    · cases h with
      | waitSetup h he ha hr hc hp => exact fin ha hr hc
    · cases h with
      | setupOk h => rw [← e2] at h; cases h
      | waitStart h he ha hr hc hp => exact fin ha hr hc
  | run => injection he with _ e2; cases e2
  | force => injection he with _ _ e3; subst e3; rcases hb with hb | hb <;> cases hb
  | _ => cases he

/-- **C11.**  Whenever a service leaves WAITING towards being started (to SETUP, where its pre
    script runs, or straight to STARTING), every member of its condition list is on, no reload or
    runlevel change is waiting for services to stop, and the conflict check passes. -/
theorem C11_leaves_waiting_only_with_conditions_on {w : World} (h : Reach E w) {c : Core} {k : Key}
    {b : SState} (hx : (c, .trans k .waiting b) ∈ w.trace) (hb : b = .setup ∨ b = .starting) :
    (∀ n, IsMember isComma n (c.svc k).cond → c.conds.get n = .on) ∧ c.inReload = false ∧
    conflicts c k = false :=
  effOk_waiting (h.effOk hx) hb

/-- Transitions into SETUP and STARTING. -/
theorem effOk_setup {c : Core} {k : Key} {a : SState} (h : EffOk c (.trans k a .setup)) :
    a = .waiting := by
  generalize he : Eff.trans k a .setup = e at h
  cases h with
  | trans lab w k' new t a h hne ht =>
    injection he with e1 e2 e3
    subst e3
    cases h with
    | waitSetup h => rw [e2, h]
  | run => injection he with _ _ e3; cases e3
  | force => injection he with _ _ e3; cases e3
  | _ => cases he

theorem effOk_starting {c : Core} {k : Key} {a : SState} (h : EffOk c (.trans k a .starting)) :
    a = .waiting ∨ a = .setup := by
  generalize he : Eff.trans k a .starting = e at h
  cases h with
  | trans lab w k' new t a h hne ht =>
    injection he with e1 e2 e3
    subst e3
    cases h with
    | waitStart h => rw [e2, h]; exact .inl rfl
    | setupOk h => rw [e2, h]; exact .inr rfl
  | run => injection he with _ _ e3; cases e3
  | force => injection he with _ _ e3; cases e3
  | _ => cases he

theorem leftWaiting_inv {a b : World} {k : Key} (hc : StChange a b k)
    (ih : ((a.svc k).state = .setup ∨ (a.svc k).state = .starting) →
      ∃ c, leftWaiting k a.trace = some c ∧ MayStart c k) :
    ((b.svc k).state = .setup ∨ (b.svc k).state = .starting) →
      ∃ c, leftWaiting k b.trace = some c ∧ MayStart c k := by
  intro hb
  rw [← leftWaiting_hist]
  rcases hc with ⟨h1, h2⟩ | ⟨c, new, h1, h2, h3, h4⟩ | ⟨h1, h2, h3⟩
  · rw [h1] at hb
    rw [h2, leftWaiting_hist]; exact ih hb
  · rw [h1] at hb
    rw [h4]
    rcases hb with rfl | rfl
    · have e := effOk_setup h3
      rw [e] at h3 ⊢
      exact ⟨c, by simp [leftWaiting], effOk_waiting h3 (.inl rfl)⟩
    · rcases effOk_starting h3 with e | e
      · rw [e] at h3 ⊢
        exact ⟨c, by simp [leftWaiting], effOk_waiting h3 (.inr rfl)⟩
      · have := ih (.inl e)
        rw [e]
        simpa [leftWaiting, leftWaiting_hist] using this
  · rw [h1] at hb; rcases hb with hb | hb <;> cases hb

/-- **C11, all the way to the start.**  Every start of a command goes back to a moment at which the
    service left WAITING, and has since only been through SETUP and STARTING; at that moment all
    its conditions were on, no reload was in progress and the conflict check passed. -/
theorem C11_every_start_passed_the_gate {w : World} (h : Reach E w) {c : Core} {p : Int} {k : Key}
    {tl : List (Core × Eff)} (hx : (c, .spawn p k .main) :: tl <:+ w.trace) :
    ∃ c', leftWaiting k tl = some c' ∧
      (∀ n, IsMember isComma n (c'.svc k).cond → c'.conds.get n = .on) ∧ c'.inReload = false ∧
      conflicts c' k = false := by
  have hs : (c.svc k).state = .starting := by
    have hm : (c, .spawn p k .main) ∈ w.trace := hx.subset (List.mem_cons_self ..)
    cases h.effOk hm with
    | start _ _ _ hp hl hb he hs => exact hs
    | script _ _ _ _ hp hl hr => exact absurd rfl hr
  obtain ⟨a, ha, ht, hc⟩ := Reach.at
    (P := fun w => ((w.svc k).state = .setup ∨ (w.svc k).state = .starting) →
      ∃ c, leftWaiting k w.trace = some c ∧ MayStart c k)
    (fun _ _ h => by rcases h with h | h <;> cases h)
    (fun lab a b _ p ih => leftWaiting_inv (p.stChange k) ih) h hx (fun h => by cases h)
  rw [← ht]
  apply ha
  right
  rw [← hs]; exact (hc.state k).symm

/-- A run in which service `b` waits for a condition, which is then asserted. -/
def demoCond : World :=
  run (calm [{ name := "b".toList, levels := lv234, cond := some "usr/x".toList }]) 20
    [.boot, .bootCheck, .worker, .condSet "usr/x".toList true]

example : ∃ x ∈ demoCond.trace, x.2 = .trans 0 .waiting .starting ∧
    (x.1.svc 0).cond = "usr/x".toList ∧ x.1.conds.get "usr/x".toList = .on := by decide +kernel

example : ∃ x ∈ demoCond.trace, x.2.isStart 0 = true := by decide +kernel

/-! ## C18 -/

/-- Spec: service object `j` is the one called `n` ("name" or "name:id"). -/
def Named (c : Core) (j : Key) (n : CStr) : Prop :=
  (c.svc j).name = n.takeWhile (· ≠ ':') ∧ (c.svc j).id = (n.dropWhile (· ≠ ':')).drop 1

/-- Spec: the service has a process or is on its way to having one. -/
def SState.active : SState → Bool
  | .halted | .done | .dead | .cleanup | .teardown => false
  | .stopping | .setup | .paused | .waiting | .starting | .running => true

/-- The full claim of C18: a service is never let through towards its start while a service in
    its conflict list is active. -/
def C18_full : Prop := ∀ (E : Env) (w : World), Reach E w → ∀ (c : Core) (k : Key) (b : SState),
  (c, .trans k .waiting b) ∈ w.trace → (b = .setup ∨ b = .starting) →
  ∀ n, IsMember isComma n (c.svc k).conflict → ∀ j ∈ c.order, Named c j n →
  (c.svc j).state.active = false

/-- Services a (halted, runlevel 3 only) and b (running); c conflicts with both. -/
def demoConflict : World :=
  run (calm [{ name := "a".toList, levels := 2 ^ 3 }, { name := "b".toList, levels := lv234 },
             { name := "c".toList, levels := lv234, conflict := "a,b".toList }]) 20
    [.boot, .bootCheck, .worker]

/-- **C18 is false**: `svc_conflicts` stops at the first *registered* name of the list.  With
    `conflict:a,b`, a halted and b running, c is started. -/
theorem C18_second_conflict_is_ignored : ¬ C18_full := by
  intro h
  have key : ∃ x ∈ demoConflict.trace, x.2 = .trans 2 .waiting .starting ∧
      (x.1.svc 2).conflict = "a,b".toList ∧ 1 ∈ x.1.order ∧
      (x.1.svc 1).name = "b".toList ∧ (x.1.svc 1).id = [] ∧ (x.1.svc 1).state.active = true := by
    decide +kernel
  obtain ⟨⟨c, e⟩, h1, h2, h3, h4, h5, h6, h7⟩ := key
  simp only at h2 h3 h4 h5 h6 h7
  subst h2
  have := h _ _ (run_reach _ _ _) c 2 .starting h1 (.inr rfl) "b".toList
    (by rw [h3, ← mem_tokens_iff]; decide) 1 h4 ⟨h5, h6⟩
  rw [h7] at this; cases this

theorem find_named {c : Core} {n : CStr} {j : Key} (h : findByStr c n = some j) :
    j ∈ c.order ∧ Named c j n := by
  unfold findByStr find at h
  have h1 := List.mem_of_find?_eq_some h
  have h2 := List.find?_some h
  simp only [Bool.and_eq_true, decide_eq_true_eq] at h2
  exact ⟨h1, h2⟩

theorem find_none {c : Core} {n : CStr} (h : findByStr c n = none) : ∀ j ∈ c.order, ¬ Named c j n := by
  intro j hj hn
  unfold findByStr find at h
  have := List.find?_eq_none.mp h j hj
  simp only [Bool.and_eq_true, decide_eq_true_eq] at this
  exact this hn

theorem active_iff (s : SState) : s.active = decide (SState.stopping.toNat ≤ s.toNat) := by
  cases s <;> decide

theorem conflictsLoop_sound {c : Core} {n : CStr}
    (huniq : ∀ i ∈ c.order, ∀ j ∈ c.order, (c.svc i).name = (c.svc j).name →
      (c.svc i).id = (c.svc j).id → i = j) (l : List CStr)
    (hone : ∀ m ∈ l, m ≠ n → ∀ j ∈ c.order, ¬ Named c j m) (hn : n ∈ l)
    (h : conflictsLoop c l = false) : ∀ j ∈ c.order, Named c j n → (c.svc j).state.active = false := by
  intro j hj hjn
  induction l with
  | nil => cases hn
  | cons m l ih =>
    unfold conflictsLoop at h
    by_cases hm : m = n
    · subst hm
      cases hf : findByStr c m with
      | none => exact absurd hjn (find_none hf j hj)
      | some i =>
        obtain ⟨h1, h2⟩ := find_named hf
        rw [hf] at h
        have : i = j := huniq i h1 j hj (h2.1.trans hjn.1.symm) (h2.2.trans hjn.2.symm)
        subst this
        rw [active_iff]; exact h
    · cases hf : findByStr c m with
      | some i =>
        obtain ⟨h1, h2⟩ := find_named hf
        exact absurd h2 (hone m (List.mem_cons_self ..) hm i h1)
      | none =>
        rw [hf] at h
        refine ih (fun m' hm' => hone m' (List.mem_cons_of_mem _ hm')) ?_ h
        rcases List.mem_cons.mp hn with h | h
        · exact absurd h.symm hm
        · exact h

/-- **C18, partial.**  Missing from the full claim: conflict lists naming more than one
    registered service (for those it is false).  If `n` is the only name in the conflict list of
    `k` under which a service is registered, then `k` is never let through towards its start while
    the service called `n` is active. -/
theorem C18_conflict_holds_back_partial {w : World} (h : Reach E w) {c : Core} {k : Key} {b : SState}
    (hx : (c, .trans k .waiting b) ∈ w.trace) (hb : b = .setup ∨ b = .starting) {n : CStr}
    (hn : IsMember isComma n (c.svc k).conflict)
    (huniq : ∀ i ∈ c.order, ∀ j ∈ c.order, (c.svc i).name = (c.svc j).name →
      (c.svc i).id = (c.svc j).id → i = j)
    (hone : ∀ m, IsMember isComma m (c.svc k).conflict → m ≠ n → ∀ j ∈ c.order, ¬ Named c j m) :
    ∀ j ∈ c.order, Named c j n → (c.svc j).state.active = false := by
  have hc := (effOk_waiting (h.effOk hx) hb).2.2
  rw [← mem_tokens_iff] at hn
  unfold conflicts at hc
  split at hc
  · rename_i he; rw [he, tokens_nil] at hn; cases hn
  · exact conflictsLoop_sound huniq _ (fun m hm => hone m ((mem_tokens_iff _ _ _).mp hm)) hn hc

/-- a runs, b conflicts with a: b is held back until the user stops a. -/
def demoConflict1 : World :=
  run (calm [{ name := "a".toList, levels := lv234 },
             { name := "b".toList, levels := lv234, conflict := "a".toList }]) 20
    [.boot, .bootCheck, .worker, .apiStop 0, .exit 115 (.exited 0), .worker]

example : ∃ x ∈ demoConflict1.trace, x.2 = .trans 1 .waiting .starting ∧
    (x.1.svc 1).conflict = "a".toList ∧ x.1.order = [0, 1] ∧ (x.1.svc 0).name = "a".toList ∧
    (x.1.svc 1).name = "b".toList := by decide +kernel

/-! ## C17 -/

/-- The full claim of C17: removed services are never started, and a service that is out of the
    state machine (DEAD) never gets back in. -/
def C17_full : Prop := ∀ (E : Env) (w : World), Reach E w →
  (∀ (c : Core) (p : Int) (k : Key), (c, .spawn p k .main) ∈ w.trace → (c.svc k).removed = false) ∧
  ∀ (c : Core) (k : Key) (b : SState), (c, .trans k .dead b) ∉ w.trace

/-- a crashes; a and b are dropped from the configuration; while b is still stopping the retry
    timer of a expires. -/
def demoDead : World :=
  run (calm [{ name := "a".toList, levels := lv234 }, { name := "b".toList, levels := lv234 }] 22) 20
    [.boot, .bootCheck, .worker, .exit 115 (.exited 1), .reloadAll, .timer 0]

/-- **C17 is false**: the retry timer of a crashed service is not cancelled when the service is
    removed by a reload; when it expires the DEAD service is put back to RUNNING (without a
    process). -/
theorem C17_dead_service_comes_back : ¬ C17_full := by
  intro h
  have key : ∃ x ∈ demoDead.trace, x.2 = .trans 0 .dead .running := by decide +kernel
  obtain ⟨⟨c, e⟩, h1, h2⟩ := key
  simp only at h2
  subst h2
  exact (h _ _ (run_reach _ _ _)).2 c 0 .running h1

/-- **C17, first half.**  A removed service is never started. -/
theorem C17_removed_never_started {w : World} (h : Reach E w) {c : Core} {p : Int} {k : Key}
    (hx : (c, .spawn p k .main) ∈ w.trace) : (c.svc k).removed = false :=
  (C10_started_only_when_enabled h hx).2.1

/-- Out of the state machine, and no crash timer pending. -/
def Gone (k : Key) (w : World) : Prop :=
  k < w.nextKey ∧ (w.svc k).state = .dead ∧ (w.svc k).timer ≠ some .retry

theorem Gone.prim {lab : Lab} {a b : World} {k : Key} (hr : a.reent = false)
    (h1 : lab ≠ .retry k) (h2 : ∀ p x, lab ≠ .ev (.pidfile k p x)) (h : Prim E lab a b)
    (hg : Gone k a) : Gone k b := by
  obtain ⟨g1, g2, g3⟩ := hg
  refine ⟨Nat.lt_of_lt_of_le g1 h.nextKey, ?_⟩
  cases h.view k with
  | same h => rw [h]; exact ⟨g2, g3⟩
  | mod s' h e =>
    rw [e]
    refine ⟨h.state.trans g2, ?_⟩
    cases h with
    | minor _ h => rw [h]; exact g3
    | cancel => simp
    | armRetry b ht h =>
      rcases h with h | h
      · rw [(h hr).1] at g2; cases g2
      · exact absurd h h1
    | armScript => simp
    | armReady => simp
    | apply z x y =>
      obtain ⟨_, _, _, _, _, _, _, _, _, _, _, _, e⟩ := applyStanza_eq z x y (a.svc k)
      rw [e]; exact g3
    | _ => exact g3
  | state new t x h ht e =>
    exfalso
    cases h with
    | redo h => rcases h hr with h | h <;> (rw [h] at g2; cases g2)
    | stopDone h => rw [(h hr).1] at g2; cases g2
    | stopTear h => rw [(h hr).1] at g2; cases g2
    | stopCleanup h => rw [(h hr).1] at g2; cases g2
    | stopHalted h => rw [(h hr).1] at g2; cases g2
    | lost h => rw [g2] at h; exact absurd h (by decide)
    | stop h => rw [g2] at h; exact absurd h (by decide)
    | forked p x h => exact h2 p x h
    | _ => simp_all
  | force x h => exact absurd h h1
  | respawn x h => exact absurd h h1
  | giveUp x h => exact absurd h h1
  | again x sv tm h => exact absurd h h1
  | age h hs e => rw [e]; exact ⟨g2, g3⟩
  | bump h e => rw [e]; exact ⟨g2, g3⟩
  | marks r d hr hp hs e => rw [e]; exact ⟨g2, g3⟩
  | start p x hp hl hb he hs e hv ht => rw [hs] at g2; cases g2
  | startBad p x hp hl hb he hs hn e hv ht => rw [e]; exact ⟨g2, g3⟩
  | script p role hp hl hr h e hv ht => rw [e]; exact ⟨g2, g3⟩
  | exit s' hp hl hs ht e =>
    rw [e]
    refine ⟨by rw [hs]; exact g2, ?_⟩
    rcases ht with ht | ht <;> simp [ht, g3]
  | delBoot h hb e => rw [e]; exact ⟨g2, g3⟩
  | reg z h hz hs ht e => rw [e]; exact ⟨g2, g3⟩
  | new z h => rw [h] at g1; exact absurd g1 (Nat.lt_irrefl _)

/-- **C17, second half, partial.**  A service object that is DEAD with no crash timer pending stays
    DEAD, through every sequence of events that contains no pid file event for it and no
    re-entrant stepping (a service stepped from inside its own step through a cycle of
    conditions).  Missing: a pending crash timer (the claim is then false) and pid file events of
    a forking service. -/
theorem C17_dead_stays_dead_partial (n : Nat) (evs : List Ev) {k : Key}
    (hev : ∀ p x, .pidfile k p x ∉ evs) {w : World} (h : Reach E w)
    (hk : k < w.nextKey) (hd : (w.svc k).state = .dead) (ht : (w.svc k).timer ≠ some .retry)
    (hr : (evs.foldl (fun w e => handle E n e w) w).reent = false) :
    ((evs.foldl (fun w e => handle E n e w) w).svc k).state = .dead := by
  refine (Reach.future (P := Gone k) (ok := fun e => ∀ p x, e ≠ .pidfile k p x) ?_ n evs
    (fun e he p x hx => hev p x (hx ▸ he)) h ⟨hk, hd, ht⟩ hr).2.1
  intro w ev _ hg hev a b ha p
  refine Gone.prim ha ?_ ?_ p
  · intro hl; exact hg.2.2 (labOf_retry hl).2
  · intro p x hl; exact hev p x (labOf_ev hl)

/-- a is dropped from the configuration and stopped while b is still stopping. -/
def demoDead2 : World :=
  run (calm [{ name := "a".toList, levels := lv234 }, { name := "b".toList, levels := lv234 }] 22) 20
    [.boot, .bootCheck, .worker, .reloadAll, .exit 115 (.exited 0)]

example : 0 < demoDead2.nextKey ∧ (demoDead2.svc 0).state = .dead ∧
    (demoDead2.svc 0).timer ≠ some .retry ∧ demoDead2.reent = false := by decide +kernel

end

end Verif.Sup
