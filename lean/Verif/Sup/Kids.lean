import Verif.Sup.View

/-!
# Supervisor model: child processes

What the trace says about child processes, and what is always true of the book-keeping.
-/

namespace Verif.Sup

open Verif (CStr CondStore)

section
variable {E : Env}

/-! ## Specification: child processes according to the trace -/

/-- Spec: the processes started as the command of service `k` and not yet collected, according to
    the trace (most recent first). -/
def mainAlive (k : Key) : List (Core × Eff) → List Int
  | [] => []
  | (_, .spawn p j .main) :: t => if j = k then p :: mainAlive k t else mainAlive k t
  | (_, .reap p _) :: t => (mainAlive k t).filter (· ≠ p)
  | _ :: t => mainAlive k t

/-- Spec: the `run` commands that have been started and not yet been collected. -/
def runAlive : List (Core × Eff) → List Int
  | [] => []
  | (c, .spawn p k .main) :: t => if (c.svc k).type = .run then p :: runAlive t else runAlive t
  | (_, .reap p _) :: t => (runAlive t).filter (· ≠ p)
  | _ :: t => runAlive t

/-- Spec: the service for which the uncollected process `p` was started, as its command or as its
    pre, post or cleanup script. -/
def startedFor (p : Int) : List (Core × Eff) → Option Key
  | [] => none
  | (_, .spawn q k _) :: t => if q = p then some k else startedFor p t
  | (_, .reap q _) :: t => if q = p then none else startedFor p t
  | _ :: t => startedFor p t

/-! ## Changes -/

/-- Does the effect create or collect a child? -/
def Eff.kid : Eff → Bool
  | .spawn .. => true
  | .reap .. => true
  | _ => false

/-- The creation and collection of children. -/
def kids (t : List (Core × Eff)) : List (Core × Eff) := t.filter (fun x => x.2.kid)

theorem kids_skip {x : Core × Eff} {t : List (Core × Eff)} (h : x.2.kid = false) : kids (x :: t) = kids t := by
  unfold kids; rw [List.filter_cons_of_neg]; simp [h]

theorem kids_keep {x : Core × Eff} {t : List (Core × Eff)} (h : x.2.kid = true) :
    kids (x :: t) = x :: kids t := by
  unfold kids; rw [List.filter_cons_of_pos]; simp [h]

theorem mainAlive_kids (k : Key) (t : List (Core × Eff)) : mainAlive k (kids t) = mainAlive k t := by
  induction t with
  | nil => rfl
  | cons x t ih =>
    obtain ⟨c, e⟩ := x
    cases e with
    | spawn p j role =>
      rw [kids_keep rfl]
      cases role <;> simp [mainAlive, ih]
    | reap p st => rw [kids_keep rfl]; simp [mainAlive, ih]
    | _ => rw [kids_skip rfl]; simp [mainAlive, ih]

theorem runAlive_kids (t : List (Core × Eff)) : runAlive (kids t) = runAlive t := by
  induction t with
  | nil => rfl
  | cons x t ih =>
    obtain ⟨c, e⟩ := x
    cases e with
    | spawn p j role =>
      rw [kids_keep rfl]
      cases role <;> simp [runAlive, ih]
    | reap p st => rw [kids_keep rfl]; simp [runAlive, ih]
    | _ => rw [kids_skip rfl]; simp [runAlive, ih]

theorem startedFor_kids (p : Int) (t : List (Core × Eff)) : startedFor p (kids t) = startedFor p t := by
  induction t with
  | nil => rfl
  | cons x t ih =>
    obtain ⟨c, e⟩ := x
    cases e with
    | spawn q j role => rw [kids_keep rfl]; simp [startedFor, ih]
    | reap q st => rw [kids_keep rfl]; simp [startedFor, ih]
    | _ => rw [kids_skip rfl]; simp [startedFor, ih]

/-- How one atomic update changes the children. -/
inductive Kids (a b : World) : Prop
  | same (hl : b.live = a.live) (hm : b.main = a.main) (ht : kids b.trace = kids a.trace)
      (hr : b.runBlock = a.runBlock ∨ (a.runBlock ∉ a.live ∧ b.runBlock = 0))
  | spawn (p : Int) (k : Key) (role : Role) (hp : 1 < p) (hf : p ∉ a.live)
      (hs : role = .main → (a.svc k).state = .starting ∧ enabled a.toCore k = true ∧ a.runBlock = 0)
      (hv : role = .main → (b.svc k).pid = p ∧ ((b.svc k).state = .running ∨
        (a.svc k).notify = .systemd ∨ (a.svc k).notify = .s6))
      (ho : ∀ j, j ≠ k → b.svc j = a.svc j)
      (hl : b.live = p :: a.live)
      (hm : b.main = if role = .main then upd a.main k (p :: a.main k) else a.main)
      (ht : kids b.trace = (a.toCore, .spawn p k role) :: kids a.trace)
      (hr : b.runBlock = if role = .main ∧ (a.svc k).type = .run then p else a.runBlock)
  | reap (p : Int) (c : Core) {st : Option WStatus} (hf : p ∈ a.live)
      (hv : (∃ k, findByPid a.toCore p = some k ∧ (b.svc k).pid = 0) ∨
        findByPid a.toCore p = none ∨ p ≤ 1) (hl : b.live = a.live.filter (· ≠ p))
      (hm : b.main = fun k => (a.main k).filter (· ≠ p))
      (ht : kids b.trace = (c, .reap p st) :: kids a.trace) (hr : b.runBlock = a.runBlock)
  | script (p : Int) (k : Key) (role : Role) (c : Core) (hp : 1 < p) (hf : p ∉ a.live)
      (hn : role ≠ .main) (hl : b.live = a.live.filter (· ≠ p))
      (hm : b.main = fun k => (a.main k).filter (· ≠ p))
      (ht : kids b.trace = (c, .reap p none) :: (a.toCore, .spawn p k role) :: kids a.trace)
      (hr : b.runBlock = a.runBlock)
  | adopt (p : Int) (hp : 1 < p) (hf : p ∉ a.live) (hl : b.live = p :: a.live) (hm : b.main = a.main)
      (ht : kids b.trace = kids a.trace) (hr : b.runBlock = a.runBlock)
  | new (hn : b.nextKey = a.nextKey + 1) (hl : b.live = a.live) (hm : b.main = upd a.main a.nextKey [])
      (ht : kids b.trace = kids a.trace) (hr : b.runBlock = a.runBlock)

theorem Prim.kids {lab : Lab} {a b : World} (h : Prim E lab a b) : Kids a b := by
  cases h with
  | glob _ h => apply Kids.same <;> (try left) <;> rw [h.1]
  | ub => exact .same rfl rfl rfl (.inl rfl)
  | svc => exact .same rfl rfl rfl (.inl rfl)
  | state k new h =>
    obtain ⟨t, x, ht, e⟩ := setStateRaw_eq k new a
    rw [e]
    refine .same rfl rfl ?_ (.inl rfl)
    dsimp only
    split
    · rfl
    · exact kids_skip rfl
  | pause k h hp he ha =>
    obtain ⟨t, x, ht, e⟩ := setStateRaw_eq k .paused (Sup.kill E (a.svc k).pid 19 .pause k a).2
    rw [e]
    refine .same rfl rfl ?_ (.inl rfl)
    dsimp only
    split
    · exact kids_skip rfl
    · exact (kids_skip rfl).trans (kids_skip rfl)
  | retryForce k h ht hr hs =>
    obtain ⟨y, e2⟩ := timerCancel_eq k a
    rw [e2]
    simp only [Sup.mod, upd_same, upd_upd]
    obtain ⟨t, x, _, e⟩ := setStateRaw_eq k .running
      { a with svc := upd a.svc k { a.svc k with timer := none, armed := y,
                                                 restartTmo := (a.svc k).restartSaved } }
    rw [e]
    refine .same rfl rfl ?_ (.inl rfl)
    dsimp only
    split
    · rfl
    · exact kids_skip rfl
  | retryRespawn k =>
    obtain ⟨y, e2⟩ := timerCancel_eq k a
    rw [e2]; exact .same rfl rfl rfl (.inl rfl)
  | retryGiveUp k h ht hr hs hb hm hc =>
    obtain ⟨y, e2⟩ := timerCancel_eq k a
    rw [e2]; exact .same rfl rfl (kids_skip rfl) (.inl rfl)
  | retryAgain k sv tm h ht hr hs hb hc =>
    obtain ⟨y, e2⟩ := timerCancel_eq k a
    rw [e2]; exact .same rfl rfl (kids_skip rfl) (.inl rfl)
  | age k h hs => exact .same rfl rfl (kids_skip rfl) (.inl rfl)
  | forced => exact .same rfl rfl (kids_skip rfl) (.inl rfl)
  | asked => exact .same rfl rfl (kids_skip rfl) (.inl rfl)
  | lifted => exact .same rfl rfl (kids_skip rfl) (.inl rfl)
  | bump k h => exact .same rfl rfl (kids_skip rfl) (.inl rfl)
  | dirty => exact .same rfl rfl rfl (.inl rfl)
  | confRead | confEnd => exact .same rfl rfl (kids_skip rfl) (.inl rfl)
  | kill k tgt sig why h => exact .same rfl rfl (kids_skip rfl) (.inl rfl)
  | rebootSelf k h hb ho => exact .same rfl rfl (kids_skip rfl) (.inl rfl)
  | start k p x hp hl hb he hs =>
    have e := start_eq k p x a hs
    dsimp only at e
    rw [e]
    refine .spawn p k .main hp hl (fun _ => ⟨hs, he, hb⟩) (fun _ => ⟨by simp, .inl (by simp)⟩)
      (fun j hj => upd_other _ _ _ _ hj) rfl rfl ?_ (by simp)
    exact (kids_skip rfl).trans (kids_keep rfl)
  | startBad k p hp hl hb he hs hn =>
    rw [startParent_eq]
    exact .spawn p k .main hp hl (fun _ => ⟨hs, he, hb⟩) (fun _ => ⟨by simp, .inr hn⟩)
      (fun j hj => upd_other _ _ _ _ hj) rfl rfl (kids_keep rfl) (by simp [spawned, emit])
  | script k p role hp hl hr h =>
    exact .spawn p k role hp hl (fun h => absurd h hr) (fun h => absurd h hr)
      (fun j hj => upd_other _ _ _ _ hj) rfl rfl (kids_keep rfl) (by simp [spawned, emit, Sup.mod, hr])
  | readyScript k p hp hl h =>
    exact .spawn p k .ready hp hl (fun h => by cases h) (fun h => by cases h) (fun _ _ => rfl) rfl rfl (kids_keep rfl) (by simp [spawned, emit])
  | sysvStop k p hp hl h =>
    exact .spawn p k .sysvStop hp hl (fun h => by cases h) (fun h => by cases h) (fun _ _ => rfl) rfl rfl (kids_keep rfl) (by simp [spawned, emit])
  | scriptRun k p role hp hl hr =>
    have hn : role ≠ .main := by rcases hr with rfl | rfl <;> decide
    refine .script p k role _ hp hl hn (by simp [reap, spawned, emit]) ?_
      ((kids_keep rfl).trans (congrArg _ (kids_keep rfl))) rfl
    simp [reap, spawned, emit, hn]
  | collect k p st hl hf hp h1 h =>
    obtain ⟨s', tr, t, e, es, _, etr⟩ := monitorHead_eq (E := E) k st (reap p (some st) a)
    rw [e]
    refine .reap (st := some st) p a.toCore hl (.inl ⟨k, hf, by simp only [upd_same]; rw [es]⟩) rfl rfl ?_ rfl
    show Sup.kids tr = _
    rcases etr with etr | etr
    · rw [etr]; exact kids_keep rfl
    · rw [etr]; exact (kids_skip rfl).trans (kids_keep rfl)
  | collectOther p st hl hf h => exact .reap p a.toCore hl (.inr hf) rfl rfl (kids_keep rfl) rfl
  | lost k st hl h1 =>
    obtain ⟨s', tr, t, e, es, _, etr⟩ := monitorHead_eq (E := E) k st a
    rw [e]
    refine .same rfl rfl ?_ (.inl rfl)
    show Sup.kids tr = _
    rcases etr with etr | etr
    · rw [etr]
    · rw [etr]; exact kids_skip rfl
  | assoc => exact .same rfl rfl rfl (.inl rfl)
  | adopt p hp hl => exact .adopt p hp hl rfl rfl rfl rfl
  | unblock h => exact .same rfl rfl rfl (.inr ⟨h, rfl⟩)
  | conds => exact .same rfl rfl rfl (.inl rfl)
  | mid => exact .same rfl rfl rfl (.inl rfl)
  | del k ht hr hs => exact .same rfl rfl (kids_skip rfl) (.inl rfl)
  | delBoot k h => exact .same rfl rfl (kids_skip rfl) (.inl rfl)
  | regOld z k h hz hs =>
    unfold regObj; rw [h]
    exact .same rfl rfl (kids_skip rfl) (.inl rfl)
  | regNew z h hz hs =>
    unfold regObj; rw [h]
    exact .new rfl rfl rfl (kids_skip rfl) rfl
  | sm => exact .same rfl rfl rfl (.inl rfl)
  | runlevel h => exact .same rfl rfl (kids_skip rfl) (.inl rfl)
  | reloadOn => exact .same rfl rfl rfl (.inl rfl)
  | stopped | sweep => exact .same rfl rfl (kids_skip rfl) (.inl rfl)
  | reloadOff => exact .same rfl rfl rfl (.inl rfl)
  | bootDone => exact .same rfl rfl rfl (.inl rfl)
  | freeUp => exact .same rfl rfl rfl (.inl rfl)
  | free => exact .same rfl rfl rfl (.inl rfl)
  | shutdown h => exact .same rfl rfl (kids_skip rfl) (.inl rfl)

/-! ## Invariants -/

theorem SvcMod.levels {lab : Lab} {w : World} {k : Key} {s' : Svc} (ho : OrdOk w.toCore)
    (hk : w.nextKey ≤ k) (h : SvcMod E lab w k s') : s'.levels = (w.svc k).levels := by
  cases h with
  | minor _ h => rw [h]
  | apply z a c h1 h2 h3 h4 => exact absurd (ho.2 k h4) (Nat.not_lt.mpr hk)
  | _ => rfl

/-- Objects that have not been created have no runlevels. -/
def Blank (w : World) : Prop := ∀ k, w.nextKey ≤ k → (w.svc k).levels = 0

theorem Prim.blank {lab : Lab} {a b : World} (ho : OrdOk a.toCore) (h : Prim E lab a b)
    (ih : Blank a) : Blank b := by
  intro k hk
  have hk' : a.nextKey ≤ k := Nat.le_trans h.nextKey hk
  have ih := ih k hk'
  cases h.view k with
  | same h => rw [h]; exact ih
  | mod s' h e => rw [e, h.levels ho hk']; exact ih
  | state new t x h ht e => rw [e]; exact ih
  | force x h ht hr hs hf e => rw [e]; exact ih
  | respawn x h ht hr e => rw [e]; exact ih
  | giveUp x h ht hr hs hb hm hc e => rw [e]; exact ih
  | again x sv tm h ht hr hs hb hc e => rw [e]; exact ih
  | age h hs e => rw [e]; exact ih
  | bump h e => rw [e]; exact ih
  | marks r d hr hp hs e => rw [e]; exact ih
  | start p x hp hl hb he hs e hv ht => rw [e]; exact ih
  | startBad p x hp hl hb he hs hn e hv ht => rw [e]; exact ih
  | script p role hp hl hr h e hv ht => rw [e]; exact ih
  | exit s' hp hl hs ht e => rw [e, hs]; exact ih
  | delBoot h hb e => rw [e]; exact ih
  | reg z h hz hs ht e => rw [e]; exact ih
  | new z h hb => exact absurd hb (Nat.not_lt.mpr hk)

/-- The books about child processes. -/
structure Books (w : World) : Prop where
  blank : Blank w
  fresh : ∀ k, w.nextKey ≤ k → w.main k = []
  live : ∀ p ∈ w.live, 1 < p
  main : ∀ k, ∀ p ∈ w.main k, p ∈ w.live
  spec : ∀ k, w.main k = mainAlive k w.trace
  disj : ∀ i j p, p ∈ w.main i → p ∈ w.main j → i = j
  run : ∀ p ∈ runAlive w.trace, p = w.runBlock ∧ p ∈ w.live
  owner : ∀ k, ∀ p ∈ w.main k, startedFor p w.trace = some k

theorem enabled_levels {c : Core} {k : Key} (h : enabled c k = true) : (c.svc k).levels ≠ 0 := by
  intro h0
  unfold enabled at h
  simp [h0] at h

theorem Books.prim {lab : Lab} {a b : World} (ho : OrdOk a.toCore) (h : Prim E lab a b)
    (ih : Books a) : Books b := by
  have hb := h.blank ho ih.blank
  have hn := h.nextKey
  have h0 : ∀ k, b.nextKey ≤ k → a.nextKey ≤ k := fun k hk => Nat.le_trans hn hk
  cases h.kids with
  | same hl hm ht hr =>
    refine ⟨hb, ?_, ?_, ?_, ?_, ?_, ?_, ?_⟩
    · intro k hk; rw [hm]; exact ih.fresh k (h0 k hk)
    · rw [hl]; exact ih.live
    · rw [hm, hl]; exact ih.main
    · intro k; rw [hm, ← mainAlive_kids, ht, mainAlive_kids]; exact ih.spec k
    · rw [hm]; exact ih.disj
    · rw [← runAlive_kids, ht, runAlive_kids, hl]
      intro p hp
      obtain ⟨h1, h2⟩ := ih.run p hp
      refine ⟨?_, h2⟩
      rcases hr with hr | ⟨hr, _⟩
      · rw [hr]; exact h1
      · rw [← h1] at hr; exact absurd h2 hr
    · intro k p hp
      rw [hm] at hp
      rw [← startedFor_kids, ht, startedFor_kids]; exact ih.owner k p hp
  | spawn p k role hp hf hs hv hso hl hm ht hr =>
    have hnot : ∀ j, p ∉ a.main j := fun j hj => hf (ih.main j p hj)
    have mem : ∀ j q, q ∈ b.main j → q ∈ a.main j ∨ (q = p ∧ role = .main ∧ j = k) := by
      intro j q hq
      rw [hm] at hq
      split at hq
      · rename_i hmain
        by_cases hj : j = k
        · subst hj
          simp only [upd_same, List.mem_cons] at hq
          rcases hq with hq | hq
          · exact .inr ⟨hq, hmain, rfl⟩
          · exact .inl hq
        · rw [upd_other _ _ _ _ hj] at hq; exact .inl hq
      · exact .inl hq
    refine ⟨hb, ?_, ?_, ?_, ?_, ?_, ?_, ?_⟩
    · intro j hj
      have hj' := h0 j hj
      rw [hm]
      split
      · rename_i hmain
        have hne : j ≠ k := by
          intro e; subst e
          exact enabled_levels (hs hmain).2.1 (ih.blank j hj')
        rw [upd_other _ _ _ _ hne]; exact ih.fresh j hj'
      · exact ih.fresh j hj'
    · rw [hl]; intro q hq
      rcases List.mem_cons.mp hq with rfl | hq
      · exact hp
      · exact ih.live q hq
    · intro j q hq
      rw [hl]
      rcases mem j q hq with h | h
      · exact List.mem_cons_of_mem _ (ih.main j q h)
      · rw [h.1]; exact List.mem_cons_self ..
    · intro j
      rw [← mainAlive_kids, ht, hm]
      by_cases hmain : role = .main
      · subst hmain
        simp only [mainAlive, mainAlive_kids, if_true]
        by_cases hj : j = k
        · subst hj; simp [ih.spec j]
        · rw [upd_other _ _ _ _ hj, if_neg (fun e => hj e.symm)]; exact ih.spec j
      · rw [if_neg hmain]
        cases role <;> first | exact absurd rfl hmain | (simp only [mainAlive, mainAlive_kids]; exact ih.spec j)
    · intro i j q hi hj
      rcases mem i q hi with h | h <;> rcases mem j q hj with h' | h'
      · exact ih.disj i j q h h'
      · rw [h'.1] at h; exact absurd h (hnot i)
      · rw [h.1] at h'; exact absurd h' (hnot j)
      · rw [h.2.2, h'.2.2]
    · rw [← runAlive_kids, ht, hl, hr]
      intro q hq
      by_cases hmain : role = .main
      · subst hmain
        simp only [runAlive, runAlive_kids] at hq
        have none : ∀ q, q ∉ runAlive a.trace := by
          intro q hq
          obtain ⟨h1, h2⟩ := ih.run q hq
          have := ih.live q h2
          rw [(hs rfl).2.2] at h1
          omega
        by_cases hty : (a.svc k).type = .run
        · rw [if_pos hty] at hq
          rcases List.mem_cons.mp hq with hq | hq
          · subst hq; exact ⟨by simp [hty], List.mem_cons_self ..⟩
          · exact absurd hq (none q)
        · rw [if_neg hty] at hq
          exact absurd hq (none q)
      · rw [if_neg (fun h => hmain h.1)]
        have : q ∈ runAlive a.trace := by
          cases role <;> first | exact absurd rfl hmain | (simpa [runAlive, runAlive_kids] using hq)
        obtain ⟨h1, h2⟩ := ih.run q this
        exact ⟨h1, List.mem_cons_of_mem _ h2⟩
    · intro j q hq
      rw [← startedFor_kids, ht]
      simp only [startedFor, startedFor_kids]
      rcases mem j q hq with h | h
      · rw [if_neg (fun e => hnot j (by rw [e]; exact h))]; exact ih.owner j q h
      · rw [if_pos h.1.symm, h.2.2]
  | reap p c hf hv hl hm ht hr =>
    refine ⟨hb, ?_, ?_, ?_, ?_, ?_, ?_, ?_⟩
    · intro k hk; rw [hm]; dsimp only; rw [ih.fresh k (h0 k hk)]; rfl
    · rw [hl]; intro q hq; exact ih.live q (List.mem_filter.mp hq).1
    · rw [hl, hm]; intro k q hq
      have := List.mem_filter.mp hq
      exact List.mem_filter.mpr ⟨ih.main k q this.1, this.2⟩
    · intro k; rw [← mainAlive_kids, ht, hm]
      simp only [mainAlive, mainAlive_kids]; rw [ih.spec k]
    · rw [hm]; intro i j q hi hj
      exact ih.disj i j q (List.mem_filter.mp hi).1 (List.mem_filter.mp hj).1
    · rw [← runAlive_kids, ht, hl, hr]
      simp only [runAlive, runAlive_kids]
      intro q hq
      have := List.mem_filter.mp hq
      obtain ⟨h1, h2⟩ := ih.run q this.1
      exact ⟨h1, List.mem_filter.mpr ⟨h2, this.2⟩⟩
    · intro k q hq
      rw [hm] at hq
      have := List.mem_filter.mp hq
      rw [← startedFor_kids, ht]
      simp only [startedFor, startedFor_kids]
      rw [if_neg (fun e => by simp [e] at this)]
      exact ih.owner k q this.1
  | script p k role c hp hf hn hl hm ht hr =>
    have hnot : ∀ j, p ∉ a.main j := fun j hj => hf (ih.main j p hj)
    refine ⟨hb, ?_, ?_, ?_, ?_, ?_, ?_, ?_⟩
    · intro k hk; rw [hm]; dsimp only; rw [ih.fresh k (h0 k hk)]; rfl
    · rw [hl]; intro q hq; exact ih.live q (List.mem_filter.mp hq).1
    · rw [hl, hm]; intro k q hq
      have := List.mem_filter.mp hq
      exact List.mem_filter.mpr ⟨ih.main k q this.1, this.2⟩
    · intro j; rw [← mainAlive_kids, ht, hm]
      have : mainAlive j ((a.toCore, Eff.spawn p k role) :: kids a.trace) = mainAlive j a.trace := by
        cases role <;> first | exact absurd rfl hn | (simp only [mainAlive, mainAlive_kids])
      simp only [mainAlive]; rw [this, ih.spec j]
    · rw [hm]; intro i j q hi hj
      exact ih.disj i j q (List.mem_filter.mp hi).1 (List.mem_filter.mp hj).1
    · rw [← runAlive_kids, ht, hl, hr]
      have : runAlive ((a.toCore, Eff.spawn p k role) :: kids a.trace) = runAlive a.trace := by
        cases role <;> first | exact absurd rfl hn | (simp only [runAlive, runAlive_kids])
      simp only [runAlive]; rw [this]
      intro q hq
      have := List.mem_filter.mp hq
      obtain ⟨h1, h2⟩ := ih.run q this.1
      exact ⟨h1, List.mem_filter.mpr ⟨h2, this.2⟩⟩
    · intro j q hq
      rw [hm] at hq
      have := List.mem_filter.mp hq
      have hne : p ≠ q := fun e => by simp [e] at this
      rw [← startedFor_kids, ht]
      simp only [startedFor, startedFor_kids]
      rw [if_neg hne, if_neg hne]
      exact ih.owner j q this.1
  | adopt p hp hf hl hm ht hr =>
    refine ⟨hb, ?_, ?_, ?_, ?_, ?_, ?_, ?_⟩
    · intro k hk; rw [hm]; exact ih.fresh k (h0 k hk)
    · rw [hl]; intro q hq
      rcases List.mem_cons.mp hq with rfl | hq
      · exact hp
      · exact ih.live q hq
    · rw [hm, hl]; intro k q hq; exact List.mem_cons_of_mem _ (ih.main k q hq)
    · intro k; rw [hm, ← mainAlive_kids, ht, mainAlive_kids]; exact ih.spec k
    · rw [hm]; exact ih.disj
    · rw [← runAlive_kids, ht, runAlive_kids, hl, hr]
      intro q hq
      obtain ⟨h1, h2⟩ := ih.run q hq
      exact ⟨h1, List.mem_cons_of_mem _ h2⟩
    · intro k q hq
      rw [hm] at hq
      rw [← startedFor_kids, ht, startedFor_kids]; exact ih.owner k q hq
  | new hn hl hm ht hr =>
    have em : b.main = a.main := by
      rw [hm]; funext j
      by_cases hj : j = a.nextKey
      · subst hj; simp [ih.fresh a.nextKey (Nat.le_refl _)]
      · exact upd_other _ _ _ _ hj
    refine ⟨hb, ?_, ?_, ?_, ?_, ?_, ?_, ?_⟩
    · intro k hk; rw [em]; exact ih.fresh k (h0 k hk)
    · rw [hl]; exact ih.live
    · rw [em, hl]; exact ih.main
    · intro k; rw [em, ← mainAlive_kids, ht, mainAlive_kids]; exact ih.spec k
    · rw [em]; exact ih.disj
    · rw [← runAlive_kids, ht, runAlive_kids, hl, hr]; exact ih.run
    · intro k q hq
      rw [em] at hq
      rw [← startedFor_kids, ht, startedFor_kids]; exact ih.owner k q hq

theorem Books.start (cfg cmd : Nat) : Books (World.start cfg cmd) :=
  ⟨fun _ _ => rfl, fun _ _ => rfl, fun _ h => (nomatch h), fun _ _ h => (nomatch h), fun _ => rfl,
   fun _ _ _ h => (nomatch h), fun _ h => (nomatch h), fun _ _ h => (nomatch h)⟩

theorem Reach.books {w : World} (h : Reach E w) : Books w :=
  Reach.inv Books.start (fun _ _ _ ho p ih => ih.prim ho p) h

end

end Verif.Sup
