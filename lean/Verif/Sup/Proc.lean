import Verif.Sup.Kids

/-!
# Supervisor model: which service tracks which process

For plain services (not forking, no sysv, no stop:script, no systemd or s6 notification) the
`pid` of the service is the process that was started for it.
-/

namespace Verif.Sup

open Verif (CStr CondStore)

section
variable {E : Env}

/-- A service that no stanza made more than a plain one is plain. -/
def PlainOk (s : Svc) : Prop :=
  s.odd = false → s.forking = false ∧ s.stopScript = false ∧ s.type ≠ .sysv ∧
    s.notify ≠ .systemd ∧ s.notify ≠ .s6

theorem Stanza.plain {z : Stanza} (h : z.odd = false) :
    z.forking = false ∧ z.stopScript = false ∧ z.type ≠ .sysv ∧ z.notify ≠ .systemd ∧ z.notify ≠ .s6 := by
  unfold Stanza.odd at h
  simp only [Bool.or_eq_false_iff, decide_eq_false_iff_not] at h
  obtain ⟨⟨⟨⟨h1, h2⟩, h3⟩, h4⟩, h5⟩ := h
  exact ⟨h1, h2, h3, h4, h5⟩

theorem PlainOk.prim {lab : Lab} {a b : World} (j : Key) (h : Prim E lab a b)
    (ih : PlainOk (a.svc j)) : PlainOk (b.svc j) := by
  cases h.view j with
  | same h => rw [h]; exact ih
  | mod s' h e =>
    rw [e]
    cases h with
    | minor _ h => rw [h]; exact ih
    | apply z x y ho ht hb hk hz hh hs =>
      obtain ⟨_, _, _, _, _, _, _, _, _, _, _, _, e⟩ := applyStanza_eq z x y (a.svc j)
      rw [e]
      intro hodd
      have hz : z.odd = false := by
        cases hz : z.odd with
        | false => rfl
        | true =>
          have h1 := ho hz
          have h2 : (a.svc j).odd = false := hodd
          rw [h1] at h2; cases h2
      obtain ⟨h1, h2, h3, h4, h5⟩ := Stanza.plain hz
      exact ⟨h1, h2, fun h => h3 (ht ▸ h), h4, h5⟩
    | _ => exact ih
  | state new t x h ht e => rw [e]; exact ih
  | force x h ht hr hs hf e => rw [e]; exact ih
  | respawn x h ht hr e => rw [e]; exact ih
  | giveUp x h ht hr hs hb hm hc e => rw [e]; exact ih
  | again x sv tm h ht hr hs hb hc e => rw [e]; exact ih
  | age h hs e => rw [e]; exact ih
  | bump h e => rw [e]; exact ih
  | marks r d hr hp hs e => rw [e]; exact ih
  | start p x hp hl hb he hs e => rw [e]; exact ih
  | startBad p x hp hl hb he hs hn e => rw [e]; exact ih
  | script p role hp hl hr h e => rw [e]; exact ih
  | exit s' hp hl hs ht e => rw [e, hs]; exact ih
  | delBoot h hb e => rw [e]; exact ih
  | reg z h hz hs ht e =>
    rw [e]
    intro hodd
    simp only [Bool.or_eq_false_iff] at hodd
    obtain ⟨h1, h2, h3, h4, h5⟩ := ih hodd.1
    exact ⟨h1, h2, (Stanza.plain hodd.2).2.2.1, h4, h5⟩
  | new z h hb hz hs ht e =>
    rw [e]
    intro hodd
    exact ⟨rfl, rfl, (Stanza.plain hodd).2.2.1, by simp, by simp⟩

theorem Prim.order {lab : Lab} {a b : World} (h : Prim E lab a b) :
    ∀ k ∈ b.order, k ∈ a.order ∨ k = a.nextKey := by
  have same : b.order = a.order → ∀ k ∈ b.order, k ∈ a.order ∨ k = a.nextKey :=
    fun e k hk => .inl (e ▸ hk)
  cases h with
  | glob _ h => apply same; rw [h.1]
  | state k new h =>
    obtain ⟨t, x, ht, e⟩ := setStateRaw_eq k new a
    apply same; rw [e]
  | pause k =>
    obtain ⟨t, x, ht, e⟩ := setStateRaw_eq k .paused (Sup.kill E (a.svc k).pid 19 .pause k a).2
    apply same; rw [e]; rfl
  | retryForce k h ht hr hs =>
    obtain ⟨y, e2⟩ := timerCancel_eq k a
    obtain ⟨t, x, _, e⟩ := setStateRaw_eq k .running
      (mod k (fun s => { s with restartTmo := s.restartSaved }) (timerCancel k a))
    apply same; rw [e, e2]; rfl
  | retryRespawn k =>
    obtain ⟨y, e2⟩ := timerCancel_eq k a
    apply same; rw [e2]; rfl
  | retryGiveUp k =>
    obtain ⟨y, e2⟩ := timerCancel_eq k a
    apply same; rw [e2]; rfl
  | retryAgain k =>
    obtain ⟨y, e2⟩ := timerCancel_eq k a
    apply same; rw [e2]; rfl
  | start k p x hp hl hb he hs => apply same; rw [start_eq k p x a hs]
  | startBad k p => apply same; rw [startParent_eq]; rfl
  | collect k p st =>
    obtain ⟨s', tr, t, e, _⟩ := monitorHead_eq (E := E) k st (reap p (some st) a)
    apply same; rw [e]; rfl
  | lost k st =>
    obtain ⟨s', tr, t, e, _⟩ := monitorHead_eq (E := E) k st a
    apply same; rw [e]
  | del k => intro j hj; exact .inl (List.mem_filter.mp hj).1
  | delBoot k => intro j hj; exact .inl (List.mem_filter.mp hj).1
  | regOld z k h => apply same; unfold regObj; rw [h]; rfl
  | regNew z h =>
    unfold regObj; rw [h]
    intro j hj
    rcases List.mem_append.mp hj with h | h
    · exact .inl h
    · exact .inr (List.mem_singleton.mp h)
  | _ => exact same rfl

/-- The command of a plain service is the process its `pid` names. -/
def Tracks (w : World) (k : Key) : Prop :=
  w.main k = [] ∨ ∃ p, w.main k = [p] ∧ (w.svc k).pid = p ∧
    ((w.svc k).state = .running ∨ (w.svc k).state = .paused ∨ (w.svc k).state = .stopping)

/-- The command of service `k` is not affected by an update that leaves its children alone. -/
theorem Tracks.keep {lab : Lab} {a b : World} {k : Key} {p : Int} (hr : a.reent = false)
    (hbk : Books a) (hpl : PlainOk (a.svc k)) (hodd : (b.svc k).odd = false) (hk : k ∈ b.order)
    (h : Prim E lab a b) (hm : a.main k = [p]) (hmb : b.main k = [p]) (hp : (a.svc k).pid = p)
    (hs : (a.svc k).state = .running ∨ (a.svc k).state = .paused ∨ (a.svc k).state = .stopping) :
    (b.svc k).pid = p ∧
    ((b.svc k).state = .running ∨ (b.svc k).state = .paused ∨ (b.svc k).state = .stopping) := by
  have hlive : p ∈ a.live := hbk.main k p (by rw [hm]; exact List.mem_cons_self ..)
  have hp1 : 1 < p := hbk.live p hlive
  have hne : (a.svc k).state ≠ .setup ∧ (a.svc k).state ≠ .teardown ∧ (a.svc k).state ≠ .cleanup ∧
      (a.svc k).state ≠ .halted ∧ (a.svc k).state ≠ .done ∧ (a.svc k).state ≠ .dead ∧
      (a.svc k).state ≠ .waiting ∧ (a.svc k).state ≠ .starting := by
    rcases hs with h | h | h <;> rw [h] <;> decide
  have noScript : ∀ {lab role}, ¬ ScriptState lab k role (a.svc k) := by
    intro lab role h
    rcases h with h | h | h | h
    · exact hne.1 h.2
    · exact hne.2.1 h.2
    · exact hne.2.2.1 h.2
    · exact hne.2.2.2.1 h.2.1
  have hp0 : (a.svc k).pid ≠ 0 := by omega
  cases h.view k with
  | same h => rw [h]; exact ⟨hp, hs⟩
  | mod s' h e =>
    rw [e] at hodd ⊢
    have hodd' : (a.svc k).odd = false → (a.svc k).forking = false ∧ (a.svc k).stopScript = false ∧
      (a.svc k).type ≠ .sysv := fun h => ⟨(hpl h).1, (hpl h).2.1, (hpl h).2.2.1⟩
    refine ⟨?_, by rw [h.state]; exact hs⟩
    cases h with
    | minor _ h => rw [h]; exact hp
    | forkedPid p b h hf => rw [(hodd' hodd).1] at hf; exact absurd (hf hr) (by simp)
    | pidLost h => rw [hp] at h; exact absurd hlive h
    | pidOdd h =>
      rcases h with h | h
      · rw [(hodd' hodd).2.1] at h; cases h
      · exact absurd h (hodd' hodd).2.2
    | pidNone h => omega
    | scriptFail role h => exact absurd (h hr) noScript
    | apply z x y =>
      obtain ⟨_, _, _, _, _, _, _, _, _, _, _, _, e⟩ := applyStanza_eq z x y (a.svc k)
      rw [e]; exact hp
    | _ => exact hp
  | state new t x h ht e =>
    rw [e]
    refine ⟨hp, ?_⟩
    cases h with
    | wake h => exact absurd h hne.2.2.2.1
    | redo h => rcases h hr with h | h
                · exact absurd h hne.2.2.2.2.1
                · exact absurd h hne.2.2.2.1
    | dead h => exact absurd h hne.2.2.2.1
    | tearCleanup h => exact absurd h hne.2.1
    | tearHalted h => exact absurd h hne.2.1
    | cleanHalted h => exact absurd h hne.2.2.1
    | doneHalted h => exact absurd h hne.2.2.2.2.1
    | stopDone h => exact absurd (h hr).2.1 hp0
    | stopTear h => exact absurd (h hr).2.1 hp0
    | stopCleanup h => exact absurd (h hr).2.1 hp0
    | stopHalted h => exact absurd (h hr).2.1 hp0
    | setupFail h => exact absurd h hne.1
    | setupOk h => exact absurd h hne.1
    | waitOff h => exact absurd h hne.2.2.2.2.2.2.1
    | waitConflict h => exact absurd h hne.2.2.2.2.2.2.1
    | waitSetup h => exact absurd h hne.2.2.2.2.2.2.1
    | waitStart h => exact absurd h hne.2.2.2.2.2.2.1
    | startOff h => exact absurd h hne.2.2.2.2.2.2.2
    | startMissing h => exact absurd h hne.2.2.2.2.2.2.2
    | crash h hp => exact absurd hp hp0
    | complete h hp => exact absurd hp hp0
    | pause => exact .inr (.inl rfl)
    | cont => exact .inl rfl
    | pausedGone h hp => exact absurd hp hp0
    | lost h hp => exact absurd hp hp0
    | stop => exact .inr (.inr rfl)
    | forked => exact .inl rfl
  | force x h ht hr hs hf e => rw [e]; exact ⟨hp, .inl rfl⟩
  | respawn x h ht hr e => rw [e]; exact ⟨hp, hs⟩
  | giveUp x h ht hr hs' hb hm hc e => rw [e]; exact ⟨hp, hs⟩
  | again x sv tm h ht hr hs' hb hc e => rw [e]; exact ⟨hp, hs⟩
  | age h hs' e => rw [e]; exact ⟨hp, hs⟩
  | bump h e => rw [e]; exact ⟨hp, hs⟩
  | marks r d hr hp' hs' e => rw [e]; exact ⟨hp, hs⟩
  | start p x hp hl hb he hs' e => exact absurd hs' hne.2.2.2.2.2.2.2
  | startBad p x hp hl hb he hs' hn e => exact absurd hs' hne.2.2.2.2.2.2.2
  | script p role hp hl hr' h e => exact absurd (h hr) noScript
  | exit s' hp' hl hs' ht e =>
    exfalso
    rcases hl with ⟨_, hl⟩ | hl
    · apply hl k; rw [hmb, hp]; exact List.mem_cons_self ..
    · rw [hp] at hl; exact hl hlive
  | delBoot h hb e => exact absurd hk hb
  | reg z h hz hs' ht e => rw [e]; exact ⟨hp, hs⟩
  | new z h hb hz hs' ht e =>
    have := hbk.fresh k (by rw [h]; exact Nat.le_refl _)
    rw [hm] at this; cases this

theorem filter_one {p q : Int} : [p].filter (· ≠ q) = [p] ∨ [p].filter (· ≠ q) = [] := by
  by_cases h : p = q
  · right; simp [h]
  · left; simp [h]

/-- Registered plain services track their command. -/
def TracksAll (w : World) : Prop := ∀ k ∈ w.order, (w.svc k).odd = false → Tracks w k

theorem odd_mono {lab : Lab} {a b : World} {k : Key} (h : Prim E lab a b) (hk : k ≠ a.nextKey)
    (hb : (b.svc k).odd = false) : (a.svc k).odd = false := by
  cases h.view k with
  | same h => rw [h] at hb; exact hb
  | mod s' h e =>
    rw [e] at hb
    cases h with
    | minor _ h => rw [h] at hb; exact hb
    | apply z x y =>
      obtain ⟨_, _, _, _, _, _, _, _, _, _, _, _, e⟩ := applyStanza_eq z x y (a.svc k)
      rw [e] at hb; exact hb
    | _ => exact hb
  | state new t x h ht e => rw [e] at hb; exact hb
  | force x h ht hr hs hf e => rw [e] at hb; exact hb
  | respawn x h ht hr e => rw [e] at hb; exact hb
  | giveUp x h ht hr hs hb' hm hc e => rw [e] at hb; exact hb
  | again x sv tm h ht hr hs hb' hc e => rw [e] at hb; exact hb
  | age h hs e => rw [e] at hb; exact hb
  | bump h e => rw [e] at hb; exact hb
  | marks r d hr hp hs e => rw [e] at hb; exact hb
  | start p x hp hl hb' he hs e => rw [e] at hb; exact hb
  | startBad p x hp hl hb' he hs hn e => rw [e] at hb; exact hb
  | script p role hp hl hr h e => rw [e] at hb; exact hb
  | exit s' hp hl hs ht e => rw [e, hs] at hb; exact hb
  | delBoot h hb' e => rw [e] at hb; exact hb
  | reg z h hz hs ht e =>
    rw [e] at hb
    simp only [Bool.or_eq_false_iff] at hb
    exact hb.1
  | new z h => exact absurd h hk

theorem Tracks.prim {lab : Lab} {a b : World} (hr : a.reent = false)
    (hbk : Books a) (hpl : ∀ k, PlainOk (a.svc k)) (h : Prim E lab a b) (ih : TracksAll a) :
    TracksAll b := by
  intro k hk hodd
  -- what is known of the command of `k` before
  have old : a.main k = [] ∨ ∃ p, a.main k = [p] ∧ (a.svc k).pid = p ∧
      ((a.svc k).state = .running ∨ (a.svc k).state = .paused ∨ (a.svc k).state = .stopping) := by
    rcases h.order k hk with hka | hka
    · by_cases hn : k = a.nextKey
      · left; exact hbk.fresh k (by rw [hn]; exact Nat.le_refl _)
      · exact ih k hka (odd_mono h hn hodd)
    · left; exact hbk.fresh k (by rw [hka]; exact Nat.le_refl _)
  -- an update that does not start the command of `k`
  have rest : (b.main k = a.main k ∨ b.main k = [] ∨ ∃ q, b.main k = (a.main k).filter (· ≠ q)) →
      Tracks b k := by
    intro hm
    rcases old with old | ⟨p, o1, o2, o3⟩
    · left
      rcases hm with hm | hm | ⟨q, hm⟩
      · rw [hm, old]
      · exact hm
      · rw [hm, old]; rfl
    · have : b.main k = [] ∨ b.main k = [p] := by
        rcases hm with hm | hm | ⟨q, hm⟩
        · right; rw [hm, o1]
        · exact .inl hm
        · rw [hm, o1]
          rcases filter_one (p := p) (q := q) with h | h
          · exact .inr h
          · exact .inl h
      rcases this with hmb | hmb
      · exact .inl hmb
      · right
        have := Tracks.keep hr hbk (hpl k) hodd hk h o1 hmb o2 o3
        exact ⟨p, hmb, this.1, this.2⟩
  cases h.kids with
  | same hl hm ht hr => exact rest (.inl (by rw [hm]))
  | spawn p j role hp hf hs hv ho hl hm ht hr' =>
    by_cases hmain : role = .main
    · by_cases hj : k = j
      · subst hj
        obtain ⟨h1, h2, h3⟩ := hs hmain
        have hne : k ≠ a.nextKey := by
          intro e
          exact enabled_levels h2 (hbk.blank k (by rw [e]; exact Nat.le_refl _))
        have hodd' := odd_mono h hne hodd
        have hp' := hpl k hodd'
        obtain ⟨g1, g2⟩ := hv hmain
        have hmb : b.main k = [p] := by
          rw [hm, if_pos hmain, upd_same]
          rcases old with old | ⟨q, o1, o2, o3⟩
          · rw [old]
          · rw [h1] at o3; rcases o3 with h | h | h <;> cases h
        refine .inr ⟨p, hmb, g1, .inl ?_⟩
        rcases g2 with g | g | g
        · exact g
        · exact absurd g hp'.2.2.2.1
        · exact absurd g hp'.2.2.2.2
      · exact rest (.inl (by rw [hm, if_pos hmain]; exact upd_other _ _ _ _ hj))
    · exact rest (.inl (by rw [hm, if_neg hmain]))
  | reap p c hf hv hl hm ht hr => exact rest (.inr (.inr ⟨p, by rw [hm]⟩))
  | script p j role c hp hf hn hl hm ht hr => exact rest (.inr (.inr ⟨p, by rw [hm]⟩))
  | adopt p hp hf hl hm ht hr => exact rest (.inl (by rw [hm]))
  | new hn hl hm ht hr =>
    by_cases hj : k = a.nextKey
    · exact rest (.inr (.inl (by rw [hm, hj]; simp)))
    · exact rest (.inl (by rw [hm]; exact upd_other _ _ _ _ hj))

/-- The books are kept, and, unless some service has been re-entered, registered plain services
    track their command. -/
structure ProcOk (w : World) : Prop where
  books : Books w
  plain : ∀ k, PlainOk (w.svc k)
  tracks : w.reent = false → TracksAll w

theorem ProcOk.start (cfg cmd : Nat) : ProcOk (World.start cfg cmd) :=
  ⟨Books.start cfg cmd, fun _ _ => by simp [World.start], fun _ _ h => (nomatch h)⟩

theorem Prim.reent_false {lab : Lab} {a b : World} (h : Prim E lab a b) (hb : b.reent = false) :
    a.reent = false := by
  cases e : a.reent with
  | false => rfl
  | true => rw [h.reent e] at hb; cases hb

theorem ProcOk.prim {lab : Lab} {a b : World} (ho : OrdOk a.toCore) (h : Prim E lab a b)
    (ih : ProcOk a) : ProcOk b :=
  ⟨ih.books.prim ho h, fun k => (ih.plain k).prim k h, fun hr =>
    Tracks.prim (h.reent_false hr) ih.books ih.plain h (ih.tracks (h.reent_false hr))⟩

theorem Reach.procOk {w : World} (h : Reach E w) : ProcOk w :=
  Reach.inv ProcOk.start (fun _ _ _ ho p ih => ih.prim ho p) h

/-- No configuration file contains a stanza that makes a service more than plain. -/
def PlainEnv (E : Env) : Prop := ∀ t, ∀ z ∈ E.conf t, z.odd = false

/-- With plain stanzas only, every service is plain. -/
theorem notOdd.prim {lab : Lab} {a b : World} (hE : PlainEnv E) (j : Key) (h : Prim E lab a b)
    (ih : (a.svc j).odd = false) : (b.svc j).odd = false := by
  cases h.view j with
  | same h => rw [h]; exact ih
  | mod s' h e =>
    rw [e]
    cases h with
    | minor _ h => rw [h]; exact ih
    | apply z x y =>
      obtain ⟨_, _, _, _, _, _, _, _, _, _, _, _, e⟩ := applyStanza_eq z x y (a.svc j)
      rw [e]; exact ih
    | _ => exact ih
  | state new t x h ht e => rw [e]; exact ih
  | force x h ht hr hs hf e => rw [e]; exact ih
  | respawn x h ht hr e => rw [e]; exact ih
  | giveUp x h ht hr hs hb hm hc e => rw [e]; exact ih
  | again x sv tm h ht hr hs hb hc e => rw [e]; exact ih
  | age h hs e => rw [e]; exact ih
  | bump h e => rw [e]; exact ih
  | marks r d hr hp hs e => rw [e]; exact ih
  | start p x hp hl hb he hs e => rw [e]; exact ih
  | startBad p x hp hl hb he hs hn e => rw [e]; exact ih
  | script p role hp hl hr h e => rw [e]; exact ih
  | exit s' hp hl hs ht e => rw [e, hs]; exact ih
  | delBoot h hb e => rw [e]; exact ih
  | reg z h hz hs ht e => obtain ⟨t, hz⟩ := hz; rw [e]; simp [ih, hE t z hz]
  | new z h hb hz hs ht e => obtain ⟨t, hz⟩ := hz; rw [e]; exact hE t z hz

/-- Every process a registered service tracks was started for it and has not been collected. -/
def OwnsPid (w : World) : Prop :=
  ∀ k ∈ w.order, 1 < (w.svc k).pid →
    (w.svc k).pid ∈ w.live ∧ startedFor (w.svc k).pid w.trace = some k

theorem OwnsPid.prim {lab : Lab} {a b : World} (hr : a.reent = false)
    (hodd : ∀ k, (a.svc k).odd = false) (hpl : ∀ k, PlainOk (a.svc k)) (h : Prim E lab a b)
    (ih : OwnsPid a) : OwnsPid b := by
  intro k hk hp
  -- if the pid is the old one
  have keep : (b.svc k).pid = (a.svc k).pid → k ∈ a.order →
      (b.svc k).pid ∈ b.live ∧ startedFor (b.svc k).pid b.trace = some k := by
    intro e hka
    rw [e] at hp
    obtain ⟨i1, i2⟩ := ih k hka hp
    rw [e]
    cases h.kids with
    | same hl hm ht hr =>
      refine ⟨by rw [hl]; exact i1, ?_⟩
      rw [← startedFor_kids, ht, startedFor_kids]; exact i2
    | spawn p j role hp hf hs hv ho hl hm ht hr' =>
      refine ⟨by rw [hl]; exact List.mem_cons_of_mem _ i1, ?_⟩
      rw [← startedFor_kids, ht]
      simp only [startedFor, startedFor_kids]
      rw [if_neg (fun e => hf (by rw [e]; exact i1))]; exact i2
    | reap p c hf hv hl hm ht hr =>
      have hne : p ≠ (a.svc k).pid := by
        intro hp'
        rcases hv with ⟨j, h1, h2⟩ | h1 | h1
        · have hj : j ∈ a.order := List.mem_of_find?_eq_some h1
          have hjp : (a.svc j).pid = p := by
            have := List.find?_some h1
            simpa using this
          have := (ih j hj (by rw [hjp, hp']; exact hp)).2
          rw [hjp, hp', i2] at this
          injection this with this
          subst this
          rw [e] at h2; omega
        · have := List.find?_eq_none.mp h1 k hka
          simp [hp'] at this
        · omega
      refine ⟨by rw [hl]; exact List.mem_filter.mpr ⟨i1, by simpa using hne.symm⟩, ?_⟩
      rw [← startedFor_kids, ht]
      simp only [startedFor, startedFor_kids]
      rw [if_neg hne]; exact i2
    | script p j role c hp hf hn hl hm ht hr =>
      have hne : p ≠ (a.svc k).pid := fun e => hf (by rw [e]; exact i1)
      refine ⟨by rw [hl]; exact List.mem_filter.mpr ⟨i1, by simpa using hne.symm⟩, ?_⟩
      rw [← startedFor_kids, ht]
      simp only [startedFor, startedFor_kids]
      rw [if_neg hne, if_neg hne]; exact i2
    | adopt p hp hf hl hm ht hr =>
      refine ⟨by rw [hl]; exact List.mem_cons_of_mem _ i1, ?_⟩
      rw [← startedFor_kids, ht, startedFor_kids]; exact i2
    | new hn hl hm ht hr =>
      refine ⟨by rw [hl]; exact i1, ?_⟩
      rw [← startedFor_kids, ht, startedFor_kids]; exact i2
  -- if the pid is a new one
  have fresh : ∀ {p role}, b.live = p :: a.live →
      startedFor p b.trace = startedFor p ((a.toCore, .spawn p k role) :: a.trace) →
      (b.svc k).pid = p → (b.svc k).pid ∈ b.live ∧ startedFor (b.svc k).pid b.trace = some k := by
    intro p role h1 h2 h3
    rw [h3, h1, h2]
    exact ⟨List.mem_cons_self .., by simp [startedFor]⟩
  have hka : k ∈ a.order ∨ k = a.nextKey := h.order k hk
  by_cases hnew : k ∈ a.order
  · cases h.view k with
    | same h => exact keep (by rw [h]) hnew
    | mod s' h e =>
      cases h with
      | minor _ h => exact keep (by rw [e, h]) hnew
      | forkedPid p x h hf =>
        have := (hpl k (hodd k)).1
        rw [hf hr] at this; cases this
      | pidLost h => rw [e] at hp; simp at hp
      | pidOdd h => rw [e] at hp; simp at hp
      | pidNone h => rw [e] at hp; simp at hp
      | scriptFail role h => rw [e] at hp; simp at hp
      | apply z x y =>
        obtain ⟨_, _, _, _, _, _, _, _, _, _, _, _, e'⟩ := applyStanza_eq z x y (a.svc k)
        exact keep (by rw [e, e']) hnew
      | _ => exact keep (by rw [e]) hnew
    | state new t x h ht e => exact keep (by rw [e]) hnew
    | force x h ht hr hs hf e => exact keep (by rw [e]) hnew
    | respawn x h ht hr e => exact keep (by rw [e]) hnew
    | giveUp x h ht hr hs hb hm hc e => exact keep (by rw [e]) hnew
    | again x sv tm h ht hr hs hb hc e => exact keep (by rw [e]) hnew
    | age h hs e => exact keep (by rw [e]) hnew
    | bump h e => exact keep (by rw [e]) hnew
    | marks r d hr hp hs e => exact keep (by rw [e]) hnew
    | start p x hp' hl hb he hs e hv ht =>
      obtain ⟨c, ht⟩ := ht
      exact fresh (role := .main) hv (by rw [ht]; rfl) (by rw [e])
    | startBad p x hp' hl hb he hs hn e hv ht =>
      exact fresh (role := .main) hv (by rw [ht]) (by rw [e])
    | script p role hp' hl hr h e hv ht => exact fresh (role := role) hv (by rw [ht]) (by rw [e])
    | exit s' hp' hl hs ht e => rw [e, hs] at hp; simp at hp
    | delBoot h hb e => exact absurd hk hb
    | reg z h hz hs ht e => exact keep (by rw [e]) hnew
    | new z h hb hz hs ht e => rw [e] at hp; simp at hp
  · -- the object has just been created
    have hkn : k = a.nextKey := hka.resolve_left hnew
    exfalso
    have key : (b.svc k).pid = 0 := by
      cases h with
      | regNew z h hz hs => unfold regObj; rw [h]; simp [hkn, emit]
      | glob _ h => rw [h.1] at hk; exact absurd hk hnew
      | state k' new h =>
        obtain ⟨t, x, ht, e⟩ := setStateRaw_eq k' new a
        rw [e] at hk; exact absurd hk hnew
      | pause k' =>
        obtain ⟨t, x, ht, e⟩ := setStateRaw_eq k' .paused (Sup.kill E (a.svc k').pid 19 .pause k' a).2
        rw [e] at hk; exact absurd hk hnew
      | retryForce k' h ht hr hs =>
        obtain ⟨y, e2⟩ := timerCancel_eq k' a
        obtain ⟨t, x, _, e⟩ := setStateRaw_eq k' .running
          (mod k' (fun s => { s with restartTmo := s.restartSaved }) (timerCancel k' a))
        rw [e, e2] at hk; exact absurd hk hnew
      | retryRespawn k' =>
        obtain ⟨y, e2⟩ := timerCancel_eq k' a
        rw [e2] at hk; exact absurd hk hnew
      | retryGiveUp k' =>
        obtain ⟨y, e2⟩ := timerCancel_eq k' a
        rw [e2] at hk; exact absurd hk hnew
      | retryAgain k' =>
        obtain ⟨y, e2⟩ := timerCancel_eq k' a
        rw [e2] at hk; exact absurd hk hnew
      | start k' p x hp hl hb he hs => rw [start_eq k' p x a hs] at hk; exact absurd hk hnew
      | startBad k' p => rw [startParent_eq] at hk; exact absurd hk hnew
      | collect k' p st =>
        obtain ⟨s', tr, t, e, _⟩ := monitorHead_eq (E := E) k' st (reap p (some st) a)
        rw [e] at hk; exact absurd hk hnew
      | lost k' st =>
        obtain ⟨s', tr, t, e, _⟩ := monitorHead_eq (E := E) k' st a
        rw [e] at hk; exact absurd hk hnew
      | del k' => exact absurd (List.mem_filter.mp hk).1 hnew
      | delBoot k' => exact absurd (List.mem_filter.mp hk).1 hnew
      | regOld z k' h => unfold regObj at hk; rw [h] at hk; exact absurd hk hnew
      | _ => exact absurd hk hnew
    rw [key] at hp; omega

/-- With plain stanzas only. -/
structure OwnOk (w : World) : Prop where
  proc : ProcOk w
  odd : ∀ k, (w.svc k).odd = false
  owns : w.reent = false → OwnsPid w

theorem OwnOk.start (cfg cmd : Nat) : OwnOk (World.start cfg cmd) :=
  ⟨.start cfg cmd, fun _ => rfl, fun _ _ h => (nomatch h)⟩

theorem OwnOk.prim {lab : Lab} {a b : World} (hE : PlainEnv E) (ho : OrdOk a.toCore)
    (h : Prim E lab a b) (ih : OwnOk a) : OwnOk b :=
  ⟨ih.proc.prim ho h, fun k => notOdd.prim hE k h (ih.odd k), fun hr =>
    OwnsPid.prim (h.reent_false hr) ih.odd ih.proc.plain h (ih.owns (h.reent_false hr))⟩

theorem Reach.ownOk {w : World} (hE : PlainEnv E) (h : Reach E w) : OwnOk w :=
  Reach.inv OwnOk.start (fun _ _ _ ho p ih => ih.prim hE ho p) h

end

end Verif.Sup
