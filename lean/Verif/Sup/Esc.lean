import Verif.Sup.Crash

/-!
# Supervisor model: escalation to SIGKILL
-/

namespace Verif.Sup

open Verif (CStr CondStore)

section
variable {E : Env}

/-! ## Specification -/

/-- Spec: something of the given kind has happened since process `p` was started. -/
def since (p : Int) (Q : Core → Eff → Prop) : List (Core × Eff) → Prop
  | [] => False
  | (c, e) :: t => Q c e ∨ ((∀ k role, e ≠ .spawn p k role) ∧ since p Q t)

/-- Spec: SIGKILL is sent to process `p`. -/
def SigKill (p : Int) (_ : Core) (e : Eff) : Prop := ∃ why k, e = .kill p 9 why k

/-- Spec: the user asks for something about service `k` while it is stopping. -/
def AskedStopping (k : Key) (c : Core) (e : Eff) : Prop := e = .asked k ∧ (c.svc k).state = .stopping

/-! ## Preservation -/

theorem since_append {p : Int} {Q : Core → Eff → Prop} {l t : List (Core × Eff)}
    (hl : ∀ c e, (c, e) ∈ l → ∀ k role, e ≠ .spawn p k role) (h : since p Q t) : since p Q (l ++ t) := by
  induction l with
  | nil => exact h
  | cons x l ih =>
    obtain ⟨c, e⟩ := x
    exact .inr ⟨hl c e (List.mem_cons_self ..), ih (fun c e h => hl c e (List.mem_cons_of_mem _ h))⟩

/-- What happened since a live process was started is not forgotten. -/
theorem since_prim {lab : Lab} {a b : World} (h : Prim E lab a b) {p : Int} (hp : p ∈ a.live)
    {Q : Core → Eff → Prop} (hs : since p Q a.trace) : since p Q b.trace := by
  obtain ⟨l, e, hl⟩ := h.newAll (t0 := a.trace) (Q := fun _ e => ∀ k role, e ≠ .spawn p k role)
    ⟨[], rfl, fun _ _ h => nomatch h⟩ (by
      rintro c e tl ⟨he, hs⟩ k role rfl
      have hc : p ∉ c.live := by
        cases he with
        | start _ _ _ _ hl => exact hl
        | script _ _ _ _ _ hl => exact hl
      rcases hs with hs | ⟨_, hs⟩
      · cases hs
      · rw [hs.live] at hc; exact hc hp)
  rw [e]
  exact since_append hl hs

/-- The kill delay and the ready script come from the configuration. -/
def FromZs2 (s : Svc) : Prop :=
  (s.ready = true → ∃ z ∈ s.zs, z.ready.isSome = true) ∧
  (s.killdelay = 3000 ∨ ∃ z ∈ s.zs, s.killdelay = z.killdelay)

theorem FromZs2.prim {lab : Lab} {a b : World} (k : Key) (h : Prim E lab a b)
    (ha : FromZs2 (a.svc k)) : FromZs2 (b.svc k) := by
  cases h.view k with
  | same e => rw [e]; exact ha
  | mod s' h e =>
    rw [e]
    cases h with
    | minor _ h => rw [h]; exact ha
    | apply z x y ho ht hb hk hz =>
      obtain ⟨_, _, _, _, _, _, _, _, _, _, _, _, e⟩ := applyStanza_eq z x y (a.svc k)
      rw [e]
      exact ⟨fun hr => ⟨z, hz, hr⟩, .inr ⟨z, hz, rfl⟩⟩
    | _ => exact ha
  | state new t x h ht e => rw [e]; exact ha
  | force x h ht hr hs hf e => rw [e]; exact ha
  | respawn x h ht hr e => rw [e]; exact ha
  | giveUp x h ht hr hs hb hm hc e => rw [e]; exact ha
  | again x sv tm h ht hr hs hb hc e => rw [e]; exact ha
  | age h hs e => rw [e]; exact ha
  | bump h e => rw [e]; exact ha
  | marks r d hr hp hs e => rw [e]; exact ha
  | start p x hp hl hb he hs e => rw [e]; exact ha
  | startBad p x hp hl hb he hs hn e => rw [e]; exact ha
  | script p role hp hl hr h e => rw [e]; exact ha
  | exit s' hp hl hs ht e => rw [e, hs]; exact ha
  | delBoot h hb e => rw [e]; exact ha
  | reg z h hz hs ht e =>
    rw [e]
    refine ⟨fun hr => ?_, ?_⟩
    · obtain ⟨y, hy, e⟩ := ha.1 hr
      exact ⟨y, List.mem_cons_of_mem _ hy, e⟩
    · rcases ha.2 with e | ⟨y, hy, e⟩
      · exact .inl e
      · exact .inr ⟨y, List.mem_cons_of_mem _ hy, e⟩
  | new z h hb hz hs ht e => rw [e]; exact ⟨fun h => (by cases h), .inl rfl⟩

/-- Running ready scripts belong to services configured with one. -/
def AssocZs (w : World) : Prop := ∀ p k, (p, k) ∈ w.assoc → ∃ z ∈ (w.svc k).zs, z.ready.isSome = true

theorem Prim.assocs {lab : Lab} {a b : World} (h : Prim E lab a b) :
    ∀ x ∈ b.assoc, x ∈ a.assoc ∨ (a.svc x.2).ready = true := by
  have same : b.assoc = a.assoc → ∀ x ∈ b.assoc, x ∈ a.assoc ∨ (a.svc x.2).ready = true := by
    intro e x hx; rw [e] at hx; exact .inl hx
  cases h with
  | glob _ h => exact same (by rw [h.1])
  | state k new h =>
    obtain ⟨t, x, _, e⟩ := setStateRaw_eq k new a
    exact same (by rw [e])
  | pause k =>
    obtain ⟨t, x, _, e⟩ := setStateRaw_eq k .paused (Sup.kill E (a.svc k).pid 19 .pause k a).2
    exact same (by rw [e]; rfl)
  | retryForce k =>
    obtain ⟨t, x, _, e⟩ := setStateRaw_eq k .running
      (mod k (fun s => { s with restartTmo := s.restartSaved }) (timerCancel k a))
    obtain ⟨y, e2⟩ := timerCancel_eq k a
    exact same (by rw [e, e2]; rfl)
  | retryRespawn k =>
    obtain ⟨y, e2⟩ := timerCancel_eq k a
    exact same (by rw [e2]; rfl)
  | retryGiveUp k =>
    obtain ⟨y, e2⟩ := timerCancel_eq k a
    exact same (by rw [e2]; rfl)
  | retryAgain k =>
    obtain ⟨y, e2⟩ := timerCancel_eq k a
    exact same (by rw [e2]; rfl)
  | start k p x hp hl hb he hs => exact same (by rw [start_eq k p x a hs])
  | startBad k p => exact same (by rw [startParent_eq]; rfl)
  | readyScript k p hp hl h =>
    intro x hx
    rcases List.mem_append.mp hx with hx | hx
    · exact .inl hx
    · rw [List.mem_singleton.mp hx]; exact .inr h
  | collect k p st =>
    obtain ⟨s', tr, t, e, _⟩ := monitorHead_eq (E := E) k st (reap p (some st) a)
    exact same (by rw [e]; rfl)
  | lost k st =>
    obtain ⟨s', tr, t, e, _⟩ := monitorHead_eq (E := E) k st a
    exact same (by rw [e])
  | assoc l h => exact fun x hx => .inl (h x hx)
  | regOld z k h => exact same (by unfold regObj; rw [h]; rfl)
  | regNew z h => exact same (by unfold regObj; rw [h]; rfl)
  | _ => exact same rfl

theorem odd_or {lab : Lab} {a b : World} (k : Key) (h : Prim E lab a b) :
    ((b.svc k).odd = false → (a.svc k).odd = false) ∨
    ((b.svc k).state = .halted ∧ (b.svc k).block ≠ .restarting) := by
  cases h.view k with
  | new z h hb hz hs ht e =>
    right; rw [e]; refine ⟨rfl, ?_⟩
    dsimp only; split <;> decide
  | same e => left; rw [e]; exact id
  | mod s' h e =>
    left
    rw [e]
    cases h with
    | minor _ h => rw [h]; exact id
    | apply z x y =>
      obtain ⟨_, _, _, _, _, _, _, _, _, _, _, _, e⟩ := applyStanza_eq z x y (a.svc k)
      rw [e]; exact id
    | _ => exact id
  | state new t x h ht e => left; rw [e]; exact id
  | force x h ht hr hs hf e => left; rw [e]; exact id
  | respawn x h ht hr e => left; rw [e]; exact id
  | giveUp x h ht hr hs hb' hm hc e => left; rw [e]; exact id
  | again x sv tm h ht hr hs hb' hc e => left; rw [e]; exact id
  | age h hs e => left; rw [e]; exact id
  | bump h e => left; rw [e]; exact id
  | marks r d hr hp hs e => left; rw [e]; exact id
  | start p x hp hl hb' he hs e => left; rw [e]; exact id
  | startBad p x hp hl hb' he hs hn e => left; rw [e]; exact id
  | script p role hp hl hr h e => left; rw [e]; exact id
  | exit s' hp hl hs ht e => left; rw [e, hs]; exact id
  | delBoot h hb' e => left; rw [e]; exact id
  | reg z h hz hs ht e =>
    left; rw [e]
    intro h
    simp only [Bool.or_eq_false_iff] at h
    exact h.1

/-- A plain service waiting for its restart delay has no process. -/
def CrashWait (s : Svc) : Prop := s.odd = false → s.block = .restarting →
  (s.state = .halted ∨ s.state = .dead ∨ s.state = .running) ∧ s.pid ≤ 1

theorem CrashWait.prim {lab : Lab} {a b : World} (k : Key) (hr : a.reent = false)
    (hpl : PlainOk (a.svc k)) (h : Prim E lab a b) (ha : CrashWait (a.svc k)) :
    CrashWait (b.svc k) := by
  intro hodd hblk
  have hodd' : (a.svc k).odd = false := by
    rcases odd_or k h with ho | ho
    · exact ho hodd
    · exact absurd hblk ho.2
  obtain ⟨o1, o2, o3, o4, o5⟩ := hpl hodd'
  have ha := ha hodd'
  have hen : (a.svc k).block = .restarting → enabled a.toCore k = true → False := by
    intro h1 h2
    have := enabled_block h2
    rw [h1] at this; cases this
  have noScript : ∀ {role}, (a.svc k).block = .restarting → ¬ ScriptState lab k role (a.svc k) := by
    intro role hb h
    rcases (ha hb).1 with e | e | e <;> rcases h with h | h | h | h <;>
      first
      | (rw [e] at h; exact absurd h.2 (by decide))
      | (rw [hb] at h; exact absurd h.2.2.1 (by decide))
      | (rw [e] at h; exact absurd h.2.1 (by decide))
  cases h.view k with
  | same e => rw [e] at hblk ⊢; exact ha hblk
  | mod s' h e =>
    rw [e] at hblk ⊢
    cases h with
    | minor _ h => rw [h] at hblk ⊢; exact ha hblk
    | blockRestart h hp => exact ⟨.inr (.inr h), by dsimp only; omega⟩
    | forkedPid p b h hf => rw [o1] at hf; exact absurd (hf hr) (by simp)
    | pidLost => exact ⟨(ha hblk).1, by dsimp only; omega⟩
    | pidOdd => exact ⟨(ha hblk).1, by dsimp only; omega⟩
    | pidNone => exact ⟨(ha hblk).1, by dsimp only; omega⟩
    | scriptFail => exact ⟨(ha hblk).1, by dsimp only; omega⟩
    | apply z x y =>
      obtain ⟨_, _, _, _, _, _, _, _, _, _, _, _, e⟩ := applyStanza_eq z x y (a.svc k)
      rw [e] at hblk ⊢; exact ha hblk
    | unblockCond => cases hblk
    | unblockConflict => cases hblk
    | unblockRespawn => cases hblk
    | blockMissing => cases hblk
    | blockConflict => cases hblk
    | blockCrash => cases hblk
    | blockManual => cases hblk
    | apiUnblock => cases hblk
    | apiBlock => cases hblk
    | forkedUnblock => cases hblk
    | armedOff => exact ha hblk
    | cancel => exact ha hblk
    | armRetry => exact ha hblk
    | armScript => exact ha hblk
    | armReady => exact ha hblk
  | state new t x h ht e =>
    rw [e] at hblk ⊢
    obtain ⟨h1, h2⟩ := ha hblk
    refine ⟨?_, h2⟩
    dsimp only
    have ne : (a.svc k).state ≠ .teardown ∧ (a.svc k).state ≠ .stopping ∧ (a.svc k).state ≠ .setup ∧
        (a.svc k).state ≠ .paused ∧ (a.svc k).state ≠ .waiting := by
      rcases h1 with e | e | e <;> rw [e] <;> decide
    cases h with
    | wake h he => exact (hen hblk he).elim
    | redo h ht hm hb => have := hb hr; rw [hblk] at this; cases this
    | dead => exact .inr (.inl rfl)
    | tearCleanup h => exact absurd h ne.1
    | tearHalted => exact .inl rfl
    | cleanHalted => exact .inl rfl
    | doneHalted => exact .inl rfl
    | stopDone h => exact absurd (h hr).1 ne.2.1
    | stopTear h => exact absurd (h hr).1 ne.2.1
    | stopCleanup h => exact absurd (h hr).1 ne.2.1
    | stopHalted => exact .inl rfl
    | setupFail h => exact absurd h ne.2.2.1
    | setupOk h => exact absurd h ne.2.2.1
    | waitOff => exact .inl rfl
    | waitConflict => exact .inl rfl
    | waitSetup h => exact absurd h ne.2.2.2.2
    | waitStart h => exact absurd h ne.2.2.2.2
    | startOff => exact .inl rfl
    | startMissing => exact .inl rfl
    | crash => exact .inl rfl
    | complete h hp ht he => exact (hen hblk he).elim
    | pause h hp he => exact (hen hblk he).elim
    | cont => exact .inr (.inr rfl)
    | pausedGone h => exact absurd h ne.2.2.2.1
    | lost => exact .inl rfl
    | stop h ht hk =>
      rcases hk with hk | hk | hk
      · omega
      · rw [o2] at hk; cases hk
      · exact absurd hk o3
    | forked => exact .inr (.inr rfl)
  | force x h ht hr hs hf e =>
    rw [e] at hblk ⊢; exact ⟨.inr (.inr rfl), (ha hblk).2⟩
  | respawn x h ht hr e => rw [e] at hblk; cases hblk
  | giveUp x h ht hr hs' hb hm hc e => rw [e] at hblk; cases hblk
  | again x sv tm h ht hr hs' hb hc e => rw [e] at hblk; cases hblk
  | age h hs' e => rw [e] at hblk ⊢; exact ha hblk
  | bump h e => rw [e] at hblk ⊢; exact ha hblk
  | marks r d hr hp' hs' e => rw [e] at hblk ⊢; exact ha hblk
  | start p x hp hl hb he hs' e => rw [e] at hblk; exact (hen hblk he).elim
  | startBad p x hp hl hb he hs' hn e => rw [e] at hblk; exact (hen hblk he).elim
  | script p role hp hl hr' h e => rw [e] at hblk; exact absurd (h hr) (noScript hblk)
  | exit s' hp' hl hs' ht e =>
    rw [e, hs'] at hblk ⊢; exact ⟨(ha hblk).1, by dsimp only; omega⟩
  | delBoot h hb e => rw [e] at hblk ⊢; exact ⟨(ha hblk).1, by dsimp only; omega⟩
  | reg z h hz hs' ht e =>
    rw [e] at hblk ⊢
    dsimp only at hblk
    split at hblk
    · exact ha hblk
    · cases hblk
  | new z h hb hz hs' ht e =>
    rw [e] at hblk
    dsimp only at hblk
    split at hblk <;> cases hblk

/-- What escalation relies on. -/
structure EscBase (w : World) : Prop where
  proc : ProcOk w
  noZs : NoZs w
  from2 : ∀ k, FromZs2 (w.svc k)
  assoc : AssocZs w
  wait : w.reent = false → ∀ k, CrashWait (w.svc k)

theorem EscBase.prim {lab : Lab} {a b : World} (ho : OrdOk a.toCore) (h : Prim E lab a b)
    (ha : EscBase a) : EscBase b := by
  refine ⟨ha.proc.prim ho h, ha.noZs.prim ho h, fun k => (ha.from2 k).prim k h, ?_, ?_⟩
  · intro p k hx
    have hz : ∃ z ∈ (a.svc k).zs, z.ready.isSome = true := by
      rcases h.assocs _ hx with hx | hx
      · exact ha.assoc p k hx
      · exact (ha.from2 k).1 hx
    obtain ⟨z, hz, e⟩ := hz
    exact ⟨z, zs_sub ha.noZs k h z hz, e⟩
  · intro hb k
    have hr := h.reent_false hb
    exact (ha.wait hr k).prim k hr (ha.proc.plain k) h

theorem EscBase.start (cfg cmd : Nat) : EscBase (World.start cfg cmd) :=
  ⟨ProcOk.start cfg cmd, fun _ _ => rfl, fun _ => ⟨fun h => (by cases h), .inl rfl⟩,
    (fun _ _ h => (by cases h)), fun _ _ _ h => (by cases h)⟩

theorem Reach.escBase {w : World} (h : Reach E w) : EscBase w :=
  Reach.inv EscBase.start (fun _ _ _ ho p ih => ih.prim ho p) h

/-- Settings under which escalation works: no ready script, and a positive kill delay. -/
def EscCfg (s : Svc) : Prop := ∀ z ∈ s.zs, z.ready = none ∧ 0 < z.killdelay

/-- The kill timer of a stopping service is pending, or SIGKILL has been sent, or the user
    interfered. -/
def Esc (k : Key) (w : World) : Prop :=
  k ∈ w.order → (w.svc k).odd = false → EscCfg (w.svc k) → (w.svc k).state = .stopping →
  ∀ p ∈ w.main k, ((w.svc k).timer = some .kill ∧ (w.svc k).armed = true) ∨
    since p (SigKill p) w.trace ∨ since p (AskedStopping k) w.trace

theorem Esc.prim {lab : Lab} {a b : World} {k : Key} (hr : a.reent = false)
    (hl : lab ≠ .ev (.timer k)) (hba : EscBase a) (h : Prim E lab a b) (ha : Esc k a) : Esc k b := by
  intro hk hodd hcfg hst p hp
  have hodd' : (a.svc k).odd = false := by
    rcases odd_or k h with ho | ho
    · exact ho hodd
    · rw [ho.1] at hst; cases hst
  have hcfg' : EscCfg (a.svc k) := fun z hz => hcfg z (zs_sub hba.noZs k h z hz)
  obtain ⟨o1, o2, o3, o4, o5⟩ := hba.proc.plain k hodd'
  -- the process is not new
  have hpa : p ∈ a.main k := by
    cases h.kids with
    | same hl hm => rw [hm] at hp; exact hp
    | spawn q j role hq hf hs hv hso hl hm ht hr =>
      rw [hm] at hp
      split at hp
      · rename_i hmain
        by_cases hj : k = j
        · subst hj
          rcases (hv hmain).2 with h | h | h
          · rw [h] at hst; cases hst
          · exact absurd h o4
          · exact absurd h o5
        · rw [upd_other _ _ _ _ hj] at hp; exact hp
      · exact hp
    | reap q c hf hv hl hm => rw [hm] at hp; exact (List.mem_filter.mp hp).1
    | script q j role c hp' hf hn hl hm => rw [hm] at hp; exact (List.mem_filter.mp hp).1
    | adopt q hp' hf hl hm => rw [hm] at hp; exact hp
    | new hn hl hm =>
      rw [hm] at hp
      by_cases hj : k = a.nextKey
      · rw [hj, upd_same] at hp; cases hp
      · rw [upd_other _ _ _ _ hj] at hp; exact hp
  have hlive : p ∈ a.live := hba.proc.books.main k p hpa
  have hp1 : 1 < p := hba.proc.books.live p hlive
  have hka : k ∈ a.order := by
    rcases h.order k hk with h | h
    · exact h
    · have := hba.proc.books.fresh k (by rw [h]; exact Nat.le_refl _)
      rw [this] at hpa; cases hpa
  obtain ⟨ht, hsa⟩ : (a.svc k).pid = p ∧ ((a.svc k).state = .running ∨ (a.svc k).state = .paused ∨
      (a.svc k).state = .stopping) := by
    rcases hba.proc.tracks hr k hka hodd' with h | ⟨q, h1, h2, h3⟩
    · rw [h] at hpa; cases hpa
    · rw [h1, List.mem_singleton] at hpa; subst hpa; exact ⟨h2, h3⟩
  have hp0 : (a.svc k).pid ≠ 0 := by omega
  -- what was known before
  have old : (a.svc k).state = .stopping → ((a.svc k).timer = some .kill ∧ (a.svc k).armed = true) ∨
      since p (SigKill p) b.trace ∨ since p (AskedStopping k) b.trace := by
    intro hs
    rcases ha hka hodd' hcfg' hs p hpa with h1 | h1 | h1
    · exact .inl h1
    · exact .inr (.inl (since_prim h hlive h1))
    · exact .inr (.inr (since_prim h hlive h1))
  have gone : (a.svc k).state = .stopping → (a.svc k).timer ≠ some .kill →
      since p (SigKill p) b.trace ∨ since p (AskedStopping k) b.trace := by
    intro hs ht
    rcases old hs with h | h
    · exact absurd h.1 ht
    · exact h
  cases h.view k with
  | same e => rw [e] at hst ⊢; exact old hst
  | mod s' h e =>
    have hsa : (a.svc k).state = .stopping := by rw [e, h.state] at hst; exact hst
    rw [e]
    cases h with
    | minor _ h => rw [h]; exact old hsa
    | armedOff h =>
      rcases h with h | h
      · exact absurd h hl
      · exact .inr (gone hsa (by rw [h.2]; decide))
    | cancel h =>
      right
      cases h with
      | up h => rw [hsa] at h; exact absurd h (Nat.lt_irrefl _)
      | over h => rw [hsa] at h; rcases h with h | h <;> cases h
      | forked h => exact absurd hsa h
      | noProc h => exact absurd h hp0
      | readyExit q h =>
        obtain ⟨z, hz, e⟩ := hba.assoc q k h
        rw [(hcfg' z hz).1] at e; cases e
      | fired h => exact absurd h hl
      | retry h ht => exact gone hsa (by rw [ht]; decide)
      | cond h =>
        have := (hba.wait hr k hodd' h).2
        omega
      | asked h =>
        obtain ⟨c, tl, et, es⟩ := h
        right
        refine since_prim ‹_› hlive ?_
        rw [et]
        exact .inl ⟨rfl, by rw [es]; exact hsa⟩
    | armRetry x h => exact .inr (gone hsa (by rw [h]; decide))
    | armScript x r h => exact .inr (gone hsa (by rw [h]; decide))
    | armReady x h => exact .inr (gone hsa (by rw [h]; decide))
    | apply z x y =>
      obtain ⟨_, _, _, _, _, _, _, _, _, _, _, _, e⟩ := applyStanza_eq z x y (a.svc k)
      rw [e]; exact old hsa
    | _ => exact old hsa
  | state new t x h ht e =>
    rw [e] at hst ⊢
    dsimp only at hst ⊢
    left
    have hkd : 0 < (a.svc k).killdelay := by
      rcases (hba.from2 k).2 with h | ⟨z, hz, h⟩
      · rw [h]; decide
      · rw [h]; exact (hcfg' z hz).2
    obtain ⟨h1, h2⟩ := ht.2 hst
    rw [if_neg (by omega)] at h1
    exact ⟨h1, by rw [h2 (by omega)]; simpa using hkd⟩
  | force x h ht hr hs hf e => rw [e] at hst; cases hst
  | respawn x h ht hr e =>
    rw [e] at hst; exact .inr (gone hst (by rw [ht]; decide))
  | giveUp x h ht hr hs' hb hm hc e => rw [e] at hst; exact absurd (hs'.symm.trans hst) (by decide)
  | again x sv tm h ht hr hs' hb hc e => rw [e] at hst; exact absurd (hs'.symm.trans hst) (by decide)
  | age h hs' e => rw [e] at hst; exact absurd (hs'.symm.trans hst) (by decide)
  | bump h e => rw [e] at hst ⊢; exact old hst
  | marks r d hr hp' hs' e => rw [e] at hst ⊢; exact old hst
  | start p x hp hl hb he hs' e => rw [e] at hst; cases hst
  | startBad p x hp hl hb he hs' hn e => rw [e] at hst; exact absurd (hs'.symm.trans hst) (by decide)
  | script p role hp hl hr' h e => rw [e] at hst ⊢; exact old hst
  | exit s' hp' hl hs' ht' e =>
    exfalso
    rcases hl with ⟨_, hl⟩ | hl
    · rw [ht] at hl; exact hl k hp
    · rw [ht] at hl; exact hl hlive
  | delBoot h hb e => exact absurd hk hb
  | reg z h hz hs' ht e => rw [e] at hst ⊢; exact old hst
  | new z h hb hz hs' ht e => rw [e] at hst; cases hst

theorem Esc.steps {lab : Lab} {a b : World} {k : Key} (h : Steps E lab a b)
    (hl : lab ≠ .ev (.timer k)) (ho : OrdOk a.toCore) (hba : EscBase a) (hr : b.reent = false)
    (ha : Esc k a) : Esc k b := by
  have := h.inv_soft (P := fun w => OrdOk w.toCore ∧ EscBase w ∧ Esc k w)
    (fun x y hx p ih => ⟨p.ord ih.1, ih.2.1.prim ih.1 p, ih.2.2.prim hx hl ih.2.1 p⟩) hr ⟨ho, hba, ha⟩
  exact this.2.2

end

end Verif.Sup
