import Verif.Sup.Esc

/-!
# Supervisor model: frozen processes
-/

namespace Verif.Sup

open Verif (CStr CondStore)

section
variable {E : Env}

/-! ## Specification -/

/-- Spec: process `p` is new, or told to go on (SIGCONT, 18). -/
def Thaws (p : Int) (e : Eff) : Prop := (∃ why j, e = .kill p 18 why j) ∨ ∃ j role, e = .spawn p j role

/-- Spec: the supervisor has frozen process `p` on behalf of service `k` (SIGSTOP, 19) and not told
    it to go on since. -/
def frozen (k : Key) (p : Int) : List (Core × Eff) → Prop
  | [] => False
  | (_, e) :: t => e = .kill p 19 .pause k ∨ (¬ Thaws p e ∧ frozen k p t)

/-- Spec: the crash timer of service `k` expires while `k` is paused. -/
def ForcedPaused (k : Key) (c : Core) (e : Eff) : Prop := e = .forced k ∧ (c.svc k).state = .paused

/-! ## Signals -/

/-- A signal sent to one process. -/
def Eff.signal : Eff → Bool
  | .kill _ _ why _ => decide (why ≠ .group)
  | _ => false

def sigs (t : List (Core × Eff)) : List (Core × Eff) := t.filter (fun x => x.2.signal)

theorem sigs_skip {x : Core × Eff} {t : List (Core × Eff)} (h : x.2.signal = false) :
    sigs (x :: t) = sigs t := by
  simp [sigs, h]

/-- Which signals an atomic update sends. -/
inductive Sigs (lab : Lab) (a b : World) : Prop
  | same (h : sigs b.trace = sigs a.trace)
  | kill (k : Key) (tgt : Int) (sig : Nat) (why : Why) (h : KillOk lab a k tgt sig why)
      (hw : why ≠ .pause) (hs : b.svc = a.svc) (ht : b.trace = (a.toCore, .kill tgt sig why k) :: a.trace)
  | pause (k : Key) (h : (a.svc k).state = .running) (hb : (b.svc k).state = .paused)
      (ht : ∃ c, b.trace = (c, .trans k .running .paused) ::
        (a.toCore, .kill (a.svc k).pid 19 .pause k) :: a.trace)

theorem Prim.sigs {lab : Lab} {a b : World} (h : Prim E lab a b) : Sigs lab a b := by
  cases h with
  | glob _ h => apply Sigs.same; rw [h.1]
  | state k new h =>
    obtain ⟨t, x, ht, e⟩ := setStateRaw_eq k new a
    rw [e]
    refine .same ?_
    dsimp only
    split
    · rfl
    · exact sigs_skip rfl
  | pause k h hp he ha =>
    obtain ⟨t, x, ht, e⟩ := setStateRaw_eq k .paused (Sup.kill E (a.svc k).pid 19 .pause k a).2
    have hne : ((Sup.kill E (a.svc k).pid 19 .pause k a).2.svc k).state = .running := h
    refine .pause k h (by rw [e]; simp) ?_
    rw [e, hne, if_neg (by decide)]
    exact ⟨_, rfl⟩
  | retryForce k h ht hr hs =>
    obtain ⟨y, e2⟩ := timerCancel_eq k a
    rw [e2]
    simp only [Sup.mod, upd_same, upd_upd]
    obtain ⟨t, x, _, e⟩ := setStateRaw_eq k .running
      { a with svc := upd a.svc k { a.svc k with timer := none, armed := y,
                                                 restartTmo := (a.svc k).restartSaved } }
    rw [e]
    refine .same ?_
    dsimp only
    split
    · rfl
    · exact sigs_skip rfl
  | retryRespawn k =>
    obtain ⟨y, e2⟩ := timerCancel_eq k a
    rw [e2]; exact .same rfl
  | retryGiveUp k h ht hr hs hb hm hc =>
    obtain ⟨y, e2⟩ := timerCancel_eq k a
    rw [e2]; exact .same (sigs_skip rfl)
  | retryAgain k sv tm h ht hr hs hb hc =>
    obtain ⟨y, e2⟩ := timerCancel_eq k a
    rw [e2]; exact .same (sigs_skip rfl)
  | kill k tgt sig why h hw => exact .kill k tgt sig why h hw rfl rfl
  | start k p x hp hl hb he hs =>
    have e := start_eq k p x a hs
    dsimp only at e
    rw [e]
    exact .same ((sigs_skip rfl).trans (sigs_skip rfl))
  | startBad k p hp hl hb he hs hn =>
    rw [startParent_eq]
    exact .same (sigs_skip rfl)
  | scriptRun k p role hp hl hr => exact .same ((sigs_skip rfl).trans (sigs_skip rfl))
  | collect k p st hl hf hp h1 h =>
    obtain ⟨s', tr, t, e, es, _, etr⟩ := monitorHead_eq (E := E) k st (reap p (some st) a)
    rw [e]
    refine .same ?_
    show Sup.sigs tr = _
    rcases etr with etr | etr
    · rw [etr]; exact sigs_skip rfl
    · rw [etr]; exact (sigs_skip rfl).trans (sigs_skip rfl)
  | lost k st hl h1 =>
    obtain ⟨s', tr, t, e, es, _, etr⟩ := monitorHead_eq (E := E) k st a
    rw [e]
    refine .same ?_
    show Sup.sigs tr = _
    rcases etr with etr | etr
    · rw [etr]
    · rw [etr]; exact sigs_skip rfl
  | regOld z k h hz hs =>
    unfold regObj; rw [h]
    exact .same (sigs_skip rfl)
  | regNew z h hz hs =>
    unfold regObj; rw [h]
    exact .same (sigs_skip rfl)
  | _ => first | exact .same rfl | exact .same (sigs_skip rfl)

theorem frozen_append {k : Key} {p : Int} {l t : List (Core × Eff)}
    (hl : ∀ c e, (c, e) ∈ l → e ≠ .kill p 19 .pause k) (h : frozen k p (l ++ t)) : frozen k p t := by
  induction l with
  | nil => exact h
  | cons x l ih =>
    obtain ⟨c, e⟩ := x
    rcases h with h | h
    · exact absurd h (hl c e (List.mem_cons_self ..))
    · exact ih (fun c e h => hl c e (List.mem_cons_of_mem _ h)) h.2

theorem sigs_suffix {a b l : List (Core × Eff)} (h : l ++ a = b) (hs : sigs b = sigs a) :
    ∀ x ∈ l, x.2.signal = false := by
  subst h
  unfold sigs at hs
  rw [List.filter_append] at hs
  have : (l.filter (fun x => x.2.signal)).length = 0 := by
    have := congrArg List.length hs
    simp only [List.length_append] at this
    omega
  intro x hx
  have := List.eq_nil_of_length_eq_zero this
  rw [List.filter_eq_nil_iff] at this
  simpa using this x hx

/-- A frozen command belongs to a paused service. -/
def Frz (k : Key) (w : World) : Prop :=
  k ∈ w.order → (w.svc k).odd = false → ∀ p ∈ w.main k, frozen k p w.trace →
    (w.svc k).state = .paused ∨ since p (ForcedPaused k) w.trace

/-- No halt signal is sent to a frozen command. -/
def HaltOk (k : Key) (w : World) : Prop :=
  ∀ c p sig tl, (c, .kill p sig .halt k) :: tl <:+ w.trace → k ∈ c.order → (c.svc k).odd = false →
    p ∈ c.main k → frozen k p tl → since p (ForcedPaused k) tl

theorem HaltOk.prim {lab : Lab} {a b : World} {k : Key} (h : Prim E lab a b) (hf : Frz k a) (ha : HaltOk k a) : HaltOk k b := by
  intro c p sig tl hx hk hodd hp hz
  cases h.sigs with
  | same hs =>
    refine ha c p sig tl ?_ hk hodd hp hz
    obtain ⟨l, el⟩ := h.snap.1
    have hl := sigs_suffix el hs
    rcases h.snap.2 c _ tl hx with h1 | ⟨_, h1⟩
    · exact h1
    · exfalso
      rcases h1 with h1 | h1
      · cases h1
      · obtain ⟨m, em⟩ := hx
        rw [h1.1, ← el] at em
        have : m ++ [(c, .kill p sig .halt k)] = l := by
          apply List.append_cancel_right (bs := a.trace)
          rw [← em]; simp
        have := hl (c, .kill p sig .halt k) (by rw [← this]; simp)
        simp [Eff.signal] at this
  | kill k' tgt sig' why hk' hw hs ht =>
    rw [ht] at hx
    rcases List.suffix_cons_iff.mp hx with h1 | h1
    · injection h1 with h1 h2
      injection h1 with h1 h3
      injection h3 with h3 h4 h5 h6
      subst h1; subst h2; subst h3; subst h4; subst h5; subst h6
      cases hk' with
      | halt h1 hs hc =>
        rcases hf hk hodd _ hp hz with h2 | h2
        · have := hc h2
          cases et : a.trace with
          | nil => rw [et] at hz; exact hz.elim
          | cons x t =>
            rw [et] at this hz
            obtain ⟨c', e'⟩ := x
            simp only [List.head?_cons, Option.map_some] at this
            injection this with this
            subst this
            rcases hz with hz | hz
            · cases hz
            · exact absurd (.inl ⟨_, _, rfl⟩) hz.1
        · exact h2
    · exact ha c p sig tl h1 hk hodd hp hz
  | pause k' h' hb ht =>
    obtain ⟨c', ht⟩ := ht
    rw [ht] at hx
    rcases List.suffix_cons_iff.mp hx with h1 | h1
    · cases h1
    · rcases List.suffix_cons_iff.mp h1 with h1 | h1
      · cases h1
      · exact ha c p sig tl h1 hk hodd hp hz

theorem Frz.prim {lab : Lab} {a b : World} {k : Key} (hr : a.reent = false) (hba : EscBase a)
    (h : Prim E lab a b) (hh : HaltOk k a) (ha : Frz k a) : Frz k b := by
  intro hk hodd p hp hz
  by_cases hbp : (b.svc k).state = .paused
  · exact .inl hbp
  right
  -- nothing was frozen just now
  have hza : frozen k p a.trace := by
    cases h.sigs with
    | same hs =>
      obtain ⟨l, el⟩ := h.snap.1
      have hl := sigs_suffix el hs
      rw [← el] at hz
      refine frozen_append ?_ hz
      rintro c e hx rfl
      have := hl _ hx
      simp [Eff.signal] at this
    | kill k' tgt sig' why hk' hw hs ht =>
      rw [ht] at hz
      rcases hz with hz | hz
      · injection hz with h1 h2 h3 h4
        exact absurd h3 hw
      · exact hz.2
    | pause k' h' hb ht =>
      obtain ⟨c', ht⟩ := ht
      rw [ht] at hz
      rcases hz with hz | ⟨_, hz | hz⟩
      · cases hz
      · injection hz with h1 h2 h3 h4
        subst h4; exact absurd hb hbp
      · exact hz.2
  have notNew : ∀ c j role t, b.trace ≠ (c, .spawn p j role) :: t := by
    intro c j role t e
    rw [e] at hz
    rcases hz with hz | hz
    · cases hz
    · exact hz.1 (.inr ⟨_, _, rfl⟩)
  -- the process is not new
  have hpa : p ∈ a.main k := by
    cases h.kids with
    | same hl hm => rw [hm] at hp; exact hp
    | spawn q j role hq hf hs hv hso hl hm ht hr =>
      rw [hm] at hp
      split at hp
      · rename_i hmain
        by_cases hj : k = j
        · subst hj
          rw [upd_same] at hp
          rcases List.mem_cons.mp hp with e | hp
          · subst e
            exfalso
            -- `p` is started just now, so it is not frozen
            obtain ⟨l, el⟩ := h.snap.1
            have hm1 : (a.toCore, Eff.spawn p k role) ∈ l := by
              have h1 : kids l = [(a.toCore, Eff.spawn p k role)] := by
                rw [← el] at ht
                unfold kids at ht ⊢
                rw [List.filter_append] at ht
                exact List.append_cancel_right (bs := a.trace.filter (fun x => x.2.kid)) (by simpa using ht)
              have h2 : (a.toCore, Eff.spawn p k role) ∈ kids l := by rw [h1]; simp
              exact (List.mem_filter.mp h2).1
            obtain ⟨m, n, em⟩ := List.append_of_mem hm1
            rw [← el, em] at hz
            have hno : ∀ x ∈ l, x.2 ≠ .kill p 19 .pause k := by
              intro x hx e
              cases h.sigs with
              | same hs =>
                have := sigs_suffix el hs x hx
                rw [e] at this
                simp [Eff.signal] at this
              | kill k' tgt sig' why hk' hw hs ht' =>
                rw [← el, em] at ht'
                have := congrArg List.length ht'
                have hl1 : l = [(a.toCore, .kill tgt sig' why k')] := by
                  rw [← em] at ht'
                  exact List.append_cancel_right (bs := a.trace) (by simpa using ht')
                rw [hl1, List.mem_singleton] at hm1
                cases hm1
              | pause k' h' hb ht' =>
                obtain ⟨c', ht'⟩ := ht'
                rw [← el] at ht'
                have hl1 : l = [(c', .trans k' .running .paused), (a.toCore, .kill (a.svc k').pid 19 .pause k')] :=
                  List.append_cancel_right (bs := a.trace) (by simpa using ht')
                rw [hl1] at hm1
                simp at hm1
            have hz2 := frozen_append (k := k) (p := p) (l := m) (t := (a.toCore, Eff.spawn p k role) :: n ++ a.trace)
              (fun c e hx he => hno (c, e) (by rw [em]; exact List.mem_append_left _ hx) he)
              (by simpa using hz)
            rcases hz2 with hz2 | hz2
            · cases hz2
            · exact hz2.1 (.inr ⟨_, _, rfl⟩)
          · exact hp
        · rw [upd_other _ _ _ _ hj] at hp; exact hp
      · exact hp
    | reap q c hf hv hl hm => rw [hm] at hp; exact (List.mem_filter.mp hp).1
    | script q j role c hp' hf hn hl hm => rw [hm] at hp; exact (List.mem_filter.mp hp).1
    | adopt q hp' hf hl hm => rw [hm] at hp; exact hp
    | new hn hl hm =>
      rw [hm] at hp
      by_cases hj : k = a.nextKey
      · rw [hj, upd_same] at hp; cases hp
      · rw [upd_other _ _ _ _ hj] at hp; exact hp
  have hlive : p ∈ a.live := hba.proc.books.main k p hpa
  have hp1 : 1 < p := hba.proc.books.live p hlive
  have hka : k ∈ a.order := by
    rcases h.order k hk with h | h
    · exact h
    · have := hba.proc.books.fresh k (by rw [h]; exact Nat.le_refl _)
      rw [this] at hpa; cases hpa
  have hodd' : (a.svc k).odd = false := by
    have hne : k ≠ a.nextKey := by
      intro e
      have := hba.proc.books.fresh k (by rw [e]; exact Nat.le_refl _)
      rw [this] at hpa; cases hpa
    exact odd_mono h hne hodd
  obtain ⟨o1, o2, o3, o4, o5⟩ := hba.proc.plain k hodd'
  obtain ⟨ht, hsa⟩ : (a.svc k).pid = p ∧ ((a.svc k).state = .running ∨ (a.svc k).state = .paused ∨
      (a.svc k).state = .stopping) := by
    rcases hba.proc.tracks hr k hka hodd' with h | ⟨q, h1, h2, h3⟩
    · rw [h] at hpa; cases hpa
    · rw [h1, List.mem_singleton] at hpa; subst hpa; exact ⟨h2, h3⟩
  have hp0 : (a.svc k).pid ≠ 0 := by omega
  rcases ha hka hodd' p hpa hza with hap | hap
  rotate_left
  · exact since_prim h hlive hap
  have keep : (b.svc k).state = (a.svc k).state → since p (ForcedPaused k) b.trace := by
    intro e; exact absurd (e.trans hap) hbp
  cases h.view k with
  | same e => exact keep (by rw [e])
  | mod s' h e => exact keep (by rw [e, h.state])
  | state new t x h' ht' e =>
    cases h' with
    | cont h1 h2 h3 h4 h5 =>
      exfalso
      cases et : a.trace with
      | nil => rw [et] at hza; exact hza.elim
      | cons x t =>
        rw [et] at h5 hza
        obtain ⟨c', e'⟩ := x
        simp only [List.head?_cons, Option.map_some] at h5
        injection h5 with h5
        subst h5
        rw [ht] at hza
        rcases hza with hza | hza
        · cases hza
        · exact absurd (.inl ⟨_, _, rfl⟩) hza.1
    | stop h1 h2 h3 =>
      rcases h3 with h3 | h3 | h3
      · obtain ⟨_, _, _, c', t, et, e1, e2, e3⟩ := h3
        rw [ht] at et
        have hz' : frozen k p t := by
          rw [et] at hza
          rcases hza with hza | hza
          · injection hza with _ _ h3; cases h3
          · exact hza.2
        have := hh c' p _ t (by rw [et]; exact List.suffix_refl _) (by rw [e2]; exact hka)
          (by rw [e1]; exact hodd') (by rw [e3]; exact hpa) hz'
        refine since_prim h hlive ?_
        rw [et]
        exact .inr ⟨(fun _ _ h => nomatch h), this⟩
      · rw [o2] at h3; cases h3
      · exact absurd h3 o3
    | forked q bb h1 hf => rw [o1] at hf; cases hf
    | redo h1 =>
      rcases h1 hr with h1 | h1 <;> rw [hap] at h1 <;> cases h1
    | stopDone h1 | stopTear h1 | stopCleanup h1 | stopHalted h1 =>
      have := (h1 hr).1
      rw [hap] at this; cases this
    | pausedGone h1 h2 => exact absurd h2 hp0
    | lost h1 h2 => exact absurd h2 hp0
    | pause h1 => rw [hap] at h1; cases h1
    | wake h1 | dead h1 | tearCleanup h1 | tearHalted h1 | cleanHalted h1 | doneHalted h1
    | setupFail h1 | setupOk h1 | waitOff h1 | waitConflict h1 | waitSetup h1 | waitStart h1
    | startOff h1 | startMissing h1 | crash h1 | complete h1 => rw [hap] at h1; cases h1
  | force x h' ht hr hs hf e =>
    obtain ⟨c, tl, et, es⟩ := hf
    refine since_prim h hlive ?_
    rw [et]
    exact .inl ⟨rfl, by rw [es]; exact hap⟩
  | respawn x h ht hr e => exact keep (by rw [e])
  | giveUp x h ht hr hs' hb hm hc e => exact keep (by rw [e])
  | again x sv tm h ht hr hs' hb hc e => exact keep (by rw [e])
  | age h hs' e => exact keep (by rw [e])
  | bump h e => exact keep (by rw [e])
  | marks r d hr hp' hs' e => exact keep (by rw [e])
  | start p x hp hl hb he hs' e => rw [hs'] at hap; cases hap
  | startBad p x hp hl hb he hs' hn e => exact keep (by rw [e])
  | script p role hp hl hr' h e => exact keep (by rw [e])
  | exit s' hp' hl hs' ht' e => exact keep (by rw [e, hs'])
  | delBoot h hb e => exact absurd hk hb
  | reg z h hz hs' ht e => exact keep (by rw [e])
  | new z h hb hz hs' ht e =>
    have := hba.proc.books.fresh k (by rw [h]; exact Nat.le_refl _)
    rw [this] at hpa; cases hpa

theorem Reach.frz {w : World} (h : Reach E w) (k : Key) (hr : w.reent = false) : Frz k w ∧ HaltOk k w := by
  have := Reach.inv_soft (P := fun w => EscBase w ∧ Frz k w ∧ HaltOk k w) ?_ ?_ h hr
  · exact this.2
  · intro cfg cmd
    refine ⟨EscBase.start cfg cmd, fun h => (by cases h), ?_⟩
    intro c p sig tl hx
    have := hx.length_le
    simp [World.start] at this
  · intro lab a b ho ha p ih
    exact ⟨ih.1.prim ho p, ih.2.1.prim ha ih.1 p ih.2.2, ih.2.2.prim p ih.2.1⟩

end

end Verif.Sup
