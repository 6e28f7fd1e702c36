import Verif.Sup.RefineEv

/-!
# Supervisor model: invariants of reachable states
-/

namespace Verif.Sup

open Verif (CStr CondStore)

section
variable {E : Env}

/-! ## Reachable states -/

theorem Prim.booted {lab : Lab} {a b : World} (h : Prim E lab a b) (ha : a.booted = true) :
    b.booted = true := by
  cases h with
  | glob _ h =>
    rcases h.2.2.2 with e | e
    · rw [e]; exact ha
    · exact e.2
  | state k new h =>
    obtain ⟨t, x, _, e⟩ := setStateRaw_eq k new a
    rw [e]; exact ha
  | pause k =>
    obtain ⟨t, x, _, e⟩ := setStateRaw_eq k .paused (Sup.kill E (a.svc k).pid 19 .pause k a).2
    rw [e]; exact ha
  | retryForce k =>
    obtain ⟨t, x, _, e⟩ := setStateRaw_eq k .running
      (mod k (fun s => { s with restartTmo := s.restartSaved }) (timerCancel k a))
    obtain ⟨y, e2⟩ := timerCancel_eq k a
    rw [e, e2]; exact ha
  | retryRespawn k =>
    obtain ⟨y, e2⟩ := timerCancel_eq k a
    rw [e2]; exact ha
  | retryGiveUp k =>
    obtain ⟨y, e2⟩ := timerCancel_eq k a
    rw [e2]; exact ha
  | retryAgain k =>
    obtain ⟨y, e2⟩ := timerCancel_eq k a
    rw [e2]; exact ha
  | start k p x hp hl hb he hs =>
    rw [start_eq k p x a hs]; exact ha
  | startBad k p => rw [startParent_eq]; exact ha
  | collect k p st =>
    obtain ⟨s', tr, t, e, _⟩ := monitorHead_eq (E := E) k st (reap p (some st) a)
    rw [e]; exact ha
  | lost k st =>
    obtain ⟨s', tr, t, e, _⟩ := monitorHead_eq (E := E) k st a
    rw [e]; exact ha
  | regOld z k h =>
    unfold regObj; rw [h]; exact ha
  | regNew z h =>
    unfold regObj; rw [h]; exact ha
  | _ => exact ha

/-- A predicate preserved by every atomic update outside re-entrancy is preserved by sequences that
    end outside re-entrancy. -/
theorem Steps.inv_soft {lab : Lab} {P : World → Prop}
    (hP : ∀ a b, a.reent = false → Prim E lab a b → P a → P b) {a b : World} (h : Steps E lab a b)
    (hb : b.reent = false) (ha : P a) : P b := by
  induction h with
  | refl => exact ha
  | @tail y z hs p ih =>
    have hy : y.reent = false := by
      cases e : y.reent with
      | false => rfl
      | true => rw [p.reent e] at hb; cases hb
    exact hP _ _ hy p (ih hy)

theorem Reach.basic {w : World} (h : Reach E w) :
    OrdOk w.toCore ∧ w.stack = [] ∧ (w.booted = false → ∃ cfg cmd, w = World.start cfg cmd) := by
  induction h with
  | start cfg cmd => exact ⟨⟨List.nodup_nil, fun k hk => nomatch hk⟩, rfl, fun _ => ⟨cfg, cmd, rfl⟩⟩
  | @event w n ev _ ih =>
    obtain ⟨h1, h2, h3⟩ := ih
    have g := handle_sm (E := E) n ev h2 (fun hb => by
      obtain ⟨cfg, cmd, e⟩ := h3 hb; rw [e]; rfl)
    refine ⟨(g.steps h1).ord h1, g.stack.trans h2, ?_⟩
    intro hb
    by_cases hw : w.booted = true
    · have := (g.steps h1).inv (P := fun w => w.booted = true) (fun _ _ p => p.booted) hw
      rw [this] at hb; cases hb
    · have hw : w.booted = false := by simpa using hw
      by_cases he : ev = .boot
      · subst he
        exfalso
        have hd : w.down = false := by obtain ⟨cfg, cmd, e⟩ := h3 hw; rw [e]; rfl
        unfold handle at hb
        rw [if_neg (by rw [hd]; simp), if_pos hw] at hb
        have g2 : SmGood E (.ev .boot) { w with booted := true, bootWork := true }
            ((mkRec E n).sm (confReload E { w with booted := true, bootWork := true })) :=
          SmGood.trans (confReload_good (fun _ => .inl (by
            obtain ⟨cfg, cmd, e⟩ := h3 hw; rw [e]; rfl))).toSmGood ((mkRec_ok n).sm _)
        have := (g2.steps h1).inv (P := fun w => w.booted = true) (fun _ _ p => p.booted) rfl
        exact Bool.noConfusion (this.symm.trans hb)
      · have : handle E n ev w = w := by
          cases ev <;> first | exact absurd rfl he | (unfold handle; simp [hw])
        rw [this]; exact h3 hw

theorem Reach.steps {w : World} (h : Reach E w) (n : Nat) (ev : Ev) :
    Steps E (labOf w ev) w (handle E n ev w) := by
  obtain ⟨h1, h2, h3⟩ := h.basic
  exact (handle_sm (E := E) n ev h2 (fun hb => by
      obtain ⟨cfg, cmd, e⟩ := h3 hb; rw [e]; rfl)).steps h1

/-- To prove something of all reachable states, prove it of the start and of every atomic
    update. -/
theorem Reach.inv {P : World → Prop} (h0 : ∀ cfg cmd, P (World.start cfg cmd))
    (hp : ∀ lab a b, OrdOk a.toCore → Prim E lab a b → P a → P b) {w : World} (h : Reach E w) : P w := by
  induction h with
  | start cfg cmd => exact h0 cfg cmd
  | @event w n ev hw ih =>
    have := (hw.steps n ev).inv (P := fun w => OrdOk w.toCore ∧ P w)
      (fun a b p x => ⟨p.ord x.1, hp _ a b x.1 p x.2⟩) ⟨hw.basic.1, ih⟩
    exact this.2

theorem Reach.reent {w : World} (h : Reach E w) (n : Nat) (ev : Ev)
    (hr : (handle E n ev w).reent = false) : w.reent = false := by
  cases e : w.reent with
  | false => rfl
  | true =>
    have := (h.steps n ev).inv (P := fun w => w.reent = true) (fun _ _ p => p.reent) e
    rw [this] at hr; cases hr

/-- As `Reach.inv`, for executions without re-entrancy. -/
theorem Reach.inv_soft {P : World → Prop} (h0 : ∀ cfg cmd, P (World.start cfg cmd))
    (hp : ∀ lab a b, OrdOk a.toCore → a.reent = false → Prim E lab a b → P a → P b) {w : World}
    (h : Reach E w) (hr : w.reent = false) : P w := by
  have := Reach.inv (P := fun w => w.reent = false → P w) (fun _ _ _ => h0 _ _) (by
    intro lab a b ho p ih hb
    have ha : a.reent = false := by
      cases e : a.reent with
      | false => rfl
      | true => rw [p.reent e] at hb; cases hb
    exact hp lab a b ho ha p (ih ha)) h
  exact this hr

theorem Prim.nextKey {lab : Lab} {a b : World} (h : Prim E lab a b) : a.nextKey ≤ b.nextKey := by
  cases h with
  | glob _ h => rw [h.1]; exact Nat.le_refl _
  | state k new h =>
    obtain ⟨t, x, _, e⟩ := setStateRaw_eq k new a
    rw [e]; exact Nat.le_refl _
  | pause k =>
    obtain ⟨t, x, _, e⟩ := setStateRaw_eq k .paused (Sup.kill E (a.svc k).pid 19 .pause k a).2
    rw [e]; exact Nat.le_refl _
  | retryForce k =>
    obtain ⟨t, x, _, e⟩ := setStateRaw_eq k .running
      (mod k (fun s => { s with restartTmo := s.restartSaved }) (timerCancel k a))
    obtain ⟨y, e2⟩ := timerCancel_eq k a
    rw [e, e2]; exact Nat.le_refl _
  | retryRespawn k =>
    obtain ⟨y, e2⟩ := timerCancel_eq k a
    rw [e2]; exact Nat.le_refl _
  | retryGiveUp k =>
    obtain ⟨y, e2⟩ := timerCancel_eq k a
    rw [e2]; exact Nat.le_refl _
  | retryAgain k =>
    obtain ⟨y, e2⟩ := timerCancel_eq k a
    rw [e2]; exact Nat.le_refl _
  | start k p x hp hl hb he hs =>
    rw [start_eq k p x a hs]; exact Nat.le_refl _
  | startBad k p => rw [startParent_eq]; exact Nat.le_refl _
  | collect k p st =>
    obtain ⟨s', tr, t, e, _⟩ := monitorHead_eq (E := E) k st (reap p (some st) a)
    rw [e]; exact Nat.le_refl _
  | lost k st =>
    obtain ⟨s', tr, t, e, _⟩ := monitorHead_eq (E := E) k st a
    rw [e]; exact Nat.le_refl _
  | regOld z k h =>
    unfold regObj; rw [h]; exact Nat.le_refl _
  | regNew z h =>
    unfold regObj; rw [h]; exact Nat.le_succ _
  | _ => exact Nat.le_refl _

theorem labOf_retry {w : World} {ev : Ev} {k : Key} (h : labOf w ev = .retry k) :
    ev = .timer k ∧ (w.svc k).timer = some .retry := by
  unfold labOf at h
  split at h
  · split at h
    · rename_i ht
      injection h with h
      subst h
      exact ⟨rfl, ht⟩
    · cases h
  · cases h

theorem labOf_ev {w : World} {ev e : Ev} (h : labOf w ev = .ev e) : ev = e := by
  unfold labOf at h
  split at h
  · split at h
    · cases h
    · injection h
  · injection h

/-- A predicate preserved by every atomic update of the allowed events holds after every
    sequence of allowed events without re-entrancy. -/
theorem Reach.future {P : World → Prop} {ok : Ev → Prop}
    (hP : ∀ w ev, Reach E w → P w → ok ev → ∀ a b, a.reent = false → Prim E (labOf w ev) a b → P a → P b)
    (n : Nat) (evs : List Ev) (hok : ∀ e ∈ evs, ok e) {w : World} (hw : Reach E w) (h : P w)
    (hr : (evs.foldl (fun w e => handle E n e w) w).reent = false) :
    P (evs.foldl (fun w e => handle E n e w) w) := by
  induction evs generalizing w with
  | nil => exact h
  | cons ev evs ih =>
    have hw' : Reach E (handle E n ev w) := .event n ev hw
    refine ih (fun e he => hok e (List.mem_cons_of_mem _ he)) hw' ?_ hr
    have hr' : (handle E n ev w).reent = false := by
      have : ∀ (l : List Ev) (w : World), Reach E w →
          (l.foldl (fun w e => handle E n e w) w).reent = false → w.reent = false := by
        intro l
        induction l with
        | nil => intro w _ h; exact h
        | cons e l ih => intro w hw h; exact hw.reent n e (ih _ (.event n e hw) h)
      exact this evs _ hw' hr
    exact (hw.steps n ev).inv_soft (P := P) (fun a b ha p => hP w ev hw h (hok ev (List.mem_cons_self ..)) a b ha p)
      hr' h

/-! ## What is in the trace -/

/-- Holds unless some service has been re-entered. -/
def SoftC (c : Core) (P : Prop) : Prop := c.reent = false → P

/-- Every recorded effect, with what is known of the state it happens in. -/
inductive EffOk : Core → Eff → Prop
  | start (c : Core) (p : Int) (k : Key) (hp : 1 < p) (hl : p ∉ c.live) (hb : c.runBlock = 0)
      (he : enabled c k = true) (hs : (c.svc k).state = .starting) : EffOk c (.spawn p k .main)
  | script (c : Core) (p : Int) (k : Key) (role : Role) (hp : 1 < p) (hl : p ∉ c.live)
      (hr : role ≠ .main) : EffOk c (.spawn p k role)
  | kill (lab : Lab) (w : World) (k : Key) (tgt : Int) (sig : Nat) (why : Why)
      (h : KillOk lab w k tgt sig why) : EffOk w.toCore (.kill tgt sig why k)
  | killGroup (c : Core) (p : Int) (k : Key) (hp : 1 < p) : EffOk c (.kill (-p) 9 .group k)
  | reap (c : Core) (p : Int) (st : Option WStatus) : EffOk c (.reap p st)
  | trans (lab : Lab) (w : World) (k : Key) (new : SState) (t : Option Cb) (a : Bool)
      (h : StateMod lab w k new) (hne : (w.svc k).state ≠ new)
      (ht : stTimer new (w.svc k) t a) :
      EffOk { w.toCore with svc := upd w.svc k { w.svc k with timer := t, armed := a } }
        (.trans k (w.svc k).state new)
  | run (c : Core) (k : Key) (hs : (c.svc k).state = .starting) (hp : 1 < (c.svc k).pid) :
      EffOk c (.trans k .starting .running)
  | force (c : Core) (k : Key) (h : (c.svc k).state ≠ .running)
      (hs : (c.svc k).state ≠ .halted ∨ (c.svc k).block ≠ .restarting) :
      EffOk c (.trans k (c.svc k).state .running)
  | rebootSelf (c : Core) (k : Key) (hb : (c.svc k).block = .crashing)
      (ho : (c.svc k).oncrash = .reboot) : EffOk c (.rebootSelf k)
  | shutdownLimit (c : Core) (h : c.emerg = true) : EffOk c .shutdown
  | shutdown (c : Core) (h : c.runlevel = 0 ∨ c.runlevel = 6) (hs : SoftC c (c.sm = .rlClean))
      (hf : ∀ k ∈ c.order, Fin c k) : EffOk c .shutdown
  | stopped (c : Core) (h : stopCompleted c = true)
      (hs : SoftC c (c.sm = .rlWait ∨ c.sm = .reloadWait)) : EffOk c .stopped
  | sweep (c : Core) (hs : SoftC c ((c.sm = .rlChange ∨ c.sm = .reloadChange) ∧ c.inReload = true)) :
      EffOk c .sweep
  | runlevel (c : Core) (h : c.sm = .rlChange) : EffOk c (.runlevel c.runlevel c.newlevel.toNat)
  | new (c : Core) (hs : SoftC c (c.sm = .bootstrap ∨ c.sm = .rlChange ∨ c.sm = .reloadChange)) :
      EffOk c (.new c.nextKey)
  | reg (c : Core) (k : Key) (hk : k ∈ c.order)
      (hs : SoftC c (c.sm = .bootstrap ∨ c.sm = .rlChange ∨ c.sm = .reloadChange)) : EffOk c (.reg k)
  | del (c : Core) (k : Key) (hr : (c.svc k).removed = true)
      (hs : (c.svc k).state = .dead ∨ (c.svc k).state = .done) : EffOk c (.del k)
  | delBoot (c : Core) (k : Key) (h : (c.svc k).levels &&& (2 ^ 32 - 1 - 2 ^ 10) = 0) : EffOk c (.del k)
  | retry (c : Core) (k : Key) (hs : (c.svc k).state = .halted) (hb : (c.svc k).block = .restarting)
      (hc : ¬ ((c.svc k).restartMax ≠ -1 ∧ (c.svc k).restartCnt ≥ (c.svc k).restartMax)) :
      EffOk c (.retry k)
  | giveUp (c : Core) (k : Key) (hs : (c.svc k).state = .halted) (hb : (c.svc k).block = .restarting)
      (hm : (c.svc k).restartMax ≠ -1) (hc : (c.svc k).restartCnt ≥ (c.svc k).restartMax) :
      EffOk c (.giveUp k)
  | age (c : Core) (k : Key) (h : 0 < (c.svc k).restartCnt) (hs : (c.svc k).state = .running) :
      EffOk c (.age k)
  | bump (c : Core) (k : Key) (h : (c.svc k).state = .starting ∨ (c.svc k).state = .paused) :
      EffOk c (.bump k)
  | forced (c : Core) (k : Key) (ht : (c.svc k).timer = some .retry)
      (hs : (c.svc k).state ≠ .halted ∨ (c.svc k).block ≠ .restarting) : EffOk c (.forced k)
  | lifted (c : Core) (k : Key) (h : (c.svc k).block = .restarting) (ha : aggCond c k = .off) :
      EffOk c (.lifted k)
  | asked (c : Core) (k : Key) : EffOk c (.asked k)
  | conf (c : Core) (hs : SoftC c (c.sm = .bootstrap ∨ c.sm = .rlChange ∨ c.sm = .reloadChange)) :
      EffOk c (.conf c.tick)
  | confEnd (c : Core) (hs : SoftC c (c.sm = .bootstrap ∨ c.sm = .rlChange ∨ c.sm = .reloadChange)) :
      EffOk c .confEnd

/-- Effects that may happen in the middle of an atomic update. -/
inductive Second : Eff → Prop
  | run (k : Key) : Second (.trans k .starting .running)
  | group (p : Int) (k : Key) : Second (.kill p 9 .group k)
  | reap (p : Int) (st : Option WStatus) : Second (.reap p st)
  | del (k : Key) : Second (.del k)
  | pause (k : Key) : Second (.trans k .running .paused)

/-- The snapshot `c` is the state of `a`, except possibly for the timer fields of one service. -/
def SnapOf (a : World) (c : Core) : Prop :=
  c = a.toCore ∨
  ∃ k t x r, c = { a.toCore with
    svc := upd a.svc k { a.svc k with timer := t, armed := x, restartTmo := r } }

/-- Every new entry of the trace is in order, and was made in the state before the update. -/
def NewOk (a : World) (c : Core) (e : Eff) (tl : List (Core × Eff)) : Prop :=
  EffOk c e ∧ (Second e ∨ (tl = a.trace ∧ SnapOf a c))

/-- The trace only grows, and only by effects that are in order. -/
theorem Prim.snap {lab : Lab} {a b : World} (h : Prim E lab a b) :
    a.trace <:+ b.trace ∧
    ∀ c e tl, (c, e) :: tl <:+ b.trace → (c, e) :: tl <:+ a.trace ∨ NewOk a c e tl := by
  have nil : b.trace = a.trace → a.trace <:+ b.trace ∧
      ∀ c e tl, (c, e) :: tl <:+ b.trace → (c, e) :: tl <:+ a.trace ∨ NewOk a c e tl := by
    intro e; rw [e]; exact ⟨List.suffix_refl _, fun _ _ _ h => .inl h⟩
  have one : ∀ x : Core × Eff, b.trace = x :: a.trace → EffOk x.1 x.2 → SnapOf a x.1 →
      a.trace <:+ b.trace ∧
      ∀ c e tl, (c, e) :: tl <:+ b.trace → (c, e) :: tl <:+ a.trace ∨ NewOk a c e tl := by
    intro x e hx hs
    rw [e]
    refine ⟨List.suffix_cons _ _, ?_⟩
    intro c e' tl h
    rcases List.suffix_cons_iff.mp h with h | h
    · injection h with h1 h2
      subst h1; subst h2
      exact .inr ⟨hx, .inr ⟨rfl, hs⟩⟩
    · exact .inl h
  have two : ∀ x y : Core × Eff, b.trace = x :: y :: a.trace → EffOk x.1 x.2 → Second x.2 →
      EffOk y.1 y.2 → SnapOf a y.1 → a.trace <:+ b.trace ∧
      ∀ c e tl, (c, e) :: tl <:+ b.trace → (c, e) :: tl <:+ a.trace ∨ NewOk a c e tl := by
    intro x y e hx h2 hy hs
    rw [e]
    refine ⟨⟨[x, y], rfl⟩, ?_⟩
    intro c e' tl h
    rcases List.suffix_cons_iff.mp h with h | h
    · injection h with h3 h4
      subst h3; subst h4
      exact .inr ⟨hx, .inl h2⟩
    · rcases List.suffix_cons_iff.mp h with h | h
      · injection h with h3 h4
        subst h3; subst h4
        exact .inr ⟨hy, .inr ⟨rfl, hs⟩⟩
      · exact .inl h
  cases h with
  | glob _ h => apply nil; rw [h.1]
  | ub => exact nil rfl
  | svc => exact nil rfl
  | state k new h =>
    obtain ⟨t, x, ht, e⟩ := setStateRaw_eq k new a
    by_cases hs : (a.svc k).state = new
    · apply nil; rw [e]; exact if_pos hs
    · refine one _ (by rw [e]; exact if_neg hs) (.trans lab a k new t x h hs ht)
        (.inr ⟨k, t, x, _, rfl⟩)
  | retryForce k h ht hr hs =>
    obtain ⟨y, e2⟩ := timerCancel_eq k a
    rw [e2] at nil one ⊢
    simp only [Sup.mod, upd_same, upd_upd] at nil one ⊢
    obtain ⟨t, x, _, e⟩ := setStateRaw_eq k .running
      { a with svc := upd a.svc k { a.svc k with timer := none, armed := y,
                                                 restartTmo := (a.svc k).restartSaved } }
    rw [e] at nil one ⊢
    simp only [upd_same, upd_upd] at nil one ⊢
    by_cases hr : (a.svc k).state = .running
    · exact nil (if_pos hr)
    · refine one _ (if_neg hr) ?_ (.inr ⟨k, t, x, (a.svc k).restartSaved, rfl⟩)
      have g := EffOk.force { a.toCore with
        svc := upd a.svc k { a.svc k with timer := t, armed := x, restartTmo := (a.svc k).restartSaved } } k
        (by simpa using hr) (by simpa using hs)
      simpa using g
  | retryRespawn k =>
    obtain ⟨y, e2⟩ := timerCancel_eq k a
    apply nil; rw [e2]; rfl
  | retryGiveUp k h ht hr hs hb hm hc =>
    obtain ⟨y, e2⟩ := timerCancel_eq k a
    refine one ({ a.toCore with svc := upd a.svc k { a.svc k with timer := none, armed := y } }, .giveUp k)
      (by rw [e2]; rfl) (.giveUp _ k ?_ ?_ ?_ ?_) (.inr ⟨k, none, y, _, rfl⟩) <;>
      (simp only [upd_same]; assumption)
  | retryAgain k sv tm h ht hr hs hb hc =>
    obtain ⟨y, e2⟩ := timerCancel_eq k a
    refine one ({ a.toCore with svc := upd a.svc k { a.svc k with timer := none, armed := y } }, .retry k)
      (by rw [e2]; rfl) (.retry _ k ?_ ?_ ?_) (.inr ⟨k, none, y, _, rfl⟩) <;>
      (simp only [upd_same]; assumption)
  | age k h hs => exact one _ rfl (.age _ k h hs) (.inl rfl)
  | bump k h => exact one _ rfl (.bump _ k h) (.inl rfl)
  | asked k h => exact one _ rfl (.asked _ k) (.inl rfl)
  | lifted k h ha => exact one _ rfl (.lifted _ k h ha) (.inl rfl)
  | forced k h ht hs => exact one _ rfl (.forced _ k ht hs) (.inl rfl)
  | dirty => exact nil rfl
  | confRead hs => exact one _ rfl (.conf _ hs) (.inl rfl)
  | confEnd hs => exact one _ rfl (.confEnd _ hs) (.inl rfl)
  | kill k tgt sig why h => exact one _ rfl (.kill lab a k tgt sig why h) (.inl rfl)
  | pause k h hp he ha =>
    obtain ⟨t, x, ht, e⟩ := setStateRaw_eq k .paused (Sup.kill E (a.svc k).pid 19 .pause k a).2
    have hne : ((Sup.kill E (a.svc k).pid 19 .pause k a).2.svc k).state ≠ .paused := by
      show (a.svc k).state ≠ .paused
      rw [h]; decide
    refine two _ _ (by rw [e]; exact if_neg hne)
      (.trans lab (Sup.kill E (a.svc k).pid 19 .pause k a).2 k .paused t x (.pause h hp he ha) hne ht) ?_
      (.kill lab a k _ 19 .pause (.pause hp h ha)) (.inl rfl)
    show Second (.trans k (a.svc k).state .paused)
    rw [h]; exact .pause k
  | rebootSelf k h hb ho => exact one _ rfl (.rebootSelf _ k hb ho) (.inl rfl)
  | start k p x hp hl hb he hs =>
    have e := start_eq k p x a hs
    dsimp only at e
    refine two (_, .trans k .starting .running) (_, .spawn p k .main) (by rw [e])
      (.run _ k (by simpa using hs) (by simpa using hp)) (.run k) (.start _ p k hp hl hb he hs) (.inl rfl)
  | startBad k p hp hl hb he hs hn =>
    refine one _ (by rw [startParent_eq]; rfl) (.start _ p k hp hl hb he hs) (.inl rfl)
  | script k p role hp hl hr h => exact one _ rfl (.script _ p k role hp hl hr) (.inl rfl)
  | readyScript k p hp hl h => exact one _ rfl (.script _ p k .ready hp hl (by decide)) (.inl rfl)
  | sysvStop k p hp hl h => exact one _ rfl (.script _ p k .sysvStop hp hl (by decide)) (.inl rfl)
  | scriptRun k p role hp hl hr =>
    refine two _ _ rfl (.reap _ p _) (.reap p _) (.script _ p k role hp hl ?_) (.inl rfl)
    rcases hr with rfl | rfl <;> decide
  | collect k p st hl hf hp h1 h =>
    obtain ⟨s', tr, t, e, _, _, etr⟩ := monitorHead_eq (E := E) k st (reap p (some st) a)
    rcases etr with etr | etr
    · refine one _ (by rw [e]; exact etr) (.reap _ p _) (.inl rfl)
    · refine two _ _ (by rw [e]; exact etr) (.killGroup _ _ k (by show 1 < (a.svc k).pid; omega))
        (.group _ k) (.reap _ p _) (.inl rfl)
  | collectOther p st => exact one _ rfl (.reap _ p _) (.inl rfl)
  | lost k st hl h1 =>
    obtain ⟨s', tr, t, e, _, _, etr⟩ := monitorHead_eq (E := E) k st a
    rcases etr with etr | etr
    · exact nil (by rw [e]; exact etr)
    · exact one _ (by rw [e]; exact etr) (.killGroup _ _ k h1) (.inl rfl)
  | assoc => exact nil rfl
  | adopt => exact nil rfl
  | unblock => exact nil rfl
  | conds => exact nil rfl
  | mid => exact nil rfl
  | del k ht hr hs => exact one _ rfl (.del _ k hr hs) (.inl rfl)
  | delBoot k h =>
    refine ⟨List.suffix_cons _ _, ?_⟩
    intro c e' tl h'
    rcases List.suffix_cons_iff.mp h' with h' | h'
    · injection h' with h1 h2
      injection h1 with h1 h3
      subst h1; subst h3
      exact .inr ⟨.delBoot _ k (by simpa [mod] using h), .inl (.del k)⟩
    · exact .inl h'
  | regOld z k h hz hs =>
    unfold regObj at one ⊢; rw [h] at one ⊢
    exact one (a.toCore, .reg k) rfl (.reg _ k (regFind_mem h) hs) (.inl rfl)
  | regNew z h hz hs =>
    unfold regObj at one ⊢; rw [h] at one ⊢
    exact one (a.toCore, .new a.nextKey) rfl (.new _ hs) (.inl rfl)
  | sm => exact nil rfl
  | runlevel h => exact one _ rfl (.runlevel _ h) (.inl rfl)
  | reloadOn => exact nil rfl
  | stopped h hs => exact one _ rfl (.stopped _ h hs) (.inl rfl)
  | sweep hs => exact one _ rfl (.sweep _ hs) (.inl rfl)
  | reloadOff => exact nil rfl
  | bootDone => exact nil rfl
  | freeUp => exact nil rfl
  | free => exact nil rfl
  | shutdown h =>
    rcases h with h | h
    · exact one _ rfl (.shutdownLimit _ h.2) (.inl rfl)
    · exact one _ rfl (.shutdown _ h.1 h.2.1 h.2.2) (.inl rfl)

/-- Every entry of the trace is in order. -/
theorem Reach.effOk {w : World} (h : Reach E w) {c : Core} {e : Eff} (hx : (c, e) ∈ w.trace) :
    EffOk c e := by
  have key : ∀ c e tl, (c, e) :: tl <:+ w.trace → EffOk c e := by
    refine Reach.inv (P := fun w => ∀ c e tl, (c, e) :: tl <:+ w.trace → EffOk c e) ?_ ?_ h
    · intro _ _ c e tl h
      have := h.length_le
      simp [World.start] at this
    · intro lab a b _ p ih c e tl hx
      rcases p.snap.2 c e tl hx with h | h
      · exact ih c e tl h
      · exact h.1
  obtain ⟨l1, l2, e'⟩ := List.append_of_mem hx
  exact key c e l2 ⟨l1, e'.symm⟩

/-- At every entry of the trace that is made at the beginning of an atomic update, every
    invariant holds. -/
theorem Reach.at {P : World → Prop} (h0 : ∀ cfg cmd, P (World.start cfg cmd))
    (hp : ∀ lab a b, OrdOk a.toCore → Prim E lab a b → P a → P b)
    {w : World} (h : Reach E w) {c : Core} {e : Eff} {tl : List (Core × Eff)}
    (hx : (c, e) :: tl <:+ w.trace) (hs : ¬ Second e) : ∃ a, P a ∧ a.trace = tl ∧ SnapOf a c := by
  have key : P w ∧ ∀ c e tl, (c, e) :: tl <:+ w.trace → ¬ Second e →
      ∃ a, P a ∧ a.trace = tl ∧ SnapOf a c := by
    refine Reach.inv (P := fun w => P w ∧ ∀ c e tl, (c, e) :: tl <:+ w.trace → ¬ Second e →
      ∃ a, P a ∧ a.trace = tl ∧ SnapOf a c) ?_ ?_ h
    · intro _ _
      refine ⟨h0 _ _, ?_⟩
      intro c e tl h
      have := h.length_le
      simp [World.start] at this
    · intro lab a b ho p ih
      refine ⟨hp lab a b ho p ih.1, ?_⟩
      intro c e tl hx hs
      rcases p.snap.2 c e tl hx with h | h
      · exact ih.2 c e tl h hs
      · rcases h.2 with h | h
        · exact absurd h hs
        · exact ⟨a, ih.1, h.1.symm, h.2⟩
  exact key.2 c e tl hx hs

end

end Verif.Sup
