import Verif.Sup.Hist

/-!
# Supervisor model: atomic updates as seen by one service
-/

namespace Verif.Sup

open Verif (CStr CondStore)

section
variable {E : Env}

/-- How one atomic update changes the record of service `j`. -/
inductive View (E : Env) (lab : Lab) (a b : World) (j : Key) : Prop
  | same (h : b.svc j = a.svc j)
  | mod (s' : Svc) (h : SvcMod E lab a j s') (e : b.svc j = s')
  | state (new : SState) (t : Option Cb) (x : Bool) (h : StateMod lab a j new)
      (ht : stTimer new (a.svc j) t x)
      (e : b.svc j = { a.svc j with state := new, timer := t, armed := x })
  | force (x : Bool) (h : lab = .retry j) (ht : (a.svc j).timer = some .retry)
      (hr : (a.svc j).respawn = false)
      (hs : (a.svc j).state ≠ .halted ∨ (a.svc j).block ≠ .restarting)
      (hf : ∃ c tl, a.trace = (c, .forced j) :: tl ∧ c.svc j = a.svc j)
      (e : b.svc j = { a.svc j with
        state := .running, timer := none, armed := x, restartTmo := (a.svc j).restartSaved })
  | respawn (x : Bool) (h : lab = .retry j) (ht : (a.svc j).timer = some .retry)
      (hr : (a.svc j).respawn = true)
      (e : b.svc j = { a.svc j with timer := none, armed := x, block := .none })
  | giveUp (x : Bool) (h : lab = .retry j) (ht : (a.svc j).timer = some .retry)
      (hr : (a.svc j).respawn = false) (hs : (a.svc j).state = .halted)
      (hb : (a.svc j).block = .restarting) (hm : (a.svc j).restartMax ≠ -1)
      (hc : (a.svc j).restartCnt ≥ (a.svc j).restartMax)
      (e : b.svc j = { a.svc j with
        timer := none, armed := x, block := .crashing, restartCnt := 0
        restartTmo := (a.svc j).restartSaved })
  | again (x : Bool) (sv tm : Int) (h : lab = .retry j) (ht : (a.svc j).timer = some .retry)
      (hr : (a.svc j).respawn = false) (hs : (a.svc j).state = .halted)
      (hb : (a.svc j).block = .restarting)
      (hc : ¬ ((a.svc j).restartMax ≠ -1 ∧ (a.svc j).restartCnt ≥ (a.svc j).restartMax))
      (e : b.svc j = { a.svc j with
        timer := none, armed := x, restartCnt := schar ((a.svc j).restartCnt + 1)
        restartSaved := sv, restartTmo := tm, block := .none })
  | age (h : 0 < (a.svc j).restartCnt) (hs : (a.svc j).state = .running)
      (e : b.svc j = { a.svc j with restartCnt := (a.svc j).restartCnt - 1 })
  | bump (h : (a.svc j).state = .starting ∨ (a.svc j).state = .paused)
      (e : b.svc j = { a.svc j with restartCnt := schar ((a.svc j).restartCnt + 1) })
  | marks (r d : Bool) (hr : (a.svc j).removed = true → r = true)
      (hp : r ≠ (a.svc j).removed → j ∈ a.order ∧ (a.svc j).protect = false)
      (hs : Soft a (a.sm = .bootstrap ∨ a.sm = .rlChange ∨ a.sm = .reloadChange))
      (e : b.svc j = { a.svc j with removed := r, dirty := d })
  | start (p : Int) (x : Bool) (hp : 1 < p) (hl : p ∉ a.live) (hb : a.runBlock = 0)
      (he : enabled a.toCore j = true) (hs : (a.svc j).state = .starting)
      (e : b.svc j = { a.svc j with
        state := .running, pid := p, watch := x, dirty := false, argsDirty := false })
      (hv : b.live = p :: a.live)
      (ht : ∃ c, b.trace = (c, .trans j .starting .running) :: (a.toCore, .spawn p j .main) :: a.trace)
  | startBad (p : Int) (x : Bool) (hp : 1 < p) (hl : p ∉ a.live) (hb : a.runBlock = 0)
      (he : enabled a.toCore j = true) (hs : (a.svc j).state = .starting)
      (hn : (a.svc j).notify = .systemd ∨ (a.svc j).notify = .s6)
      (e : b.svc j = { a.svc j with pid := p, watch := x }) (hv : b.live = p :: a.live)
      (ht : b.trace = (a.toCore, .spawn p j .main) :: a.trace)
  | script (p : Int) (role : Role) (hp : 1 < p) (hl : p ∉ a.live) (hr : role ≠ .main)
      (h : Soft a (ScriptState lab j role (a.svc j))) (e : b.svc j = { a.svc j with pid := p })
      (hv : b.live = p :: a.live) (ht : b.trace = (a.toCore, .spawn p j role) :: a.trace)
  | exit (s' : Svc) (hp : 1 < (a.svc j).pid)
      (hl : ((∃ st, lab = .ev (.exit (a.svc j).pid st)) ∧ ∀ k, (a.svc j).pid ∉ b.main k) ∨
        (a.svc j).pid ∉ a.live)
      (hs : s' = { a.svc j with
        pid := 0, status := s'.status, started := s'.started, starting := s'.starting
        watch := s'.watch, timer := s'.timer, armed := s'.armed })
      (ht : (s'.timer = (a.svc j).timer ∧ s'.armed = (a.svc j).armed) ∨ s'.timer = none)
      (e : b.svc j = s')
  | delBoot (h : (a.svc j).levels &&& (2 ^ 32 - 1 - 2 ^ 10) = 0) (hb : j ∉ b.order)
      (e : b.svc j = { a.svc j with pid := 0 })
  | reg (z : Stanza) (h : regFind z a.toCore = some j) (hz : ∃ t, z ∈ E.conf t)
      (hs : Soft a (a.sm = .bootstrap ∨ a.sm = .rlChange ∨ a.sm = .reloadChange))
      (ht : ∃ c, b.trace = (c, .reg j) :: a.trace)
      (e : b.svc j = { a.svc j with
        type := z.type, block := if z.manual then (a.svc j).block else .none
        odd := (a.svc j).odd || z.odd, zs := z :: (a.svc j).zs, removed := false })
  | new (z : Stanza) (h : j = a.nextKey) (hb : j < b.nextKey) (hz : ∃ t, z ∈ E.conf t)
      (hs : Soft a (a.sm = .bootstrap ∨ a.sm = .rlChange ∨ a.sm = .reloadChange))
      (ht : ∃ c, b.trace = (c, .new j) :: a.trace)
      (e : b.svc j = { name := z.name, id := z.id, type := z.type, odd := z.odd, zs := [z],
                       block := if z.manual then .user else .none, levels := z.levels })

theorem Prim.view {lab : Lab} {a b : World} (h : Prim E lab a b) (j : Key) : View E lab a b j := by
  have same : b.svc = a.svc → View E lab a b j := fun h1 => .same (by rw [h1])
  have other : ∀ {k s}, b.svc = upd a.svc k s → j ≠ k → View E lab a b j := by
    intro k s e hj; exact .same (by rw [e]; exact upd_other _ _ _ _ hj)
  cases h with
  | glob _ h => apply same; rw [h.1]
  | ub => exact same rfl
  | svc k s' h =>
    by_cases hj : j = k
    · subst hj; exact .mod s' h (by simp)
    · exact other rfl hj
  | state k new h =>
    obtain ⟨t, x, ht, e⟩ := setStateRaw_eq k new a
    rw [e] at other ⊢
    by_cases hj : j = k
    · subst hj; exact .state new t x h ht (by simp)
    · exact other rfl hj
  | pause k h hp he ha =>
    obtain ⟨t, x, ht, e⟩ := setStateRaw_eq k .paused (Sup.kill E (a.svc k).pid 19 .pause k a).2
    rw [e] at other ⊢
    by_cases hj : j = k
    · subst hj; exact .state .paused t x (.pause h hp he ha) ht (upd_same _ _ _)
    · exact other rfl hj
  | retryForce k h ht hr hs hf =>
    obtain ⟨y, e2⟩ := timerCancel_eq k a
    rw [e2] at other ⊢
    simp only [Sup.mod, upd_same, upd_upd] at other ⊢
    obtain ⟨t, x, h5, e⟩ := setStateRaw_eq k .running
      { a with svc := upd a.svc k { a.svc k with timer := none, armed := y,
                                                 restartTmo := (a.svc k).restartSaved } }
    rw [e] at other ⊢
    simp only [upd_same, upd_upd] at other ⊢
    by_cases hj : j = k
    · subst hj
      refine .force x h ht hr hs hf ?_
      have := (h5.1 (by decide)).1
      simp only [upd_same] at this
      simp [this]
    · exact other rfl hj
  | retryRespawn k h ht hr =>
    obtain ⟨y, e2⟩ := timerCancel_eq k a
    rw [e2] at other ⊢
    simp only [Sup.mod, upd_same, upd_upd] at other ⊢
    by_cases hj : j = k
    · subst hj; exact .respawn y h ht hr (by simp)
    · exact other rfl hj
  | retryGiveUp k h ht hr hs hb hm hc =>
    obtain ⟨y, e2⟩ := timerCancel_eq k a
    rw [e2] at other ⊢
    simp only [Sup.mod, emit, upd_same, upd_upd] at other ⊢
    by_cases hj : j = k
    · subst hj; exact .giveUp y h ht hr hs hb hm hc (by simp)
    · exact other rfl hj
  | retryAgain k sv tm h ht hr hs hb hc =>
    obtain ⟨y, e2⟩ := timerCancel_eq k a
    rw [e2] at other ⊢
    simp only [Sup.mod, emit, upd_same, upd_upd] at other ⊢
    by_cases hj : j = k
    · subst hj; exact .again y sv tm h ht hr hs hb hc (by simp)
    · exact other rfl hj
  | age k h hs =>
    by_cases hj : j = k
    · subst hj; exact .age h hs (by simp [Sup.mod, emit])
    · exact other rfl hj
  | bump k h =>
    by_cases hj : j = k
    · subst hj; exact .bump h (by simp [Sup.mod, emit])
    · exact other rfl hj
  | dirty d hs => exact .marks (a.svc j).removed (d j) id (fun h => absurd rfl h) hs rfl
  | confRead hs =>
    refine .marks _ (a.svc j).dirty ?_ ?_ hs (markDynamic_svc j (emit (.conf a.tick) a))
    · exact fun h => mark_keep h
    · exact fun h => mark_new h
  | confEnd hs =>
    refine .marks _ (a.svc j).dirty ?_ ?_ hs (markUnavail_svc j (emit .confEnd a))
    · exact fun h => mark_keep h
    · exact fun h => have g := mark_new h; ⟨g.1, g.2.2.2⟩
  | forced k h ht hs => exact same rfl
  | asked k h => exact same rfl
  | lifted k h ha => exact same rfl
  | kill k tgt sig why h => exact same rfl
  | rebootSelf k h hb ho => exact same rfl
  | start k p x hp hl hb he hs =>
    have e := start_eq k p x a hs
    dsimp only at e
    rw [e] at other ⊢
    by_cases hj : j = k
    · subst hj; exact .start p _ hp hl hb he hs (by simp only [upd_same]; rfl) rfl ⟨_, rfl⟩
    · exact other rfl hj
  | startBad k p hp hl hb he hs hn =>
    rw [startParent_eq] at other ⊢
    by_cases hj : j = k
    · subst hj; exact .startBad p _ hp hl hb he hs hn (by simp only [upd_same]; rfl) rfl rfl
    · exact other rfl hj
  | script k p role hp hl hr h =>
    by_cases hj : j = k
    · subst hj; exact .script p role hp hl hr h (by simp [Sup.mod, spawned, emit]) rfl rfl
    · exact other rfl hj
  | readyScript k p hp hl h => exact same rfl
  | sysvStop k p hp hl h => exact same rfl
  | scriptRun k p role hp hl hr => exact same rfl
  | collect k p st hl hf hp h1 h =>
    obtain ⟨s', tr, t, e, es, et, _⟩ := monitorHead_eq (E := E) k st (reap p (some st) a)
    rw [e] at other ⊢
    by_cases hj : j = k
    · subst hj
      exact .exit s' (by rw [hp]; exact h1) (.inl ⟨⟨st, by rw [hp]; exact h⟩, fun k => by rw [hp]; simp [reap, emit]⟩) es et (by simp)
    · exact other rfl hj
  | collectOther p st => exact same rfl
  | lost k st hl h1 =>
    obtain ⟨s', tr, t, e, es, et, _⟩ := monitorHead_eq (E := E) k st a
    rw [e] at other ⊢
    by_cases hj : j = k
    · subst hj
      exact .exit s' h1 (.inr hl) es et (by simp)
    · exact other rfl hj
  | assoc => exact same rfl
  | adopt => exact same rfl
  | unblock => exact same rfl
  | conds => exact same rfl
  | mid => exact same rfl
  | del k ht hr hs => exact same rfl
  | delBoot k h =>
    by_cases hj : j = k
    · subst hj
      refine .delBoot h ?_ (by simp [Sup.mod, svcDel, emit])
      simp [svcDel, emit, Sup.mod]
    · exact other rfl hj
  | regOld z k h hz hs =>
    unfold regObj at other ⊢; rw [h] at other ⊢
    by_cases hj : j = k
    · subst hj
      exact .reg z h (hz.imp fun _ h => h.2) hs ⟨_, rfl⟩ (by simp [Sup.mod, emit])
    · exact other rfl hj
  | regNew z h hz hs =>
    unfold regObj at other ⊢; rw [h] at other ⊢
    by_cases hj : j = a.nextKey
    · subst hj
      exact .new z rfl (Nat.lt_succ_self _) (hz.imp fun _ h => h.2) hs ⟨_, rfl⟩ (by simp [emit])
    · exact other rfl hj
  | sm => exact same rfl
  | runlevel h => exact same rfl
  | reloadOn => exact same rfl
  | stopped | sweep => exact same rfl
  | reloadOff => exact same rfl
  | bootDone => exact same rfl
  | freeUp => exact same rfl
  | free => exact same rfl
  | shutdown h => exact same rfl

end

end Verif.Sup
