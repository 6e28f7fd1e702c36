import Verif.Sup.Mine
import Verif.Sup.Ctl

/-!
# Supervisor model: what happens to service objects that are no longer listed

`svc_del` moves an object from the service list to the list of objects to be freed, and `svc_gc`
frees it later.  Whoever still holds a pointer to the object then uses freed memory: its timer,
the readiness watcher, and the list of running ready scripts.
-/

namespace Verif.Sup

open Verif (CStr CondStore)

section
variable {E : Env}

/-! ### Timers that can fire -/

/-- Only timers that are in use can fire. -/
def ArmAll (w : World) : Prop := ∀ k, (w.svc k).armed = true → (w.svc k).timer ≠ none

theorem ArmAll.svc {w : World} (h : ArmAll w) {k : Key} {s : Svc}
    (hs : s.armed = true → s.timer ≠ none) (v : World) (e : v.svc = upd w.svc k s) : ArmAll v := by
  intro j
  rw [e]
  by_cases hj : j = k
  · subst hj; rw [upd_same]; exact hs
  · rw [upd_other _ _ _ _ hj]; exact h j

theorem ArmAll.mod {w : World} (h : ArmAll w) {k : Key} {f : Svc → Svc}
    (hs : (f (w.svc k)).armed = true → (f (w.svc k)).timer ≠ none) : ArmAll (mod k f w) :=
  h.svc hs _ rfl

theorem ArmAll.cancel {w : World} (h : ArmAll w) (k : Key) : ArmAll (timerCancel k w) := by
  unfold timerCancel; split
  · exact h.mod (fun h => nomatch h)
  · exact h

theorem ArmAll.after {w : World} (h : ArmAll w) (k : Key) (t : Int) (cb : Cb) :
    ArmAll (timerAfter k t cb w) := by
  unfold timerAfter; split
  · exact h
  · split
    · exact h
    · exact h.mod (fun _ => by simp)

theorem ArmAll.emit {w : World} (h : ArmAll w) (e : Eff) : ArmAll (emit e w) := h

theorem ArmAll.stateRaw {w : World} (h : ArmAll w) (k : Key) (new : SState) :
    ArmAll (setStateRaw k new w) := by
  unfold setStateRaw
  extract_lets s0 w1
  have h1 : ArmAll w1 := by
    simp only [w1]; split
    · exact (h.cancel k).after k _ _
    · exact h
  split
  · exact h1
  · have h2 : ArmAll (Sup.mod k (fun s => { s with state := new }) (Sup.emit (.trans k (w1.svc k).state new) w1)) :=
      (h1.emit _).mod (h1 k)
    exact h2

theorem ArmAll.head {w : World} (h : ArmAll w) (k : Key) (st : WStatus) : ArmAll (monitorHead E k st w) := by
  unfold monitorHead
  extract_lets x w1
  have h1 : ArmAll w1 := h
  split
  · exact (h1.cancel k).mod ((h1.cancel k) k)
  · split
    · exact h.mod (h k)
    · split
      · have h2 : ArmAll (Sup.mod k (fun s => { s with status := st }) w1) := h1.mod (h1 k)
        have h3 : ArmAll (serviceCleanup k (Sup.mod k (fun s => { s with status := st }) w1)) :=
          (h2.cancel k).mod ((h2.cancel k) k)
        exact h3.mod (h3 k)
      · exact h1.mod (h1 k)

theorem Prim.arm {lab : Lab} {a b : World} (p : Prim E lab a b) (h : ArmAll a) : ArmAll b := by
  cases p with
  | glob _ hm => intro k; rw [hm.1]; exact h k
  | svc k s' hm =>
    refine h.svc ?_ _ rfl
    cases hm with
    | minor _ hm _ => rw [hm]; exact h k
    | armedOff => exact fun h => nomatch h
    | cancel => exact fun h => nomatch h
    | armRetry => exact fun _ => by simp
    | armScript => exact fun _ => by simp
    | armReady => exact fun _ => by simp
    | apply z x y =>
      obtain ⟨_, _, _, _, _, _, _, _, _, _, _, _, e⟩ := applyStanza_eq z x y (a.svc k)
      rw [e]; exact h k
    | _ => exact h k
  | state k new _ => exact h.stateRaw k new
  | retryForce k =>
    exact ((h.cancel k).mod ((h.cancel k) k)).stateRaw k _
  | retryRespawn k => exact (h.cancel k).mod ((h.cancel k) k)
  | retryGiveUp k => exact ((h.cancel k).emit _).mod ((h.cancel k) k)
  | retryAgain k => exact ((h.cancel k).emit _).mod ((h.cancel k) k)
  | age k => exact (h.emit _).mod (h k)
  | bump k => exact (h.emit _).mod (h k)
  | confRead => intro k; rw [markDynamic_svc]; exact h k
  | confEnd =>
    intro k
    show ((markUnavail (Sup.emit .confEnd a)).svc k).armed = true → _
    unfold markUnavail; dsimp only
    split
    · exact h k
    · exact h k
  | pause k =>
    have h1 : ArmAll (Sup.kill E (a.svc k).pid 19 .pause k a).2 := h
    exact h1.stateRaw k _
  | start k p x _ _ _ _ hs => rw [start_eq k p x a hs]; exact h.svc (k := k) (by exact h k) _ rfl
  | startBad k p => rw [startParent_eq]; exact h.svc (k := k) (by exact h k) _ rfl
  | script k p => exact h.svc (k := k) (by exact h k) _ rfl
  | collect k p st => exact ArmAll.head (w := reap p (some st) a) h k st
  | lost k st => exact h.head k st
  | delBoot k => exact h.svc (k := k) (by exact h k) _ rfl
  | regOld z k hf => rw [regObj_some hf]; exact h.svc (k := k) (by exact h k) _ rfl
  | regNew z hf => rw [regObj_none hf]; refine h.svc (k := a.nextKey) ?_ _ rfl; intro h; cases h
  | _ => exact h

theorem Reach.arm {w : World} (h : Reach E w) : ArmAll w :=
  Reach.inv (P := ArmAll) (fun _ _ k h => by cases h) (fun _ _ _ _ p => p.arm) h

/-! ### The lists -/

/-- How one atomic update changes the list of services and the list of objects to be freed. -/
inductive Lists (E : Env) (lab : Lab) (a b : World) : Prop
  | same (ho : b.order = a.order) (hn : b.nextKey = a.nextKey) (hg : b.gc = a.gc) (hf : b.freed = a.freed)
  | del (k : Key) (c : Core) (hk : Soft a (k ∈ a.order)) (ho : b.order = a.order.filter (· ≠ k))
      (hn : b.nextKey = a.nextKey)
      (hg : b.gc = a.gc ++ [k]) (hf : b.freed = a.freed) (ht : b.trace = (c, .del k) :: a.trace)
      (hs : c.svc k = b.svc k) (ha : c.assoc = b.assoc)
      (h : ((b.svc k).timer = none ∧ (b.svc k).removed = true ∧
          ((b.svc k).state = .dead ∨ (b.svc k).state = .done)) ∨
        (b.svc k).levels &&& (2 ^ 32 - 1 - 2 ^ 10) = 0)
  | new (ho : b.order = a.order ++ [a.nextKey]) (hn : b.nextKey = a.nextKey + 1) (hg : b.gc = a.gc)
      (hf : b.freed = a.freed) (hz : ∃ t, ∃ z ∈ E.conf t, (b.svc a.nextKey).levels = z.levels)
  | freeUp (k : Key) (hk : k ∈ a.gc) (ho : b.order = a.order) (hn : b.nextKey = a.nextKey) (hg : b.gc = a.gc.filter (· ≠ k))
      (hf : b.freed = a.freed)
  | free (k : Key) (h : lab = .ev (.gc k)) (hk : Soft a (k ∉ a.gc)) (ho : b.order = a.order)
      (hn : b.nextKey = a.nextKey) (hg : b.gc = a.gc)
      (hf : b.freed = k :: a.freed)

theorem Prim.lists {lab : Lab} {a b : World} (p : Prim E lab a b) : Lists E lab a b := by
  cases p with
  | glob _ hm => rw [hm.1]; exact .same rfl rfl rfl rfl
  | state k new h =>
    obtain ⟨t, x, _, e⟩ := setStateRaw_eq k new a
    rw [e]; exact .same rfl rfl rfl rfl
  | pause k =>
    obtain ⟨t, x, _, e⟩ := setStateRaw_eq k .paused (Sup.kill E (a.svc k).pid 19 .pause k a).2
    rw [e]; exact .same rfl rfl rfl rfl
  | retryForce k =>
    obtain ⟨t, x, _, e⟩ := setStateRaw_eq k .running
      (mod k (fun s => { s with restartTmo := s.restartSaved }) (timerCancel k a))
    obtain ⟨y, e2⟩ := timerCancel_eq k a
    rw [e, e2]; exact .same rfl rfl rfl rfl
  | retryRespawn k =>
    obtain ⟨y, e2⟩ := timerCancel_eq k a
    rw [e2]; exact .same rfl rfl rfl rfl
  | retryGiveUp k =>
    obtain ⟨y, e2⟩ := timerCancel_eq k a
    rw [e2]; exact .same rfl rfl rfl rfl
  | retryAgain k =>
    obtain ⟨y, e2⟩ := timerCancel_eq k a
    rw [e2]; exact .same rfl rfl rfl rfl
  | start k p x hp hl hb he hs =>
    rw [start_eq k p x a hs]; exact .same rfl rfl rfl rfl
  | startBad k p => rw [startParent_eq]; exact .same rfl rfl rfl rfl
  | collect k p st =>
    obtain ⟨s', tr, t, e, _⟩ := monitorHead_eq (E := E) k st (reap p (some st) a)
    rw [e]; exact .same rfl rfl rfl rfl
  | lost k st =>
    obtain ⟨s', tr, t, e, _⟩ := monitorHead_eq (E := E) k st a
    rw [e]; exact .same rfl rfl rfl rfl
  | regOld z k h => rw [regObj_some h]; exact .same rfl rfl rfl rfl
  | regNew z h hz =>
    obtain ⟨t, _, hz⟩ := hz
    rw [regObj_none h]; exact .new rfl rfl rfl rfl ⟨t, z, hz, by simp⟩
  | del k ht hr hs hk => exact .del k _ (fun _ => hk) rfl rfl rfl rfl rfl rfl rfl (.inl ⟨ht, hr, hs⟩)
  | delBoot k h hk =>
    refine .del k _ hk rfl rfl rfl rfl rfl rfl rfl (.inr ?_)
    simpa [svcDel, Sup.mod, emit] using h
  | freeUp k h hk => exact .freeUp k hk rfl rfl rfl rfl
  | free k h hg => exact .free k h hg rfl rfl rfl rfl
  | _ => exact .same rfl rfl rfl rfl

/-- An object that has been taken off the list does not come back. -/
theorem Prim.back {lab : Lab} {a b : World} (p : Prim E lab a b) {k : Key} (hk : k < a.nextKey)
    (h : k ∈ b.order) : k ∈ a.order := by
  cases p.lists with
  | same ho => rw [← ho]; exact h
  | del j c _ ho => rw [ho] at h; exact (List.mem_filter.mp h).1
  | new ho =>
    rw [ho, List.mem_append, List.mem_singleton] at h
    rcases h with h | h
    · exact h
    · exact absurd h (Nat.ne_of_lt hk)
  | freeUp j _ ho => rw [← ho]; exact h
  | free j _ _ ho => rw [← ho]; exact h

/-! ### Watchers and ready scripts -/

/-- No readiness watcher is added. -/
def WatchLe (w v : World) : Prop := ∀ j, (v.svc j).watch = true → (w.svc j).watch = true

theorem WatchLe.refl (w : World) : WatchLe w w := fun _ h => h

theorem WatchLe.trans {a b c : World} (h1 : WatchLe a b) (h2 : WatchLe b c) : WatchLe a c :=
  fun j h => h1 j (h2 j h)

theorem WatchLe.svc {w v : World} {k : Key} {s : Svc} (e : v.svc = upd w.svc k s)
    (hs : s.watch = true → (w.svc k).watch = true) : WatchLe w v := by
  intro j
  rw [e]
  by_cases hj : j = k
  · subst hj; rw [upd_same]; exact hs
  · rw [upd_other _ _ _ _ hj]; exact id

theorem WatchLe.mod {w : World} {k : Key} {f : Svc → Svc}
    (hs : (f (w.svc k)).watch = true → (w.svc k).watch = true) : WatchLe w (mod k f w) :=
  .svc rfl hs

theorem WatchLe.cancel (k : Key) (w : World) : WatchLe w (timerCancel k w) := by
  unfold timerCancel; split
  · exact .mod id
  · exact .refl w

theorem WatchLe.stateRaw (k : Key) (new : SState) (w : World) : WatchLe w (setStateRaw k new w) := by
  obtain ⟨t, x, _, e⟩ := setStateRaw_eq k new w
  rw [e]; exact .svc (k := k) rfl id

theorem WatchLe.head (k : Key) (st : WStatus) (w : World) : WatchLe w (monitorHead E k st w) := by
  unfold monitorHead
  extract_lets x w1
  have h1 : WatchLe w w1 := .refl w
  split
  · exact (h1.trans (.cancel k w1)).trans (.mod id)
  · split
    · exact .mod id
    · split
      · have h2 : WatchLe w (Sup.mod k (fun s => { s with status := st }) w1) := h1.trans (.mod id)
        have h3 : WatchLe w (serviceCleanup k (Sup.mod k (fun s => { s with status := st }) w1)) :=
          (h2.trans (.cancel k _)).trans (.mod (fun h => nomatch h))
        exact h3.trans (.mod id)
      · exact h1.trans (.mod id)

/-- A readiness watcher is only added when the command is started. -/
theorem Prim.watch {lab : Lab} {a b : World} (p : Prim E lab a b) {j : Key}
    (h : (b.svc j).watch = true) : (a.svc j).watch = true ∨
      (enabled a.toCore j = true ∧ ((a.svc j).notify = .systemd ∨ (a.svc j).notify = .s6)) := by
  have le : WatchLe a b → _ := fun x => Or.inl (b := enabled a.toCore j = true ∧
    ((a.svc j).notify = .systemd ∨ (a.svc j).notify = .s6)) (x j h)
  cases p with
  | glob _ hm => apply le; intro k; rw [hm.1]; exact id
  | svc k s' hm =>
    apply le
    refine .svc (k := k) rfl ?_
    cases hm with
    | minor _ hm hw => exact hw
    | apply z x y =>
      obtain ⟨_, _, _, _, _, _, _, _, _, _, _, _, e⟩ := applyStanza_eq z x y (a.svc k)
      rw [e]; exact id
    | _ => exact id
  | state k new _ => exact le (.stateRaw k new a)
  | retryForce k => exact le (((WatchLe.cancel k a).trans (.mod id)).trans (.stateRaw k _ _))
  | retryRespawn k => exact le ((WatchLe.cancel k a).trans (.mod id))
  | retryGiveUp k =>
    have h1 : WatchLe a (Sup.emit (.giveUp k) (timerCancel k a)) := WatchLe.cancel k a
    exact le (h1.trans (.mod id))
  | retryAgain k =>
    have h1 : WatchLe a (Sup.emit (.retry k) (timerCancel k a)) := WatchLe.cancel k a
    exact le (h1.trans (.mod id))
  | age k => exact le (.svc (k := k) rfl id)
  | bump k => exact le (.svc (k := k) rfl id)
  | confRead => apply le; intro k; rw [markDynamic_svc]; exact id
  | confEnd =>
    apply le; intro k
    unfold markUnavail; dsimp only
    split <;> exact id
  | pause k =>
    have h1 : WatchLe a (Sup.kill E (a.svc k).pid 19 .pause k a).2 := .refl a
    exact le (h1.trans (.stateRaw k _ _))
  | start k p x _ _ _ he hs hn =>
    rw [start_eq k p x a hs] at h le
    by_cases hj : j = k
    · subst hj
      dsimp only at h
      rw [upd_same] at h
      dsimp only at h
      cases hx : x with
      | true => exact .inr ⟨he, hn hx⟩
      | false => rw [hx] at h; left; simpa using h
    · dsimp only at h; rw [upd_other _ _ _ _ hj] at h; exact .inl h
  | startBad k p => rw [startParent_eq] at h le; exact le (.svc (k := k) rfl (by
      show ((a.svc k).watch || false) = true → _
      simp))
  | script k p => exact le (.svc (k := k) rfl id)
  | collect k p st => exact le (WatchLe.head k st (reap p (some st) a))
  | lost k st => exact le (.head k st a)
  | delBoot k => exact le (.svc (k := k) rfl id)
  | regOld z k hf => rw [regObj_some hf] at h le; exact le (.svc (k := k) rfl id)
  | regNew z hf =>
    rw [regObj_none hf] at h le; exact le (.svc (k := a.nextKey) rfl (fun h => nomatch h))
  | _ => exact .inl h

/-- A ready script is only run for those entitled. -/
theorem Prim.assocBy {lab : Lab} {a b : World} (p : Prim E lab a b) {q : Int} {j : Key}
    (h : (q, j) ∈ b.assoc) : (q, j) ∈ a.assoc ∨
      ((a.svc j).ready = true ∧ Soft a (ReadyBy lab a.toCore j)) := by
  cases p with
  | glob _ hm => rw [hm.1] at h; exact .inl h
  | state k new _ =>
    obtain ⟨t, x, _, e⟩ := setStateRaw_eq k new a
    rw [e] at h; exact .inl h
  | pause k =>
    obtain ⟨t, x, _, e⟩ := setStateRaw_eq k .paused (Sup.kill E (a.svc k).pid 19 .pause k a).2
    rw [e] at h; exact .inl h
  | retryForce k =>
    obtain ⟨t, x, _, e⟩ := setStateRaw_eq k .running
      (Sup.mod k (fun s => { s with restartTmo := s.restartSaved }) (timerCancel k a))
    obtain ⟨y, e2⟩ := timerCancel_eq k a
    rw [e, e2] at h; exact .inl h
  | retryRespawn k =>
    obtain ⟨y, e2⟩ := timerCancel_eq k a
    rw [e2] at h; exact .inl h
  | retryGiveUp k =>
    obtain ⟨y, e2⟩ := timerCancel_eq k a
    rw [e2] at h; exact .inl h
  | retryAgain k =>
    obtain ⟨y, e2⟩ := timerCancel_eq k a
    rw [e2] at h; exact .inl h
  | start k p x hp hl hb he hs => rw [start_eq k p x a hs] at h; exact .inl h
  | startBad k p => rw [startParent_eq] at h; exact .inl h
  | collect k p st =>
    obtain ⟨s', tr, t, e, _⟩ := monitorHead_eq (E := E) k st (reap p (some st) a)
    rw [e] at h; exact .inl h
  | lost k st =>
    obtain ⟨s', tr, t, e, _⟩ := monitorHead_eq (E := E) k st a
    rw [e] at h; exact .inl h
  | regOld z k hf => rw [regObj_some hf] at h; exact .inl h
  | regNew z hf => rw [regObj_none hf] at h; exact .inl h
  | readyScript k p hp hl hr hk =>
    have h' : (q, j) ∈ a.assoc ++ [(p, k)] := h
    rw [List.mem_append, List.mem_singleton] at h'
    rcases h' with h' | h'
    · exact .inl h'
    · injection h' with h1 h2
      subst h2
      exact .inr ⟨hr, hk⟩
  | assoc l hl => exact .inl (hl _ h)
  | _ => exact .inl h

/-! ### Objects off the list -/

/-- What an object that is not on the list looks like: nothing refers to it. -/
structure Buried (w : World) (k : Key) : Prop where
  timer : (w.svc k).timer = none
  watch : (w.svc k).watch = false
  assoc : ∀ p, (p, k) ∉ w.assoc
  state : (w.svc k).state = .halted ∨ (w.svc k).state = .done ∨ (w.svc k).state = .dead
  gone : (w.svc k).removed = true ∨ (w.svc k).levels = 0

/-- Every object taken off the list may run in some runlevel other than S, and at that moment no
    readiness watcher and no ready script refers to it. -/
def CleanDel (t : List (Core × Eff)) : Prop :=
  ∀ c k, (c, Eff.del k) ∈ t →
    (c.svc k).levels &&& (2 ^ 32 - 1 - 2 ^ 10) ≠ 0 ∧ (c.svc k).watch = false ∧
    ∀ p, (p, k) ∉ c.assoc

theorem CleanDel.mono {t t' : List (Core × Eff)} (h : t <:+ t') (hc : CleanDel t') : CleanDel t :=
  fun c k hm => hc c k (h.subset hm)

/-- Nothing refers to objects off the list; the three lists have nothing in common. -/
structure Bury (w : World) : Prop where
  buried : ∀ k, k ∉ w.order → Buried w k
  gc : ∀ k ∈ w.gc, k ∉ w.order ∧ k < w.nextKey
  freed : ∀ k ∈ w.freed, k ∉ w.order ∧ k < w.nextKey ∧ k ∉ w.gc
  once : w.gc.Nodup
  ub : w.ub = false

theorem Buried.not_allowed {w : World} {k : Key} (h : Buried w k) : ¬ Allowed w.toCore k := by
  rintro ⟨h1, h2⟩
  rcases h.gone with g | g
  · rw [h2] at g; cases g
  · rw [g] at h1; simp at h1

/-- Use of freed memory needs somebody who still refers to it. -/
theorem Prim.uses {lab : Lab} {a b : World} (p : Prim E lab a b) : b.ub = a.ub ∨
    ∃ k ∈ a.freed, (a.svc k).armed = true ∨ (∃ p, (p, k) ∈ a.assoc) ∨ (a.svc k).watch = true := by
  cases p with
  | ub k h hu => exact .inr ⟨k, h, hu⟩
  | glob _ hm => rw [hm.1]; exact .inl rfl
  | state k new _ =>
    obtain ⟨t, x, _, e⟩ := setStateRaw_eq k new a
    rw [e]; exact .inl rfl
  | pause k =>
    obtain ⟨t, x, _, e⟩ := setStateRaw_eq k .paused (Sup.kill E (a.svc k).pid 19 .pause k a).2
    rw [e]; exact .inl rfl
  | retryForce k =>
    obtain ⟨t, x, _, e⟩ := setStateRaw_eq k .running
      (Sup.mod k (fun s => { s with restartTmo := s.restartSaved }) (timerCancel k a))
    obtain ⟨y, e2⟩ := timerCancel_eq k a
    rw [e, e2]; exact .inl rfl
  | retryRespawn k =>
    obtain ⟨y, e2⟩ := timerCancel_eq k a
    rw [e2]; exact .inl rfl
  | retryGiveUp k =>
    obtain ⟨y, e2⟩ := timerCancel_eq k a
    rw [e2]; exact .inl rfl
  | retryAgain k =>
    obtain ⟨y, e2⟩ := timerCancel_eq k a
    rw [e2]; exact .inl rfl
  | start k p x hp hl hb he hs => rw [start_eq k p x a hs]; exact .inl rfl
  | startBad k p => rw [startParent_eq]; exact .inl rfl
  | collect k p st =>
    obtain ⟨s', tr, t, e, _⟩ := monitorHead_eq (E := E) k st (reap p (some st) a)
    rw [e]; exact .inl rfl
  | lost k st =>
    obtain ⟨s', tr, t, e, _⟩ := monitorHead_eq (E := E) k st a
    rw [e]; exact .inl rfl
  | regOld z k hf => rw [regObj_some hf]; exact .inl rfl
  | regNew z hf => rw [regObj_none hf]; exact .inl rfl
  | _ => exact .inl rfl

/-- What an event is about: a retry or a readiness report concerns a listed object, freeing
    concerns one that is not listed. -/
structure LabOk (lab : Lab) (w : World) : Prop where
  listed : ∀ k, lab = .retry k ∨ lab = .ev (.notifyReady k) → k ∈ w.order
  gone : ∀ k, lab = .ev (.gc k) → k ∉ w.order ∧ k < w.nextKey

/-- An object that is not listed stays as it is. -/
theorem Prim.still {lab : Lab} {a b : World} (p : Prim E lab a b) (hr : a.reent = false)
    (hl : LabOk lab a) {j : Key} (h : Buried a j) (ha : j ∉ a.order) (hb : j ∉ b.order) :
    (b.svc j).timer = none ∧
    ((b.svc j).state = .halted ∨ (b.svc j).state = .done ∨ (b.svc j).state = .dead) ∧
    ((b.svc j).removed = true ∨ (b.svc j).levels = 0) := by
  have na : ¬ Allowed a.toCore j := h.not_allowed
  have ne : enabled a.toCore j ≠ true := fun e => na (enabled_allowed e)
  have nl : lab ≠ .retry j := fun e => ha (hl.listed j (.inl e))
  have ns : ∀ role, ¬ ScriptState lab j role (a.svc j) := by
    intro role hs
    rcases hs with hs | hs | hs | hs
    · rcases h.state with e | e | e <;> (rw [e] at hs; cases hs.2)
    · rcases h.state with e | e | e <;> (rw [e] at hs; cases hs.2)
    · rcases h.state with e | e | e <;> (rw [e] at hs; cases hs.2)
    · exact nl hs.2.2.2
  have nst : ¬ SState.stopping.toNat < (a.svc j).state.toNat := by
    rcases h.state with e | e | e <;> rw [e] <;> decide
  cases p.view j with
  | same e => rw [e]; exact ⟨h.timer, h.state, h.gone⟩
  | mod s' hm e =>
    rw [e]
    cases hm with
    | minor _ hm => rw [hm]; exact ⟨h.timer, h.state, h.gone⟩
    | cancel => exact ⟨rfl, h.state, h.gone⟩
    | armRetry b ht hs =>
      rcases hs with hs | hs
      · exact absurd (hs hr).2.2 na
      · exact absurd hs nl
    | armScript b role ht hs => exact absurd (hs hr) (ns role)
    | armReady b ht hrd hk =>
      rcases hk hr with hk | hk | hk
      · exact absurd hk ha
      · exact absurd hk na
      · exact absurd (hl.listed j (.inr hk)) ha
    | apply z x y ho ht hb hk => exact absurd hk ha
    | _ => exact ⟨h.timer, h.state, h.gone⟩
  | state new t x hm ht e =>
    rw [e]
    have ns : new ≠ .stopping → (new = .halted ∨ new = .done ∨ new = .dead) →
        t = none ∧ (new = .halted ∨ new = .done ∨ new = .dead) ∧
        ((a.svc j).removed = true ∨ (a.svc j).levels = 0) := fun h1 h2 =>
      ⟨(ht.1 h1).1.trans h.timer, h2, h.gone⟩
    have no : ∀ {s : SState}, (a.svc j).state = s → s ≠ .halted → s ≠ .done → s ≠ .dead → False := by
      intro s e h1 h2 h3
      rcases h.state with h4 | h4 | h4
      · exact h1 (e.symm.trans h4)
      · exact h2 (e.symm.trans h4)
      · exact h3 (e.symm.trans h4)
    cases hm with
    | wake _ he => exact absurd he ne
    | redo _ _ _ _ hal => exact absurd (hal hr) na
    | dead => exact ns (by decide) (by decide)
    | tearCleanup h => exact (no h (by decide) (by decide) (by decide)).elim
    | tearHalted => exact ns (by decide) (by decide)
    | cleanHalted => exact ns (by decide) (by decide)
    | doneHalted => exact ns (by decide) (by decide)
    | stopDone => exact ns (by decide) (by decide)
    | stopTear h => exact (no (h hr).1 (by decide) (by decide) (by decide)).elim
    | stopCleanup h => exact (no (h hr).1 (by decide) (by decide) (by decide)).elim
    | stopHalted => exact ns (by decide) (by decide)
    | setupFail h => exact (no h (by decide) (by decide) (by decide)).elim
    | setupOk h => exact (no h (by decide) (by decide) (by decide)).elim
    | waitOff => exact ns (by decide) (by decide)
    | waitConflict => exact ns (by decide) (by decide)
    | waitSetup h => exact (no h (by decide) (by decide) (by decide)).elim
    | waitStart h => exact (no h (by decide) (by decide) (by decide)).elim
    | startOff => exact ns (by decide) (by decide)
    | startMissing => exact ns (by decide) (by decide)
    | crash => exact ns (by decide) (by decide)
    | complete h => exact (no h (by decide) (by decide) (by decide)).elim
    | pause h => exact (no h (by decide) (by decide) (by decide)).elim
    | cont h => exact (no h (by decide) (by decide) (by decide)).elim
    | pausedGone h => exact (no h (by decide) (by decide) (by decide)).elim
    | lost => exact ns (by decide) (by decide)
    | stop h => exact absurd h nst
    | forked _ _ _ _ _ _ _ _ _ _ hk => exact absurd hk ha
  | force x hl => exact absurd hl nl
  | respawn x hl => exact absurd hl nl
  | giveUp x hl => exact absurd hl nl
  | again x sv tm hl => exact absurd hl nl
  | age _ _ e => rw [e]; exact ⟨h.timer, h.state, h.gone⟩
  | bump _ e => rw [e]; exact ⟨h.timer, h.state, h.gone⟩
  | marks r d hr' hp hs e =>
    rw [e]
    exact ⟨h.timer, h.state, h.gone.imp hr' id⟩
  | start p x _ _ _ he => exact absurd he ne
  | startBad p x _ _ _ he => exact absurd he ne
  | script p role _ _ _ hs => exact absurd (hs hr) (ns role)
  | exit s' _ _ hs ht e =>
    have ht' : s'.timer = none := by
      rcases ht with ht | ht
      · exact ht.1.trans h.timer
      · exact ht
    have e1 : s'.state = (a.svc j).state := by rw [hs]
    have e2 : s'.removed = (a.svc j).removed := by rw [hs]
    have e3 : s'.levels = (a.svc j).levels := by rw [hs]
    rw [e, e1, e2, e3]
    exact ⟨ht', h.state, h.gone⟩
  | delBoot _ _ e => rw [e]; exact ⟨h.timer, h.state, h.gone⟩
  | reg z hf => exact absurd (regFind_mem hf) ha
  | new z hj hlt =>
    subst hj
    cases p.lists with
    | same _ hn => rw [hn] at hlt; exact absurd hlt (Nat.lt_irrefl _)
    | del _ _ _ _ hn => rw [hn] at hlt; exact absurd hlt (Nat.lt_irrefl _)
    | freeUp _ _ _ hn => rw [hn] at hlt; exact absurd hlt (Nat.lt_irrefl _)
    | free _ _ _ _ hn => rw [hn] at hlt; exact absurd hlt (Nat.lt_irrefl _)
    | new ho => rw [ho] at hb; simp at hb

theorem Prim.bury {lab : Lab} {a b : World} (p : Prim E lab a b) (hr : a.reent = false)
    (ho : OrdOk a.toCore) (hl : LabOk lab a) (harm : ArmAll a) (hc : CleanDel b.trace) (h : Bury a) :
    Bury b := by
  have hn : ∀ j, j ∉ a.order → j ∉ b.order → Buried b j := by
    intro j ha hb
    have g := h.buried j ha
    obtain ⟨h1, h2, h3⟩ := p.still hr hl g ha hb
    refine ⟨h1, ?_, ?_, h2, h3⟩
    · cases e : (b.svc j).watch with
      | false => rfl
      | true =>
        rcases p.watch e with e | e
        · rw [g.watch] at e; cases e
        · exact absurd (enabled_allowed e.1) g.not_allowed
    · intro q hq
      rcases p.assocBy hq with e | e
      · exact g.assoc q e
      · rcases e.2 hr with e | e | e
        · exact ha e
        · exact g.not_allowed e
        · exact ha (hl.listed j (.inr e))
  have hu : b.ub = false := by
    rcases p.uses with e | ⟨k, hk, e⟩
    · rw [e]; exact h.ub
    · have g := h.buried k (h.freed k hk).1
      rcases e with e | ⟨q, e⟩ | e
      · exact absurd g.timer (harm k e)
      · exact absurd e (g.assoc q)
      · rw [g.watch] at e; cases e
  cases p.lists with
  | same e1 e2 e3 e4 =>
    refine ⟨fun j hj => hn j (by rw [← e1]; exact hj) hj, ?_, ?_, ?_, hu⟩
    · rw [e1, e2, e3]; exact h.gc
    · rw [e1, e2, e3, e4]; exact h.freed
    · rw [e3]; exact h.once
  | del k c hk e1 e2 e3 e4 et es ea hs =>
    have hk := hk hr
    obtain ⟨c1, c2, c3⟩ := hc c k (by rw [et]; exact List.mem_cons_self)
    have hkb : k ∉ b.order := by rw [e1]; simp
    have hgk : k ∉ a.gc := fun hg => (h.gc k hg).1 hk
    refine ⟨?_, ?_, ?_, ?_, hu⟩
    · intro j hj
      by_cases hjk : j = k
      · subst hjk
        rw [es] at c1 c2
        rw [ea] at c3
        rcases hs with ⟨h1, h2, h3⟩ | hs
        · exact ⟨h1, c2, c3, by rcases h3 with h3 | h3 <;> simp [h3], .inl h2⟩
        · exact absurd hs c1
      · refine hn j (fun hja => hj ?_) hj
        rw [e1]; simp [hja, hjk]
    · intro j hj
      rw [e3, List.mem_append, List.mem_singleton] at hj
      rcases hj with hj | hj
      · refine ⟨fun hb => (h.gc j hj).1 ?_, by rw [e2]; exact (h.gc j hj).2⟩
        rw [e1] at hb; exact (List.mem_filter.mp hb).1
      · subst hj; exact ⟨hkb, by rw [e2]; exact ho.2 _ hk⟩
    · intro j hj
      rw [e4] at hj
      obtain ⟨f1, f2, f3⟩ := h.freed j hj
      refine ⟨fun hb => f1 ?_, by rw [e2]; exact f2, fun hg => ?_⟩
      · rw [e1] at hb; exact (List.mem_filter.mp hb).1
      · rw [e3, List.mem_append, List.mem_singleton] at hg
        rcases hg with hg | hg
        · exact f3 hg
        · exact f1 (hg ▸ hk)
    · rw [e3, List.nodup_append]
      exact ⟨h.once, by simp, fun x hx y hy e => by
        rw [List.mem_singleton] at hy; subst hy; subst e; exact hgk hx⟩
  | new e1 e2 e3 e4 =>
    refine ⟨fun j hj => hn j (fun hja => hj (by rw [e1]; simp [hja])) hj, ?_, ?_, ?_, hu⟩
    · intro j hj
      rw [e3] at hj
      obtain ⟨f1, f2⟩ := h.gc j hj
      refine ⟨fun hb => ?_, by rw [e2]; exact Nat.lt_succ_of_lt f2⟩
      rw [e1, List.mem_append, List.mem_singleton] at hb
      rcases hb with hb | hb
      · exact f1 hb
      · exact absurd hb (Nat.ne_of_lt f2)
    · intro j hj
      rw [e4] at hj
      obtain ⟨f1, f2, f3⟩ := h.freed j hj
      refine ⟨fun hb => ?_, by rw [e2]; exact Nat.lt_succ_of_lt f2, by rw [e3]; exact f3⟩
      rw [e1, List.mem_append, List.mem_singleton] at hb
      rcases hb with hb | hb
      · exact f1 hb
      · exact absurd hb (Nat.ne_of_lt f2)
    · rw [e3]; exact h.once
  | freeUp k hk e1 e2 e3 e4 =>
    refine ⟨fun j hj => hn j (by rw [← e1]; exact hj) hj, ?_, ?_, ?_, hu⟩
    · intro j hj
      rw [e3] at hj; rw [e1, e2]; exact h.gc j (List.mem_filter.mp hj).1
    · intro j hj
      rw [e4] at hj; rw [e1, e2, e3]
      obtain ⟨f1, f2, f3⟩ := h.freed j hj
      exact ⟨f1, f2, fun hg => f3 (List.mem_filter.mp hg).1⟩
    · rw [e3]; exact h.once.filter _
  | free k hlab hk e1 e2 e3 e4 =>
    refine ⟨fun j hj => hn j (by rw [← e1]; exact hj) hj, ?_, ?_, ?_, hu⟩
    · rw [e1, e2, e3]; exact h.gc
    · intro j hj
      rw [e4, List.mem_cons] at hj; rw [e1, e2, e3]
      rcases hj with hj | hj
      · subst hj
        obtain ⟨g1, g2⟩ := hl.gone _ hlab
        exact ⟨g1, g2, hk hr⟩
      · exact h.freed j hj
    · rw [e3]; exact h.once

/-! ### From events to atomic updates -/

theorem Steps.back {lab : Lab} {a b : World} (h : Steps E lab a b) {k : Key} (hk : k < a.nextKey)
    (hb : k ∈ b.order) : k ∈ a.order := by
  induction h with
  | refl => exact hb
  | @tail y z hs p ih =>
    have : a.nextKey ≤ y.nextKey :=
      Steps.inv (P := fun w => a.nextKey ≤ w.nextKey) (fun _ _ p h => Nat.le_trans h p.nextKey) hs
        (Nat.le_refl _)
    exact ih (p.back (Nat.lt_of_lt_of_le hk this) hb)

theorem Steps.snap {lab : Lab} {a b : World} (h : Steps E lab a b) : a.trace <:+ b.trace :=
  Steps.inv (P := fun w => a.trace <:+ w.trace) (fun _ _ p h => h.trans p.snap.1) h
    (List.suffix_refl _)

theorem Steps.bury {lab : Lab} {a b : World} (h : Steps E lab a b) (hr : b.reent = false)
    (ho : OrdOk a.toCore) (harm : ArmAll a) (ha : Bury a)
    (h1 : ∀ k, lab = .retry k ∨ lab = .ev (.notifyReady k) → k ∈ b.order ∧ k < a.nextKey)
    (h2 : ∀ k, lab = .ev (.gc k) → k ∉ a.order ∧ k < a.nextKey) (hc : CleanDel b.trace) : Bury b := by
  induction h with
  | refl => exact ha
  | @tail y z hs p ih =>
    have hy : y.reent = false := p.reent_false hr
    have hle : a.nextKey ≤ y.nextKey :=
      Steps.inv (P := fun w => a.nextKey ≤ w.nextKey) (fun _ _ p h => Nat.le_trans h p.nextKey) hs
        (Nat.le_refl _)
    have h1' : ∀ k, lab = .retry k ∨ lab = .ev (.notifyReady k) → k ∈ y.order ∧ k < a.nextKey :=
      fun k hk => ⟨p.back (Nat.lt_of_lt_of_le (h1 k hk).2 hle) (h1 k hk).1, (h1 k hk).2⟩
    exact p.bury hy (hs.ord ho)
      ⟨fun k hk => (h1' k hk).1, fun k hk =>
        ⟨fun hm => (h2 k hk).1 (hs.back (h2 k hk).2 hm), Nat.lt_of_lt_of_le (h2 k hk).2 hle⟩⟩
      (Steps.inv (P := ArmAll) (fun _ _ p => p.arm) hs harm) hc
      (ih hy h1' (hc.mono p.snap.1))

/-- The list of services is left alone. -/
structure Stay (w w' : World) : Prop where
  mono : w.reent = true → w'.reent = true
  eq : w'.reent = false → w'.order = w.order

theorem Stay.refl (w : World) : Stay w w := ⟨id, fun _ => rfl⟩

theorem Stay.trans {a b c : World} (h1 : Stay a b) (h2 : Stay b c) : Stay a c :=
  ⟨fun h => h2.mono (h1.mono h), fun h => (h2.eq h).trans (h1.eq (Sup.reent_false h2.mono h))⟩

theorem Stay.of {a b : World} (hr : b.reent = a.reent) (e : b.order = a.order) : Stay a b :=
  ⟨fun h => hr.trans h, fun _ => e⟩

theorem Pre.stay {lab : Lab} {S : Key → Prop} {a b : World} (h : Pre E lab S a b) : Stay a b := by
  refine ⟨h.mono, fun hr => ?_⟩
  have e0 : (Glob b).order = (Glob a).order := congrArg Core.order (h.frame hr).2.1
  exact e0

theorem Good.stay {lab : Lab} {S : Key → Prop} {a b : World} (h : Good E lab S a b) : Stay a b :=
  h.pre.stay

theorem Stay.cancel (k : Key) (w : World) : Stay w (timerCancel k w) := by
  unfold timerCancel; split
  · exact .of rfl rfl
  · exact .refl w

theorem Stay.after (k : Key) (tmo : Int) (cb : Cb) (w : World) : Stay w (timerAfter k tmo cb w) := by
  unfold timerAfter; split
  · exact .refl w
  · split
    · exact .refl w
    · exact .of rfl rfl

theorem Stay.fork (k : Key) (role : Role) (w : World) : Stay w (Sup.fork E k role w).2 := by
  rcases fork_cases (E := E) k role w with e | ⟨q, h1, h2, e⟩ <;> rw [e]
  · exact .of rfl rfl
  · exact .of rfl rfl

theorem Stay.stateRaw (k : Key) (new : SState) (w : World) : Stay w (setStateRaw k new w) := by
  obtain ⟨t, x, _, e⟩ := setStateRaw_eq k new w
  rw [e]; exact .of rfl rfl

variable {R : Rec}

theorem Stay.state {lab : Lab} (h : ROk E lab R) (k : Key) (new : SState) (w : World) :
    Stay w (setState R k new w) := by
  unfold setState
  extract_lets old w1
  have g1 : Stay w w1 := .stateRaw k new w
  split
  · exact g1
  · rename_i hn
    exact g1.trans (setStateConds_raw (E := E) (lab := lab) h (k := k) (new := new) (w := w) hn).1.stay

theorem Stay.serviceRetry {k : Key} (h : ROk E (.retry k) R) (w : World) :
    Stay w (Sup.serviceRetry E R k w) := by
  unfold Sup.serviceRetry
  extract_lets svc0 w1 r noresp w2 c0 wf w3 w4 w5 w6 w7 w8
  have g2 : Stay w w2 := (Stay.cancel k w).trans (.of rfl rfl)
  have gm : ∀ (f : Svc → Svc) (u : World), Stay u (Sup.mod k f u) := fun _ _ => .of rfl rfl
  split
  · exact g2
  split
  · exact (g2.trans (gm _ _)).trans (h.step k _).stay
  split
  · have gf : Stay w2 wf := .of rfl rfl
    exact ((g2.trans gf).trans (gm _ _)).trans (.state h k _ _)
  split
  · have g4 : Stay w w4 := g2.trans (.of rfl rfl)
    have g5 : Stay w4 w5 := by
      simp only [w5]; split
      · exact .of rfl rfl
      · split
        · unfold scriptFork
          extract_lets r p u1 u2
          have a : Stay w4 u2 := (Stay.fork k _ w4).trans (gm _ _)
          split
          · exact a
          · exact a.trans (.after k _ _ _)
        · exact .refl w4
      · exact .refl w4
    exact (g4.trans g5).trans (h.step k w5).stay
  · have g7 : Stay w w7 := g2.trans (.of rfl rfl)
    exact (g7.trans (h.step k w7).stay).trans (.after k _ _ _)

theorem Stay.notifyReady {k : Key} (h : ROk E (.ev (.notifyReady k)) R) (w : World) :
    Stay w (Sup.notifyReady E R k w) := by
  unfold Sup.notifyReady
  extract_lets w1 w2 w3
  have g1 : Stay w w1 := by simp only [w1]; split <;> exact .of rfl rfl
  have g2 : Stay w w2 := g1.trans (.of rfl rfl)
  have g3 : Stay w w3 := g2.trans
    (serviceReady_good h k true w2 fun _ _ => .inr (.inr rfl)).stay
  split
  · exact g3.trans (.of rfl rfl)
  · exact g3

/-- As long as objects are taken off the list in good order, nothing refers to objects that are
    not listed, and no freed memory is used. -/
theorem Reach.bury {w : World} (h : Reach E w) (hr : w.reent = false) (hc : CleanDel w.trace) :
    Bury w := by
  induction h with
  | start cfg cmd =>
    exact ⟨fun k _ => ⟨rfl, rfl, fun p hp => (nomatch hp), .inl rfl, .inr rfl⟩,
      fun k hk => (nomatch hk), fun k hk => (nomatch hk), List.nodup_nil, rfl⟩
  | @event w n ev hw ih =>
    have hwr := hw.reent n ev hr
    have hs := hw.steps n ev
    have ha := ih hwr (hc.mono hs.snap)
    have hb := hw.basic
    -- the two kinds of event about a listed object
    have main : handle E n ev w = w ∨
        ((∀ k, labOf w ev = .retry k ∨ labOf w ev = .ev (.notifyReady k) →
            k ∈ (handle E n ev w).order ∧ k < w.nextKey) ∧
          ∀ k, labOf w ev = .ev (.gc k) → k ∉ w.order ∧ k < w.nextKey) := by
      by_cases hd : w.down = true
      · left; unfold handle; simp [hd]
      have hd : w.down = false := by simpa using hd
      by_cases hbo : w.booted = false
      · cases ev with
        | boot => exact .inr ⟨fun k hk => (by rcases hk with hk | hk <;> cases hk), fun k hk => (by cases hk)⟩
        | _ => left; unfold handle; simp [hd, hbo]
      have hbo : w.booted = true := by simpa using hbo
      have listed : ∀ k, ¬ Buried w k → k ∈ w.order ∧ k < w.nextKey := by
        intro k hk
        by_cases hm : k ∈ w.order
        · exact ⟨hm, hb.1.2 k hm⟩
        · exact absurd (ha.buried k hm) hk
      cases ev with
      | timer k =>
        by_cases harm : (w.svc k).armed = true
        · right
          refine ⟨fun j hj => ?_, fun j hj => ?_⟩
          · rcases hj with hj | hj
            · obtain ⟨e, ht⟩ := labOf_retry hj
              injection e with e
              subst e
              obtain ⟨hm, hlt⟩ := listed k (fun g => by rw [g.timer] at ht; cases ht)
              refine ⟨?_, hlt⟩
              have st : Stay w (handle E n (.timer k) w) := by
                have e : handle E n (.timer k) w = timerFire E (mkRec E n) k w := by
                  unfold handle; simp [hd, hbo]
                rw [e]
                unfold timerFire
                split
                · exact .refl w
                extract_lets w1 w2
                have e1 : w1.svc = w.svc := by simp only [w1]; split <;> rfl
                have g1 : Stay w w1 := by simp only [w1]; split <;> exact .of rfl rfl
                have g2 : Stay w w2 := g1.trans (.of rfl rfl)
                have e2 : (w2.svc k).timer = some .retry := by
                  simp only [w2, Sup.mod, upd_same, e1]; exact ht
                rw [e2]
                exact g2.trans (.serviceRetry (mkRec_ok n) w2)
              rw [st.eq hr]; exact hm
            · have := labOf_ev hj; cases this
          · have := labOf_ev hj; cases this
        · left; unfold handle timerFire; simp [hd, hbo, harm]
      | notifyReady k =>
        by_cases hwt : (w.svc k).watch = true
        · right
          refine ⟨fun j hj => ?_, fun j hj => ?_⟩
          · rcases hj with hj | hj
            · cases hj
            · have := labOf_ev hj
              injection this with e
              subst e
              obtain ⟨hm, hlt⟩ := listed k (fun g => by rw [g.watch] at hwt; cases hwt)
              refine ⟨?_, hlt⟩
              have st : Stay w (handle E n (.notifyReady k) w) := by
                unfold handle
                simp only [hd, hbo, hwt, Bool.false_eq_true, if_false, if_true, Bool.true_eq_false]
                exact .notifyReady (mkRec_ok n) w
              rw [st.eq hr]; exact hm
          · have := labOf_ev hj; cases this
        · left; unfold handle; simp [hd, hbo, hwt]
      | gc k =>
        by_cases hg : k ∈ w.gc
        · right
          refine ⟨fun j hj => ?_, fun j hj => ?_⟩
          · rcases hj with hj | hj <;> cases hj
          · have := labOf_ev hj
            injection this with e
            subst e
            exact ha.gc k hg
        · left; unfold handle; simp [hd, hbo, hg]
      | _ => exact .inr ⟨fun k hk => (by rcases hk with hk | hk <;> cases hk), fun k hk => (by cases hk)⟩
    rcases main with e | ⟨h1, h2⟩
    · rw [e]; exact ha
    · exact hs.bury hr hb.1 hw.arm ha h1 h2 hc

/-! ### Nothing is freed twice -/

theorem Prim.freed {lab : Lab} {a b : World} (p : Prim E lab a b) (h : ∀ k, lab ≠ .ev (.gc k)) :
    b.freed = a.freed := by
  cases p.lists with
  | same _ _ _ e => exact e
  | del _ _ _ _ _ _ e => exact e
  | new _ _ _ e => exact e
  | freeUp _ _ _ _ _ e => exact e
  | free k hl => exact absurd hl (h k)

theorem gcOne_freed {lab : Lab} (h : ROk E lab R) (k : Key) (w : World)
    (hr : (gcOne R k w).reent = false) : (gcOne R k w).freed = k :: w.freed := by
  unfold gcOne at hr ⊢
  extract_lets w1 w2 at hr ⊢
  show k :: w2.freed = k :: w.freed
  have : w2.freed = w1.freed := by
    have g : Good E lab (fun _ => False) w1 w2 ∨ w2 = w1 := by
      simp only [w2]; split
      · exact .inr rfl
      · exact .inl ((condClear_good h (NameOk.pid w1 k)).weaken (fun _ h => h.elim))
    rcases g with g | g
    · have e0 : (Glob w2).freed = (Glob w1).freed := congrArg Core.freed (g.frame hr).2.1
      exact e0
    · rw [g]
  rw [this]

theorem Reach.freed_once {w : World} (h : Reach E w) (hr : w.reent = false)
    (hc : CleanDel w.trace) : w.freed.Nodup := by
  induction h with
  | start cfg cmd => exact List.nodup_nil
  | @event w n ev hw ih =>
    have hwr := hw.reent n ev hr
    have hs := hw.steps n ev
    have hcw := hc.mono hs.snap
    have ih := ih hwr hcw
    have ha := hw.bury hwr hcw
    by_cases hg : ∃ k, ev = .gc k
    · obtain ⟨k, rfl⟩ := hg
      have : handle E n (.gc k) w = w ∨ (k ∈ w.gc ∧ handle E n (.gc k) w = gcOne (mkRec E n) k w) := by
        unfold handle
        by_cases hd : w.down = true
        · simp [hd]
        by_cases hb : w.booted = false
        · simp [hd, hb]
        by_cases hk : k ∈ w.gc
        · simp [hd, hb, hk]
        · simp [hd, hb, hk]
      rcases this with e | ⟨hk, e⟩
      · rw [e]; exact ih
      · rw [e] at hr ⊢
        rw [gcOne_freed (E := E) (lab := .ev (.gc k)) (mkRec_ok n) k w hr]
        exact List.nodup_cons.mpr ⟨fun hf => (ha.freed k hf).2.2 hk, ih⟩
    · have e : (handle E n ev w).freed = w.freed :=
        Steps.inv (P := fun v => v.freed = w.freed)
          (fun _ _ p h => (p.freed (fun k hk => hg ⟨k, labOf_ev hk⟩)).trans h) hs rfl
      rw [e]; exact ih

/-! ### Entries about objects taken off the list -/

theorem Prim.dels {lab : Lab} {a b : World} (p : Prim E lab a b) (hr : a.reent = false) {c : Core}
    {k : Key} (h : (c, Eff.del k) ∈ b.trace) : (c, Eff.del k) ∈ a.trace ∨
      (c.svc k = b.svc k ∧ c.assoc = b.assoc ∧ k ∈ a.order) := by
  have hd : ∀ {j : Key}, j ∉ b.order → j ∈ a.order →
      (c, Eff.del k) ∈ a.trace ∨ (c.svc k = b.svc k ∧ c.assoc = b.assoc ∧ k ∈ a.order) := by
    intro j hb ha
    cases p.lists with
    | same ho => rw [ho] at hb; exact absurd ha hb
    | freeUp _ _ ho => rw [ho] at hb; exact absurd ha hb
    | free _ _ _ ho => rw [ho] at hb; exact absurd ha hb
    | new ho => rw [ho] at hb; exact absurd (List.mem_append_left _ ha) hb
    | del i c' hk ho hn hg hf ht hs hc =>
      rw [ht, List.mem_cons] at h
      rcases h with h | h
      · injection h with h1 h2
        injection h2 with h2
        subst h1; subst h2
        exact .inr ⟨hs, hc, hk hr⟩
      · exact .inl h
  have hm : (c, Eff.del k) ∈ mine k b.trace := mem_mine.mpr ⟨h, rfl⟩
  have keep : mine k b.trace = mine k a.trace → (c, Eff.del k) ∈ a.trace := fun e =>
    (mem_mine.mp (e ▸ hm)).1
  have cons : ∀ {x : Core × Eff}, mine k b.trace = x :: mine k a.trace → x.2 ≠ .del k →
      (c, Eff.del k) ∈ a.trace := by
    intro x e hx
    rw [e, List.mem_cons] at hm
    rcases hm with hm | hm
    · exact absurd (by rw [← hm]) hx
    · exact (mem_mine.mp hm).1
  cases p.turn k with
  | same _ e => exact .inl (keep e)
  | mod _ _ _ e => exact .inl (keep e)
  | state _ _ _ _ _ _ _ e =>
    split at e
    · exact .inl (keep e)
    · exact .inl (cons e (fun h => nomatch h))
  | force _ _ _ _ _ _ _ _ e =>
    split at e
    · exact .inl (keep e)
    · exact .inl (cons e (fun h => nomatch h))
  | respawn _ _ _ _ _ e => exact .inl (keep e)
  | giveUp _ _ _ _ _ _ _ _ _ e => obtain ⟨_, e⟩ := e; exact .inl (cons e (fun h => nomatch h))
  | again _ _ _ _ _ _ _ _ _ _ e => obtain ⟨_, e, _⟩ := e; exact .inl (cons e (fun h => nomatch h))
  | age _ _ _ e => exact .inl (cons e (fun h => nomatch h))
  | bump _ _ e => exact .inl (cons e (fun h => nomatch h))
  | forced _ _ _ _ e => exact .inl (cons e (fun h => nomatch h))
  | lifted _ _ _ e => exact .inl (cons e (fun h => nomatch h))
  | asked _ e => exact .inl (cons e (fun h => nomatch h))
  | marks _ _ _ _ _ _ e => exact .inl (keep e)
  | start p x c' _ _ _ _ _ _ e =>
    rw [e, List.mem_cons, List.mem_cons] at hm
    rcases hm with hm | hm | hm
    · cases hm
    · cases hm
    · exact .inl (mem_mine.mp hm).1
  | startBad _ _ _ _ _ _ _ _ _ e => exact .inl (cons e (fun h => nomatch h))
  | script _ _ _ _ _ _ _ e => exact .inl (keep e)
  | exit _ _ _ _ _ e => exact .inl (keep e)
  | del _ _ hb _ _ ha => exact hd hb (ha hr)
  | delBoot _ hb _ _ ha => exact hd hb (ha hr)
  | reg _ _ _ _ _ e => exact .inl (cons e (fun h => nomatch h))
  | new _ _ _ _ _ _ e => exact .inl (cons e (fun h => nomatch h))

/-- A configuration without ready scripts, without readiness reported through a socket, and
    without services for runlevel S alone. -/
def PlainConf (E : Env) : Prop :=
  ∀ t, ∀ z ∈ E.conf t, z.ready = none ∧ z.notify ≠ .systemd ∧ z.notify ≠ .s6 ∧
    z.levels &&& (2 ^ 32 - 1 - 2 ^ 10) ≠ 0

structure PlainW (w : World) : Prop where
  svc : ∀ k, (w.svc k).ready = false ∧ (w.svc k).notify ≠ .systemd ∧ (w.svc k).notify ≠ .s6 ∧
    (w.svc k).watch = false
  levels : ∀ k ∈ w.order, (w.svc k).levels &&& (2 ^ 32 - 1 - 2 ^ 10) ≠ 0
  assoc : ∀ p k, (p, k) ∉ w.assoc
  del : CleanDel w.trace

theorem Prim.plainW {lab : Lab} {a b : World} (hE : PlainConf E) (p : Prim E lab a b)
    (hr : a.reent = false) (h : PlainW a) : PlainW b := by
  have hw : ∀ k, (b.svc k).watch = false := by
    intro k
    cases e : (b.svc k).watch with
    | false => rfl
    | true =>
      rcases p.watch e with e | ⟨_, e | e⟩
      · rw [(h.svc k).2.2.2] at e; cases e
      · exact absurd e (h.svc k).2.1
      · exact absurd e (h.svc k).2.2.1
  have ha : ∀ q k, (q, k) ∉ b.assoc := by
    intro q k hq
    rcases p.assocBy hq with e | e
    · exact h.assoc q k e
    · rw [(h.svc k).1] at e; cases e.1
  have hs : ∀ k, ((b.svc k).ready = false ∧ (b.svc k).notify ≠ .systemd ∧ (b.svc k).notify ≠ .s6) ∧
      ((b.svc k).levels = (a.svc k).levels ∨ (b.svc k).levels &&& (2 ^ 32 - 1 - 2 ^ 10) ≠ 0) := by
    intro k
    obtain ⟨h1, h2, h3, _⟩ := h.svc k
    cases p.view k with
    | same e => rw [e]; exact ⟨⟨h1, h2, h3⟩, .inl rfl⟩
    | mod s' hm e =>
      rw [e]
      cases hm with
      | minor _ hm => rw [hm]; exact ⟨⟨h1, h2, h3⟩, .inl rfl⟩
      | apply z x y ho ht hb hk hz hh hs hf hr hc =>
        obtain ⟨t, _, hc⟩ := hc
        obtain ⟨g1, g2, g3, g4⟩ := hE t z hc
        obtain ⟨_, _, _, _, _, _, _, _, _, _, _, _, e⟩ := applyStanza_eq z x y (a.svc k)
        rw [e]
        exact ⟨⟨by simp [g1], g2, g3⟩, .inr g4⟩
      | _ => exact ⟨⟨h1, h2, h3⟩, .inl rfl⟩
    | exit s' _ _ hs _ e => rw [e, hs]; exact ⟨⟨h1, h2, h3⟩, .inl rfl⟩
    | new z _ _ hz _ _ e =>
      obtain ⟨t, hz⟩ := hz
      rw [e]
      exact ⟨⟨rfl, by simp, by simp⟩, .inr (hE t z hz).2.2.2⟩
    | age _ _ e | bump _ e | marks _ _ _ _ _ e | state _ _ _ _ _ e | force _ _ _ _ _ _ e
    | respawn _ _ _ _ e | giveUp _ _ _ _ _ _ _ _ e | again _ _ _ _ _ _ _ _ _ e
    | start _ _ _ _ _ _ _ e | startBad _ _ _ _ _ _ _ _ e | script _ _ _ _ _ _ e
    | delBoot _ _ e | reg _ _ _ _ _ e => rw [e]; exact ⟨⟨h1, h2, h3⟩, .inl rfl⟩
  refine ⟨fun k => ⟨(hs k).1.1, (hs k).1.2.1, (hs k).1.2.2, hw k⟩, ?_, ha, ?_⟩
  · intro k hk
    by_cases hka : k ∈ a.order
    · rcases (hs k).2 with e | e
      · rw [e]; exact h.levels k hka
      · exact e
    · cases p.lists with
      | same ho => rw [ho] at hk; exact absurd hk hka
      | freeUp _ _ ho => rw [ho] at hk; exact absurd hk hka
      | free _ _ _ ho => rw [ho] at hk; exact absurd hk hka
      | del _ _ _ ho => rw [ho] at hk; exact absurd (List.mem_filter.mp hk).1 hka
      | new ho hn _ _ hz =>
        rw [ho, List.mem_append, List.mem_singleton] at hk
        rcases hk with hk | hk
        · exact absurd hk hka
        subst hk
        obtain ⟨t, z, hz, e⟩ := hz
        rw [e]; exact (hE t z hz).2.2.2
  · intro c k hm
    rcases p.dels hr hm with e | ⟨e1, e2, e3⟩
    · exact h.del c k e
    · rw [e1, e2]
      refine ⟨?_, hw k, fun q => ha q k⟩
      rcases (hs k).2 with e | e
      · rw [e]; exact h.levels k e3
      · exact e

theorem Reach.plainW {w : World} (hE : PlainConf E) (h : Reach E w) (hr : w.reent = false) :
    PlainW w :=
  Reach.inv_soft (P := PlainW)
    (fun _ _ => ⟨fun _ => ⟨rfl, by simp [World.start], by simp [World.start], rfl⟩,
      fun k hk => (nomatch hk), fun _ _ hp => (nomatch hp), fun c k hk => (nomatch hk)⟩)
    (fun _ _ _ _ hr p h => p.plainW hE hr h) h hr

end

end Verif.Sup
