import Verif.Sup.Hist

/-!
# Supervisor model: the set of registered services

How each atomic update affects which services are registered, with what configuration, and the
record of the last reading of the configuration.
-/

namespace Verif.Sup

open Verif (CStr CondStore)

section
variable {E : Env}

/-- Entries about the set of registered services. -/
def Eff.book : Eff → Bool
  | .new _ | .reg _ | .del _ | .conf _ | .confEnd => true
  | _ => false

/-- Nothing about the set of registered services was recorded. -/
def SameBook (t t' : List (Core × Eff)) : Prop :=
  lastConf t' = lastConf t ∧ ∀ y, y.2.book = true → (y ∈ sinceConf t' ↔ y ∈ sinceConf t)

theorem SameBook.refl (t : List (Core × Eff)) : SameBook t t := ⟨rfl, fun _ _ => Iff.rfl⟩

theorem SameBook.trans {a b c : List (Core × Eff)} (h1 : SameBook a b) (h2 : SameBook b c) :
    SameBook a c := ⟨h2.1.trans h1.1, fun y hy => (h2.2 y hy).trans (h1.2 y hy)⟩

theorem SameBook.skip {x : Core × Eff} {t : List (Core × Eff)} (h : x.2.book = false) :
    SameBook t (x :: t) := by
  obtain ⟨c, e⟩ := x
  have key : lastConf ((c, e) :: t) = lastConf t ∧ sinceConf ((c, e) :: t) = (c, e) :: sinceConf t := by
    cases e <;> first | exact ⟨rfl, rfl⟩ | cases h
  refine ⟨key.1, fun y hy => ?_⟩
  rw [key.2, List.mem_cons]
  refine ⟨fun h' => ?_, .inr⟩
  rcases h' with rfl | h'
  · rw [h] at hy; cases hy
  · exact h'

theorem SameBook.skip2 {x y : Core × Eff} {t : List (Core × Eff)} (h : x.2.book = false)
    (h2 : y.2.book = false) : SameBook t (x :: y :: t) := (SameBook.skip h2).trans (.skip h)

theorem upd_cfg {f : Key → Svc} {k j : Key} {s : Svc} (h : s.cfg = (f k).cfg) :
    (upd f k s j).cfg = (f j).cfg := by
  simp only [upd]; split
  · rename_i e; rw [e, h]
  · rfl

/-- How one atomic update affects the set of registered services. -/
inductive Regist (E : Env) (a b : World) : Prop
  | same (hs : ∀ j, (b.svc j).cfg = (a.svc j).cfg) (ho : b.order = a.order)
      (hn : b.nextKey = a.nextKey) (ht : SameBook a.trace b.trace)
  | read (hs : Soft a (a.sm = .bootstrap ∨ a.sm = .rlChange ∨ a.sm = .reloadChange))
      (e : b = markDynamic (emit (.conf a.tick) a))
  | done (hs : Soft a (a.sm = .bootstrap ∨ a.sm = .rlChange ∨ a.sm = .reloadChange))
      (e : b = markUnavail (emit .confEnd a))
  | apply (k : Key) (z : Stanza) (x y : Bool) (hk : k ∈ a.order)
      (hf : (a.svc k).zs.head? = some z) (hr : (a.svc k).removed = false)
      (hc : ∃ t, lastConf a.trace = some t ∧ z ∈ E.conf t)
      (hs : Soft a (a.sm = .bootstrap ∨ a.sm = .rlChange ∨ a.sm = .reloadChange))
      (e : b = { a with svc := upd a.svc k (applyStanza z x y (a.svc k)) })
      (hh : a.trace.head?.map (·.2) = some (.reg k) ∨ a.trace.head?.map (·.2) = some (.new k))
  | reg (z : Stanza) (k : Key) (h : regFind z a.toCore = some k)
      (hz : ∃ t, lastConf a.trace = some t ∧ z ∈ E.conf t)
      (hs : Soft a (a.sm = .bootstrap ∨ a.sm = .rlChange ∨ a.sm = .reloadChange))
      (e : b = regObj z a)
  | new (z : Stanza) (h : regFind z a.toCore = none)
      (hz : ∃ t, lastConf a.trace = some t ∧ z ∈ E.conf t)
      (hs : Soft a (a.sm = .bootstrap ∨ a.sm = .rlChange ∨ a.sm = .reloadChange))
      (e : b = regObj z a)
  | del (k : Key) (ht : (a.svc k).timer = none) (hr : (a.svc k).removed = true)
      (hs : (a.svc k).state = .dead ∨ (a.svc k).state = .done) (e : b = svcDel k a)
  | delBoot (k : Key) (h : (a.svc k).levels &&& (2 ^ 32 - 1 - 2 ^ 10) = 0)
      (e : b = svcDel k (mod k (fun s => { s with pid := 0 }) a))

theorem Prim.regist {lab : Lab} {a b : World} (h : Prim E lab a b) : Regist E a b := by
  have same : b.svc = a.svc → b.order = a.order → b.nextKey = a.nextKey → b.trace = a.trace →
      Regist E a b := fun h1 h2 h3 h4 =>
    .same (fun j => by rw [h1]) h2 h3 (by rw [h4]; exact .refl _)
  cases h with
  | glob _ h => apply same <;> rw [h.1]
  | ub => exact same rfl rfl rfl rfl
  | svc k s' h =>
    cases h with
    | minor _ h => exact .same (fun j => upd_cfg (by rw [h]; rfl)) rfl rfl (.refl _)
    | apply z x y ho ht hb hk hz hh hs hf hr hc => exact .apply k z x y hk hf hr hc hs rfl hh
    | _ => exact .same (fun j => upd_cfg rfl) rfl rfl (.refl _)
  | state k new h =>
    obtain ⟨t, x, ht, e⟩ := setStateRaw_eq k new a
    rw [e]
    refine .same (fun j => upd_cfg rfl) rfl rfl ?_
    dsimp only; split
    · exact .refl _
    · exact .skip rfl
  | pause k h hp he ha =>
    obtain ⟨t, x, ht, e⟩ := setStateRaw_eq k .paused (Sup.kill E (a.svc k).pid 19 .pause k a).2
    rw [e]
    refine .same (fun j => upd_cfg (f := a.svc) rfl) rfl rfl ?_
    dsimp only; split
    · exact .skip rfl
    · exact .skip2 rfl rfl
  | retryForce k h ht hr hs =>
    obtain ⟨y, e2⟩ := timerCancel_eq k a
    rw [e2]
    simp only [Sup.mod, upd_same, upd_upd]
    obtain ⟨t, x, _, e⟩ := setStateRaw_eq k .running
      { a with svc := upd a.svc k { a.svc k with timer := none, armed := y,
                                                 restartTmo := (a.svc k).restartSaved } }
    rw [e]
    simp only [upd_same, upd_upd]
    refine .same (fun j => upd_cfg rfl) rfl rfl ?_
    dsimp only; split
    · exact .refl _
    · exact .skip rfl
  | retryRespawn k =>
    obtain ⟨y, e2⟩ := timerCancel_eq k a
    rw [e2]
    simp only [Sup.mod, upd_same, upd_upd]
    exact .same (fun j => upd_cfg rfl) rfl rfl (.refl _)
  | retryGiveUp k =>
    obtain ⟨y, e2⟩ := timerCancel_eq k a
    rw [e2]
    simp only [Sup.mod, emit, upd_same, upd_upd]
    exact .same (fun j => upd_cfg rfl) rfl rfl (.skip rfl)
  | retryAgain k =>
    obtain ⟨y, e2⟩ := timerCancel_eq k a
    rw [e2]
    simp only [Sup.mod, emit, upd_same, upd_upd]
    exact .same (fun j => upd_cfg rfl) rfl rfl (.skip rfl)
  | age k h hs => exact .same (fun j => upd_cfg rfl) rfl rfl (.skip rfl)
  | forced => exact .same (fun _ => rfl) rfl rfl (.skip rfl)
  | asked => exact .same (fun _ => rfl) rfl rfl (.skip rfl)
  | lifted => exact .same (fun _ => rfl) rfl rfl (.skip rfl)
  | bump k h => exact .same (fun j => upd_cfg rfl) rfl rfl (.skip rfl)
  | dirty => exact .same (fun _ => rfl) rfl rfl (.refl _)
  | confRead hs => exact .read hs rfl
  | confEnd hs => exact .done hs rfl
  | kill => exact .same (fun _ => rfl) rfl rfl (.skip rfl)
  | rebootSelf => exact .same (fun _ => rfl) rfl rfl (.skip rfl)
  | start k p x hp hl hb he hs =>
    have e := start_eq k p x a hs
    dsimp only at e
    rw [e]
    exact .same (fun j => upd_cfg rfl) rfl rfl (.skip2 rfl rfl)
  | startBad k p hp hl hb he hs hn =>
    rw [startParent_eq]
    exact .same (fun j => upd_cfg (f := a.svc) rfl) rfl rfl (.skip rfl)
  | script k p role hp hl hr h => exact .same (fun j => upd_cfg (f := a.svc) rfl) rfl rfl (.skip rfl)
  | readyScript => exact .same (fun _ => rfl) rfl rfl (.skip rfl)
  | sysvStop => exact .same (fun _ => rfl) rfl rfl (.skip rfl)
  | scriptRun => exact .same (fun _ => rfl) rfl rfl (.skip2 rfl rfl)
  | collect k p st =>
    obtain ⟨s', tr, t, e, es, _, etr⟩ := monitorHead_eq (E := E) k st (reap p (some st) a)
    rw [e]
    refine .same (fun j => upd_cfg (f := a.svc) (by rw [es]; rfl)) rfl rfl ?_
    rcases etr with rfl | rfl
    · exact .skip rfl
    · exact .skip2 rfl rfl
  | collectOther => exact .same (fun _ => rfl) rfl rfl (.skip rfl)
  | lost k st =>
    obtain ⟨s', tr, t, e, es, _, etr⟩ := monitorHead_eq (E := E) k st a
    rw [e]
    refine .same (fun j => upd_cfg (f := a.svc) (by rw [es]; rfl)) rfl rfl ?_
    rcases etr with rfl | rfl
    · exact .refl _
    · exact .skip rfl
  | del k ht hr hs => exact .del k ht hr hs rfl
  | delBoot k h => exact .delBoot k h rfl
  | regOld z k h hz hs => exact .reg z k h hz hs rfl
  | regNew z h hz hs => exact .new z h hz hs rfl
  | runlevel => exact .same (fun _ => rfl) rfl rfl (.skip rfl)
  | stopped | sweep => exact .same (fun _ => rfl) rfl rfl (.skip rfl)
  | shutdown => exact .same (fun _ => rfl) rfl rfl (.skip rfl)
  | _ => exact same rfl rfl rfl rfl

/-- How one atomic update affects the state of `sm_step` and the runlevel. -/
theorem Prim.smLevel {lab : Lab} {a b : World} (h : Prim E lab a b) :
    (b.sm = a.sm ∧ (b.runlevel = a.runlevel ∨ a.sm = .rlChange)) ∨
    ∃ st, SmMod a st ∧ b = { a with sm := st } := by
  cases h with
  | glob _ h => left; constructor; { rw [h.1] }; { left; rw [h.1] }
  | state k new h =>
    obtain ⟨t, x, _, e⟩ := setStateRaw_eq k new a
    rw [e]; exact .inl ⟨rfl, .inl rfl⟩
  | pause k =>
    obtain ⟨t, x, _, e⟩ := setStateRaw_eq k .paused (Sup.kill E (a.svc k).pid 19 .pause k a).2
    rw [e]; exact .inl ⟨rfl, .inl rfl⟩
  | retryForce k =>
    obtain ⟨t, x, _, e⟩ := setStateRaw_eq k .running
      (mod k (fun s => { s with restartTmo := s.restartSaved }) (timerCancel k a))
    obtain ⟨y, e2⟩ := timerCancel_eq k a
    rw [e, e2]; exact .inl ⟨rfl, .inl rfl⟩
  | retryRespawn k =>
    obtain ⟨y, e2⟩ := timerCancel_eq k a
    rw [e2]; exact .inl ⟨rfl, .inl rfl⟩
  | retryGiveUp k =>
    obtain ⟨y, e2⟩ := timerCancel_eq k a
    rw [e2]; exact .inl ⟨rfl, .inl rfl⟩
  | retryAgain k =>
    obtain ⟨y, e2⟩ := timerCancel_eq k a
    rw [e2]; exact .inl ⟨rfl, .inl rfl⟩
  | start k p x hp hl hb he hs =>
    rw [start_eq k p x a hs]; exact .inl ⟨rfl, .inl rfl⟩
  | startBad k p => rw [startParent_eq]; exact .inl ⟨rfl, .inl rfl⟩
  | collect k p st =>
    obtain ⟨s', tr, t, e, _⟩ := monitorHead_eq (E := E) k st (reap p (some st) a)
    rw [e]; exact .inl ⟨rfl, .inl rfl⟩
  | lost k st =>
    obtain ⟨s', tr, t, e, _⟩ := monitorHead_eq (E := E) k st a
    rw [e]; exact .inl ⟨rfl, .inl rfl⟩
  | regOld z k h =>
    unfold regObj; rw [h]; exact .inl ⟨rfl, .inl rfl⟩
  | regNew z h =>
    unfold regObj; rw [h]; exact .inl ⟨rfl, .inl rfl⟩
  | sm st h => exact .inr ⟨st, h, rfl⟩
  | runlevel h => exact .inl ⟨rfl, .inr h⟩
  | _ => exact .inl ⟨rfl, .inl rfl⟩

theorem cfg_removed {s t : Svc} (h : s.cfg = t.cfg) : s.removed = t.removed := by
  have := congrArg Svc.removed h; exact this
theorem cfg_protect {s t : Svc} (h : s.cfg = t.cfg) : s.protect = t.protect := by
  have := congrArg Svc.protect h; exact this
theorem cfg_zs {s t : Svc} (h : s.cfg = t.cfg) : s.zs = t.zs := by
  have := congrArg Svc.zs h; exact this

/-! ## Nobody is marked for removal while the supervisor is at rest -/

/-- While `sm_step` is at rest, after bootstrap, no registered service is marked for removal. -/
theorem Reach.unmarked {w : World} (h : Reach E w) (hr : w.reent = false) (ho : w.oof = false)
    (hs : w.sm = .running) (hl : w.runlevel ≠ 10) : ∀ k ∈ w.order, (w.svc k).removed = false := by
  have key : (w.sm = .bootstrap ∨ w.sm = .bootstrapWait → w.runlevel = 10) ∧
      (w.sm = .running → w.runlevel = 10 ∨
        (w.oof = false → ∀ k ∈ w.order, (w.svc k).removed = false)) := by
    refine Reach.inv_soft (P := fun w => (w.sm = .bootstrap ∨ w.sm = .bootstrapWait → w.runlevel = 10) ∧
      (w.sm = .running → w.runlevel = 10 ∨
        (w.oof = false → ∀ k ∈ w.order, (w.svc k).removed = false))) ?_ ?_ h hr
    · exact fun _ _ => ⟨fun _ => rfl, nofun⟩
    · intro lab a b ord ha p ih
      rcases p.smLevel with ⟨e1, e2⟩ | ⟨st, hm, e⟩
      · have lv : a.sm ≠ .rlChange → b.runlevel = a.runlevel := fun hn => e2.resolve_right hn
        refine ⟨fun hb => ?_, fun hb => ?_⟩
        · rw [e1] at hb
          rw [lv (by rcases hb with hb | hb <;> rw [hb] <;> decide)]
          exact ih.1 hb
        · rw [e1] at hb
          rw [lv (by rw [hb]; decide)]
          refine (ih.2 hb).imp_right fun ih ho k hk => ?_
          have hoa : a.oof = false := by
            cases e : a.oof with
            | false => rfl
            | true => rw [p.oof e] at ho; cases ho
          have ih := ih hoa
          have no : ¬ (a.sm = .bootstrap ∨ a.sm = .rlChange ∨ a.sm = .reloadChange) := by
            rw [hb]; decide
          cases p.regist with
          | same hs ho hn ht => rw [cfg_removed (hs k)]; exact ih k (ho ▸ hk)
          | read hs => exact absurd (hs ha) no
          | done hs => exact absurd (hs ha) no
          | apply k z x y hk hf hr hc hs => exact absurd (hs ha) no
          | reg z k h hz hs => exact absurd (hs ha) no
          | new z h hz hs => exact absurd (hs ha) no
          | del j ht hr hs e =>
            subst e
            exact ih k (List.mem_filter.mp hk).1
          | delBoot j h e =>
            subst e
            have := ih k (List.mem_filter.mp hk).1
            simp only [svcDel, emit, mod, upd]; split
            · rename_i e; rw [← e]; exact this
            · exact this
      · subst e
        cases hm with
        | bootWait h => exact ⟨fun _ => ih.1 (.inl (h ha)), nofun⟩
        | up h hb => exact ⟨nofun, fun _ => .inl (ih.1 (.inr (h ha)))⟩
        | rlDone h hn => exact ⟨nofun, fun _ => .inr (hn ha)⟩
        | reloadDone h hn => exact ⟨nofun, fun _ => .inr (hn ha)⟩
        | _ => exact ⟨nofun, nofun⟩
  exact (key.2 hs).resolve_left hl ho

/-! ## Registered services come from the configuration -/

/-- Service `k` was last registered with a stanza of the last reading of the configuration. -/
def FromConf (E : Env) (w : World) (k : Key) : Prop :=
  ∃ t z, lastConf w.trace = some t ∧ (w.svc k).zs.head? = some z ∧ z ∈ E.conf t

theorem regFind_name {z : Stanza} {c : Core} {k : Key} (h : regFind z c = some k) (ht : z.type ≠ .tty) :
    (c.svc k).name = z.name ∧ (c.svc k).id = z.id := by
  unfold regFind at h
  rw [if_neg ht] at h
  unfold find at h
  have := List.find?_some h
  simpa using this

theorem regOld_svc {z : Stanza} {w : World} {k : Key} (h : regFind z w.toCore = some k) (j : Key) :
    (regObj z w).svc j = if j = k then
      { w.svc k with type := z.type, block := if z.manual then (w.svc k).block else .none
                     odd := (w.svc k).odd || z.odd, zs := z :: (w.svc k).zs, removed := false }
      else w.svc j := by
  unfold regObj; rw [h]; rfl

theorem regNew_svc {z : Stanza} {w : World} (h : regFind z w.toCore = none) (j : Key) :
    (regObj z w).svc j = if j = w.nextKey then
      { name := z.name, id := z.id, type := z.type, block := if z.manual then .user else .none, levels := z.levels,
        odd := z.odd, zs := [z] }
      else w.svc j := by
  unfold regObj; rw [h]; rfl

theorem regOld_order {z : Stanza} {w : World} {k : Key} (h : regFind z w.toCore = some k) :
    (regObj z w).order = w.order := by unfold regObj; rw [h]; rfl

theorem regNew_order {z : Stanza} {w : World} (h : regFind z w.toCore = none) :
    (regObj z w).order = w.order ++ [w.nextKey] := by unfold regObj; rw [h]; rfl

theorem regOld_trace {z : Stanza} {w : World} {k : Key} (h : regFind z w.toCore = some k) :
    (regObj z w).trace = (w.toCore, .reg k) :: w.trace := by unfold regObj; rw [h]; rfl

theorem regNew_trace {z : Stanza} {w : World} (h : regFind z w.toCore = none) :
    (regObj z w).trace = (w.toCore, .new w.nextKey) :: w.trace := by unfold regObj; rw [h]; rfl

/-- Every registered service that is not marked for removal is either protected or comes from the
    last reading of the configuration, and goes by the name it has there. -/
theorem Reach.fromConf {w : World} (h : Reach E w) : ∀ k ∈ w.order,
    ((w.svc k).removed = false → (w.svc k).protect = true ∨ FromConf E w k) ∧
    ∃ z, (w.svc k).zs.head? = some z ∧
      (z.type = .tty ∨ ((w.svc k).name = z.name ∧ (w.svc k).id = z.id)) ∧ (w.svc k).type = z.type := by
  refine Reach.inv (P := fun w => ∀ k ∈ w.order,
    ((w.svc k).removed = false → (w.svc k).protect = true ∨ FromConf E w k) ∧
    ∃ z, (w.svc k).zs.head? = some z ∧
      (z.type = .tty ∨ ((w.svc k).name = z.name ∧ (w.svc k).id = z.id)) ∧ (w.svc k).type = z.type) ?_ ?_ h
  · exact fun _ _ k hk => nomatch hk
  · intro lab a b ord p ih k hk
    cases p.regist with
    | same hs ho hn ht =>
      obtain ⟨i1, z, i2, i3, i4⟩ := ih k (ho ▸ hk)
      have hz := cfg_zs (hs k)
      have hnm : (b.svc k).name = (a.svc k).name := by
        have := congrArg Svc.name (hs k); exact this
      have hid : (b.svc k).id = (a.svc k).id := by
        have := congrArg Svc.id (hs k); exact this
      have hty : (b.svc k).type = (a.svc k).type := by
        have := congrArg Svc.type (hs k); exact this
      refine ⟨fun hr => ?_, z, by rw [hz]; exact i2, by rw [hnm, hid]; exact i3, by rw [hty]; exact i4⟩
      rw [cfg_removed (hs k)] at hr
      rw [cfg_protect (hs k)]
      refine (i1 hr).imp_right ?_
      rintro ⟨t, z, h1, h2, h3⟩
      exact ⟨t, z, ht.1.trans h1, by rw [hz]; exact h2, h3⟩
    | read hs e =>
      subst e
      have hk : k ∈ a.order := hk
      obtain ⟨i1, i2⟩ := ih k hk
      rw [markDynamic_svc]
      refine ⟨fun hr => ?_, i2⟩
      by_cases hp : (a.svc k).protect = true
      · exact .inl hp
      · exact absurd ((if_pos ⟨hk, (by simpa using hp : (a.svc k).protect = false)⟩).symm.trans hr)
          (by simp)
    | done hs e =>
      subst e
      have hk : k ∈ a.order := hk
      obtain ⟨i1, i2⟩ := ih k hk
      unfold FromConf
      rw [markUnavail_svc]
      refine ⟨fun hr => ?_, i2⟩
      have hr : (a.svc k).removed = false := by
        by_cases h0 : (a.svc k).removed = true
        · exact absurd ((mark_keep h0).symm.trans hr) (by simp)
        · simpa using h0
      refine (i1 hr).imp_right ?_
      rintro ⟨t, z, h1, h2, h3⟩
      exact ⟨t, z, h1, h2, h3⟩
    | apply j z x y hj hf hr hc hs e =>
      subst e
      obtain ⟨i1, i2⟩ := ih k hk
      obtain ⟨_, _, _, _, _, _, _, _, _, _, _, _, e⟩ := applyStanza_eq z x y (a.svc j)
      by_cases hkj : k = j
      · subst hkj
        unfold FromConf
        simp only [upd_same]
        rw [e]
        obtain ⟨t, h1, h2⟩ := hc
        exact ⟨fun _ => .inr ⟨t, z, h1, hf, h2⟩, i2⟩
      · unfold FromConf
        simp only [upd_other _ _ _ _ hkj]
        exact ⟨i1, i2⟩
    | reg z j h hz hs e =>
      subst e
      rw [regOld_order h] at hk
      obtain ⟨i1, i2⟩ := ih k hk
      unfold FromConf
      rw [regOld_svc h, regOld_trace h]
      by_cases hkj : k = j
      · subst hkj
        rw [if_pos rfl]
        obtain ⟨t, h1, h2⟩ := hz
        refine ⟨fun _ => .inr ⟨t, z, h1, rfl, h2⟩, z, rfl, ?_, rfl⟩
        by_cases ht : z.type = .tty
        · exact .inl ht
        · exact .inr (regFind_name h ht)
      · rw [if_neg hkj]; exact ⟨i1, i2⟩
    | new z h hz hs e =>
      subst e
      rw [regNew_order h] at hk
      unfold FromConf
      rw [regNew_svc h, regNew_trace h]
      by_cases hkj : k = a.nextKey
      · subst hkj
        rw [if_pos rfl]
        obtain ⟨t, h1, h2⟩ := hz
        exact ⟨fun _ => .inr ⟨t, z, h1, rfl, h2⟩, z, rfl, .inr ⟨rfl, rfl⟩, rfl⟩
      · rw [if_neg hkj]
        have hk : k ∈ a.order := by
          rcases List.mem_append.mp hk with hk | hk
          · exact hk
          · exact absurd (List.mem_singleton.mp hk) hkj
        exact ih k hk
    | del j ht hr hs e =>
      subst e
      exact ih k (List.mem_filter.mp hk).1
    | delBoot j h e =>
      subst e
      have := ih k (List.mem_filter.mp hk).1
      unfold FromConf
      simp only [svcDel, emit, mod, upd]; split
      · rename_i e; rw [← e]; exact this
      · exact this

/-! ## What the last reading registered stays registered -/

/-- Service `k` was registered by the last reading of the configuration. -/
def Listed (w : World) (k : Key) : Prop :=
  ∃ c e, (c, e) ∈ sinceConf w.trace ∧ (e = .reg k ∨ e = .new k)

/-- The last reading of the configuration found the `if:` statement of `k` not to hold. -/
def Unavail (w : World) (k : Key) : Prop :=
  ∃ c, (c, .confEnd) ∈ sinceConf w.trace ∧ (c.svc k).ifstmt ≠ [] ∧
    ifthenConf c (c.svc k).ifstmt = false

/-- Service `k` belonged to the bootstrap runlevel only, and was dropped. -/
def BootGone (w : World) (k : Key) : Prop :=
  ∃ c, (c, .del k) ∈ sinceConf w.trace ∧ (c.svc k).levels &&& (2 ^ 32 - 1 - 2 ^ 10) = 0

theorem since_cons {x : Core × Eff} {t : List (Core × Eff)} (h : ∀ n, x.2 ≠ .conf n) :
    sinceConf (x :: t) = x :: sinceConf t := by
  obtain ⟨c, e⟩ := x
  cases e <;> first | rfl | exact absurd rfl (h _)

theorem Reach.listed {w : World} (h : Reach E w) : ∀ k, Listed w k →
    (k ∈ w.order ∧ (w.svc k).removed = false) ∨ Unavail w k ∨ BootGone w k := by
  refine Reach.inv (P := fun w => ∀ k, Listed w k →
    (k ∈ w.order ∧ (w.svc k).removed = false) ∨ Unavail w k ∨ BootGone w k) ?_ ?_ h
  · rintro _ _ k ⟨c, e, h, _⟩
    exact nomatch h
  · intro lab a b ord p ih k hk
    obtain ⟨c, e, hk, hx⟩ := hk
    have old : ∀ x : Core × Eff, b.trace = x :: a.trace → (∀ n, x.2 ≠ .conf n) →
        (Unavail a k → Unavail b k) ∧ (BootGone a k → BootGone b k) := by
      intro x hx hn
      refine ⟨?_, ?_⟩
      · rintro ⟨c, h1, h2⟩
        exact ⟨c, by rw [hx, since_cons hn]; exact List.mem_cons_of_mem _ h1, h2⟩
      · rintro ⟨c, h1, h2⟩
        exact ⟨c, by rw [hx, since_cons hn]; exact List.mem_cons_of_mem _ h1, h2⟩
    cases p.regist with
    | same hs ho hn ht =>
      have hb : e.book = true := by rcases hx with rfl | rfl <;> rfl
      rcases ih k ⟨c, e, (ht.2 (c, e) hb).mp hk, hx⟩ with h | ⟨c', h, h'⟩ | ⟨c', h, h'⟩
      · exact .inl ⟨ho ▸ h.1, (cfg_removed (hs k)).trans h.2⟩
      · exact .inr (.inl ⟨c', (ht.2 (c', .confEnd) rfl).mpr h, h'⟩)
      · exact .inr (.inr ⟨c', (ht.2 (c', .del k) rfl).mpr h, h'⟩)
    | read hs e =>
      subst e
      exact nomatch hk
    | done hs e' =>
      subst e'
      obtain ⟨o1, o2⟩ := old (a.toCore, .confEnd) rfl nofun
      have hk : (c, e) ∈ (a.toCore, Eff.confEnd) :: sinceConf a.trace := hk
      have hk : (c, e) ∈ sinceConf a.trace := by
        rcases List.mem_cons.mp hk with h | h
        · injection h with _ h; subst h; rcases hx with h | h <;> cases h
        · exact h
      rcases ih k ⟨c, e, hk, hx⟩ with h | h | h
      · rw [markUnavail_svc]
        by_cases hc : k ∈ a.order ∧ (a.svc k).ifstmt ≠ [] ∧ ifthenConf a.toCore (a.svc k).ifstmt = false ∧
            (a.svc k).protect = false
        · exact .inr (.inl ⟨a.toCore, List.mem_cons_self .., hc.2.1, hc.2.2.1⟩)
        · exact .inl ⟨h.1, (if_neg hc).trans h.2⟩
      · exact .inr (.inl (o1 h))
      · exact .inr (.inr (o2 h))
    | apply j z x y hj hf hr hc hs e' =>
      subst e'
      rcases ih k ⟨c, e, hk, hx⟩ with h | h | h
      · refine .inl ⟨h.1, ?_⟩
        obtain ⟨_, _, _, _, _, _, _, _, _, _, _, _, e⟩ := applyStanza_eq z x y (a.svc j)
        by_cases hkj : k = j
        · subst hkj; simp only [upd_same]; rw [e]
        · simp only [upd_other _ _ _ _ hkj]; exact h.2
      · exact .inr (.inl h)
      · exact .inr (.inr h)
    | reg z j h hz hs e' =>
      subst e'
      rw [regOld_trace h, since_cons (x := (a.toCore, .reg j)) nofun] at hk
      obtain ⟨o1, o2⟩ := old (a.toCore, .reg j) (regOld_trace h) nofun
      rw [regOld_svc h, regOld_order h]
      by_cases hkj : k = j
      · subst hkj
        rw [if_pos rfl]; exact .inl ⟨regFind_mem h, rfl⟩
      · rw [if_neg hkj]
        rcases List.mem_cons.mp hk with h | h
        · injection h with _ h; subst h
          rcases hx with h | h
          · injection h with h; exact absurd h.symm hkj
          · cases h
        · rcases ih k ⟨c, e, h, hx⟩ with h | h | h
          · exact .inl h
          · exact .inr (.inl (o1 h))
          · exact .inr (.inr (o2 h))
    | new z h hz hs e' =>
      subst e'
      rw [regNew_trace h, since_cons (x := (a.toCore, .new a.nextKey)) nofun] at hk
      obtain ⟨o1, o2⟩ := old (a.toCore, .new a.nextKey) (regNew_trace h) nofun
      rw [regNew_svc h, regNew_order h]
      by_cases hkj : k = a.nextKey
      · subst hkj
        rw [if_pos rfl]; exact .inl ⟨by simp, rfl⟩
      · rw [if_neg hkj]
        rcases List.mem_cons.mp hk with h | h
        · injection h with _ h; subst h
          rcases hx with h | h
          · cases h
          · injection h with h; exact absurd h.symm hkj
        · rcases ih k ⟨c, e, h, hx⟩ with h | h | h
          · exact .inl ⟨List.mem_append_left _ h.1, h.2⟩
          · exact .inr (.inl (o1 h))
          · exact .inr (.inr (o2 h))
    | del j ht hr hs e' =>
      subst e'
      have hk : (c, e) ∈ (a.toCore, Eff.del j) :: sinceConf a.trace := hk
      obtain ⟨o1, o2⟩ := old (a.toCore, .del j) rfl nofun
      rcases List.mem_cons.mp hk with h | h
      · injection h with _ h; subst h; rcases hx with h | h <;> cases h
      · rcases ih k ⟨c, e, h, hx⟩ with h | h | h
        · refine .inl ⟨List.mem_filter.mpr ⟨h.1, ?_⟩, h.2⟩
          have : k ≠ j := fun e => by rw [e, hr] at h; cases h.2
          simpa using this
        · exact .inr (.inl (o1 h))
        · exact .inr (.inr (o2 h))
    | delBoot j hl e' =>
      subst e'
      have nc : ∀ n, ((mod j (fun s => { s with pid := 0 }) a).toCore, Eff.del j).2 ≠ .conf n := nofun
      have et : (svcDel j (mod j (fun s => { s with pid := 0 }) a)).trace =
          ((mod j (fun s => { s with pid := 0 }) a).toCore, .del j) :: a.trace := rfl
      obtain ⟨o1, o2⟩ := old _ et nc
      rw [et, since_cons nc] at hk
      rcases List.mem_cons.mp hk with h | h
      · injection h with _ h; subst h; rcases hx with h | h <;> cases h
      · rcases ih k ⟨c, e, h, hx⟩ with h | h | h
        · by_cases hkj : k = j
          · subst hkj
            refine .inr (.inr ⟨_, by rw [et, since_cons nc]; exact List.mem_cons_self .., ?_⟩)
            simpa [mod] using hl
          · refine .inl ⟨List.mem_filter.mpr ⟨h.1, by simpa using hkj⟩, ?_⟩
            show ((upd a.svc j _) k).removed = false
            rw [upd_other _ _ _ _ hkj]; exact h.2
        · exact .inr (.inl (o1 h))
        · exact .inr (.inr (o2 h))

end

end Verif.Sup
