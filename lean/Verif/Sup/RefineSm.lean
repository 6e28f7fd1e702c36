import Verif.Sup.Settle

/-!
# Supervisor model: `sm_step` and the events are sequences of atomic steps
-/

namespace Verif.Sup

open Verif (CStr CondStore)

section
variable {E : Env} {lab : Lab} {S : Key → Prop} {R : Rec}

theorem Good.soft {a b : World} {Q : Core → Prop} (h : Good E lab S a b) (hq : Soft a (Q (Glob a))) :
    Soft b (Q (Glob b)) := by
  intro hr
  rw [(h.frame hr).2.1]
  exact hq (reent_false h.mono hr)

/-- Work on `k` from outside its own step. -/
theorem Good.touched {k : Key} {a b : World} (h : Good E lab (Oth k (Sup.touch k a)) (Sup.touch k a) b) :
    Good E lab (fun j => j ∈ a.stack) a b := by
  by_cases hk : k ∈ a.stack
  · have e : Sup.touch k a = { a with reent := true } := by simp only [Sup.touch, if_pos hk]
    have hr : (Sup.touch k a).reent = true := by rw [e]
    have g : Good E lab (fun j => j ∈ a.stack) (Sup.touch k a) b := SmGood.reent h.sm hr _
    exact (Good.touch k a).trans g
  · have e : Sup.touch k a = a := by simp only [Sup.touch, if_neg hk]
    rw [e] at h
    exact h.weaken fun j hj => ⟨hj, fun ej => hk (ej ▸ hj)⟩

theorem runtaskClean_good (h : ROk E lab R) (w : World) :
    Good E lab (fun j => j ∈ w.stack) w (runtaskClean R w) := by
  unfold runtaskClean
  apply forAll_good
  intro k w
  split
  · extract_lets w1 w2
    refine Good.touched (k := k) ?_
    have g1 : Good E lab (Oth k (touch k w)) (touch k w) w2 := .minor rfl (not_oth k _)
    split
    · rename_i hd; exact g1.next (setState_oth h (.doneHalted hd))
    · exact g1
  · exact .refl w

theorem hookWrites_good : ∀ (l : List CStr) (w : World), Good E lab S w (hookWrites l w) := by
  intro l
  induction l with
  | nil => intro w; exact .refl w
  | cons n ns ih =>
    intro w
    unfold hookWrites
    refine Good.trans ?_ (ih _)
    split
    · rename_i hn; exact .conds (.hook n hn)
    · exact .refl w

theorem runHook_good (h : ROk E lab R) {n : CStr} (hn : n ∈ intNames) (w : World) :
    Good E lab (fun j => j ∈ w.stack) w (runHook E R n w) := by
  unfold runHook
  extract_lets w1 w2
  have g1 : Good E lab (fun j => j ∈ w.stack) w w1 := (Good.tick w _).trans (hookWrites_good _ _)
  have g2 : Good E lab (fun j => j ∈ w1.stack) w1 w2 := condOneshot_good h (.int n hn)
  exact (g1.then g2).then (stepAll_good h _ w2)

theorem pidfileReconf_good (h : ROk E lab R) (w : World) :
    Good E lab (fun j => j ∈ w.stack) w (pidfileReconf E R w) := by
  unfold pidfileReconf
  extract_lets w1
  have g1 : Good E lab (fun j => j ∈ w.stack) w w1 := by
    apply forAll_good_mem
    intro k w hk
    have hk : Soft w (ReadyBy lab w.toCore k) := fun hr => .inl (hk hr)
    extract_lets s w2 w3
    split
    · refine Good.touched (k := k) ?_
      have g3 : Good E lab (Oth k (touch k w)) (touch k w) w3 := by
        simp only [w3]; split
        · exact serviceReady_good h k true _ fun _ =>
            ReadyBy.good (Good.touch (E := E) (S := fun _ => False) k w) hk
        · exact .refl _
      split
      · exact g3
      · exact g3.next (.conds (.pidPath k))
    · exact .refl w
  exact g1.then (stepAll_good h _ w1)

theorem notifyReconf_good (h : ROk E lab R) (w : World) :
    Good E lab (fun j => j ∈ w.stack) w (notifyReconf E R w) := by
  unfold notifyReconf
  apply forAll_good_mem
  intro k w hk
  have hk : Soft w (ReadyBy lab w.toCore k) := fun hr => .inl (hk hr)
  extract_lets s
  split
  · exact .refl w
  · exact Good.touched (k := k) (serviceReady_good h k true _ fun _ =>
      ReadyBy.good (Good.touch (E := E) (S := fun _ => False) k w) hk)

/-! ### Configuration -/

/-- A sequence of steps that leaves `sm_step` where it is. -/
structure ConfGood (E : Env) (lab : Lab) (w w' : World) : Prop extends SmGood E lab w w' where
  sm : w'.sm = w.sm
  reent : w'.reent = w.reent

theorem ConfGood.refl (w : World) : ConfGood E lab w w := ⟨.refl w, rfl, rfl⟩

theorem ConfGood.trans {a b c : World} (h1 : ConfGood E lab a b) (h2 : ConfGood E lab b c) :
    ConfGood E lab a c :=
  ⟨h1.toSmGood.trans h2.toSmGood, h2.sm.trans h1.sm, h2.reent.trans h1.reent⟩

/-- `conf_reload` runs only in these states. -/
def ConfSt (w : World) : Prop := Soft w (w.sm = .bootstrap ∨ w.sm = .rlChange ∨ w.sm = .reloadChange)

theorem ConfSt.good {a b : World} (h : ConfGood E lab a b) (ha : ConfSt a) : ConfSt b := by
  intro hr
  rw [h.sm]; exact ha (by rw [← h.reent]; exact hr)

theorem confRead_good {w : World} (hc : ConfSt w) :
    ConfGood E lab w (markDynamic (emit (.conf w.tick) w)) :=
  ⟨.of_prim (.confRead w hc) rfl id, rfl, rfl⟩

theorem confEnd_good {w : World} (hc : ConfSt w) :
    ConfGood E lab w (markUnavail (emit .confEnd w)) :=
  ⟨.of_prim (.confEnd w hc) rfl id, rfl, rfl⟩

theorem markAffected_good {w : World} (n : CStr) (hc : ConfSt w) :
    ConfGood E lab w (markAffected n w) := by
  have e : markAffected n w = { w with
      svc := fun k => { w.svc k with
        dirty := (if k ∈ w.order ∧ (w.svc k).hasCond = true ∧ condAffects n (w.svc k).cond = true
          then true else (w.svc k).dirty) } } := by
    unfold markAffected; congr 2; funext k
    split <;> rfl
  rw [e]
  exact ⟨.of_prim (.dirty w _ hc) rfl id, rfl, rfl⟩

theorem updateRdeps_good : ∀ (l : List Key) (w : World), ConfSt w →
    ConfGood E lab w (updateRdeps l w) := by
  intro l
  induction l with
  | nil => intro w _; exact .refl w
  | cons k ks ih =>
    intro w hc
    unfold updateRdeps; split
    · have g := markAffected_good (E := E) (lab := lab) (w.svc k).pidCond hc
      exact g.trans (ih _ (hc.good g))
    · exact ih w hc

theorem Good.conf {a b : World} (h : Good E lab S a b) (hs : b.sm = a.sm) (hr : b.reent = a.reent) :
    ConfGood E lab a b := ⟨h.sm, hs, hr⟩

theorem regObj_some {z : Stanza} {w : World} {k : Key} (h : regFind z w.toCore = some k) :
    regObj z w = mod k (fun s => { s with
        type := z.type, block := if z.manual then s.block else .none, odd := s.odd || z.odd
        zs := z :: s.zs, removed := false })
      (emit (.reg k) w) := by
  unfold regObj; rw [h]

theorem regObj_none {z : Stanza} {w : World} (h : regFind z w.toCore = none) :
    regObj z w = { emit (.new w.nextKey) w with
      svc := upd w.svc w.nextKey { name := z.name, id := z.id, type := z.type,
                                   block := if z.manual then .user else .none, levels := z.levels,
                                   odd := z.odd, zs := [z] },
      order := w.order ++ [w.nextKey], nextKey := w.nextKey + 1,
      main := upd w.main w.nextKey [] } := by
  unfold regObj; rw [h]; rfl

theorem regFind_mem {z : Stanza} {c : Core} {k : Key} (h : regFind z c = some k) : k ∈ c.order := by
  unfold regFind at h
  split at h
  · unfold findByTty at h; split at h
    · cases h
    · exact List.mem_of_find?_eq_some h
  · exact List.mem_of_find?_eq_some h

theorem register_conf (z : Stanza) (w : World) :
    lastConf (register E z w).trace = lastConf w.trace := by
  unfold register
  split
  · rfl
  split
  · rfl
  extract_lets r w1 k w2 ra rc
  split
  · rfl
  show lastConf w2.trace = _
  cases hf : regFind z w1.toCore with
  | some j => rw [show w2 = _ from regObj_some hf]; rfl
  | none => rw [show w2 = _ from regObj_none hf]; rfl

theorem register_good (z : Stanza) {w : World} (hz : ∃ t, lastConf w.trace = some t ∧ z ∈ E.conf t)
    (hc : ConfSt w) : ConfGood E lab w (register E z w) := by
  unfold register
  split
  · exact .refl w
  split
  · exact .refl w
  extract_lets r w1 k w2 ra rc
  have g1 : ConfGood E lab w r.2 := Good.conf (S := fun _ => False) (.askB w) rfl rfl
  split
  · exact g1
  have g2 : ConfGood E lab w1 w2 := by
    cases hf : regFind z w1.toCore with
    | some j =>
      have e : w2 = _ := regObj_some hf
      have p : Prim E lab w1 w2 := .regOld w1 z j hf hz (hc.good g1)
      refine ⟨.of_prim p ?_ ?_ ?_, ?_, ?_⟩ <;> rw [e] <;> first | rfl | exact id
    | none =>
      have e : w2 = _ := regObj_none hf
      have p : Prim E lab w1 w2 := .regNew w1 z hf hz (hc.good g1)
      refine ⟨.of_prim p ?_ ?_ ?_, ?_, ?_⟩ <;> rw [e] <;> first | rfl | exact id
  have fields : (w2.svc k).type = z.type ∧ (z.odd = true → (w2.svc k).odd = true) ∧
      (z.manual = false → (w2.svc k).block = .none) ∧ k ∈ w2.order ∧ (w2.svc k).zs.head? = some z ∧
      (w2.trace.head?.map (·.2) = some (.reg k) ∨ w2.trace.head?.map (·.2) = some (.new k)) ∧
      (w2.svc k).removed = false ∧ lastConf w2.trace = lastConf w.trace := by
    cases hf : regFind z w1.toCore with
    | some j =>
      have ek : k = j := by simp only [k, hf]; rfl
      have e : w2 = _ := regObj_some hf
      rw [e, ek]
      simp only [Sup.mod, upd_same, emit]
      exact ⟨trivial, fun h => by simp [h], fun h => by simp [h], regFind_mem hf, by simp, .inl rfl, trivial, rfl⟩
    | none =>
      have ek : k = w1.nextKey := by simp only [k, hf]; rfl
      have e : w2 = _ := regObj_none hf
      rw [e, ek]
      simp only [upd_same]
      exact ⟨trivial, fun h => h, fun h => by simp [h], by simp, by simp, .inr rfl, trivial, rfl⟩
  have g3 : ConfGood E lab w2 rc.2 :=
    Good.conf (S := fun _ => False) ((Good.askB w2).trans (.askB _)) rfl rfl
  have g13 := (g1.trans g2).trans g3
  refine g13.trans ?_
  refine ⟨.of_prim (.svc rc.2 k _ (.apply z ra.1 rc.1 ?_ ?_ ?_ ?_ ?_ ?_ (hc.good g13) ?_ ?_ ?_)) rfl id, rfl, rfl⟩
  · exact fields.2.1
  · exact fields.1
  · exact fields.2.2.1
  · exact fields.2.2.2.1
  · exact List.mem_of_head? fields.2.2.2.2.1
  · exact fields.2.2.2.2.2.1
  · exact fields.2.2.2.2.1
  · exact fields.2.2.2.2.2.2.1
  · show ∃ t, lastConf w2.trace = some t ∧ _
    rw [fields.2.2.2.2.2.2.2]; exact hz

theorem registerAll_good : ∀ (l : List Stanza) (w : World),
    (∀ z ∈ l, ∃ t, lastConf w.trace = some t ∧ z ∈ E.conf t) → ConfSt w →
    ConfGood E lab w (registerAll E l w) := by
  intro l
  induction l with
  | nil => intro w _ _; exact .refl w
  | cons z zs ih =>
    intro w hz hc
    unfold registerAll
    have g := register_good (E := E) (lab := lab) z (hz z (List.mem_cons_self ..)) hc
    exact g.trans (ih _ (fun z h => by rw [register_conf]; exact hz z (List.mem_cons_of_mem _ h)) (hc.good g))

theorem register_fields (z : Stanza) (w : World) :
    (register E z w).inReload = w.inReload ∧ (register E z w).sm = w.sm ∧
    (register E z w).runlevel = w.runlevel ∧ (register E z w).reent = w.reent ∧
    (register E z w).live = w.live ∧ (register E z w).runBlock = w.runBlock := by
  unfold register
  split
  · simp
  split
  · simp
  extract_lets r w1 k w2 ra rc
  split
  · exact ⟨rfl, rfl, rfl, rfl, rfl, rfl⟩
  have key : w2.inReload = w.inReload ∧ w2.sm = w.sm ∧ w2.runlevel = w.runlevel ∧
      w2.reent = w.reent ∧ w2.live = w.live ∧ w2.runBlock = w.runBlock := by
    cases hf : regFind z w1.toCore with
    | some j =>
      have e : w2 = _ := regObj_some hf
      rw [e]; exact ⟨rfl, rfl, rfl, rfl, rfl, rfl⟩
    | none =>
      have e : w2 = _ := regObj_none hf
      rw [e]; exact ⟨rfl, rfl, rfl, rfl, rfl, rfl⟩
  exact key

theorem confReload_fields (w : World) :
    (confReload E w).inReload = w.inReload ∧ (confReload E w).sm = w.sm ∧
    (confReload E w).runlevel = w.runlevel ∧ (confReload E w).reent = w.reent ∧
    (confReload E w).live = w.live ∧ (confReload E w).runBlock = w.runBlock := by
  have hreg : ∀ (l : List Stanza) (w : World),
      (registerAll E l w).inReload = w.inReload ∧ (registerAll E l w).sm = w.sm ∧
      (registerAll E l w).runlevel = w.runlevel ∧ (registerAll E l w).reent = w.reent ∧
      (registerAll E l w).live = w.live ∧ (registerAll E l w).runBlock = w.runBlock := by
    intro l
    induction l with
    | nil => intro w; exact ⟨rfl, rfl, rfl, rfl, rfl, rfl⟩
    | cons z zs ih =>
      intro w
      unfold registerAll
      obtain ⟨a1, a2, a3, a4, a5, a6⟩ := ih (register E z w)
      obtain ⟨b1, b2, b3, b4, b5, b6⟩ := register_fields (E := E) z w
      exact ⟨a1.trans b1, a2.trans b2, a3.trans b3, a4.trans b4, a5.trans b5, a6.trans b6⟩
  have hrd : ∀ (l : List Key) (w : World),
      (updateRdeps l w).inReload = w.inReload ∧ (updateRdeps l w).sm = w.sm ∧
      (updateRdeps l w).runlevel = w.runlevel ∧ (updateRdeps l w).reent = w.reent ∧
      (updateRdeps l w).live = w.live ∧ (updateRdeps l w).runBlock = w.runBlock := by
    intro l
    induction l with
    | nil => intro w; exact ⟨rfl, rfl, rfl, rfl, rfl, rfl⟩
    | cons z zs ih =>
      intro w
      unfold updateRdeps
      split
      · exact ih _
      · exact ih _
  unfold confReload
  extract_lets w1 zs w2 w3 w4 w5
  obtain ⟨a1, a2, a3, a4, a5, a6⟩ := hreg zs w2
  obtain ⟨b1, b2, b3, b4, b5, b6⟩ := hrd w3.order w3
  exact ⟨b1.trans a1, b2.trans a2, b3.trans a3, b4.trans a4, b5.trans a5, b6.trans a6⟩

theorem confReload_down (w : World) : (confReload E w).down = w.down := by
  have hreg : ∀ (l : List Stanza) (w : World), (registerAll E l w).down = w.down := by
    intro l
    induction l with
    | nil => intro w; rfl
    | cons z zs ih =>
      intro w
      unfold registerAll
      refine (ih _).trans ?_
      unfold register
      split
      · rfl
      split
      · rfl
      extract_lets r w1 k w2 ra rc
      split
      · rfl
      cases hf : regFind z w1.toCore with
      | some j =>
        have e : w2 = _ := regObj_some hf
        show w2.down = _
        rw [e]; rfl
      | none =>
        have e : w2 = _ := regObj_none hf
        show w2.down = _
        rw [e]; rfl
  have hrd : ∀ (l : List Key) (w : World), (updateRdeps l w).down = w.down := by
    intro l
    induction l with
    | nil => intro w; rfl
    | cons z zs ih =>
      intro w
      unfold updateRdeps
      split
      · exact ih _
      · exact ih _
  unfold confReload
  extract_lets w1 zs w2 w3 w4 w5
  exact (hrd w3.order w3).trans (hreg zs w2)

/-- The last entry of a reading of the configuration is its end. -/
theorem confReload_head (w : World) : HeadOk (confReload E w) := by
  unfold confReload
  extract_lets w1 zs w2 w3 w4 w5
  intro k
  show (w5.trace.head?.map (·.2) ≠ _) ∧ (w5.trace.head?.map (·.2) ≠ _)
  simp [w5, markUnavail, emit]

theorem confReload_inReload (w : World) : (confReload E w).inReload = w.inReload :=
  (confReload_fields w).1

theorem confReload_good {w : World} (hc : ConfSt w) : ConfGood E lab w (confReload E w) := by
  unfold confReload
  extract_lets w1 zs w2 w3 w4 w5
  have g1 : ConfGood E lab w w1 := confRead_good hc
  have g2 : ConfGood E lab w1 w2 := Good.conf (S := fun _ => False) (.tick w1 _) rfl rfl
  have g12 := g1.trans g2
  have g3 : ConfGood E lab w2 w3 := registerAll_good zs w2 (fun z hz => ⟨_, rfl, hz⟩) (hc.good g12)
  have g13 := g12.trans g3
  have g4 : ConfGood E lab w3 w4 := updateRdeps_good _ w3 (hc.good g13)
  have g14 := g13.trans g4
  have g5 : ConfGood E lab w4 w5 := confEnd_good (hc.good g14)
  exact (g14.trans g5).trans ⟨.of_prim (.glob _ _ ⟨rfl, id, id, .inl rfl⟩) rfl id, rfl, rfl⟩

/-! ### `svc_clean_dynamic` -/

/-- What `svc_clean_completed` checks of each service. -/
def Fin (c : Core) (k : Key) : Prop :=
  enabled c k = true ∨ ((c.svc k).type.isRuntask = true ∧ (c.svc k).state = .done) ∨
  (if (c.svc k).removed then (c.svc k).state = .dead else (c.svc k).state = .halted)

theorem cleanCompleted_fin {c : Core} (h : cleanCompleted c = true) : ∀ k ∈ c.order, Fin c k := by
  intro k hk
  have := List.all_eq_true.mp h k hk
  simp only [Bool.or_eq_true, Bool.and_eq_true, decide_eq_true_eq] at this
  rcases this with (h | h) | h
  · exact .inl h
  · exact .inr (.inl h)
  · refine .inr (.inr ?_)
    split at h <;> simp_all

theorem Fin.removed {c : Core} {k : Key} (h : Fin c k) (hr : (c.svc k).removed = true) :
    (c.svc k).state = .dead ∨ (c.svc k).state = .done := by
  rcases h with h | h | h
  · unfold enabled at h; simp [hr] at h
  · exact .inr h.2
  · rw [if_pos hr] at h; exact .inl h

/-- `service_unregister` of a service that is dead or done. -/
theorem unregister_eq {k : Key} {w : World} (h : (w.svc k).state = .dead ∨ (w.svc k).state = .done) :
    unregister E R k w = svcDel k (timerCancel k (touch k w)) := by
  unfold unregister
  have e : serviceStop E R k (touch k w) = touch k w := by
    unfold serviceStop
    rw [if_pos]
    have : (touch k w).svc = w.svc := by unfold touch; split <;> rfl
    rw [this]
    rcases h with h | h <;> rw [h] <;> decide
  dsimp only
  rw [e]

theorem touch_eq (k : Key) (w : World) : ∃ r, touch k w = { w with reent := r } ∧
    (w.reent = true → r = true) := by
  unfold touch; split
  · exact ⟨true, rfl, fun _ => rfl⟩
  · exact ⟨w.reent, rfl, id⟩

/-- The world after `service_unregister` of a service that is dead or done. -/
theorem unregister_eq2 {k : Key} {w : World} (h : (w.svc k).state = .dead ∨ (w.svc k).state = .done) :
    ∃ a r tr, unregister E R k w =
      { w with svc := upd w.svc k { w.svc k with timer := none, armed := a }, reent := r,
               order := w.order.filter (· ≠ k), gc := w.gc ++ [k], trace := tr } := by
  rw [unregister_eq h]
  obtain ⟨r, e1, _⟩ := touch_eq k w
  rw [e1]
  obtain ⟨a, e⟩ := timerCancel_eq k { w with reent := r }
  rw [e]
  exact ⟨a, r, _, rfl⟩

theorem enabled_timer {c c' : Core} {k j : Key} {a : Bool}
    (h1 : c'.svc = upd c.svc k { c.svc k with timer := none, armed := a })
    (h2 : c'.runlevel = c.runlevel) (h3 : c'.conds = c.conds) (h4 : c'.bootstrap = c.bootstrap) :
    enabled c' j = enabled c j := by
  unfold enabled
  rw [h1, h2, h3, h4]
  by_cases e : j = k
  · subst e; simp only [upd_same]
  · simp only [upd_other _ _ _ _ e]

theorem Fin.timer {c c' : Core} {k j : Key} {a : Bool}
    (h1 : c'.svc = upd c.svc k { c.svc k with timer := none, armed := a })
    (h2 : c'.runlevel = c.runlevel) (h3 : c'.conds = c.conds) (h4 : c'.bootstrap = c.bootstrap)
    (h : Fin c j) : Fin c' j := by
  unfold Fin at h ⊢
  rw [enabled_timer h1 h2 h3 h4, h1]
  by_cases e : j = k
  · subst e; simp only [upd_same]; exact h
  · simp only [upd_other _ _ _ _ e]; exact h

theorem drop_head_mem {l : List Key} {k nx : Key}
    (h : ((l.dropWhile (· ≠ k)).drop 1).head? = some nx) : nx ∈ (l.dropWhile (· ≠ k)).drop 1 :=
  List.mem_of_head? h

theorem nextOf_mem {c : Core} {k nx : Key} (ho : c.order.Nodup) (hk : k ∈ c.order)
    (h : nextOf c k = some nx) : nx ∈ c.order ∧ nx ≠ k := by
  unfold nextOf at h
  rw [if_pos hk] at h
  have hm := List.mem_of_head? h
  have hsub : (c.order.dropWhile (· ≠ k)).Sublist c.order := List.dropWhile_sublist _
  have hnd := hsub.nodup ho
  cases hd : c.order.dropWhile (· ≠ k) with
  | nil => rw [hd] at hm; simp at hm
  | cons x xs =>
    have hx : x = k := by
      have := List.head?_dropWhile_not (p := fun j => decide (j ≠ k)) (l := c.order)
      rw [hd] at this
      simpa using this
    subst hx
    rw [hd] at hm hnd
    simp only [List.drop_succ_cons, List.drop_zero] at hm
    refine ⟨hsub.subset (by rw [hd]; exact List.mem_cons_of_mem _ hm), ?_⟩
    intro e; subst e
    exact (List.nodup_cons.mp hnd).1 hm

theorem cleanDynamic_iter : ∀ (n : Nat) (o : Option Key) (w : World),
    OrdOk w.toCore → (∀ k ∈ w.order, Fin w.toCore k) → (∀ k, o = some k → k ∈ w.order) →
    let w' := iter (fun k w => if (w.svc k).removed then unregister E R k w else w) n o w
    SmGood E lab w w' ∧ (∀ k ∈ w'.order, Fin w'.toCore k) ∧ w'.sm = w.sm ∧ w'.runlevel = w.runlevel := by
  intro n
  induction n with
  | zero =>
    intro o w ho hf hm
    cases o with
    | none => exact ⟨.refl w, hf, rfl, rfl⟩
    | some k => exact ⟨(Good.oof (S := fun _ => False) w).sm, hf, rfl, rfl⟩
  | succ n ih =>
    intro o w ho hf hm
    cases o with
    | none => exact ⟨.refl w, hf, rfl, rfl⟩
    | some k =>
      have hk := hm k rfl
      unfold iter
      dsimp only
      by_cases hr : (w.svc k).removed = true
      · rw [if_pos hr]
        have hs := (hf k hk).removed hr
        have g : SmGood E lab w (unregister E R k w) := by
          rw [unregister_eq hs]
          obtain ⟨r, e, hrr⟩ := touch_eq k w
          have g1 : SmGood E lab w (touch k w) := (Good.touch (S := fun _ => False) k w).sm
          rw [e] at g1 ⊢
          have g2 : Good E lab (fun _ => False) ({ w with reent := r } : World)
              (timerCancel k { w with reent := r }) := .cancel (.over hs) (fun h => h)
          obtain ⟨a, e2⟩ := timerCancel_eq k ({ w with reent := r } : World)
          rw [e2] at g2 ⊢
          refine (g1.trans g2.sm).trans (.of_prim (.del _ k ?_ ?_ ?_ hk) rfl id)
          · simp
          · simpa using hr
          · simpa using hs
        obtain ⟨a, r, tr, e⟩ := unregister_eq2 (E := E) (R := R) hs
        have ho' : OrdOk (unregister E R k w).toCore := by
          rw [e]; exact ho.filter k
        have hf' : ∀ j ∈ (unregister E R k w).order, Fin (unregister E R k w).toCore j := by
          intro j hj
          rw [e] at hj ⊢
          exact (hf j (List.mem_filter.mp hj).1).timer (k := k) (a := a) rfl rfl rfl rfl
        have hm' : ∀ j, nextOf w.toCore k = some j → j ∈ (unregister E R k w).order := by
          intro j hj
          obtain ⟨h1, h2⟩ := nextOf_mem ho.1 hk hj
          rw [e]; exact List.mem_filter.mpr ⟨h1, by simpa using h2⟩
        obtain ⟨x1, x2, x3, x4⟩ := ih (nextOf w.toCore k) (unregister E R k w) ho' hf' hm'
        refine ⟨g.trans x1, x2, x3.trans ?_, x4.trans ?_⟩ <;> rw [e]
      · rw [if_neg hr]
        exact ih (nextOf w.toCore k) w ho hf (fun j hj => (nextOf_mem ho.1 hk hj).1)

/-- `svc_clean_dynamic` leaves no service that is marked for removal. -/
theorem cleanDynamic_none : ∀ (n : Nat) (suf pre : List Key) (w : World),
    OrdOk w.toCore → (∀ k ∈ w.order, Fin w.toCore k) → w.order = pre ++ suf →
    (∀ k ∈ pre, (w.svc k).removed = false) →
    let w' := iter (fun k w => if (w.svc k).removed then unregister E R k w else w) n suf.head? w
    w'.oof = false → ∀ k ∈ w'.order, (w'.svc k).removed = false := by
  intro n
  induction n with
  | zero =>
    intro suf pre w _ _ he hp
    cases suf with
    | nil => intro w' _ k hk; exact hp k (by rw [List.append_nil] at he; rw [← he]; exact hk)
    | cons x xs => intro w' ho; exact absurd ho (by simp [w', iter])
  | succ n ih =>
    intro suf pre w ho hf he hp
    cases suf with
    | nil => intro w' _ k hk; exact hp k (by rw [List.append_nil] at he; rw [← he]; exact hk)
    | cons x xs =>
      have hx : x ∈ w.order := by rw [he]; simp
      have hnd := ho.1
      rw [he] at hnd
      have hxp : x ∉ pre := fun h => by
        have := (List.nodup_append.mp hnd).2.2 x h x (by simp)
        exact this rfl
      have hxs : x ∉ xs := (List.nodup_cons.mp (List.nodup_append.mp hnd).2.1).1
      have hn : nextOf w.toCore x = xs.head? := by
        unfold nextOf
        rw [if_pos hx, he]
        have : (pre ++ x :: xs).dropWhile (· ≠ x) = x :: xs := by
          rw [List.dropWhile_append_of_pos (by intro a ha; have : a ≠ x := (fun e => hxp (by rw [← e]; exact ha)); simpa using this)]
          simp
        rw [this]; rfl
      unfold iter
      simp only [List.head?_cons]
      rw [hn]
      by_cases hr : (w.svc x).removed = true
      · rw [if_pos hr]
        obtain ⟨a, r, tr, e⟩ := unregister_eq2 (E := E) (R := R) ((hf x hx).removed hr)
        apply ih xs pre
        · rw [e]; exact ho.filter x
        · intro j hj
          rw [e] at hj ⊢
          exact (hf j (List.mem_filter.mp hj).1).timer (k := x) (a := a) rfl rfl rfl rfl
        · rw [e]; dsimp only; rw [he, List.filter_append, List.filter_cons_of_neg (by simp),
            List.filter_eq_self.mpr (by intro a ha; have : a ≠ x := (fun e => hxp (by rw [← e]; exact ha)); simpa using this),
            List.filter_eq_self.mpr (by intro a ha; have : a ≠ x := (fun e => hxs (by rw [← e]; exact ha)); simpa using this)]
        · intro j hj
          rw [e]
          have : j ≠ x := fun e => hxp (e ▸ hj)
          simp only [upd_other _ _ _ _ this]; exact hp j hj
      · rw [if_neg hr]
        apply ih xs (pre ++ [x]) w ho hf (by rw [he]; simp)
        intro j hj
        rcases List.mem_append.mp hj with hj | hj
        · exact hp j hj
        · rw [List.mem_singleton.mp hj]; simpa using hr

theorem cleanDynamic_good {w : World} (ho : OrdOk w.toCore) (hc : cleanCompleted w.toCore = true) :
    let w' := cleanDynamic E R w
    SmGood E lab w w' ∧ (∀ k ∈ w'.order, Fin w'.toCore k) ∧ w'.sm = w.sm ∧ w'.runlevel = w.runlevel :=
  cleanDynamic_iter _ _ w ho (cleanCompleted_fin hc) (fun _ h => List.mem_of_head? h)

/-- `steps` may assume the list is well formed; the rest needs an unconditional argument. -/
theorem cleanDynamic_frame (h : ROk E lab R) (w : World) :
    (cleanDynamic E R w).stack = w.stack ∧ (w.reent = true → (cleanDynamic E R w).reent = true) ∧
    (cleanDynamic E R w).mids = w.mids := by
  unfold cleanDynamic forAll
  generalize R.fuel = n
  generalize w.order.head? = o
  induction n generalizing o w with
  | zero => cases o <;> exact ⟨rfl, id, rfl⟩
  | succ n ih =>
    cases o with
    | none => exact ⟨rfl, id, rfl⟩
    | some k =>
      unfold iter
      dsimp only
      obtain ⟨a, b, c⟩ := ih (if (w.svc k).removed then unregister E R k w else w) (nextOf w.toCore k)
      have key : (if (w.svc k).removed then unregister E R k w else w).stack = w.stack ∧
          (w.reent = true → (if (w.svc k).removed then unregister E R k w else w).reent = true) ∧
          (if (w.svc k).removed then unregister E R k w else w).mids = w.mids := by
        split
        · unfold unregister
          obtain ⟨x, e⟩ := timerCancel_eq k (serviceStop E R k (touch k w))
          extract_lets w1 w2
          have g1 : Good E lab (fun _ => False) w w1 := .touch k w
          have g2 := serviceStop_frame (E := E) (lab := lab) h k w1
          have e' : timerCancel k w2 = _ := e
          rw [e']
          exact ⟨g2.1.trans g1.stack, fun hr => g2.2.1 (g1.mono hr), g2.2.2.trans g1.mids⟩
        · exact ⟨rfl, id, rfl⟩
      exact ⟨a.trans key.1, fun hr => b (key.2.1 hr), c.trans key.2.2⟩

/-! ### `sm_step` -/

theorem sm_glob {w w' : World} (h : MinorGlob w w') (hs : w'.stack = w.stack) : SmGood E lab w w' :=
  .of_prim (.glob w w' h) hs h.2.1 (by have := congrArg (fun v => v.mids) h.1; exact this)

theorem smBootWait_good (h : ROk E lab R) {w : World} (hs : w.sm = .bootstrapWait) :
    SmGood E lab w (smBootWait E R w) := by
  unfold smBootWait
  extract_lets w1 w2 w3 w4 w5 w6
  have g1 := stepAll_good h tyAny w
  have g2 : Good E lab (fun j => j ∈ w1.stack) w1 w2 := condOneshot_good h (.int _ (by decide))
  have g12 := g1.then g2
  split
  · exact g12.sm
  have g3 : Good E lab (fun j => j ∈ w2.stack) w2 w3 := runHook_good h (by decide) w2
  have g4 : Good E lab (fun j => j ∈ w3.stack) w3 w4 := stepAll_good h tyAny w3
  have g14 := (g12.then g3).then g4
  have s4 : Soft w4 (w4.sm = .bootstrapWait) := g14.soft (Q := fun c => c.sm = .bootstrapWait) (fun _ => hs)
  have g5 : SmGood E lab w4 w5 := .of_prim (.bootDone w4 s4) rfl id
  have g6 : Good E lab (fun j => j ∈ w5.stack) w5 w6 := stepAll_good h _ w5
  refine ((g14.sm.trans g5).trans g6.sm).trans (.of_prim (.sm w6 _ (.up ?_ ?_)) rfl id)
  · exact g6.soft (Q := fun c => c.sm = .bootstrapWait) s4
  · exact g6.soft (Q := fun c => c.bootstrap = false) (fun _ => rfl)

theorem smRunning_good (h : ROk E lab R) {w : World} (hs : w.sm = .running) :
    SmGood E lab w (smRunning R w) := by
  unfold smRunning
  extract_lets w1
  have g1 := stepAll_good h tyAny w
  have s1 : Soft w1 (w1.sm = .running) := g1.soft (Q := fun c => c.sm = .running) (fun _ => hs)
  split
  · rename_i hn
    split
    · exact g1.sm.trans (sm_glob ⟨rfl, id, id, .inl rfl⟩ rfl)
    · rename_i hr
      exact g1.sm.trans (.of_prim (.sm w1 _ (.change s1 hn hr)) rfl id)
  · split
    · have g2 : SmGood E lab w1 { w1 with reload := false } := sm_glob ⟨rfl, id, id, .inl rfl⟩ rfl
      exact (g1.sm.trans g2).trans (.of_prim (.sm { w1 with reload := false } _ (.reload s1)) rfl id)
    · exact g1.sm

theorem nologinUpdate_good (w : World) : MinorGlob w (nologinUpdate w) ∧
    (nologinUpdate w).stack = w.stack ∧ (nologinUpdate w).sm = w.sm ∧ (nologinUpdate w).reent = w.reent := by
  unfold nologinUpdate
  extract_lets w1
  have e : ∃ b, w1 = { w with nologin := b } := by
    simp only [w1]; split
    · exact ⟨_, rfl⟩
    · exact ⟨w.nologin, rfl⟩
  obtain ⟨b, e⟩ := e
  rw [e]
  split <;> exact ⟨⟨rfl, id, id, .inl rfl⟩, rfl, rfl, rfl⟩

theorem smRlChange_good (h : ROk E lab R) (hS : SOk E R) {w : World} (hs : w.sm = .rlChange)
    (hd : w.down = false) : SmGood E lab w (smRlChange E R w) := by
  unfold smRlChange
  extract_lets w1 w2 w3 w4 w5 w6 w7 w8
  have g2 : SmGood E lab w w2 := .of_prim (.runlevel w hs) rfl id
  have s2 : w2.sm = .rlChange := hs
  have g3 : Good E lab (fun j => j ∈ w2.stack) w2 w3 := by
    simp only [w3]; split
    · exact runHook_good h (by decide) w2
    · exact .refl w2
  have s3 : Soft w3 (w3.sm = .rlChange) := g3.soft (Q := fun c => c.sm = .rlChange) (fun _ => s2)
  obtain ⟨n1, n2, n3, n4⟩ := nologinUpdate_good w3
  have g4 : SmGood E lab w3 w4 := sm_glob n1 n2
  have s4 : Soft w4 (w4.sm = .rlChange) := fun hr => n3.trans (s3 (n4 ▸ hr))
  have g5 : ConfGood E lab w4 w5 := by
    simp only [w5]; split
    · exact confReload_good (fun hr => .inr (.inl (s4 hr)))
    · exact .refl w4
  have s5 : Soft w5 (w5.sm = .rlChange) := fun hr => g5.sm.trans (s4 (g5.reent ▸ hr))
  have g6 : Good E lab (fun j => j ∈ w5.stack) w5 w6 := runtaskClean_good h w5
  have s6 : Soft w6 (w6.sm = .rlChange) := g6.soft (Q := fun c => c.sm = .rlChange) s5
  have g7 : SmGood E lab w6 w7 := .of_prim (.reloadOn w6 (fun hr => .inl (s6 hr))) rfl id
  have i7 : w7.inReload = true := rfl
  have s7 : Soft w7 (w7.sm = .rlChange) := s6
  have e7 : w7.trace = w6.trace := rfl
  have o67 : OrdOk w6.toCore → OrdOk w7.toCore := id
  have d67 : w7.down = w6.down := rfl
  have r67 : w7.reent = w6.reent := rfl
  clear_value w7
  have gs : SmGood E lab w7 (emit .sweep w7) :=
    .of_prim (.sweep w7 (fun hr => ⟨.inl (s7 hr), i7⟩)) rfl id
  have g8 : Good E lab (fun j => j ∈ w7.stack) (emit .sweep w7) w8 := stepAll_good h tyAny (emit .sweep w7)
  have g27 := (((((g2.trans g3.sm).trans g4).trans g5.toSmGood).trans g6.sm).trans g7).trans gs
  refine ⟨?_, g8.stack.trans g27.stack, fun hr => g8.mono (g27.mono hr), g8.mids.trans g27.mids⟩
  intro ho
  have o2 := (g2.steps ho).ord ho
  have o3 := (g3.steps o2).ord o2
  have o4 := (g4.steps o3).ord o3
  have o5 := (g5.steps o4).ord o4
  have o6 := (g6.steps o5).ord o5
  have o7 : OrdOk (emit .sweep w7).toCore := o67 o6
  refine ((g27.steps ho).trans (g8.steps o7)).trans (.one (.sm w8 _ (.rlWait ?_ ?_ ?_)))
  · exact g8.soft (Q := fun c => c.sm = .rlChange ∧ c.inReload = true) (fun hr => ⟨s7 hr, i7⟩)
  · intro hr hoof
    have r6 : w6.reent = false := r67 ▸ reent_false g8.mono hr
    have r5 : w5.reent = false := reent_false g6.mono r6
    have r4 : w4.reent = false := g5.reent ▸ r5
    have r3 : w3.reent = false := n4 ▸ r4
    have h2 : HeadOk w2 := by intro k; simp [w2, w1, emit]
    have h3 := h2.good g3 o2 r3
    have e4 : w4.trace = w3.trace := by have := congrArg World.trace n1.1; exact this
    have d4 : w4.down = w3.down := by have := congrArg (fun w : World => w.down) n1.1; exact this
    have h4 : HeadOk w4 := by unfold HeadOk; rw [e4]; exact h3
    have h5 : HeadOk w5 ∧ w5.down = w4.down := by
      have : w5 = confReload E w4 ∨ w5 = w4 := by
        simp only [w5]; split
        · exact .inl rfl
        · exact .inr rfl
      rcases this with e | e <;> rw [e]
      · exact ⟨confReload_head w4, confReload_down w4⟩
      · exact ⟨h4, rfl⟩
    have h6 : HeadOk w6 := h5.1.good g6 o5 r6
    have h7 : HeadOk (emit .sweep w7) := by intro k; simp [emit]
    have d6 : w6.down = false := by rw [g6.down r6, h5.2, d4, g3.down r3]; exact hd
    have d7 : (emit .sweep w7).down = false := d67.trans d6
    exact stepAll_settled hS o7 h7 d7 hr hoof
  · intro hr
    obtain ⟨l, e, hl⟩ := (g8.steps o7).quiet (g8.count hr)
    rw [e]
    exact lately_append hl rfl

theorem smRlWait_good (h : ROk E lab R) {w : World} (hs : w.sm = .rlWait) :
    SmGood E lab w (smRlWait E R w) := by
  unfold smRlWait
  split
  · exact .refl w
  rename_i hc
  extract_lets w0 w1 w2 w3
  have g0 : SmGood E lab w w0 := .of_prim (.stopped w (by simpa using hc) (fun _ => .inl hs)) rfl id
  have g1 : Good E lab (fun j => j ∈ w0.stack) w0 w1 := runHook_good h (by decide) w0
  have s1 : Soft w1 (w1.sm = .rlWait) := g1.soft (Q := fun c => c.sm = .rlWait) (fun _ => hs)
  have g3 : Good E lab (fun j => j ∈ w2.stack) w2 w3 := stepAll_good h tyAny w2
  have g01 := g0.trans g1.sm
  have g2 : OrdOk w.toCore → SmGood E lab w1 w2 := by
    intro ho
    refine .of_prim (.reloadOff w1 (fun hr => .inl (s1 hr)) ?_) rfl id
    intro hr
    obtain ⟨l, e, hl⟩ := (g1.steps ((g0.steps ho).ord ho)).quiet (g1.count hr)
    rw [e]
    exact lately_append hl rfl
  have g4 : SmGood E lab w2 _ := g3.sm.trans (.of_prim (.sm w3 _ (.rlClean
    (g3.soft (Q := fun c => c.sm = .rlWait ∧ c.inReload = false) (fun hr => ⟨s1 hr, rfl⟩)))) rfl id)
  exact ⟨fun ho => ((g01.trans (g2 ho)).trans g4).steps ho, g4.stack.trans g01.stack,
    fun hr => g4.mono (g01.mono hr), g4.mids.trans g01.mids⟩

theorem smRlClean_good (h : ROk E lab R) {w : World} (hs : w.sm = .rlClean) :
    SmGood E lab w (smRlClean E R w) := by
  unfold smRlClean
  split
  · exact .refl w
  rename_i hc
  have hc : cleanCompleted w.toCore = true := by simpa using hc
  extract_lets w1
  obtain ⟨f1, f2, f3⟩ := cleanDynamic_frame h w
  refine ⟨?_, ?_, ?_, ?_⟩
  · intro ho
    obtain ⟨x1, x2, x3, x4⟩ := cleanDynamic_good (E := E) (lab := lab) (R := R) ho hc
    refine (x1.steps ho).trans (.one ?_)
    split
    · rename_i hrl; exact .shutdown w1 (.inr ⟨hrl, fun _ => x3.trans hs, x2⟩)
    · exact .sm w1 _ (.rlDone (fun _ => x3.trans hs)
        (fun _ => cleanDynamic_none _ _ [] w ho (cleanCompleted_fin hc) rfl (by simp)))
  · split <;> exact f1
  · split <;> exact f2
  · split <;> exact f3

theorem smReloadChange_good (h : ROk E lab R) (hS : SOk E R) {w : World} (hs : w.sm = .reloadChange)
    (hd : w.down = false) : SmGood E lab w (smReloadChange E R w) := by
  unfold smReloadChange
  extract_lets w1 w2 w3 w4
  have g1 : SmGood E lab w w1 := .of_prim (.reloadOn w (fun _ => .inr hs)) rfl id
  have s1 : w1.sm = .reloadChange := hs
  have g2 : ConfGood E lab w1 w2 := confReload_good (fun _ => .inr (.inr s1))
  have s2 : w2.sm = .reloadChange := g2.sm.trans s1
  have g3 : Good E lab (fun j => j ∈ w2.stack) (emit .sweep w2) w3 := stepAll_good h tyAny (emit .sweep w2)
  have i2 : w2.inReload = true := by
    have : ∀ {w : World}, (confReload E w).inReload = w.inReload := by
      intro w; exact confReload_inReload w
    exact this
  have s3 : Soft w3 (w3.sm = .reloadChange ∧ w3.inReload = true) :=
    g3.soft (Q := fun c => c.sm = .reloadChange ∧ c.inReload = true) (fun _ => ⟨s2, i2⟩)
  have gs : SmGood E lab w2 (emit .sweep w2) := .of_prim (.sweep w2 (fun _ => ⟨.inr s2, i2⟩)) rfl id
  have g4 : SmGood E lab w3 w4 := .of_prim (.conds w3 _ (.reload (fun hr => (s3 hr).1))) rfl id
  have g14 := (((g1.trans g2.toSmGood).trans gs).trans g3.sm).trans g4
  refine ⟨?_, g14.stack, g14.mono, g14.mids⟩
  intro ho
  have o1 := (g1.steps ho).ord ho
  have o2 := (g2.steps o1).ord o1
  refine (g14.steps ho).trans (.one (.sm w4 _ (.reloadWait s3 ?_ ?_)))
  rotate_left
  · intro hr
    obtain ⟨l, e, hl⟩ := (g3.steps (show OrdOk (emit .sweep w2).toCore from o2)).quiet (g3.count hr)
    show swept w3.trace = true
    rw [e]
    exact lately_append hl rfl
  intro hr hoof k hk
  have hd2 : w2.down = false := (confReload_down w1).trans hd
  exact (stepAll_settled hS (w := emit .sweep w2) o2 (by intro k; simp [emit]) hd2 hr hoof k hk).same rfl rfl rfl rfl rfl

theorem smReloadWait_good (h : ROk E lab R) {w : World} (hs : w.sm = .reloadWait) :
    SmGood E lab w (smReloadWait R w) := by
  unfold smReloadWait
  split
  · exact .refl w
  rename_i hc
  extract_lets w0 w1 w2
  have g0 : SmGood E lab w w0 := .of_prim (.stopped w (by simpa using hc) (fun _ => .inr hs)) rfl id
  have g2 : SmGood E lab w w1 :=
    g0.trans (.of_prim (.reloadOff w0 (fun _ => .inr hs) (fun _ => rfl)) rfl id)
  have g3 : Good E lab (fun j => j ∈ w1.stack) w1 w2 := stepAll_good h tyAny w1
  refine (g2.trans g3.sm).trans (.of_prim (.sm w2 _ (.reloadClean ?_)) rfl id)
  exact g3.soft (Q := fun c => c.sm = .reloadWait ∧ c.inReload = false) (fun _ => ⟨hs, rfl⟩)

theorem smReloadClean_good (h : ROk E lab R) {w : World} (hs : w.sm = .reloadClean) :
    SmGood E lab w (smReloadClean E R w) := by
  unfold smReloadClean
  split
  · exact .refl w
  rename_i hc
  have hc : cleanCompleted w.toCore = true := by simpa using hc
  extract_lets w1 w2 w3 w4
  obtain ⟨f1, f2, f3⟩ := cleanDynamic_frame h w
  have g2 : Good E lab (fun j => j ∈ w1.stack) w1 w2 := pidfileReconf_good h w1
  have g3 : Good E lab (fun j => j ∈ w2.stack) w2 w3 := runHook_good h (by decide) w2
  have g4 : Good E lab (fun j => j ∈ w3.stack) w3 w4 := notifyReconf_good h w3
  have g14 := (g2.then g3).then g4
  refine ⟨?_, ?_, ?_, ?_⟩
  · intro ho
    obtain ⟨x1, x2, x3, x4⟩ := cleanDynamic_good (E := E) (lab := lab) (R := R) ho hc
    have s1 := x1.steps ho
    have s2 := g14.steps (s1.ord ho)
    refine (s1.trans s2).trans (.one (.sm w4 _ (.reloadDone ?_ ?_)))
    · exact g14.soft (Q := fun c => c.sm = .reloadClean) (fun _ => x3.trans hs)
    · intro hr hoof k hk
      obtain ⟨_, y2, y3⟩ := g14.frame hr
      have o1 : w1.oof = false := by
        cases h1 : w1.oof with
        | false => rfl
        | true => rw [s2.oof h1] at hoof; cases hoof
      have hk1 : k ∈ w1.order := by
        have : (Glob w4).order = (Glob w1).order := congrArg Core.order y2
        have : w4.order = w1.order := this
        rw [← this]; exact hk
      have := congrArg Svc.removed (y3 k)
      have : (w4.svc k).removed = (w1.svc k).removed := this
      rw [this]
      exact cleanDynamic_none _ _ [] w ho (cleanCompleted_fin hc) rfl (by simp) o1 k hk1
  · exact g14.stack.trans f1
  · exact fun hr => g14.mono (f2 hr)
  · exact g14.mids.trans f3

theorem smBranch_good (h : ROk E lab R) (hS : SOk E R) (w : World) (hd : w.down = false) :
    SmGood E lab w (smBranch E R w) := by
  unfold smBranch
  cases hs : w.sm <;> dsimp only
  · have g := stepAll_good h (fun t => t.isRuntask || t.isDaemon) w
    refine g.sm.trans (.of_prim (.sm _ _ (.bootWait ?_)) rfl id)
    exact g.soft (Q := fun c => c.sm = .bootstrap) (fun _ => hs)
  · exact smBootWait_good h hs
  · exact smRunning_good h hs
  · exact smRlChange_good h hS hs hd
  · exact smRlWait_good h hs
  · exact smRlClean_good h hs
  · exact smReloadChange_good h hS hs hd
  · exact smReloadWait_good h hs
  · exact smReloadClean_good h hs

theorem smLoopBody_good (h : ROk E lab R) (hS : SOk E R) (w : World) (hd : w.down = false) :
    SmGood E lab w (smLoopBody E R w) := by
  unfold smLoopBody
  extract_lets old w1
  have g1 : SmGood E lab w w1 := smBranch_good h hS w hd
  split
  · exact g1
  · rename_i hd1
    split
    · exact g1.trans (h.smLoop w1 (by simpa using hd1))
    · exact g1

theorem smStep_good (h : ROk E lab R) (hS : SOk E R) (w : World) : SmGood E lab w (smStep E R w) := by
  unfold smStep
  split
  · exact .refl w
  rename_i hd
  extract_lets w1 was w2 w3
  have hd2 : w2.down = false := by
    show w1.down = false
    simp only [w1]; split <;> simpa using hd
  have g1 : SmGood E lab w w1 := by
    simp only [w1]; split
    · exact (Good.reent (S := fun _ => False) w).sm
    · exact .refl w
  have g2 : SmGood E lab w1 w2 := sm_glob ⟨rfl, id, id, .inl rfl⟩ rfl
  exact ((g1.trans g2).trans (smLoopBody_good h hS w2 hd2)).trans (sm_glob ⟨rfl, id, id, .inl rfl⟩ rfl)

theorem mkRec_both : ∀ n, (∀ lab, ROk E lab (mkRec E n)) ∧ SOk E (mkRec E n) := by
  intro n
  induction n with
  | zero =>
    have z : ∀ lab, ROk E lab (mkRec E 0) := fun lab =>
      ⟨fun _ w => .oof w, fun _ w _ => .oof w, fun w => (Good.oof (S := fun _ => False) w).sm,
        fun w _ => (Good.oof (S := fun _ => False) w).sm⟩
    refine ⟨z, z _, ?_, ?_⟩
    · intro k w _ _ h; cases h
    · intro k w _ _ h; cases h
  | succ n ih =>
    obtain ⟨ih, is⟩ := ih
    have z : ∀ lab, ROk E lab (mkRec E (n + 1)) := fun lab =>
      ⟨fun k w => serviceStep_good (ih lab) k w, fun k w hk => stepLoop_good (ih lab) hk,
        fun w => smStep_good (ih lab) is w, fun w hd => smLoopBody_good (ih lab) is w hd⟩
    exact ⟨z, z _, fun k w hd hr ho => serviceStep_settled is k w hd hr ho,
      fun k w hk hr ho => stepLoop_settled is hk hr ho⟩

theorem mkRec_ok (n : Nat) : ROk E lab (mkRec E n) := (mkRec_both n).1 lab

theorem mkRec_sok (n : Nat) : SOk E (mkRec E n) := (mkRec_both n).2

end

end Verif.Sup
