import Verif.Sup.Reload

/-!
# Supervisor model: what `conf_reload` does
-/

namespace Verif.Sup

open Verif (CStr CondStore)

section
variable {E : Env}

/-- A stanza is accepted: its `if:` statement holds, it is not for bootstrap only (unless that is
    where we are), and its command exists. -/
def Accepts (E : Env) (z : Stanza) (w : World) : Prop :=
  ifthenConf w.toCore z.ifstmt = true ∧ (w.runlevel = 10 ∨ z.levels &&& (2 ^ 32 - 1 - 2 ^ 10) ≠ 0) ∧
  E.ask w.tick = 0

/-- The fresh or reused object a stanza is applied to. -/
def regBase (z : Stanza) (w : World) : Option Key → Svc
  | some k => { w.svc k with type := z.type, block := if z.manual then (w.svc k).block else .none
                             odd := (w.svc k).odd || z.odd, zs := z :: (w.svc k).zs, removed := false }
  | none => { name := z.name, id := z.id, type := z.type, block := if z.manual then .user else .none, levels := z.levels,
              odd := z.odd, zs := [z] }

/-- The three outcomes of registering a stanza. -/
theorem register_cases (z : Stanza) (w : World) :
    (¬ Accepts E z w ∧ ∃ t, register E z w = { w with tick := t }) ∨
    (Accepts E z w ∧ ∃ k x y t c, regFind z w.toCore = some k ∧ register E z w =
      { w with svc := upd w.svc k (applyStanza z x y (regBase z w (some k)))
               trace := (c, .reg k) :: w.trace, tick := t }) ∨
    (Accepts E z w ∧ ∃ x y t c, regFind z w.toCore = none ∧ register E z w =
      { w with svc := upd w.svc w.nextKey (applyStanza z x y (regBase z w none))
               order := w.order ++ [w.nextKey], nextKey := w.nextKey + 1
               main := upd w.main w.nextKey []
               trace := (c, .new w.nextKey) :: w.trace, tick := t }) := by
  unfold register
  by_cases h1 : ifthenConf w.toCore z.ifstmt = true
  rotate_left
  · rw [if_pos (by simpa using h1)]
    exact .inl ⟨fun h => h1 h.1, w.tick, rfl⟩
  rw [if_neg (by simpa using h1)]
  by_cases h2 : w.runlevel ≠ 10 ∧ z.levels &&& (2 ^ 32 - 1 - 2 ^ 10) = 0
  · rw [if_pos h2]
    refine .inl ⟨fun h => ?_, w.tick, rfl⟩
    rcases h.2.1 with h | h
    · exact h2.1 h
    · exact h h2.2
  rw [if_neg h2]
  by_cases h3 : E.ask w.tick = 0
  rotate_left
  · extract_lets r
    rw [if_pos (by show decide (E.ask w.tick ≠ 0) = true; simpa using h3)]
    exact .inl ⟨fun h => h3 h.2.2, w.tick + 1, rfl⟩
  have ok : Accepts E z w := ⟨h1, by
    by_cases hl : w.runlevel = 10
    · exact .inl hl
    · exact .inr fun e => h2 ⟨hl, e⟩, h3⟩
  extract_lets r w1 k w2 ra rc
  rw [if_neg (by show ¬ decide (E.ask w.tick ≠ 0) = true; simpa using h3)]
  right
  have e1 : w1 = { w with tick := w.tick + 1 } := rfl
  have ef : regFind z w1.toCore = regFind z w.toCore := rfl
  cases hf : regFind z w.toCore with
  | some j =>
    left
    have ek : k = j := by show (regFind z w1.toCore).getD _ = j; rw [ef, hf]; rfl
    have e2 : w2 = { w1 with svc := upd w.svc j (regBase z w (some j))
                             trace := (w1.toCore, .reg j) :: w.trace } := by
      show regObj z w1 = _
      unfold regObj; rw [ef, hf]; rfl
    refine ⟨ok, j, ra.1, rc.1, rc.2.tick, w1.toCore, rfl, ?_⟩
    have e3 : rc.2 = { w2 with tick := w2.tick + 1 + 1 } := rfl
    clear_value w2 rc ra k
    subst ek
    rw [e3, e2, e1]
    simp only [Sup.mod, upd_same, upd_upd]
  | none =>
    right
    have ek : k = w.nextKey := by show (regFind z w1.toCore).getD _ = _; rw [ef, hf]; rfl
    have e2 : w2 = { w1 with svc := upd w.svc w.nextKey (regBase z w none)
                             order := w.order ++ [w.nextKey], nextKey := w.nextKey + 1
                             main := upd w.main w.nextKey []
                             trace := (w1.toCore, .new w.nextKey) :: w.trace } := by
      show regObj z w1 = _
      unfold regObj; rw [ef, hf]; rfl
    refine ⟨ok, ra.1, rc.1, rc.2.tick, w1.toCore, rfl, ?_⟩
    have e3 : rc.2 = { w2 with tick := w2.tick + 1 + 1 } := rfl
    clear_value w2 rc ra k
    subst ek
    rw [e3, e2, e1]
    simp only [Sup.mod, upd_same, upd_upd]

/-- Everything about a service that has to do with its processes. -/
def Svc.proc (s : Svc) : SState × Int × WStatus × Bool × Option Cb × Bool × Int × Nat :=
  (s.state, s.pid, s.status, s.started, s.timer, s.armed, s.restartCnt, s.restartTot)

theorem applyStanza_proc (z : Stanza) (x y : Bool) (s : Svc) : (applyStanza z x y s).proc = s.proc := by
  obtain ⟨_, _, _, _, _, _, _, _, _, _, _, _, e⟩ := applyStanza_eq z x y s
  rw [e]; rfl

/-- Everything outside the service list. -/
def Outside (a b : Core) : Prop :=
  b.live = a.live ∧ b.runBlock = a.runBlock ∧ b.assoc = a.assoc ∧ b.conds = a.conds ∧ b.sm = a.sm ∧
  b.runlevel = a.runlevel ∧ b.newlevel = a.newlevel ∧ b.gc = a.gc ∧ b.freed = a.freed

/-- Registering stanzas: what was recorded, and what it left alone. -/
structure Regs (a b : World) (l : List (Core × Eff)) : Prop where
  trace : b.trace = l ++ a.trace
  only : ∀ x ∈ l, ∃ k, x.2 = .reg k ∨ x.2 = .new k
  order : a.order <+: b.order
  fresh : ∀ k ∈ b.order, k < a.nextKey → k ∈ a.order
  next : a.nextKey ≤ b.nextKey
  below : (∀ k ∈ a.order, k < a.nextKey) → ∀ k ∈ b.order, k < b.nextKey
  others : ∀ k < a.nextKey, (∀ c, (c, .reg k) ∉ l) → b.svc k = a.svc k
  name : ∀ k < a.nextKey, (b.svc k).name = (a.svc k).name ∧ (b.svc k).id = (a.svc k).id
  proc : ∀ k < a.nextKey, (b.svc k).proc = (a.svc k).proc
  out : Outside a.toCore b.toCore

theorem Regs.refl (a : World) : Regs a a [] :=
  ⟨rfl, (fun _ h => nomatch h), List.prefix_refl _, fun _ h _ => h, Nat.le_refl _, id, fun _ _ _ => rfl,
    fun _ _ => ⟨rfl, rfl⟩, fun _ _ => rfl, ⟨rfl, rfl, rfl, rfl, rfl, rfl, rfl, rfl, rfl⟩⟩

theorem Outside.trans {a b c : Core} (h1 : Outside a b) (h2 : Outside b c) : Outside a c := by
  obtain ⟨a1, a2, a3, a4, a5, a6, a7, a8, a9⟩ := h1
  obtain ⟨b1, b2, b3, b4, b5, b6, b7, b8, b9⟩ := h2
  exact ⟨b1.trans a1, b2.trans a2, b3.trans a3, b4.trans a4, b5.trans a5, b6.trans a6, b7.trans a7,
    b8.trans a8, b9.trans a9⟩

theorem Regs.trans {a b c : World} {l m : List (Core × Eff)} (h1 : Regs a b l) (h2 : Regs b c m) :
    Regs a c (m ++ l) := by
  refine ⟨by rw [h2.trace, h1.trace, List.append_assoc], ?_, h1.order.trans h2.order, ?_,
    Nat.le_trans h1.next h2.next, fun h => h2.below (h1.below h), ?_, ?_, ?_, h1.out.trans h2.out⟩
  · intro x hx
    rcases List.mem_append.mp hx with hx | hx
    · exact h2.only x hx
    · exact h1.only x hx
  · intro k hk hn
    exact h1.fresh k (h2.fresh k hk (Nat.lt_of_lt_of_le hn h1.next)) hn
  · intro k hn hl
    rw [h2.others k (Nat.lt_of_lt_of_le hn h1.next) (fun c h => hl c (List.mem_append_left _ h)),
      h1.others k hn (fun c h => hl c (List.mem_append_right _ h))]
  · intro k hn
    obtain ⟨x1, x2⟩ := h1.name k hn
    obtain ⟨y1, y2⟩ := h2.name k (Nat.lt_of_lt_of_le hn h1.next)
    exact ⟨y1.trans x1, y2.trans x2⟩
  · intro k hn
    rw [h2.proc k (Nat.lt_of_lt_of_le hn h1.next), h1.proc k hn]

theorem register_regs (z : Stanza) (w : World) : ∃ l, Regs w (register E z w) l := by
  have out : Outside w.toCore w.toCore := ⟨rfl, rfl, rfl, rfl, rfl, rfl, rfl, rfl, rfl⟩
  rcases register_cases (E := E) z w with ⟨_, t, e⟩ | ⟨_, k, x, y, t, c, hf, e⟩ | ⟨_, x, y, t, c, hf, e⟩
  · rw [e]
    exact ⟨[], rfl, (fun _ h => nomatch h), List.prefix_refl _, fun _ h _ => h, Nat.le_refl _, id, fun _ _ _ => rfl,
      fun _ _ => ⟨rfl, rfl⟩, fun _ _ => rfl, out⟩
  · rw [e]
    refine ⟨[(c, .reg k)], rfl, ?_, List.prefix_refl _, fun _ h _ => h, Nat.le_refl _, id, ?_, ?_, ?_, out⟩
    · intro x hx; rw [List.mem_singleton.mp hx]; exact ⟨k, .inl rfl⟩
    · intro j _ hj
      have : j ≠ k := fun e => hj c (by rw [e]; exact List.mem_singleton.mpr rfl)
      exact upd_other _ _ _ _ this
    · intro j _
      show Svc.name (upd _ _ _ j) = _ ∧ Svc.id (upd _ _ _ j) = _
      by_cases hj : j = k
      · subst hj
        obtain ⟨_, _, _, _, _, _, _, _, _, _, _, _, e⟩ := applyStanza_eq z x y (regBase z w (some j))
        rw [upd_same, e]; exact ⟨rfl, rfl⟩
      · rw [upd_other _ _ _ _ hj]; exact ⟨rfl, rfl⟩
    · intro j _
      show Svc.proc (upd _ _ _ j) = _
      by_cases hj : j = k
      · subst hj; rw [upd_same, applyStanza_proc]; rfl
      · rw [upd_other _ _ _ _ hj]
  · rw [e]
    refine ⟨[(c, .new w.nextKey)], rfl, ?_, List.prefix_append _ _, ?_, Nat.le_succ _, ?_, ?_, ?_, ?_, out⟩
    · intro x hx; rw [List.mem_singleton.mp hx]; exact ⟨_, .inr rfl⟩
    · intro j hj hn
      rcases List.mem_append.mp hj with hj | hj
      · exact hj
      · rw [List.mem_singleton.mp hj] at hn; exact absurd hn (Nat.lt_irrefl _)
    · intro h j hj
      rcases List.mem_append.mp hj with hj | hj
      · exact Nat.lt_succ_of_lt (h j hj)
      · rw [List.mem_singleton.mp hj]; exact Nat.lt_succ_self _
    · intro j hj _
      exact upd_other _ _ _ _ (Nat.ne_of_lt hj)
    · intro j hj
      show Svc.name (upd _ _ _ j) = _ ∧ Svc.id (upd _ _ _ j) = _
      rw [upd_other _ _ _ _ (Nat.ne_of_lt hj)]; exact ⟨rfl, rfl⟩
    · intro j hj
      show Svc.proc (upd _ _ _ j) = _
      rw [upd_other _ _ _ _ (Nat.ne_of_lt hj)]

theorem registerAll_regs : ∀ (zs : List Stanza) (w : World), ∃ l, Regs w (registerAll E zs w) l := by
  intro zs
  induction zs with
  | nil => exact fun w => ⟨[], .refl w⟩
  | cons z zs ih =>
    intro w
    obtain ⟨l, h1⟩ := register_regs (E := E) z w
    obtain ⟨m, h2⟩ := ih (register E z w)
    exact ⟨m ++ l, h1.trans h2⟩

theorem registerAll_append (l1 l2 : List Stanza) : ∀ w : World,
    registerAll E (l1 ++ l2) w = registerAll E l2 (registerAll E l1 w) := by
  induction l1 with
  | nil => exact fun w => rfl
  | cons z zs ih => exact fun w => ih (register E z w)

/-- Registering stanzas of other names leaves a service alone. -/
theorem registerAll_other : ∀ (zs : List Stanza) (w : World) (k : Key), k ∈ w.order → k < w.nextKey →
    (∀ z ∈ zs, z.type ≠ .tty ∧ ¬ (z.name = (w.svc k).name ∧ z.id = (w.svc k).id)) →
    (registerAll E zs w).svc k = w.svc k := by
  intro zs
  induction zs with
  | nil => exact fun _ _ _ _ _ => rfl
  | cons z zs ih =>
    intro w k hk hn hz
    have e : (register E z w).svc k = w.svc k := by
      rcases register_cases (E := E) z w with ⟨_, t, e⟩ | ⟨_, j, x, y, t, c, hf, e⟩ | ⟨_, x, y, t, c, hf, e⟩
      · rw [e]
      · rw [e]
        refine upd_other _ _ _ _ fun e => ?_
        subst e
        have h0 := hz z (List.mem_cons_self ..)
        obtain ⟨n1, n2⟩ := regFind_name hf h0.1
        exact h0.2 ⟨n1.symm, n2.symm⟩
      · rw [e]
        exact upd_other _ _ _ _ (Nat.ne_of_lt hn)
    obtain ⟨l, hr⟩ := register_regs (E := E) z w
    show (registerAll E zs (register E z w)).svc k = _
    rw [ih (register E z w) k (hr.order.subset hk) (Nat.lt_of_lt_of_le hn hr.next)
      (fun z' h' => by rw [e]; exact hz z' (List.mem_cons_of_mem _ h')), e]

/-- A service found by name before is found after. -/
theorem Regs.find {a b : World} {l : List (Core × Eff)} (h : Regs a b l) (ho : OrdOk a.toCore)
    {n i : CStr} {k : Key} (hf : Sup.find a.toCore n i = some k) : Sup.find b.toCore n i = some k := by
  obtain ⟨rest, e⟩ := h.order
  unfold Sup.find at hf ⊢
  rw [← e, List.find?_append]
  have : List.find? (fun k => decide ((b.svc k).name = n) && decide ((b.svc k).id = i)) a.order =
      List.find? (fun k => decide ((a.svc k).name = n) && decide ((a.svc k).id = i)) a.order := by
    have key : ∀ m : List Key, (∀ k ∈ m, k < a.nextKey) →
        List.find? (fun k => decide ((b.svc k).name = n) && decide ((b.svc k).id = i)) m =
        List.find? (fun k => decide ((a.svc k).name = n) && decide ((a.svc k).id = i)) m := by
      intro m
      induction m with
      | nil => exact fun _ => rfl
      | cons x m ih =>
        intro hm
        obtain ⟨e1, e2⟩ := h.name x (hm x (List.mem_cons_self ..))
        rw [List.find?_cons, List.find?_cons, e1, e2, ih (fun k hk => hm k (List.mem_cons_of_mem _ hk))]
    exact key a.order ho.2
  rw [this, hf]; rfl

theorem updateRdeps_eq : ∀ (l : List Key) (w : World), ∃ d : Key → Bool,
    updateRdeps l w = { w with svc := fun k => { w.svc k with dirty := d k } } := by
  intro l
  induction l with
  | nil => exact fun w => ⟨fun k => (w.svc k).dirty, rfl⟩
  | cons k ks ih =>
    intro w
    unfold updateRdeps
    split
    · obtain ⟨d, e⟩ := ih (markAffected (w.svc k).pidCond w)
      refine ⟨d, e.trans ?_⟩
      unfold markAffected
      dsimp only
      congr 2
      funext j
      split <;> rfl
    · exact ih w

theorem since_regs {m : List (Core × Eff)} {c : Core} {t : Nat} {tl : List (Core × Eff)}
    (h : ∀ x ∈ m, ∃ k, x.2 = .reg k ∨ x.2 = .new k) : sinceConf (m ++ (c, .conf t) :: tl) = m := by
  induction m with
  | nil => rfl
  | cons x m ih =>
    have hx : ∀ n, x.2 ≠ .conf n := by
      intro n e
      obtain ⟨k, h | h⟩ := h x (List.mem_cons_self ..) <;> rw [h] at e <;> cases e
    rw [List.cons_append, since_cons hx, ih (fun y hy => h y (List.mem_cons_of_mem _ hy))]

/-- `conf_reload` taken apart. -/
theorem confReload_eq (w : World) : ∃ (l : List (Core × Eff)) (d : Key → Bool) (c : Core),
    let w1 := { markDynamic (emit (.conf w.tick) w) with tick := w.tick + 1 }
    let w2 := registerAll E (E.conf w.tick) w1
    let w3 : World := { w2 with svc := fun k => { w2.svc k with dirty := d k } }
    Regs w1 w2 l ∧ c = w3.toCore ∧
    confReload E w = { markUnavail (emit .confEnd w3) with confChanged := false } := by
  have e0 : ({ markDynamic (emit (.conf w.tick) w) with tick := w.tick + 1 } : World) =
      { markDynamic (emit (.conf w.tick) w) with
        tick := (markDynamic (emit (.conf w.tick) w)).tick + 1 } := rfl
  rw [e0]
  obtain ⟨l, hl⟩ := registerAll_regs (E := E) (E.conf w.tick)
    { markDynamic (emit (.conf w.tick) w) with tick := (markDynamic (emit (.conf w.tick) w)).tick + 1 }
  generalize ew : registerAll E (E.conf w.tick)
    { markDynamic (emit (.conf w.tick) w) with
      tick := (markDynamic (emit (.conf w.tick) w)).tick + 1 } = w2 at hl
  obtain ⟨d, hd⟩ := updateRdeps_eq w2.order w2
  refine ⟨l, d, _, ?_, rfl, ?_⟩
  · dsimp only; rw [ew]; exact hl
  · dsimp only
    rw [ew, ← hd, ← ew]
    rfl

end

end Verif.Sup
