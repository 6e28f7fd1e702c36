import Verif.Gc
import Mathlib.Data.List.Induction

/-!
# C41: service objects are freed only after the grace period
-/

namespace Verif.Gc

/-- Spec: nanoseconds since the epoch of the clock. -/
def Ts.ns (t : Ts) : Int := t.sec * 1000000000 + t.nsec

/-- Spec: the clock returns proper time stamps and does not go backwards. -/
def Clock (h : List (Ev × Ts)) : Prop :=
  (∀ x ∈ h, x.2.ok) ∧ h.Pairwise (fun x y => x.2.ns ≤ y.2.ns)

/-- Spec: no object is removed twice. -/
def Once (h : List (Ev × Ts)) : Prop :=
  h.Pairwise (fun x y => ∀ id, ¬ (x.1 = .del id ∧ y.1 = .del id))

theorem toInt_le {x : Int} (hx : 0 ≤ x) : toInt x ≤ x := by unfold toInt; omega

theorem toInt_small {x : Int} (h0 : 0 ≤ x) (h1 : x < 2 ^ 31) : toInt x = x := by unfold toInt; omega

theorem tdiv_bounds (x : Int) : (0 ≤ x → 1000000 * x.tdiv 1000000 ≤ x ∧ x < 1000000 * x.tdiv 1000000 + 1000000) ∧
    (x ≤ 0 → x ≤ 1000000 * x.tdiv 1000000 ∧ 1000000 * x.tdiv 1000000 < x + 1000000) := by
  constructor
  · intro h
    rw [Int.tdiv_eq_ediv_of_nonneg h]
    omega
  · intro h
    obtain ⟨y, rfl⟩ : ∃ y, x = -y := ⟨-x, by omega⟩
    rw [Int.neg_tdiv, Int.tdiv_eq_ediv_of_nonneg (by omega : 0 ≤ y)]
    omega

theorem msec_old {now t : Ts} (h1 : now.ok) (h2 : t.ok) (hle : t.ns ≤ now.ns)
    (h : grace ≤ msec now t) : 2999000000 < now.ns - t.ns := by
  unfold msec at h
  unfold Ts.ns at *
  unfold Ts.ok at h1 h2
  unfold grace at h
  have hd := tdiv_bounds (now.nsec - t.nsec)
  have h0 : 0 ≤ (now.sec - t.sec) * 1000 + (now.nsec - t.nsec).tdiv 1000000 := by omega
  have := toInt_le h0
  omega

theorem old_msec {now t : Ts} (h1 : now.ok) (h2 : t.ok) (h : 3000000000 ≤ now.ns - t.ns)
    (h' : now.ns - t.ns < 2000000000 * 1000000) : grace ≤ msec now t := by
  unfold msec
  unfold Ts.ns at *
  unfold Ts.ok at h1 h2
  unfold grace
  have hd := tdiv_bounds (now.nsec - t.nsec)
  rw [toInt_small] <;> omega

/-- What is on the list and what has been freed, and since when. -/
structure Inv (h : List (Ev × Ts)) (s : State) : Prop where
  list : ∀ o ∈ s.list, (Ev.del o.id, o.stamp) ∈ h
  freed : ∀ x ∈ s.freed, ∃ t, (Ev.del x.1, t) ∈ h ∧ 2999000000 < x.2.ns - t.ns
  nodup : (s.list.map (·.id) ++ s.freed.map (·.1)).Nodup
  all : ∀ x ∈ h, ∀ id, x.1 = .del id → ⟨id, x.2⟩ ∈ s.list ∨ id ∈ s.freed.map (·.1)

theorem Inv.nodup_list {h : List (Ev × Ts)} {s : State} (i : Inv h s) : s.list.Nodup :=
  List.Pairwise.of_map _ (fun _ _ h e => h (e ▸ rfl)) (List.nodup_append.1 i.nodup).1

theorem perm_move {l : List Obj} {f : List (Nat × Ts)} {o : Obj} {now : Ts} (ho : o ∈ l) :
    (l.map (·.id) ++ f.map (·.1)).Perm
      ((l.erase o).map (·.id) ++ ((o.id, now) :: f).map (·.1)) := by
  have h := List.perm_cons_erase ho
  refine ((h.map (·.id)).append_right _).trans ?_
  simp only [List.map_cons, List.cons_append]
  exact List.perm_middle.symm

theorem Inv.sweep {h : List (Ev × Ts)} {now : Ts} (hn : now.ok)
    (hok : ∀ x ∈ h, x.2.ok ∧ x.2.ns ≤ now.ns) (L : List Obj) :
    ∀ (s : State), Inv h s → L.Nodup → (∀ o ∈ L, o ∈ s.list) →
      Inv h (sweep now L s) ∧ (sweep now L s).timer = s.timer ∧
      (∀ o, o ∈ (Gc.sweep now L s).list ↔ o ∈ s.list ∧ ¬ (o ∈ L ∧ grace ≤ msec now o.stamp)) := by
  induction L with
  | nil => intro s i _ _; exact ⟨i, rfl, fun o => by simp [Gc.sweep]⟩
  | cons o rest ih =>
    intro s i hd hs
    have hd' := List.nodup_cons.1 hd
    unfold Gc.sweep
    split
    · rename_i hlt
      obtain ⟨a, b, c⟩ := ih s i hd'.2 (fun x hx => hs x (List.mem_cons_of_mem _ hx))
      refine ⟨a, b, fun x => (c x).trans ?_⟩
      constructor
      · rintro ⟨h1, h2⟩
        refine ⟨h1, fun h3 => ?_⟩
        rcases List.mem_cons.1 h3.1 with rfl | h4
        · omega
        · exact h2 ⟨h4, h3.2⟩
      · rintro ⟨h1, h2⟩
        exact ⟨h1, fun h3 => h2 ⟨List.mem_cons_of_mem _ h3.1, h3.2⟩⟩
    · rename_i hge
      have ho := hs o List.mem_cons_self
      have hn' : s.list.Nodup := i.nodup_list
      have i' : Inv h { s with list := s.list.erase o, freed := (o.id, now) :: s.freed } := by
        refine ⟨fun x hx => i.list x (List.mem_of_mem_erase hx), ?_, ?_, ?_⟩
        · intro x hx
          rcases List.mem_cons.1 hx with rfl | hx
          · have hm := i.list o ho
            exact ⟨o.stamp, hm, msec_old hn (hok _ hm).1 (hok _ hm).2 (Int.not_lt.1 hge)⟩
          · exact i.freed x hx
        · exact (perm_move ho).nodup_iff.1 i.nodup
        · intro x hx id e
          rcases i.all x hx id e with h1 | h1
          · by_cases h2 : (⟨id, x.2⟩ : Obj) = o
            · refine .inr ?_
              rw [← h2]
              simp
            · exact .inl ((List.mem_erase_of_ne h2).2 h1)
          · exact .inr (by simp only [List.map_cons]; exact List.mem_cons_of_mem _ h1)
      obtain ⟨a, b, c⟩ := ih _ i' hd'.2 (fun x hx =>
        (List.mem_erase_of_ne (by rintro rfl; exact hd'.1 hx)).2
          (hs x (List.mem_cons_of_mem _ hx)))
      refine ⟨a, b, fun x => (c x).trans ?_⟩
      dsimp only
      rw [hn'.mem_erase_iff]
      constructor
      · rintro ⟨⟨h0, h1⟩, h2⟩
        refine ⟨h1, fun h3 => ?_⟩
        rcases List.mem_cons.1 h3.1 with h4 | h4
        · exact h0 h4
        · exact h2 ⟨h4, h3.2⟩
      · rintro ⟨h1, h2⟩
        refine ⟨⟨?_, h1⟩, fun h3 => h2 ⟨List.mem_cons_of_mem _ h3.1, h3.2⟩⟩
        rintro rfl
        exact h2 ⟨List.mem_cons_self, by omega⟩

theorem Inv.mono {h : List (Ev × Ts)} {s : State} (i : Inv h s) (x : Ts) :
    Inv (h ++ [(.timer, x)]) s := by
  refine ⟨fun o ho => List.mem_append_left _ (i.list o ho), fun y hy => ?_, i.nodup, ?_⟩
  · obtain ⟨t, h1, h2⟩ := i.freed y hy
    exact ⟨t, List.mem_append_left _ h1, h2⟩
  · intro y hy id e
    rcases List.mem_append.1 hy with hy | hy
    · exact i.all y hy id e
    · rw [List.mem_singleton.1 hy] at e
      cases e

theorem run_append (h : List (Ev × Ts)) (x : Ev × Ts) : run (h ++ [x]) = step (run h) x := by
  simp [run]

/-- Everything known of the state after a history. -/
structure Facts (h : List (Ev × Ts)) (s : State) : Prop extends Inv h s where
  timer : s.list ≠ [] → s.timer = true

theorem Facts.gc {h : List (Ev × Ts)} {s : State} {now : Ts} (i : Facts h s) (hn : now.ok)
    (hok : ∀ x ∈ h, x.2.ok ∧ x.2.ns ≤ now.ns) :
    Facts h (gc now s) ∧ ∀ o, o ∈ (Gc.gc now s).list ↔ o ∈ s.list ∧ ¬ grace ≤ msec now o.stamp := by
  obtain ⟨a, b, c⟩ := Inv.sweep hn hok s.list { s with timer := false }
    ⟨i.list, i.freed, i.nodup, i.all⟩ i.nodup_list (fun _ h => h)
  refine ⟨⟨⟨a.list, a.freed, a.nodup, a.all⟩, fun hne => ?_⟩, fun o => (c o).trans ?_⟩
  · simpa [Gc.gc] using hne
  · dsimp only
    exact ⟨fun ⟨h1, h2⟩ => ⟨h1, fun h3 => h2 ⟨h1, h3⟩⟩, fun ⟨h1, h2⟩ => ⟨h1, fun h3 => h2 h3.2⟩⟩

theorem facts (h : List (Ev × Ts)) (hc : Clock h) (ho : Once h) : Facts h (run h) := by
  induction h using List.reverseRecOn with
  | nil => exact ⟨⟨by simp [run], by simp [run], by simp [run], by simp⟩, by simp [run]⟩
  | append_singleton h x ih =>
    have hc1 : Clock h := ⟨fun y hy => hc.1 y (List.mem_append_left _ hy), (List.pairwise_append.1 hc.2).1⟩
    have i := ih hc1 (List.pairwise_append.1 ho).1
    have hle : ∀ y ∈ h, y.2.ok ∧ y.2.ns ≤ x.2.ns := fun y hy =>
      ⟨hc1.1 y hy, (List.pairwise_append.1 hc.2).2.2 y hy x (List.mem_singleton.2 rfl)⟩
    have hx : x.2.ok := hc.1 x (by simp)
    have hone : ∀ y ∈ h, ∀ id, ¬ (y.1 = .del id ∧ x.1 = .del id) := fun y hy =>
      (List.pairwise_append.1 ho).2.2 y hy x (List.mem_singleton.2 rfl)
    rw [run_append]
    obtain ⟨e, now⟩ := x
    cases e with
    | timer =>
      have i2 : Facts h (step (run h) (.timer, now)) := by
        simp only [step]
        split
        · exact (i.gc hx hle).1
        · exact i
      exact ⟨i2.toInv.mono now, i2.timer⟩
    | del id =>
      have hnew : id ∉ (run h).list.map (·.id) ++ (run h).freed.map (·.1) := by
        intro hm
        rcases List.mem_append.1 hm with hm | hm
        · obtain ⟨o, hm1, rfl⟩ := List.mem_map.1 hm
          exact hone _ (i.list o hm1) _ ⟨rfl, rfl⟩
        · obtain ⟨o, hm1, rfl⟩ := List.mem_map.1 hm
          obtain ⟨t, h1, _⟩ := i.freed o hm1
          exact hone _ h1 _ ⟨rfl, rfl⟩
      refine ⟨⟨?_, ?_, ?_, ?_⟩, fun _ => rfl⟩
      · intro o ho
        rcases List.mem_append.1 ho with ho | ho
        · exact List.mem_append_left _ (i.list o ho)
        · rw [List.mem_singleton.1 ho]; simp
      · intro y hy
        obtain ⟨t, h1, h2⟩ := i.freed y hy
        exact ⟨t, List.mem_append_left _ h1, h2⟩
      · simp only [step, del, List.map_append, List.map_cons, List.map_nil, List.append_assoc]
        refine List.perm_middle.nodup_iff.2 ?_
        exact List.nodup_cons.2 ⟨hnew, i.nodup⟩
      · intro y hy jd e
        rcases List.mem_append.1 hy with hy | hy
        · rcases i.all y hy jd e with h1 | h1
          · exact .inl (List.mem_append_left _ h1)
          · exact .inr h1
        · rw [List.mem_singleton.1 hy] at e ⊢
          cases e
          exact .inl (List.mem_append_right _ (List.mem_singleton.2 rfl))

/-! ## The claims -/

/-- The grace period as documented: an object is not freed before 3000 ms have passed since its
removal. -/
def C41_grace_full : Prop := ∀ h, Clock h → Once h →
  ∀ id t, (id, t) ∈ (run h).freed → ∃ t0, (Ev.del id, t0) ∈ h ∧ 3000 * 1000000 ≤ t.ns - t0.ns

/-- It is not exactly so: the division of the negative difference of the nanoseconds rounds up. -/
theorem C41_grace_cut_short : ¬ C41_grace_full := by
  intro h
  obtain ⟨t0, h1, h2⟩ := h [(.del 1, ⟨0, 999999⟩), (.timer, ⟨3, 0⟩)]
    ⟨by decide, by decide⟩ (by unfold Once; simp) 1 ⟨3, 0⟩ (by decide)
  simp only [List.mem_cons, Prod.mk.injEq, true_and, reduceCtorEq, false_and, List.not_mem_nil,
    or_false] at h1
  rw [h1] at h2
  revert h2
  decide

/-- An object is freed only if it was removed from the service list more than 2999 ms before.  What
is missing of the full claim is the last millisecond. -/
theorem C41_grace_partial (h : List (Ev × Ts)) (hc : Clock h) (ho : Once h) (id : Nat) (t : Ts)
    (hf : (id, t) ∈ (run h).freed) :
    ∃ t0, (Ev.del id, t0) ∈ h ∧ 2999 * 1000000 < t.ns - t0.ns :=
  (facts h hc ho).freed _ hf

/-- No object is freed twice, and no object that is freed is left on the list. -/
theorem C41_freed_once (h : List (Ev × Ts)) (hc : Clock h) (ho : Once h) :
    ((run h).freed.map (·.1)).Nodup ∧ ∀ o ∈ (run h).list, o.id ∉ (run h).freed.map (·.1) := by
  have i := (List.nodup_append.1 (facts h hc ho).nodup)
  exact ⟨i.2.1, fun o h1 h2 => i.2.2 _ (List.mem_map_of_mem h1) _ h2 rfl⟩

/-- No object is lost: a removed object has been freed, or the timer is set, and if that
expires 3000 ms or more (but less than 23 days) after the removal the object is freed then. -/
theorem C41_freed_at_last (h : List (Ev × Ts)) (hc : Clock h) (ho : Once h) (id : Nat) (t0 : Ts)
    (hd : (Ev.del id, t0) ∈ h) :
    id ∈ (run h).freed.map (·.1) ∨ (run h).timer = true ∧
      ∀ now, Clock (h ++ [(.timer, now)]) → 3000 * 1000000 ≤ now.ns - t0.ns →
        now.ns - t0.ns < 2000000000 * 1000000 → id ∈ (run (h ++ [(.timer, now)])).freed.map (·.1) := by
  have i := facts h hc ho
  rcases i.all _ hd id rfl with hl | hl
  · refine .inr ⟨i.timer (List.ne_nil_of_mem hl), fun now hc' h1 h2 => ?_⟩
    have ho' : Once (h ++ [(.timer, now)]) := by
      refine List.pairwise_append.2 ⟨ho, List.pairwise_singleton _ _, ?_⟩
      intro a _ b hb id' hh
      rw [List.mem_singleton.1 hb] at hh
      cases hh.2
    rcases (facts _ hc' ho').all _ (List.mem_append_left _ hd) id rfl with hl' | hl'
    · have hle : ∀ y ∈ h, y.2.ok ∧ y.2.ns ≤ now.ns := fun y hy =>
        ⟨hc.1 y hy, (List.pairwise_append.1 hc'.2).2.2 y hy _ (List.mem_singleton.2 rfl)⟩
      have hn : now.ok := hc'.1 (.timer, now) (by simp)
      rw [run_append] at hl'
      simp only [step, i.timer (List.ne_nil_of_mem hl), if_true] at hl'
      exact absurd (old_msec hn (hle _ hd).1 h1 h2) (((i.gc hn hle).2 _).1 hl').2
    · exact hl'
  · exact .inl hl

/-- A history: one object is freed, one is still waiting. -/
def demo : List (Ev × Ts) :=
  [(.del 1, ⟨10, 5⟩), (.del 2, ⟨12, 0⟩), (.timer, ⟨13, 400⟩)]

example : Clock demo ∧ Once demo ∧ (run demo).freed = [(1, ⟨13, 400⟩)] ∧
    (run demo).list = [⟨2, ⟨12, 0⟩⟩] ∧ (run demo).timer = true ∧
    Clock (demo ++ [(.timer, ⟨16, 0⟩)]) :=
  ⟨⟨by decide, by decide⟩, by unfold Once demo; simp, by decide, by decide, by decide,
    ⟨by decide, by decide⟩⟩

end Verif.Gc
