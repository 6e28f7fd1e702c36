import Verif.Sup.Proc

/-!
# Supervisor model: what happens from some moment on
-/

namespace Verif.Sup

open Verif (CStr CondStore)

section
variable {E : Env}

/-- `Later E ok w v`: some sequence of events leads from `w` to `v`, each of them `ok` in the
    state in which it arrives. -/
inductive Later (E : Env) (ok : World → Ev → Prop) (w : World) : World → Prop
  | refl : Later E ok w w
  | event {v : World} (n : Nat) (ev : Ev) (h : Later E ok w v) (hok : ok v ev) :
      Later E ok w (handle E n ev v)

theorem Later.reach {ok : World → Ev → Prop} {w v : World} (h : Later E ok w v) (hw : Reach E w) :
    Reach E v := by
  induction h with
  | refl => exact hw
  | event n ev _ _ ih => exact .event n ev ih

/-- Every sequence of ok events gives a later state. -/
theorem Later.foldl {ok : World → Ev → Prop} (n : Nat) (evs : List Ev) (hok : ∀ e ∈ evs, ∀ v, ok v e)
    {w v : World} (h : Later E ok w v) :
    Later E ok w (evs.foldl (fun w e => handle E n e w) v) := by
  induction evs generalizing v with
  | nil => exact h
  | cons e es ih =>
    exact ih (fun x hx => hok x (List.mem_cons_of_mem _ hx)) (.event n e h (hok e (List.mem_cons_self ..) _))

theorem Reach.reent_of {w : World} (h : Reach E w) {n : Nat} {ev : Ev}
    (hr : (handle E n ev w).reent = false) : w.reent = false := h.reent n ev hr

/-- A predicate preserved by every `ok` event holds from then on (without re-entrancy). -/
theorem Later.inv {ok : World → Ev → Prop} {P : World → Prop} {w v : World}
    (h : Later E ok w v) (hw : Reach E w)
    (hp : ∀ n ev u, Reach E u → ok u ev → (handle E n ev u).reent = false → P u → P (handle E n ev u))
    (hP : P w) (hr : v.reent = false) : P v := by
  induction h with
  | refl => exact hP
  | event n ev h hok ih =>
    exact hp n ev _ (h.reach hw) hok hr (ih ((h.reach hw).reent n ev hr))

/-- The new part of the trace after an atomic update. -/
theorem Prim.newAll {lab : Lab} {a b : World} (h : Prim E lab a b) {t0 : List (Core × Eff)}
    {Q : Core → Eff → Prop} (ha : ∃ l, a.trace = l ++ t0 ∧ ∀ c e, (c, e) ∈ l → Q c e)
    (hq : ∀ c e tl, NewOk a c e tl → Q c e) : ∃ l, b.trace = l ++ t0 ∧ ∀ c e, (c, e) ∈ l → Q c e := by
  obtain ⟨l, e, hl⟩ := ha
  obtain ⟨⟨m, hm⟩, hn⟩ := h.snap
  refine ⟨m ++ l, by rw [← hm, e, List.append_assoc], ?_⟩
  intro c x hx
  rcases List.mem_append.mp hx with hx | hx
  · obtain ⟨m1, m2, e2⟩ := List.append_of_mem hx
    have hsuf : (c, x) :: (m2 ++ a.trace) <:+ b.trace := ⟨m1, by rw [← hm, e2]; simp⟩
    rcases hn c x _ hsuf with h1 | h1
    · have := h1.length_le
      simp only [List.length_cons, List.length_append] at this
      omega
    · exact hq c x _ h1
  · exact hl c x hx

theorem Prim.newLow {lab : Lab} {a b : World} (h : Prim E lab a b) {t0 : List (Core × Eff)}
    {Q : Core → Eff → Prop} (ha : ∃ l, a.trace = l ++ t0 ∧ ∃ c e, (c, e) ∈ l ∧ Q c e) :
    ∃ l, b.trace = l ++ t0 ∧ ∃ c e, (c, e) ∈ l ∧ Q c e := by
  obtain ⟨l, e, c, x, hx, hq⟩ := ha
  obtain ⟨⟨m, hm⟩, _⟩ := h.snap
  exact ⟨m ++ l, by rw [← hm, e, List.append_assoc], c, x, List.mem_append_right _ hx, hq⟩

theorem SnapOf.block {a : World} {c : Core} (h : SnapOf a c) (j : Key) :
    (c.svc j).block = (a.svc j).block := by
  rcases h with rfl | ⟨k, t, x, r, rfl⟩
  · rfl
  · by_cases hj : j = k
    · subst hj; simp
    · simp [upd_other _ _ _ _ hj]

theorem SnapOf.pid {a : World} {c : Core} (h : SnapOf a c) (k : Key) :
    (c.svc k).pid = (a.svc k).pid := by
  rcases h with rfl | ⟨j, t, x, r, rfl⟩
  · rfl
  · simp only [upd]; split
    · rename_i e; rw [e]
    · rfl

theorem SnapOf.reent {a : World} {c : Core} (h : SnapOf a c) : c.reent = a.reent := by
  rcases h with rfl | ⟨j, t, x, r, rfl⟩ <;> rfl

theorem SnapOf.order {a : World} {c : Core} (h : SnapOf a c) : c.order = a.order := by
  rcases h with rfl | ⟨j, t, x, r, rfl⟩ <;> rfl

theorem SnapOf.live {a : World} {c : Core} (h : SnapOf a c) : c.live = a.live := by
  rcases h with rfl | ⟨j, t, x, r, rfl⟩ <;> rfl

theorem SnapOf.odd {a : World} {c : Core} (h : SnapOf a c) (k : Key) :
    (c.svc k).odd = (a.svc k).odd := by
  rcases h with rfl | ⟨j, t, x, r, rfl⟩
  · rfl
  · simp only [upd]; split
    · rename_i e; rw [e]
    · rfl

end

end Verif.Sup
