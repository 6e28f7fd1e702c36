import Verif.Iter

/-!
# C92: Every service is listed once
-/

namespace Verif

/-! ## Specification -/

/-- Objects are different, and have numbers below that of the next one. -/
def ItOk (s : ItSt) : Prop := s.live.Nodup ∧ (∀ x ∈ s.live, x < s.next) ∧ ∀ g ∈ s.gc, g.1 < s.next ∧ g.1 ∉ s.live

/-- What a client was sent -/
def sentTo (c : Nat) (as : List (Nat × ItAns)) : List ItAns := as.filterMap fun a => if a.1 = c then some a.2 else none

/-- The services among it -/
def servicesOf (as : List ItAns) : List Nat := as.filterMap fun
  | .svc x => some x
  | _ => none

/-- The services that are added, from the number of the next object -/
def added (n : Nat) : List ItEv → List Nat
  | [] => []
  | .add :: es => n :: added (n + 1) es
  | _ :: es => added n es

/-- A client asks for the first service, and for the next ones until there is none; meanwhile anything may happen. -/
structure Lists (c : Nat) (s : ItSt) (es : List ItEv) : Prop where
  own : ∀ first, .ask c first ∈ es → first = false
  last : ∃ as, sentTo c (itRun s (.ask c true :: es)).2 = as ++ [.fin] ∧ .fin ∉ as

/-- The full claim: whatever happens meanwhile, a client is sent services that are or were there, in order and so none twice, among them all
    that are there all the time. -/
def C92_full : Prop :=
  ∀ (c : Nat) (s : ItSt) (es : List ItEv), ItOk s → Lists c s es →
    .ub ∉ sentTo c (itRun s (.ask c true :: es)).2 ∧
      (servicesOf (sentTo c (itRun s (.ask c true :: es)).2)).Sublist (s.live ++ added s.next es) ∧
      ∀ x ∈ s.live, x ∈ (itRun s (.ask c true :: es)).1.live → x ∈ servicesOf (sentTo c (itRun s (.ask c true :: es)).2)

/-- No other client asks, and the service that is to be sent next is not removed. -/
def ItCalm (c : Nat) (s : ItSt) : List ItEv → Prop
  | [] => True
  | e :: es => (match e with
    | .ask c' _ => c' = c
    | .del x => s.iter ≠ some x
    | _ => True) ∧ ItCalm c (itStep s e).1 es

/-! ## Lemmas -/

theorem itAfter_split : ∀ {A B : List Nat} {x : Nat}, x ∉ A → itAfter x (A ++ x :: B) = B.head?
  | [], B, x, _ => by rw [List.nil_append, itAfter, if_pos rfl]
  | a :: A, B, x, h => by
    rw [List.cons_append, itAfter, if_neg (fun e => h (by rw [e]; exact List.mem_cons_self))]
    exact itAfter_split fun hx => h (List.mem_cons_of_mem _ hx)

/-- In the middle of a listing: `S` was sent, `H` are all services that were there, `L0` those at the beginning. -/
structure Mid (L0 S H : List Nat) (s : ItSt) : Prop where
  ok : ItOk s
  split : ∃ A B, s.live = A ++ B ∧ s.iter = B.head? ∧ (∀ x ∈ A, x ∈ L0 → x ∈ S) ∧ (S ++ B).Sublist H
  old : ∀ x ∈ L0, x < s.next

theorem itOk_step {s : ItSt} (h : ItOk s) (e : ItEv) : ItOk (itStep s e).1 := by
  obtain ⟨h1, h2, h3⟩ := h
  cases e with
  | ask c first =>
    show ItOk (itAsk s first).2
    unfold itAsk
    generalize (if first = true then s.live.head? else s.iter) = o
    cases o with
    | none => exact ⟨h1, h2, h3⟩
    | some x =>
      dsimp only
      split
      · exact ⟨h1, h2, h3⟩
      · split
        · exact ⟨h1, h2, h3⟩
        · exact ⟨h1, h2, h3⟩
  | add =>
    refine ⟨?_, ?_, ?_⟩
    · show (s.live ++ [s.next]).Nodup
      rw [List.nodup_append]
      refine ⟨h1, by simp, fun a ha b hb e => ?_⟩
      rw [List.mem_singleton.1 hb] at e
      have := h2 a ha
      omega
    · intro x hx
      show x < s.next + 1
      rcases List.mem_append.1 hx with hx | hx
      · have := h2 x hx; omega
      · rw [List.mem_singleton.1 hx]; omega
    · intro g hg
      obtain ⟨g1, g2⟩ := h3 g hg
      refine ⟨Nat.lt_succ_of_lt g1, fun hx => ?_⟩
      rcases List.mem_append.1 hx with hx | hx
      · exact g2 hx
      · rw [List.mem_singleton.1 hx] at g1; omega
  | del x =>
    show ItOk (if x ∈ s.live then _ else s)
    split
    · rename_i hx
      refine ⟨h1.erase x, fun y hy => h2 y (List.mem_of_mem_erase hy), fun g hg => ?_⟩
      rcases List.mem_append.1 hg with hg | hg
      · obtain ⟨g1, g2⟩ := h3 g hg
        exact ⟨g1, fun hy => g2 (List.mem_of_mem_erase hy)⟩
      · rw [List.mem_singleton.1 hg]
        exact ⟨h2 x hx, fun hy => h1.not_mem_erase hy⟩
    · exact ⟨h1, h2, h3⟩
  | wait ms => exact ⟨h1, h2, h3⟩
  | collect => exact ⟨h1, h2, fun g hg => h3 g (List.mem_filter.1 hg).1⟩

/-- The answer to a request in the middle -/
theorem mid_ask {L0 S H : List Nat} {s : ItSt} (h : Mid L0 S H s) :
    ((itAsk s false).1 = .fin ∧ s.iter = none ∧ (itAsk s false).2 = s) ∨
      ∃ x, (itAsk s false).1 = .svc x ∧ Mid L0 (S ++ [x]) H (itAsk s false).2 := by
  have hok := itOk_step h.ok (.ask 0 false)
  obtain ⟨A, B, hl, hi, hA, hs⟩ := h.split
  cases B with
  | nil =>
    left
    have hi' : s.iter = none := hi
    unfold itAsk
    rw [if_neg (by decide), hi']
    exact ⟨rfl, rfl, rfl⟩
  | cons x B =>
    right
    have hi' : s.iter = some x := hi
    have hx : x ∈ s.live := by rw [hl]; simp
    have hxA : x ∉ A := by
      have := h.ok.1
      rw [hl, List.nodup_append] at this
      exact fun hx => this.2.2 x hx x List.mem_cons_self rfl
    have e : itAsk s false = (.svc x, { s with iter := B.head? }) := by
      unfold itAsk
      rw [if_neg (by decide), hi']
      dsimp only
      rw [if_pos hx, hl, itAfter_split hxA]
    refine ⟨x, by rw [e], ?_⟩
    have hok' : ItOk (itAsk s false).2 := hok
    rw [e] at hok' ⊢
    refine ⟨hok', ⟨A ++ [x], B, by rw [hl]; simp, rfl, fun y hy hy' => ?_, by simpa using hs⟩, h.old⟩
    rcases List.mem_append.1 hy with hy | hy
    · exact List.mem_append_left _ (hA y hy hy')
    · exact List.mem_append_right _ hy

theorem mid_add {L0 S H : List Nat} {s : ItSt} (h : Mid L0 S H s) : Mid L0 S (H ++ [s.next]) (itStep s .add).1 := by
  have hok := itOk_step h.ok .add
  obtain ⟨A, B, hl, hi, hA, hs⟩ := h.split
  have hold : ∀ x ∈ L0, x < (itStep s .add).1.next := fun x hx => Nat.lt_succ_of_lt (h.old x hx)
  cases B with
  | nil =>
    refine ⟨hok, ⟨A ++ [s.next], [], ?_, hi, ?_, hs.trans (List.sublist_append_left _ _)⟩, hold⟩
    · show s.live ++ [s.next] = _
      rw [hl]; simp
    · intro y hy hy'
      rcases List.mem_append.1 hy with hy | hy
      · exact hA y hy hy'
      · rw [List.mem_singleton.1 hy] at hy'
        have := h.old _ hy'
        omega
  | cons x B =>
    refine ⟨hok, ⟨A, x :: B ++ [s.next], ?_, hi, hA, ?_⟩, hold⟩
    · show s.live ++ [s.next] = _
      rw [hl]; simp
    · rw [← List.append_assoc]
      exact hs.append (List.Sublist.refl _)

theorem mid_del {L0 S H : List Nat} {s : ItSt} (h : Mid L0 S H s) {x : Nat} (hx : s.iter ≠ some x) : Mid L0 S H (itStep s (.del x)).1 := by
  have hok := itOk_step h.ok (.del x)
  have e : (itStep s (.del x)).1 = if x ∈ s.live then { s with live := s.live.erase x, gc := s.gc ++ [(x, s.now)] } else s := rfl
  rw [e] at hok ⊢
  split at hok
  · rename_i hm
    rw [if_pos hm]
    obtain ⟨A, B, hl, hi, hA, hs⟩ := h.split
    refine ⟨hok, ?_, h.old⟩
    by_cases hxA : x ∈ A
    · refine ⟨A.erase x, B, ?_, hi, fun y hy => hA y (List.mem_of_mem_erase hy), hs⟩
      show s.live.erase x = _
      rw [hl, List.erase_append_left _ hxA]
    · refine ⟨A, B.erase x, ?_, ?_, hA, (List.Sublist.append (List.Sublist.refl S) List.erase_sublist).trans hs⟩
      · show s.live.erase x = _
        rw [hl, List.erase_append_right _ hxA]
      · show s.iter = _
        cases B with
        | nil => exact hi
        | cons b B =>
          have hb : b ≠ x := fun e => hx (by rw [hi, e]; rfl)
          rw [List.erase_cons, if_neg (by simpa using hb)]
          exact hi
  · rename_i hm
    rw [if_neg hm]
    exact h

theorem sentTo_cons (c : Nat) (a : ItAns) (as : List (Nat × ItAns)) : sentTo c ((c, a) :: as) = a :: sentTo c as := by
  unfold sentTo
  rw [List.filterMap_cons, if_pos rfl]

/-- What was sent, and what is left to be sent -/
theorem mid_run (c : Nat) {L0 : List Nat} : ∀ (es : List ItEv) (S H : List Nat) (s : ItSt), Mid L0 S H s → ItCalm c s es →
    (∀ first, .ask c first ∈ es → first = false) →
    .ub ∉ sentTo c (itRun s es).2 ∧
    (S ++ servicesOf (sentTo c (itRun s es).2)).Sublist (H ++ added s.next es) ∧
    ∃ H', Mid L0 (S ++ servicesOf (sentTo c (itRun s es).2)) H' (itRun s es).1
  | [], S, H, s, h, _, _ => by
    refine ⟨by simp [itRun, sentTo], ?_, H, by simpa [itRun, sentTo, servicesOf] using h⟩
    obtain ⟨A, B, -, -, -, hs⟩ := h.split
    simpa [itRun, sentTo, servicesOf, added] using (List.sublist_append_left S B).trans hs
  | e :: es, S, H, s, h, hc, hf => by
    have hf' : ∀ first, .ask c first ∈ es → first = false := fun f hm => hf f (List.mem_cons_of_mem _ hm)
    cases e with
    | ask c' first =>
      obtain ⟨hc1, hc2⟩ := hc
      have hc1' : c' = c := hc1
      subst hc1'
      have := hf first List.mem_cons_self
      subst this
      have er : (itRun s (.ask c' false :: es)) = ((itRun (itAsk s false).2 es).1, (c', (itAsk s false).1) :: (itRun (itAsk s false).2 es).2) := rfl
      rw [er]
      dsimp only
      rw [sentTo_cons]
      have ea : added s.next (.ask c' false :: es) = added s.next es := rfl
      rw [ea]
      have hc2' : ItCalm c' (itAsk s false).2 es := hc2
      rcases mid_ask h with ⟨h1, -, h3⟩ | ⟨x, h1, h2⟩
      · rw [h3] at hc2' ⊢
        rw [h1]
        obtain ⟨i1, i2, i3⟩ := mid_run c' es S H s h hc2' hf'
        exact ⟨by simp [i1], i2, i3⟩
      · rw [h1]
        have hn : (itAsk s false).2.next = s.next := by
          unfold itAsk
          generalize (if false = true then s.live.head? else s.iter) = o
          cases o with
          | none => rfl
          | some y =>
            dsimp only
            split
            · rfl
            · split <;> rfl
        obtain ⟨i1, i2, i3⟩ := mid_run c' es (S ++ [x]) H _ h2 hc2' hf'
        rw [hn] at i2
        have es' : servicesOf (.svc x :: sentTo c' (itRun (itAsk s false).2 es).2) = x :: servicesOf (sentTo c' (itRun (itAsk s false).2 es).2) := rfl
        rw [es']
        exact ⟨by simp [i1], by simpa using i2, by simpa using i3⟩
    | add =>
      obtain ⟨i1, i2, i3⟩ := mid_run c es S (H ++ [s.next]) _ (mid_add h) hc.2 hf'
      refine ⟨i1, ?_, i3⟩
      have ea : added s.next (.add :: es) = s.next :: added (s.next + 1) es := rfl
      rw [ea]
      have i2' : (S ++ servicesOf (sentTo c (itRun (itStep s .add).1 es).2)).Sublist (H ++ [s.next] ++ added (s.next + 1) es) := i2
      have er : (itRun s (.add :: es)).2 = (itRun (itStep s .add).1 es).2 := rfl
      rw [er]
      simpa using i2'
    | del x =>
      have hn : (itStep s (.del x)).1.next = s.next := by
        show (if x ∈ s.live then _ else s).next = _
        split <;> rfl
      obtain ⟨i1, i2, i3⟩ := mid_run c es S H _ (mid_del h hc.1) hc.2 hf'
      rw [hn] at i2
      exact ⟨i1, i2, i3⟩
    | wait ms =>
      exact mid_run c es S H _ ⟨itOk_step h.ok (.wait ms), h.split, h.old⟩ hc.2 hf'
    | collect =>
      exact mid_run c es S H _ ⟨itOk_step h.ok .collect, h.split, h.old⟩ hc.2 hf'

/-- At the end of a list the iterator is null, and stays so. -/
theorem none_run (c : Nat) : ∀ (es : List ItEv) (s : ItSt), s.iter = none → ItCalm c s es → (∀ first, .ask c first ∈ es → first = false) →
    (itRun s es).1.iter = none
  | [], s, h, _, _ => h
  | e :: es, s, h, hc, hf => by
    have hf' : ∀ first, .ask c first ∈ es → first = false := fun f hm => hf f (List.mem_cons_of_mem _ hm)
    refine none_run c es (itStep s e).1 ?_ hc.2 hf'
    cases e with
    | ask c' first =>
      have hc1 : c' = c := hc.1
      subst hc1
      have := hf first List.mem_cons_self
      subst this
      show (itAsk s false).2.iter = none
      unfold itAsk
      rw [if_neg (by decide), h]
      exact h
    | add => exact h
    | del x =>
      show (if x ∈ s.live then _ else s).iter = none
      split <;> exact h
    | wait ms => exact h
    | collect => exact h

theorem last_none (c : Nat) : ∀ (es : List ItEv) (s : ItSt), ItCalm c s es → (∀ first, .ask c first ∈ es → first = false) →
    (sentTo c (itRun s es).2).getLast? = some .fin → (itRun s es).1.iter = none
  | [], s, _, _, h => by cases h
  | e :: es, s, hc, hf, h => by
    have hf' : ∀ first, .ask c first ∈ es → first = false := fun f hm => hf f (List.mem_cons_of_mem _ hm)
    cases e with
    | ask c' first =>
      have hc1 : c' = c := hc.1
      subst hc1
      have := hf first List.mem_cons_self
      subst this
      have er : (itRun s (.ask c' false :: es)) = ((itRun (itAsk s false).2 es).1, (c', (itAsk s false).1) :: (itRun (itAsk s false).2 es).2) := rfl
      rw [er] at h ⊢
      dsimp only at h ⊢
      rw [sentTo_cons] at h
      by_cases hn : sentTo c' (itRun (itAsk s false).2 es).2 = []
      · rw [hn] at h
        have ha : (itAsk s false).1 = .fin := by simpa using h
        have hi : (itAsk s false).2.iter = none := by
          unfold itAsk at ha ⊢
          rw [if_neg (by decide)] at ha ⊢
          cases hi : s.iter with
          | none => exact hi
          | some x =>
            rw [hi] at ha
            dsimp only at ha
            split at ha
            · cases ha
            · split at ha <;> cases ha
        exact none_run c' es _ hi hc.2 hf'
      · refine last_none c' es _ hc.2 hf' ?_
        obtain ⟨y, ys, hy⟩ : ∃ y ys, sentTo c' (itRun (itAsk s false).2 es).2 = y :: ys := by
          cases hl : sentTo c' (itRun (itAsk s false).2 es).2 with
          | nil => exact absurd hl hn
          | cons y ys => exact ⟨y, ys, rfl⟩
        show (sentTo c' (itRun (itAsk s false).2 es).2).getLast? = _
        rw [hy] at h ⊢
        rw [List.getLast?_cons_cons] at h
        exact h
    | add => exact last_none c es _ hc.2 hf' h
    | del x => exact last_none c es _ hc.2 hf' h
    | wait ms => exact last_none c es _ hc.2 hf' h
    | collect => exact last_none c es _ hc.2 hf' h

theorem mid_start {s : ItSt} (h : ItOk s) {x : Nat} {B : List Nat} (hl : s.live = x :: B) :
    (itAsk s true).1 = .svc x ∧ Mid s.live [x] s.live (itAsk s true).2 := by
  have e : itAsk s true = (.svc x, { s with iter := B.head? }) := by
    unfold itAsk
    rw [if_pos rfl, hl]
    dsimp only [List.head?_cons]
    rw [if_pos List.mem_cons_self]
    have := itAfter_split (A := []) (B := B) (x := x) (by simp)
    rw [List.nil_append] at this
    rw [this]
  have hok := itOk_step h (.ask 0 true)
  have hok' : ItOk (itAsk s true).2 := hok
  rw [e] at hok' ⊢
  refine ⟨rfl, hok', ⟨[x], B, hl, rfl, fun y hy _ => hy, by rw [hl]; exact List.Sublist.refl _⟩, h.2.1⟩

/-! ## The property -/

/-- **C92, part.** Whatever is added and removed meanwhile, except that the service that is to be sent next is not removed, and if no other client
    asks: a client is sent services that are or were there, in order, none twice, among them all that are there all the time.  Missing: other
    clients, and the removal of that service. -/
theorem C92_listing_partial {c : Nat} {s : ItSt} {es : List ItEv} (hok : ItOk s) (h : Lists c s es) (hc : ItCalm c (itStep s (.ask c true)).1 es) :
    .ub ∉ sentTo c (itRun s (.ask c true :: es)).2 ∧
      (servicesOf (sentTo c (itRun s (.ask c true :: es)).2)).Sublist (s.live ++ added s.next es) ∧
      ∀ x ∈ s.live, x ∈ (itRun s (.ask c true :: es)).1.live → x ∈ servicesOf (sentTo c (itRun s (.ask c true :: es)).2) := by
  have er : (itRun s (.ask c true :: es)) = ((itRun (itAsk s true).2 es).1, (c, (itAsk s true).1) :: (itRun (itAsk s true).2 es).2) := rfl
  obtain ⟨as, hl, hnf⟩ := h.last
  rw [er] at hl ⊢
  dsimp only at hl ⊢
  rw [sentTo_cons] at hl ⊢
  cases hs : s.live with
  | nil =>
    have ea : (itAsk s true).1 = .fin := by
      unfold itAsk
      rw [if_pos rfl, hs]
      rfl
    rw [ea] at hl ⊢
    have : sentTo c (itRun (itAsk s true).2 es).2 = [] := by
      cases as with
      | nil => exact (List.cons.inj hl).2
      | cons a as =>
        rw [List.cons_append] at hl
        exact absurd (by rw [← (List.cons.inj hl).1]; exact List.mem_cons_self) hnf
    rw [this]
    exact ⟨by simp, by simp [servicesOf], fun x hx => nomatch hx⟩
  | cons x B =>
    obtain ⟨ea, hm⟩ := mid_start hok hs
    rw [ea] at hl ⊢
    have hc' : ItCalm c (itAsk s true).2 es := hc
    obtain ⟨i1, i2, H', i3⟩ := mid_run c es [x] s.live _ hm hc' h.own
    have hn : (itAsk s true).2.next = s.next := by
      unfold itAsk
      rw [if_pos rfl, hs]
      dsimp only [List.head?_cons]
      rw [if_pos List.mem_cons_self]
    rw [hn] at i2
    have es' : servicesOf (.svc x :: sentTo c (itRun (itAsk s true).2 es).2) = [x] ++ servicesOf (sentTo c (itRun (itAsk s true).2 es).2) := rfl
    rw [es', ← hs]
    refine ⟨by simp [i1], i2, fun y hy hy' => ?_⟩
    have hlast : (sentTo c (itRun (itAsk s true).2 es).2).getLast? = some .fin := by
      cases as with
      | nil => cases (List.cons.inj hl).1
      | cons a as =>
        rw [List.cons_append] at hl
        rw [(List.cons.inj hl).2]
        simp
    have hi := last_none c es _ hc' h.own hlast
    obtain ⟨A, B', hAB, hiB, hA, -⟩ := i3.split
    rw [hi] at hiB
    have hB : B' = [] := List.head?_eq_none_iff.1 hiB.symm
    rw [hAB, hB, List.append_nil] at hy'
    exact hA y hy' hy

/-- Three services; one is added, one that was sent and one that was not are removed. -/
def demoList : ItSt := ⟨[4, 7, 8, 9], [(3, 0)], some 3, 100, 10⟩

def demoAsks : List ItEv := [.ask 1 false, .add, .del 9, .del 4, .wait 5000, .collect, .ask 1 false, .ask 1 false, .ask 1 false]

theorem demoAsks_lists : Lists 1 demoList demoAsks :=
  ⟨by simp [demoAsks], [.svc 4, .svc 7, .svc 8, .svc 10], by decide, by decide⟩

example : servicesOf (sentTo 1 (itRun demoList (.ask 1 true :: demoAsks)).2) = [4, 7, 8, 10] ∧
    (servicesOf (sentTo 1 (itRun demoList (.ask 1 true :: demoAsks)).2)).Sublist ([4, 7, 8, 9] ++ [10]) :=
  ⟨by decide, (C92_listing_partial (c := 1) (s := demoList) (es := demoAsks) (by unfold ItOk; decide) demoAsks_lists (by unfold demoAsks; simp only [ItCalm]; decide)).2.1⟩

/-- **C92, quiet.** When nothing happens meanwhile, a client is sent exactly the services there are, and then the end, wherever the iterator was before. -/
theorem C92_quiet {c : Nat} {s : ItSt} (hok : ItOk s) (h0 : s.live ≠ []) :
    (itRun s (.ask c true :: List.replicate s.live.length (.ask c false))).2 = s.live.map (fun x => (c, .svc x)) ++ [(c, .fin)] := by
  have key : ∀ (B A : List Nat) (s : ItSt), ItOk s → s.live = A ++ B → s.iter = B.head? →
      (itRun s (List.replicate (B.length + 1) (.ask c false))).2 = B.map (fun x => (c, .svc x)) ++ [(c, .fin)] := by
    intro B
    induction B with
    | nil =>
      intro A s _ _ hi
      have hi' : s.iter = none := hi
      show [(c, (itAsk s false).1)] = _
      unfold itAsk
      rw [if_neg (by decide), hi']
      rfl
    | cons x B ih =>
      intro A s hok hl hi
      have hi' : s.iter = some x := hi
      have hxA : x ∉ A := by
        have := hok.1
        rw [hl, List.nodup_append] at this
        exact fun hx => this.2.2 x hx x List.mem_cons_self rfl
      have e : itAsk s false = (.svc x, { s with iter := B.head? }) := by
        unfold itAsk
        rw [if_neg (by decide), hi']
        dsimp only
        rw [if_pos (by rw [hl]; simp), hl, itAfter_split hxA]
      have hok' := itOk_step hok (.ask 0 false)
      have hok2 : ItOk (itAsk s false).2 := hok'
      rw [e] at hok2
      have := ih (A ++ [x]) { s with iter := B.head? } hok2 (by show s.live = _; rw [hl]; simp) rfl
      rw [List.length_cons, List.replicate_succ]
      show (c, (itAsk s false).1) :: (itRun (itAsk s false).2 _).2 = _
      rw [e, this]
      rfl
  obtain ⟨x, B, hl⟩ : ∃ x B, s.live = x :: B := by
    cases hl : s.live with
    | nil => exact absurd hl h0
    | cons x B => exact ⟨x, B, rfl⟩
  have e : itAsk s true = (.svc x, { s with iter := B.head? }) := by
    unfold itAsk
    rw [if_pos rfl, hl]
    dsimp only [List.head?_cons]
    rw [if_pos List.mem_cons_self]
    have := itAfter_split (A := []) (B := B) (x := x) (by simp)
    rw [List.nil_append] at this
    rw [this]
  have hok2 : ItOk (itAsk s true).2 := itOk_step hok (.ask 0 true)
  rw [e] at hok2
  have := key B [x] { s with iter := B.head? } hok2 (by show s.live = _; rw [hl]; rfl) rfl
  show (c, (itAsk s true).1) :: (itRun (itAsk s true).2 _).2 = _
  have hlen : s.live.length = B.length + 1 := by rw [hl]; rfl
  rw [e, hlen]
  dsimp only
  rw [this, hl]
  rfl

example : (itRun demoList (.ask 1 true :: List.replicate 4 (.ask 1 false))).2 = [(1, .svc 4), (1, .svc 7), (1, .svc 8), (1, .svc 9), (1, .fin)] :=
  C92_quiet (c := 1) (s := demoList) (by unfold ItOk; decide) (by decide)

/-- **C92, two clients.** Two clients that list the services at the same time each miss some. -/
theorem C92_two : let r := (itRun ⟨[1, 2, 3], [], none, 0, 4⟩ [.ask 1 true, .ask 2 true, .ask 1 false, .ask 2 false, .ask 1 false, .ask 2 false]).2
    sentTo 1 r = [.svc 1, .svc 2, .fin] ∧ sentTo 2 r = [.svc 1, .svc 3, .fin] := by decide

/-- **C92, removed.** If the service that is to be sent next is removed, it is sent all the same, and then those that were removed after it, and none of the
    others. -/
theorem C92_removed : let r := (itRun ⟨[1, 2, 3, 4], [], none, 0, 5⟩ [.ask 1 true, .del 2, .ask 1 false, .ask 1 false]).2
    sentTo 1 r = [.svc 1, .svc 2, .fin] := by decide

/-- **C92, freed.** If the service that is to be sent next is removed and the client asks for it after it was freed, init uses memory that it has given back.
    This holds in every state. -/
theorem C92_freed {s : ItSt} (hok : ItOk s) {x c ms : Nat} (hi : s.iter = some x) (hx : x ∈ s.live) (hw : 3000 ≤ ms) :
    (itRun s [.del x, .wait ms, .collect, .ask c false]).2 = [(c, .ub)] := by
  have h1 : (itStep s (.del x)).1 = { s with live := s.live.erase x, gc := s.gc ++ [(x, s.now)] } := by
    show (if x ∈ s.live then _ else s) = _
    rw [if_pos hx]
  show [(c, (itAsk (itStep (itStep (itStep s (.del x)).1 (.wait ms)).1 .collect).1 false).1)] = _
  rw [h1]
  have ub : ∀ t : ItSt, t.iter = some x → x ∉ t.live → x ∉ t.gc.map (·.1) → (itAsk t false).1 = .ub := by
    intro t h1 h2 h3
    unfold itAsk
    rw [if_neg (by decide), h1]
    dsimp only
    rw [if_neg h2, if_neg h3]
  refine congrArg (fun a => [(c, a)]) (ub _ ?_ ?_ ?_)
  · exact hi
  · exact fun hm => ((List.Nodup.mem_erase_iff hok.1).1 hm).1 rfl
  intro hm
  obtain ⟨g, hg, hgx⟩ := List.mem_map.1 hm
  obtain ⟨hg1, hg2⟩ := List.mem_filter.1 hg
  rcases List.mem_append.1 hg1 with hg1 | hg1
  · exact (hok.2.2 g hg1).2 (hgx ▸ hx)
  · rw [List.mem_singleton.1 hg1, decide_eq_true_eq] at hg2
    have hg3 : s.now + ms - s.now < 3000 := hg2
    omega

example : (itRun ⟨[1, 2, 3], [], some 2, 0, 4⟩ [.del 2, .wait 3000, .collect, .ask 1 false]).2 = [(1, .ub)] :=
  C92_freed (by unfold ItOk; decide) rfl (by decide) (by decide)

/-- **C92, full claim.** It is false. -/
theorem C92_full_false : ¬ C92_full := by
  intro h
  have := (h 1 ⟨[1, 2, 3, 4], [], none, 0, 5⟩ [.del 2, .ask 1 false, .ask 1 false] (by unfold ItOk; decide)
    ⟨by simp, [.svc 1, .svc 2], by decide, by decide⟩).2.2 3 (by decide) (by decide)
  exact absurd this (by decide)

end Verif
