import Verif.Sup.Mine
import Verif.Sup.CrashSpec

/-!
# Supervisor model: invariants about crashes and restarts
-/

namespace Verif.Sup

open Verif (CStr CondStore)

section lemmas

theorem not_mine {k : Key} {x : Core × Eff} (h : x.2.key ≠ some k) :
    crashOf k x = false ∧ startOf k x = false ∧ interOf k x = false ∧ x.2 ≠ .retry k ∧
    x.2 ≠ .giveUp k ∧ x.2 ≠ .lifted k ∧ x.2 ≠ .age k ∧ x.2 ≠ .bump k ∧ x.2 ≠ .new k := by
  obtain ⟨c, e⟩ := x
  refine ⟨?_, ?_, ?_, ?_, ?_, ?_, ?_, ?_, ?_⟩
  · cases hx : crashOf k (c, e) with
    | false => rfl
    | true =>
      unfold crashOf at hx
      have := (of_decide_eq_true hx).1
      exact absurd (by rw [this]; rfl) h
  · unfold startOf
    split
    · rename_i p j he
      dsimp only at he
      subst he
      have : j ≠ k := fun e => h (by rw [e]; rfl)
      simp [this]
    · rfl
  · cases hx : interOf k (c, e) with
    | false => rfl
    | true =>
      unfold interOf at hx
      rcases of_decide_eq_true hx with hx | hx | hx <;> exact absurd (by rw [hx]; rfl) h
  all_goals intro hx; exact absurd (by rw [hx]; rfl) h

theorem crashPending_mine (k : Key) (t : List (Core × Eff)) :
    crashPending k (mine k t) = crashPending k t := by
  induction t with
  | nil => rfl
  | cons x t ih =>
    by_cases h : x.2.key = some k
    · rw [mine_keep h]; simp only [crashPending, ih]
    · obtain ⟨h1, h2, h3, h4, h5, h6, h7, h8, h9⟩ := not_mine h
      rw [mine_skip h]; simp only [crashPending, ih, h1, h3, h4, h5, h6]; simp

theorem gaveUp_mine (k : Key) (t : List (Core × Eff)) : gaveUp k (mine k t) = gaveUp k t := by
  induction t with
  | nil => rfl
  | cons x t ih =>
    by_cases h : x.2.key = some k
    · rw [mine_keep h]; simp only [gaveUp, ih]
    · obtain ⟨h1, h2, h3, h4, h5, h6, h7, h8, h9⟩ := not_mine h
      rw [mine_skip h]; simp only [gaveUp, ih, h3, h5]; simp

theorem spent_mine (k : Key) (t : List (Core × Eff)) : spent k (mine k t) = spent k t := by
  induction t with
  | nil => rfl
  | cons x t ih =>
    by_cases h : x.2.key = some k
    · rw [mine_keep h]; simp only [spent, ih]
    · obtain ⟨h1, h2, h3, h4, h5, h6, h7, h8, h9⟩ := not_mine h
      rw [mine_skip h]; simp only [spent, ih, h4, h5, h7, h8, h9]; simp

theorem retries_mine (k : Key) (t : List (Core × Eff)) : retries k (mine k t) = retries k t := by
  induction t with
  | nil => rfl
  | cons x t ih =>
    by_cases h : x.2.key = some k
    · rw [mine_keep h]; simp only [retries, ih]
    · obtain ⟨h1, h2, h3, h4, h5, h6, h7, h8, h9⟩ := not_mine h
      rw [mine_skip h]; simp only [retries, ih, h3, h4, h7]; simp

theorem lifts_mine (k : Key) (t : List (Core × Eff)) : lifts k (mine k t) = lifts k t := by
  induction t with
  | nil => rfl
  | cons x t ih =>
    by_cases h : x.2.key = some k
    · rw [mine_keep h]; simp only [lifts, ih]
    · obtain ⟨h1, h2, h3, h4, h5, h6, h7, h8, h9⟩ := not_mine h
      rw [mine_skip h]; simp only [lifts, ih, h3, h6, h7]; simp

theorem crashed_mine (k : Key) (t : List (Core × Eff)) : crashed k (mine k t) = crashed k t := by
  induction t with
  | nil => rfl
  | cons x t ih =>
    by_cases h : x.2.key = some k
    · rw [mine_keep h]; simp only [crashed, ih]
    · obtain ⟨h1, h2, h3, h4, h5, h6, h7, h8, h9⟩ := not_mine h
      rw [mine_skip h]; simp only [crashed, ih, h1, h2, h3, h7]; simp

theorem crashStarts_mine (k : Key) (t : List (Core × Eff)) :
    crashStarts k (mine k t) = crashStarts k t := by
  induction t with
  | nil => rfl
  | cons x t ih =>
    by_cases h : x.2.key = some k
    · rw [mine_keep h]; simp only [crashStarts, ih, crashed_mine]
    · obtain ⟨h1, h2, h3, h4, h5, h6, h7, h8, h9⟩ := not_mine h
      rw [mine_skip h]; simp only [crashStarts, ih, h2, h3, h7]; simp

end lemmas

section
variable {E : Env}

/-- Where the restart settings of a service object come from. -/
def FromZs (s : Svc) : Prop :=
  (s.respawn = true → ∃ z ∈ s.zs, z.respawn = true) ∧
  (s.forking = true → ∃ z ∈ s.zs, z.forking = true) ∧
  (s.restartMax = 10 ∨ ∃ z ∈ s.zs, s.restartMax = z.restartMax)

theorem FromZs.reg {s : Svc} (h : FromZs s) (z : Stanza) (t : SType) (b : Block) (o : Bool) :
    FromZs { s with type := t, block := b, odd := o, zs := z :: s.zs, removed := false } := by
  refine ⟨fun hr => ?_, fun hr => ?_, ?_⟩
  · obtain ⟨y, hy, e⟩ := h.1 hr
    exact ⟨y, List.mem_cons_of_mem _ hy, e⟩
  · obtain ⟨y, hy, e⟩ := h.2.1 hr
    exact ⟨y, List.mem_cons_of_mem _ hy, e⟩
  · rcases h.2.2 with e | ⟨y, hy, e⟩
    · exact .inl e
    · exact .inr ⟨y, List.mem_cons_of_mem _ hy, e⟩

theorem FromZs.prim {lab : Lab} {a b : World} (k : Key) (h : Prim E lab a b)
    (ha : FromZs (a.svc k)) : FromZs (b.svc k) := by
  cases h.turn k with
  | same e => rw [e]; exact ha
  | mod s' h e =>
    rw [e]
    cases h with
    | minor _ h => rw [h]; exact ha
    | apply z x y ho ht hb hk hz =>
      obtain ⟨_, _, _, _, _, _, _, _, _, _, _, _, e⟩ := applyStanza_eq z x y (a.svc k)
      rw [e]
      exact ⟨fun hr => ⟨z, hz, hr⟩, fun hr => ⟨z, hz, hr⟩, .inr ⟨z, hz, rfl⟩⟩
    | _ => exact ha
  | state new t x n h ht e => rw [e]; exact ha
  | force x y h ht hr hs hf e => rw [e]; exact ha
  | respawn x h ht hr e => rw [e]; exact ha
  | giveUp x h ht hr hs hb hm hc e => rw [e]; exact ha
  | again x sv tm h ht hr hs hb hc e => rw [e]; exact ha
  | age h hs e => rw [e]; exact ha
  | bump h e => rw [e]; exact ha
  | forced h ht hs e => rw [e]; exact ha
  | lifted h hx e => rw [e]; exact ha
  | asked e => rw [e]; exact ha
  | marks r d hr hp hs e => rw [e]; exact ha
  | start p x c hp hl hb he hs e => rw [e]; exact ha
  | startBad p x hp hl hb he hs hn e => rw [e]; exact ha
  | script p role hp hl hr h e => rw [e]; exact ha
  | exit s' hp hs ht e => rw [e, hs]; exact ha
  | del e => rw [e]; exact ha
  | delBoot h hb e => rw [e]; exact ha
  | reg z h hz hs e => rw [e]; exact ha.reg _ _ _ _
  | new z h hb hz hs e => rw [e]; exact ⟨fun h => (by cases h), fun h => (by cases h), .inl rfl⟩

theorem Prim.fits {lab : Lab} {a b : World} {k : Key} (h : Prim E lab a b) (hf : Fits k b.trace) :
    Fits k a.trace := fun s hs => hf s (hs.trans h.snap.1)

theorem schar_fit {x : Int} (h1 : -128 ≤ x) (h2 : x ≤ 127) : schar x = x := by
  unfold schar; omega

/-- The restart counter is the instability index, and bounds the automatic restarts. -/
def Counts (k : Key) (w : World) : Prop :=
  Fits k w.trace → (w.svc k).restartCnt = spent k w.trace ∧ 0 ≤ spent k w.trace ∧
    (gaveUp k w.trace = false → (retries k w.trace : Int) ≤ spent k w.trace) ∧
    (0 < retries k w.trace → (w.svc k).restartMax ≠ -1 → (retries k w.trace : Int) ≤ (w.svc k).restartMax)

/-- Nothing of consequence happened. -/
theorem Counts.keep {a b : World} {k : Key} (ha : Counts k a) (hf : Fits k b.trace → Fits k a.trace)
    (h1 : (b.svc k).restartCnt = (a.svc k).restartCnt) (h2 : (b.svc k).restartMax = (a.svc k).restartMax)
    (h3 : spent k b.trace = spent k a.trace) (h4 : retries k b.trace = retries k a.trace)
    (h5 : gaveUp k b.trace = gaveUp k a.trace) : Counts k b := by
  intro hb
  rw [h1, h2, h3, h4, h5]
  exact ha (hf hb)

theorem Counts.prim {lab : Lab} {a b : World} (k : Key) (h : Prim E lab a b)
    (hg : gaveUp k a.trace = true → (a.svc k).block ≠ .restarting) (ha : Counts k a) : Counts k b := by
  have hf := h.fits (k := k)
  have keep : ∀ l, mine k b.trace = l → spent k l = spent k (mine k a.trace) →
      retries k l = retries k (mine k a.trace) → gaveUp k l = gaveUp k (mine k a.trace) →
      (b.svc k).restartCnt = (a.svc k).restartCnt → (b.svc k).restartMax = (a.svc k).restartMax →
      Counts k b := by
    intro l hl h1 h2 h5 h3 h4
    refine ha.keep hf h3 h4 ?_ ?_ ?_
    · rw [← spent_mine, hl, h1, spent_mine]
    · rw [← retries_mine, hl, h2, retries_mine]
    · rw [← gaveUp_mine, hl, h5, gaveUp_mine]
  have get : Fits k b.trace → spent k (mine k b.trace) ≤ 127 := by
    intro h; rw [spent_mine]; exact h _ (List.suffix_refl _)
  have fin : ∀ l, mine k b.trace = l → (Fits k b.trace → Fits k a.trace → spent k l ≤ 127 →
      (b.svc k).restartCnt = spent k l ∧ 0 ≤ spent k l ∧
      (gaveUp k l = false → (retries k l : Int) ≤ spent k l) ∧
      (0 < retries k l → (b.svc k).restartMax ≠ -1 → (retries k l : Int) ≤ (b.svc k).restartMax)) →
      Counts k b := by
    intro l hl hx hb
    have := hx hb (hf hb) (by rw [← hl]; exact get hb)
    rw [← hl, spent_mine, retries_mine, gaveUp_mine] at this
    exact this
  have old : Fits k a.trace → (a.svc k).restartCnt = spent k (mine k a.trace) ∧
      0 ≤ spent k (mine k a.trace) ∧
      (gaveUp k (mine k a.trace) = false → (retries k (mine k a.trace) : Int) ≤ spent k (mine k a.trace)) ∧
      (0 < retries k (mine k a.trace) → (a.svc k).restartMax ≠ -1 →
        (retries k (mine k a.trace) : Int) ≤ (a.svc k).restartMax) := by
    intro h; rw [spent_mine, retries_mine, gaveUp_mine]; exact ha h
  cases h.turn k with
  | same e hm => exact keep _ hm rfl rfl rfl (by rw [e]) (by rw [e])
  | mod s' h e hm =>
    cases h with
    | minor _ h => exact keep _ hm rfl rfl rfl (by rw [e, h]) (by rw [e, h])
    | apply z x y ho ht hb hk hz hh =>
      obtain ⟨_, _, _, _, _, _, _, _, _, _, _, _, e2⟩ := applyStanza_eq z x y (a.svc k)
      rw [e2] at e
      refine fin _ hm fun _ hfa _ => ?_
      obtain ⟨o1, o0, o2, o3⟩ := old hfa
      have : retries k (mine k a.trace) = 0 := by
        rcases hh with hh | hh
        · obtain ⟨c, tl, e⟩ := mine_head hh (k := k) rfl
          rw [e]; simp [retries, interOf]
        · obtain ⟨c, tl, e⟩ := mine_head hh (k := k) rfl
          rw [e]; simp [retries, interOf]
      rw [e, this]
      exact ⟨o1, o0, fun _ => o0, fun h => absurd h (Nat.lt_irrefl _)⟩
    | _ => exact keep _ hm rfl rfl rfl (by rw [e]) (by rw [e])
  | state new t x n h ht e hm =>
    refine keep _ hm ?_ ?_ ?_ (by rw [e]) (by rw [e]) <;> split
    · rfl
    · simp [spent]
    · rfl
    · simp [retries, interOf]
    · rfl
    · simp [gaveUp, interOf]
  | force x y h ht hr hs hff e hm =>
    refine keep _ hm ?_ ?_ ?_ (by rw [e]) (by rw [e]) <;> split
    · rfl
    · simp [spent]
    · rfl
    · simp [retries, interOf]
    · rfl
    · simp [gaveUp, interOf]
  | respawn x h ht hr e hm => exact keep _ hm rfl rfl rfl (by rw [e]) (by rw [e])
  | giveUp x h ht hr hs hb hmx hc e hm =>
    obtain ⟨c, hm⟩ := hm
    refine fin _ hm fun _ hfa _ => ?_
    obtain ⟨o1, o0, o2, o3⟩ := old hfa
    have s1 : spent k ((c, Eff.giveUp k) :: mine k a.trace) = 0 := by simp [spent]
    have s2 : retries k ((c, Eff.giveUp k) :: mine k a.trace) = retries k (mine k a.trace) := by
      simp [retries, interOf]
    have s3 : gaveUp k ((c, Eff.giveUp k) :: mine k a.trace) = true := by simp [gaveUp]
    rw [e, s1, s2, s3]
    exact ⟨rfl, Int.le_refl _, fun h => (by cases h), o3⟩
  | again x sv tm h ht hr hs hb hc e hm =>
    obtain ⟨c, hm, hcm⟩ := hm
    refine fin _ hm fun _ hfa h127 => ?_
    obtain ⟨o1, o0, o2, o3⟩ := old hfa
    have s1 : spent k ((c, Eff.retry k) :: mine k a.trace) = spent k (mine k a.trace) + 1 := by
      simp [spent]
    have s2 : retries k ((c, Eff.retry k) :: mine k a.trace) = retries k (mine k a.trace) + 1 := by
      simp [retries, interOf]
    have s3 : gaveUp k (mine k a.trace) = false := by
      rw [gaveUp_mine]
      cases hx : gaveUp k a.trace with
      | false => rfl
      | true => exact absurd hb (hg hx)
    have o2 := o2 s3
    rw [s1] at h127
    rw [s1, s2, e]
    have hc2 : (a.svc k).restartMax ≠ -1 → (a.svc k).restartCnt < (a.svc k).restartMax :=
      fun h => Int.not_le.mp fun h2 => hc ⟨h, h2⟩
    refine ⟨?_, by omega, ?_, ?_⟩
    · show schar _ = _
      rw [schar_fit, o1] <;> omega
    · intro _; push_cast; omega
    · intro _ h
      have := hc2 h
      push_cast
      omega
  | age h hs e hm =>
    refine fin _ hm fun _ hfa h127 => ?_
    obtain ⟨o1, o0, o2, o3⟩ := old hfa
    have s1 : spent k ((a.toCore, Eff.age k) :: mine k a.trace) = spent k (mine k a.trace) - 1 := by
      simp [spent]
    have s2 : retries k ((a.toCore, Eff.age k) :: mine k a.trace) = 0 := by
      simp [retries]
    rw [s1, s2, e]
    refine ⟨by show _ - 1 = _; rw [o1], by omega, fun _ => ?_, fun h => absurd h (Nat.lt_irrefl _)⟩
    push_cast; omega
  | bump h e hm =>
    refine fin _ hm fun _ hfa h127 => ?_
    obtain ⟨o1, o0, o2, o3⟩ := old hfa
    have s1 : spent k ((a.toCore, Eff.bump k) :: mine k a.trace) = spent k (mine k a.trace) + 1 := by
      simp [spent]
    have s2 : retries k ((a.toCore, Eff.bump k) :: mine k a.trace) = retries k (mine k a.trace) := by
      simp [retries, interOf]
    have s3 : gaveUp k ((a.toCore, Eff.bump k) :: mine k a.trace) = gaveUp k (mine k a.trace) := by
      simp [gaveUp, interOf]
    rw [s1] at h127
    rw [s1, s2, s3, e]
    refine ⟨?_, by omega, fun h => by have := o2 h; omega, o3⟩
    show schar _ = _
    rw [schar_fit, o1] <;> omega
  | forced h ht hs e hm => exact keep _ hm (by simp [spent]) (by simp [retries, interOf]) (by simp [gaveUp, interOf]) (by rw [e]) (by rw [e])
  | lifted h hx e hm => exact keep _ hm (by simp [spent]) (by simp [retries, interOf]) (by simp [gaveUp, interOf]) (by rw [e]) (by rw [e])
  | asked e hm =>
    refine fin _ hm fun _ hfa _ => ?_
    obtain ⟨o1, o0, o2, o3⟩ := old hfa
    have s1 : spent k ((a.toCore, Eff.asked k) :: mine k a.trace) = spent k (mine k a.trace) := by
      simp [spent]
    have s2 : retries k ((a.toCore, Eff.asked k) :: mine k a.trace) = 0 := by
      simp [retries, interOf]
    rw [s1, s2, e]
    exact ⟨o1, o0, fun _ => by push_cast; omega, fun h => absurd h (Nat.lt_irrefl _)⟩
  | marks r d hr hp hs e hm => exact keep _ hm rfl rfl rfl (by rw [e]) (by rw [e])
  | start p x c hp hl hb he hs e hm =>
    exact keep _ hm (by simp [spent]) (by simp [retries, interOf]) (by simp [gaveUp, interOf]) (by rw [e]) (by rw [e])
  | startBad p x hp hl hb he hs hn e hm =>
    exact keep _ hm (by simp [spent]) (by simp [retries, interOf]) (by simp [gaveUp, interOf]) (by rw [e]) (by rw [e])
  | script p role hp hl hr h e hm => exact keep _ hm rfl rfl rfl (by rw [e]) (by rw [e])
  | exit s' hp hs ht e hm => exact keep _ hm rfl rfl rfl (by rw [e, hs]) (by rw [e, hs])
  | del e hr hb hs hm =>
    obtain ⟨c, hm⟩ := hm
    exact keep _ hm (by simp [spent]) (by simp [retries, interOf]) (by simp [gaveUp, interOf]) (by rw [e]) (by rw [e])
  | delBoot h hb e hm =>
    obtain ⟨c, hm⟩ := hm
    exact keep _ hm (by simp [spent]) (by simp [retries, interOf]) (by simp [gaveUp, interOf]) (by rw [e]) (by rw [e])
  | reg z h hz hs e hm =>
    refine fin _ hm fun _ hfa _ => ?_
    obtain ⟨o1, o0, o2, o3⟩ := old hfa
    have s1 : spent k ((a.toCore, Eff.reg k) :: mine k a.trace) = spent k (mine k a.trace) := by
      simp [spent]
    have s2 : retries k ((a.toCore, Eff.reg k) :: mine k a.trace) = 0 := by
      simp [retries, interOf]
    rw [s1, s2, e]
    exact ⟨o1, o0, fun _ => by push_cast; omega, fun h => absurd h (Nat.lt_irrefl _)⟩
  | new z h hb hz hs e hm =>
    refine fin _ hm fun _ hfa _ => ?_
    rw [e]
    simp [spent, retries, interOf]

/-- Plain as far as restarts are concerned. -/
def Counted (s : Svc) : Prop := ∀ z ∈ s.zs, z.respawn = false ∧ z.forking = false

theorem Counted.respawn {s : Svc} (h : FromZs s) (hc : Counted s) : s.respawn = false := by
  cases e : s.respawn with
  | false => rfl
  | true => obtain ⟨z, hz, e⟩ := h.1 e; rw [(hc z hz).1] at e; cases e

theorem Counted.forking {s : Svc} (h : FromZs s) (hc : Counted s) : s.forking = false := by
  cases e : s.forking with
  | false => rfl
  | true => obtain ⟨z, hz, e⟩ := h.2.1 e; rw [(hc z hz).2] at e; cases e

/-- While a crash is unanswered the service is blocked. -/
def Pend (k : Key) (w : World) : Prop :=
  (crashPending k w.trace = true → (w.svc k).block = .restarting ∧ (w.svc k).type.isRuntask = false) ∧
  (gaveUp k w.trace = true → (w.svc k).block = .crashing ∨
    ((w.svc k).block = .user ∧ (w.svc k).type.isRuntask = true)) ∧
  crashStarts k w.trace + (if crashed k w.trace = true ∧ crashPending k w.trace = false ∧ gaveUp k w.trace = false
      then 1 else 0)
    ≤ retries k w.trace + lifts k w.trace

/-- `Pend` in terms of the entries about `k`. -/
def PendM (k : Key) (l : List (Core × Eff)) (s : Svc) : Prop :=
  (crashPending k l = true → s.block = .restarting ∧ s.type.isRuntask = false) ∧
  (gaveUp k l = true → s.block = .crashing ∨ (s.block = .user ∧ s.type.isRuntask = true)) ∧
  crashStarts k l + (if crashed k l = true ∧ crashPending k l = false ∧ gaveUp k l = false then 1 else 0)
    ≤ retries k l + lifts k l

theorem Pend.iff (k : Key) (w : World) : Pend k w ↔ PendM k (mine k w.trace) (w.svc k) := by
  unfold Pend PendM
  rw [crashPending_mine, gaveUp_mine, crashStarts_mine, crashed_mine, retries_mine, lifts_mine]

theorem notRuntask_of {t : SType} (h : (t.isDaemon || decide (t = .tty)) = true) : t.isRuntask = false := by
  cases t <;> first | rfl | cases h

/-- An entry that is none of those looked at, the record staying as far as it matters. -/
theorem PendM.skip {k : Key} {l : List (Core × Eff)} {s s' : Svc} (h : PendM k l s) (x : Core × Eff)
    (h1 : crashOf k x = false) (h2 : startOf k x = false) (h3 : interOf k x = false)
    (h4 : x.2 ≠ .retry k) (h5 : x.2 ≠ .giveUp k) (h6 : x.2 ≠ .lifted k) (h7 : x.2 ≠ .age k)
    (hb : s'.block = s.block) (ht : s'.type = s.type) : PendM k (x :: l) s' := by
  unfold PendM at h ⊢
  simp only [crashPending, gaveUp, crashStarts, crashed, retries, lifts, h1, h2, h3, h4, h5, h6, h7, hb, ht]
  simpa using h

theorem PendM.same {k : Key} {l : List (Core × Eff)} {s s' : Svc} (h : PendM k l s)
    (hb : s'.block = s.block) (ht : s'.type = s.type) : PendM k l s' := by
  unfold PendM at h ⊢; rw [hb, ht]; exact h

/-- A change of state. -/
theorem PendM.trans {k : Key} {l : List (Core × Eff)} {s s' : Svc} (h : PendM k l s) (c : Core)
    (x y : SState) (hc : (c.svc k).block = s.block ∧ (c.svc k).type = s.type)
    (hb : s'.block = s.block) (ht : s'.type = s.type) : PendM k ((c, .trans k x y) :: l) s' := by
  cases hx : crashOf k (c, Eff.trans k x y) with
  | false => exact h.skip _ hx rfl (by simp [interOf]) (by simp) (by simp) (by simp) (by simp) hb ht
  | true =>
    obtain ⟨_, h2, _, h4⟩ := of_decide_eq_true hx
    rw [hc.1] at h2
    rw [hc.2] at h4
    have g : gaveUp k l ≠ true := by
      intro g
      rcases h.2.1 g with g | g
      · rw [h2] at g; cases g
      · rw [h2] at g; cases g.1
    unfold PendM at h ⊢
    have hi : interOf k (c, Eff.trans k x y) = false := by simp [interOf]
    have hs : startOf k (c, Eff.trans k x y) = false := rfl
    simp only [crashPending, gaveUp, crashStarts, crashed, retries, lifts, hx, hi, hs, hb, ht]
    refine ⟨fun _ => ⟨h2, notRuntask_of h4⟩, ?_, ?_⟩
    · simpa using fun e => absurd e g
    · have := h.2.2
      simp
      omega

theorem PendM.inter {k : Key} {l : List (Core × Eff)} {s : Svc} (x : Core × Eff)
    (h : interOf k x = true) : PendM k (x :: l) s := by
  have h1 : crashOf k x = false := by
    cases hx : crashOf k x with
    | false => rfl
    | true =>
      have h2 := (of_decide_eq_true hx).1
      rcases of_decide_eq_true h with h | h | h <;> rw [h2] at h <;> cases h
  have h5 : x.2 ≠ .giveUp k := by
    rcases of_decide_eq_true h with h | h | h <;> rw [h] <;> simp
  unfold PendM
  simp [crashPending, gaveUp, crashStarts, crashed, retries, lifts, h, h1, h5]

/-- A start. -/
theorem PendM.start {k : Key} {l : List (Core × Eff)} {s s' : Svc} (h : PendM k l s) (c : Core)
    (p : Int) (hn : s.block = .none) :
    PendM k ((c, .spawn p k .main) :: l) s' := by
  have h1 : crashPending k l = false := by
    cases hx : crashPending k l with
    | false => rfl
    | true => have := (h.1 hx).1; rw [hn] at this; cases this
  have h2 : gaveUp k l = false := by
    cases hx : gaveUp k l with
    | false => rfl
    | true =>
      have := h.2.1 hx
      rw [hn] at this
      rcases this with g | g
      · cases g
      · cases g.1
  have h3 := h.2.2
  have hi : interOf k (c, Eff.spawn p k .main) = false := by simp [interOf]
  have hx : crashOf k (c, Eff.spawn p k .main) = false := by simp [crashOf]
  have hst : startOf k (c, Eff.spawn p k .main) = true := by simp [startOf]
  unfold PendM
  rw [h1, h2] at h3
  simp only [crashPending, gaveUp, crashStarts, crashed, retries, lifts, hi, hx, hst, h1, h2]
  refine ⟨by simp, by simp, ?_⟩
  simp at h3 ⊢
  split
  · rename_i h; rw [if_pos h] at h3; exact h3
  · omega

theorem Pend.prim {lab : Lab} {a b : World} (k : Key) (hr : a.reent = false) (h : Prim E lab a b)
    (hz : FromZs (a.svc k)) (ha : Counted (a.svc k) → Pend k a) (hcb : Counted (b.svc k)) : Pend k b := by
  rw [Pend.iff] at ha ⊢
  have one : ∀ e, a.trace.head?.map (·.2) = some e → e.key = some k →
      ∃ c tl, mine k a.trace = (c, e) :: tl := fun e he hk => mine_head he hk
  cases h.turn k with
  | same e hm => rw [e] at hcb; rw [hm, e]; exact ha hcb
  | mod s' h e hm =>
    rw [e] at hcb; rw [hm, e]
    cases h with
    | minor _ h => rw [h] at hcb; exact (ha hcb).same (by rw [h]) (by rw [h])
    | armedOff => exact (ha hcb).same rfl rfl
    | cancel => exact (ha hcb).same rfl rfl
    | unblockCond h hx ht hl =>
      obtain ⟨c, tl, e⟩ := one _ hl rfl
      have h0 := (ha hcb).2.2
      have h1 := (ha hcb).2.1
      rw [h] at h1
      refine ⟨?_, fun g => ?_, h0⟩
      · rw [e]; simp [crashPending, crashOf]
      · rcases h1 g with g | g
        · cases g
        · cases g.1
    | unblockConflict h =>
      have h0 := ha hcb
      unfold PendM at h0 ⊢
      rw [h] at h0
      refine ⟨fun g => ?_, fun g => ?_, h0.2.2⟩
      · cases (h0.1 g).1
      · rcases h0.2.1 g with g | g
        · cases g
        · cases g.1
    | blockRestart h hp ht he =>
      have h0 := ha hcb
      unfold PendM at h0 ⊢
      rw [enabled_block he] at h0
      refine ⟨fun g => ?_, fun g => ?_, h0.2.2⟩
      · cases (h0.1 g).1
      · rcases h0.2.1 g with g | g
        · cases g
        · cases g.1
    | unblockRespawn h hx => rw [Counted.respawn hz hcb] at hx; cases hx
    | blockMissing h he =>
      have h0 := ha hcb
      unfold PendM at h0 ⊢
      rw [enabled_block he] at h0
      refine ⟨fun g => ?_, fun g => ?_, h0.2.2⟩
      · cases (h0.1 g).1
      · rcases h0.2.1 g with g | g
        · cases g
        · cases g.1
    | blockConflict h he =>
      have h0 := ha hcb
      unfold PendM at h0 ⊢
      rw [enabled_block he] at h0
      refine ⟨fun g => ?_, fun g => ?_, h0.2.2⟩
      · cases (h0.1 g).1
      · rcases h0.2.1 g with g | g
        · cases g
        · cases g.1
    | blockCrash h =>
      have h0 := ha hcb
      unfold PendM at h0 ⊢
      rw [(h hr).2.2] at h0
      refine ⟨fun g => ?_, fun g => .inl rfl, h0.2.2⟩
      cases (h0.1 g).1
    | blockManual h ht hm =>
      have h0 := ha hcb
      unfold PendM at h0 ⊢
      refine ⟨fun g => ?_, fun g => .inr ⟨rfl, ht⟩, h0.2.2⟩
      rw [(h0.1 g).2] at ht; cases ht
    | apiUnblock h hh =>
      obtain ⟨c, tl, e⟩ := one _ hh rfl
      rw [e]; exact .inter _ (by simp [interOf])
    | apiBlock h ht hh =>
      obtain ⟨c, tl, e⟩ := one _ hh rfl
      rw [e]; exact .inter _ (by simp [interOf])
    | forkedUnblock p x h hf => rw [Counted.forking hz hcb] at hf; cases hf
    | apply z x y ho ht hb hk hz hh =>
      rcases hh with hh | hh <;> obtain ⟨c, tl, e⟩ := one _ hh rfl <;> rw [e] <;>
        exact .inter _ (by simp [interOf])
    | _ => exact (ha hcb).same rfl rfl
  | state new t x n h ht e hm =>
    rw [e] at hcb; rw [hm, e]
    split
    · exact (ha hcb).same rfl rfl
    · exact (ha hcb).trans _ _ _ (by simp) rfl rfl
  | force x y h ht hr hs hff e hm =>
    rw [e] at hcb; rw [hm, e]
    split
    · exact (ha hcb).same rfl rfl
    · exact (ha hcb).trans _ _ _ (by simp) rfl rfl
  | respawn x h ht hr e hm =>
    rw [e] at hcb; rw [Counted.respawn hz hcb] at hr; cases hr
  | giveUp x h ht hr hs hb hmx hc e hm =>
    obtain ⟨c, hm⟩ := hm
    rw [e] at hcb; rw [hm, e]
    have h3 := (ha hcb).2.2
    have hi : interOf k (c, Eff.giveUp k) = false := by simp [interOf]
    have hx : crashOf k (c, Eff.giveUp k) = false := by simp [crashOf]
    have hst : startOf k (c, Eff.giveUp k) = false := rfl
    unfold PendM
    simp only [crashPending, gaveUp, crashStarts, crashed, retries, lifts, hi, hx, hst]
    simp
    omega
  | again x sv tm h ht hr hs hb hc e hm =>
    obtain ⟨c, hm, _⟩ := hm
    rw [e] at hcb; rw [hm, e]
    have h0 := ha hcb
    unfold PendM at h0 ⊢
    rw [hb] at h0
    have h3 := h0.2.2
    have hi : interOf k (c, Eff.retry k) = false := by simp [interOf]
    have hx : crashOf k (c, Eff.retry k) = false := by simp [crashOf]
    have hst : startOf k (c, Eff.retry k) = false := rfl
    simp only [crashPending, gaveUp, crashStarts, crashed, retries, lifts, hi, hx, hst]
    refine ⟨by simp, fun g => ?_, ?_⟩
    · rcases h0.2.1 (by simpa using g) with g | g
      · cases g
      · cases g.1
    · simp
      split <;> split at h3 <;> omega
  | age h hs e hm =>
    rw [e] at hcb; rw [hm, e]
    have h0 := ha hcb
    unfold PendM at h0 ⊢
    have hi : interOf k (a.toCore, Eff.age k) = false := by simp [interOf]
    have hx : crashOf k (a.toCore, Eff.age k) = false := by simp [crashOf]
    simp only [crashPending, gaveUp, crashStarts, crashed, retries, lifts, hi, hx]
    refine ⟨by simpa using h0.1, by simpa using h0.2.1, by simp⟩
  | bump h e hm =>
    rw [e] at hcb; rw [hm, e]
    exact (ha hcb).skip _ (by simp [crashOf]) rfl (by simp [interOf]) (by simp) (by simp) (by simp)
      (by simp) rfl rfl
  | forced h ht hs e hm =>
    rw [e] at hcb; rw [hm, e]
    exact (ha hcb).skip _ (by simp [crashOf]) rfl (by simp [interOf]) (by simp) (by simp) (by simp)
      (by simp) rfl rfl
  | lifted h hx e hm =>
    rw [e] at hcb; rw [hm, e]
    have h0 := ha hcb
    unfold PendM at h0 ⊢
    have h3 := h0.2.2
    have hi : interOf k (a.toCore, Eff.lifted k) = false := by simp [interOf]
    have hx : crashOf k (a.toCore, Eff.lifted k) = false := by simp [crashOf]
    have hst : startOf k (a.toCore, Eff.lifted k) = false := rfl
    simp only [crashPending, gaveUp, crashStarts, crashed, retries, lifts, hi, hx, hst]
    refine ⟨by simp, by simpa using h0.2.1, ?_⟩
    simp
    split <;> split at h3 <;> omega
  | asked e hm => rw [hm]; exact .inter _ (by simp [interOf])
  | marks r d hr hp hs e hm => rw [e] at hcb; rw [hm, e]; exact (ha hcb).same rfl rfl
  | start p x c hp hl hb he hs e hm =>
    rw [e] at hcb; rw [hm, e]
    refine PendM.skip (s := a.svc k) ?_ _ (by simp [crashOf]) rfl (by simp [interOf]) (by simp) (by simp)
      (by simp) (by simp) rfl rfl
    exact (ha hcb).start _ _ (enabled_block he)
  | startBad p x hp hl hb he hs hn e hm =>
    rw [e] at hcb; rw [hm, e]
    exact (ha hcb).start _ _ (enabled_block he)
  | script p role hp hl hr h e hm => rw [e] at hcb; rw [hm, e]; exact (ha hcb).same rfl rfl
  | exit s' hp hs ht e hm => rw [e, hs] at hcb; rw [hm, e, hs]; exact (ha hcb).same rfl rfl
  | del e hr hb hs hm =>
    obtain ⟨c, hm⟩ := hm
    rw [e] at hcb; rw [hm, e]
    exact (ha hcb).skip _ (by simp [crashOf]) rfl (by simp [interOf]) (by simp) (by simp) (by simp)
      (by simp) rfl rfl
  | delBoot h hb e hm =>
    obtain ⟨c, hm⟩ := hm
    rw [e] at hcb; rw [hm, e]
    exact (ha hcb).skip _ (by simp [crashOf]) rfl (by simp [interOf]) (by simp) (by simp) (by simp)
      (by simp) rfl rfl
  | reg z h hz hs e hm => rw [hm]; exact .inter _ (by simp [interOf])
  | new z h hb hz hs e hm => rw [hm]; exact .inter _ (by simp [interOf])

/-- Objects not created yet have no stanzas. -/
def NoZs (w : World) : Prop := ∀ k, w.nextKey ≤ k → (w.svc k).zs = []

/-- The stanzas of an object are never forgotten. -/
theorem zs_mono {lab : Lab} {a b : World} (k : Key) (h : Prim E lab a b) :
    (∃ l, (b.svc k).zs = l ++ (a.svc k).zs ∧ (l = [] ∨ k ∈ a.order)) ∨ (k = a.nextKey ∧ k < b.nextKey) := by
  have same : (b.svc k).zs = (a.svc k).zs →
    (∃ l, (b.svc k).zs = l ++ (a.svc k).zs ∧ (l = [] ∨ k ∈ a.order)) ∨ (k = a.nextKey ∧ k < b.nextKey) :=
    fun h => .inl ⟨[], by simpa using h, .inl rfl⟩
  cases h.turn k with
  | same e hm => exact same (by rw [e])
  | mod s' h e hm =>
    refine same ?_
    rw [e]
    cases h with
    | minor _ h => rw [h]
    | apply z x y =>
      obtain ⟨_, _, _, _, _, _, _, _, _, _, _, _, e⟩ := applyStanza_eq z x y (a.svc k)
      rw [e]
    | _ => rfl
  | state new t x n h ht e hm => exact same (by rw [e])
  | force x y h ht hr hs hff e hm => exact same (by rw [e])
  | respawn x h ht hr e hm => exact same (by rw [e])
  | giveUp x h ht hr hs hb hmx hc e hm => exact same (by rw [e])
  | again x sv tm h ht hr hs hbb hcc e hm => exact same (by rw [e])
  | age h hs e hm => exact same (by rw [e])
  | bump h e hm => exact same (by rw [e])
  | forced h ht hs e hm => exact same (by rw [e])
  | lifted h hx e hm => exact same (by rw [e])
  | asked e hm => exact same (by rw [e])
  | marks r d hr hp hs e hm => exact same (by rw [e])
  | start p x c hp hlv hbb he hs e hm => exact same (by rw [e])
  | startBad p x hp hlv hbb he hs hn e hm => exact same (by rw [e])
  | script p role hp hl hr h e hm => exact same (by rw [e])
  | exit s' hp hs ht e hm => exact same (by rw [e, hs])
  | del e hr hb hs hm => exact same (by rw [e])
  | delBoot h hb e hm => exact same (by rw [e])
  | reg z h hz hs e hm => exact .inl ⟨[z], by rw [e]; rfl, .inr (regFind_mem h)⟩
  | new z h hbb hzz hs e hm => exact .inr ⟨h, hbb⟩

theorem NoZs.prim {lab : Lab} {a b : World} (ho : OrdOk a.toCore) (h : Prim E lab a b) (ha : NoZs a) :
    NoZs b := by
  intro k hk
  have hk' : a.nextKey ≤ k := Nat.le_trans h.nextKey hk
  rcases zs_mono k h with ⟨l, e, hl | hl⟩ | ⟨_, hl⟩
  · rw [e, hl, ha k hk']; rfl
  · exact absurd (ho.2 k hl) (Nat.not_lt.mpr hk')
  · exact absurd hl (Nat.not_lt.mpr hk)

theorem zs_sub {lab : Lab} {a b : World} (hn : NoZs a) (k : Key) (h : Prim E lab a b) :
    ∀ z ∈ (a.svc k).zs, z ∈ (b.svc k).zs := by
  intro z hz
  rcases zs_mono k h with ⟨l, e, _⟩ | ⟨e, _⟩
  · rw [e]; exact List.mem_append_right _ hz
  · rw [hn k (by rw [e]; exact Nat.le_refl _)] at hz; cases hz

/-- The index fits as long as all limits do and no start fails. -/
def FitOk (k : Key) (w : World) : Prop :=
  (∀ z ∈ (w.svc k).zs, 0 ≤ z.restartMax ∧ z.restartMax ≤ 127) →
  (∀ x ∈ mine k w.trace, x.2 ≠ .bump k) → ∀ s, s <:+ mine k w.trace → spent k s ≤ 127

theorem fits_of {k : Key} {t : List (Core × Eff)} (h : ∀ s, s <:+ mine k t → spent k s ≤ 127) :
    Fits k t := by
  intro s hs
  rw [← spent_mine]
  exact h _ (hs.filter _)

theorem suffix_cons_imp {α : Type} {x : α} {s t : List α} (h : s <:+ x :: t) : s = x :: t ∨ s <:+ t :=
  List.suffix_cons_iff.mp h

theorem FitOk.prim {lab : Lab} {a b : World} (k : Key) (hn : NoZs a) (h : Prim E lab a b)
    (hz : FromZs (a.svc k)) (hc : Counts k a) (ha : FitOk k a) : FitOk k b := by
  intro hl hb
  have base : mine k b.trace = mine k a.trace → (b.svc k).zs = (a.svc k).zs →
      ∀ s, s <:+ mine k b.trace → spent k s ≤ 127 := by
    intro hm e; rw [hm] at hb ⊢; rw [e] at hl; exact ha hl hb
  have one : ∀ x, mine k b.trace = x :: mine k a.trace →
      (∀ z ∈ (a.svc k).zs, 0 ≤ z.restartMax ∧ z.restartMax ≤ 127) →
      (spent k (mine k a.trace) ≤ 127 → spent k (x :: mine k a.trace) ≤ 127) →
      ∀ s, s <:+ mine k b.trace → spent k s ≤ 127 := by
    intro x hm e hx s hs
    rw [hm] at hb hs
    have h0 := ha e (fun y hy => hb y (List.mem_cons_of_mem _ hy))
    rcases suffix_cons_imp hs with rfl | hs
    · exact hx (h0 _ (List.suffix_refl _))
    · exact h0 _ hs
  cases h.turn k with
  | same e hm => exact base hm (by rw [e])
  | mod s' h e hm =>
    refine base hm ?_
    rw [e]
    cases h with
    | minor _ h => rw [h]
    | apply z x y =>
      obtain ⟨_, _, _, _, _, _, _, _, _, _, _, _, e⟩ := applyStanza_eq z x y (a.svc k)
      rw [e]
    | _ => rfl
  | state new t x n h ht e hm =>
    rw [e] at hl
    split at hm
    · exact base hm (by rw [e])
    · exact one _ hm hl (by simp [spent])
  | force x y h ht hr hs hff e hm =>
    rw [e] at hl
    split at hm
    · exact base hm (by rw [e])
    · exact one _ hm hl (by simp [spent])
  | respawn x h ht hr e hm => exact base hm (by rw [e])
  | giveUp x h ht hr hs hb hmx hc e hm =>
    rw [e] at hl
    obtain ⟨c, hm⟩ := hm
    exact one _ hm hl (by simp [spent])
  | again x sv tm h ht hr hs hbb hcc e hm =>
    rw [e] at hl
    obtain ⟨c, hm, _⟩ := hm
    refine one _ hm hl ?_
    intro _
    have s1 : spent k ((c, Eff.retry k) :: mine k a.trace) = spent k (mine k a.trace) + 1 := by
      simp [spent]
    rw [s1]
    rw [hm] at hb
    obtain ⟨o1, _⟩ := hc (fits_of (ha hl (fun y hy => hb y (List.mem_cons_of_mem _ hy))))
    rw [spent_mine]
    have hm2 : 0 ≤ (a.svc k).restartMax ∧ (a.svc k).restartMax ≤ 127 := by
      rcases hz.2.2 with e | ⟨z, hz, e⟩
      · omega
      · have := hl z hz; omega
    have hc2 : (a.svc k).restartCnt < (a.svc k).restartMax :=
      Int.not_le.mp fun h2 => hcc ⟨by omega, h2⟩
    omega
  | age h hs e hm =>
    rw [e] at hl
    refine one _ hm hl ?_
    simp [spent]
    omega
  | bump h e hm => exact absurd rfl (hb _ (by rw [hm]; exact List.mem_cons_self ..))
  | forced h ht hs e hm => rw [e] at hl; exact one _ hm hl (by simp [spent])
  | lifted h hx e hm => rw [e] at hl; exact one _ hm hl (by simp [spent])
  | asked e hm => rw [e] at hl; exact one _ hm hl (by simp [spent])
  | marks r d hr hp hs e hm => exact base hm (by rw [e])
  | start p x c hp hlv hbb he hs e hm =>
    rw [e] at hl
    intro s hs
    rw [hm] at hb hs
    have h0 := ha hl (fun y hy => hb y (List.mem_cons_of_mem _ (List.mem_cons_of_mem _ hy)))
    have h1 := h0 _ (List.suffix_refl _)
    rcases suffix_cons_imp hs with rfl | hs
    · simpa [spent] using h1
    · rcases suffix_cons_imp hs with rfl | hs
      · simpa [spent] using h1
      · exact h0 _ hs
  | startBad p x hp hlv hbb he hs hn e hm => rw [e] at hl; exact one _ hm hl (by simp [spent])
  | script p role hp hl hr h e hm => exact base hm (by rw [e])
  | exit s' hp hs ht e hm => exact base hm (by rw [e, hs])
  | del e hr hb hs hm =>
    rw [e] at hl
    obtain ⟨c, hm⟩ := hm
    exact one _ hm hl (by simp [spent])
  | delBoot h hb e hm =>
    rw [e] at hl
    obtain ⟨c, hm⟩ := hm
    exact one _ hm hl (by simp [spent])
  | reg z h hz hs e hm =>
    rw [e] at hl
    exact one _ hm (fun y hy => hl y (List.mem_cons_of_mem _ hy)) (by simp [spent])
  | new z h hbb hzz hs e hm =>
    refine one _ hm ?_ (by simp [spent])
    rw [hn k (by rw [h]; exact Nat.le_refl _)]
    intro z hz; cases hz

/-- What is known about crashes in every reachable state. -/
structure Crashes (w : World) : Prop where
  noZs : NoZs w
  fromZs : ∀ k, FromZs (w.svc k)
  pend : w.reent = false → ∀ k, Counted (w.svc k) → Pend k w ∧ Counts k w ∧ FitOk k w

theorem Crashes.start (cfg cmd : Nat) : Crashes (World.start cfg cmd) := by
  refine ⟨fun _ _ => rfl, fun k => ⟨fun h => (by cases h), fun h => (by cases h), .inl rfl⟩, ?_⟩
  intro _ k _
  refine ⟨⟨fun h => (by cases h), fun h => (by cases h), ?_⟩, ?_, ?_⟩
  · show 0 + (if (false = true ∧ _) then 1 else 0) ≤ 0 + 0
    simp
  · intro _
    exact ⟨rfl, Int.le_refl _, fun _ => Int.le_refl _, fun h => absurd h (Nat.lt_irrefl _)⟩
  · intro _ _ s hs
    cases List.suffix_nil.mp hs
    show (0 : Int) ≤ 127
    decide

theorem Crashes.prim {lab : Lab} {a b : World} (ho : OrdOk a.toCore) (h : Prim E lab a b)
    (ha : Crashes a) : Crashes b := by
  refine ⟨ha.noZs.prim ho h, fun k => (ha.fromZs k).prim k h, ?_⟩
  intro hb k hc
  have hr : a.reent = false := h.reent_false hb
  have hca : Counted (a.svc k) := fun z hz => hc z (zs_sub ha.noZs k h z hz)
  obtain ⟨h1, h2, h3⟩ := ha.pend hr k hca
  refine ⟨Pend.prim k hr h (ha.fromZs k) (fun _ => h1) hc, h2.prim k h ?_,
    FitOk.prim k ha.noZs h (ha.fromZs k) h2 h3⟩
  intro hg
  rcases h1.2.1 hg with e | e
  · rw [e]; decide
  · rw [e.1]; decide

theorem Reach.crashes {w : World} (h : Reach E w) : Crashes w :=
  Reach.inv Crashes.start (fun _ _ _ ho p ih => ih.prim ho p) h

theorem SnapOf.zs {a : World} {c : Core} (h : SnapOf a c) (j : Key) : (c.svc j).zs = (a.svc j).zs := by
  rcases h with rfl | ⟨k, t, x, r, rfl⟩
  · rfl
  · by_cases hj : j = k
    · subst hj; simp
    · simp [upd_other _ _ _ _ hj]

/-- The restart counter is a signed char. -/
theorem cnt_range {lab : Lab} {a b : World} (k : Key) (p : Prim E lab a b)
    (ih : -128 ≤ (a.svc k).restartCnt ∧ (a.svc k).restartCnt ≤ 127) :
    -128 ≤ (b.svc k).restartCnt ∧ (b.svc k).restartCnt ≤ 127 := by
  have sr : ∀ x : Int, -128 ≤ schar x ∧ schar x ≤ 127 := by intro x; unfold schar; omega
  cases p.turn k with
  | same e hm => rw [e]; exact ih
  | mod s' h e hm =>
    rw [e]
    cases h with
    | minor _ h => rw [h]; exact ih
    | apply z x y =>
      obtain ⟨_, _, _, _, _, _, _, _, _, _, _, _, e⟩ := applyStanza_eq z x y (a.svc k)
      rw [e]; exact ih
    | _ => exact ih
  | state new t x n h ht e hm => rw [e]; exact ih
  | force x y h ht hr hs hff e hm => rw [e]; exact ih
  | respawn x h ht hr e hm => rw [e]; exact ih
  | giveUp x h ht hr hs hb hmx hc e hm => rw [e]; exact (by decide : (-128 : Int) ≤ 0 ∧ (0 : Int) ≤ 127)
  | again x sv tm h ht hr hs hbb hcc e hm => rw [e]; exact sr _
  | age h hs e hm => rw [e]; dsimp only; omega
  | bump h e hm => rw [e]; exact sr _
  | forced h ht hs e hm => rw [e]; exact ih
  | lifted h hx e hm => rw [e]; exact ih
  | asked e hm => rw [e]; exact ih
  | marks r d hr hp hs e hm => rw [e]; exact ih
  | start p x c hp hlv hbb he hs e hm => rw [e]; exact ih
  | startBad p x hp hlv hbb he hs hn e hm => rw [e]; exact ih
  | script p role hp hl hr h e hm => rw [e]; exact ih
  | exit s' hp hs ht e hm => rw [e, hs]; exact ih
  | del e hr hb hs hm => rw [e]; exact ih
  | delBoot h hb e hm => rw [e]; exact ih
  | reg z h hz hs e hm => rw [e]; exact ih
  | new z h hbb hzz hs e hm => rw [e]; exact (by decide : (-128 : Int) ≤ 0 ∧ (0 : Int) ≤ 127)

end

end Verif.Sup
