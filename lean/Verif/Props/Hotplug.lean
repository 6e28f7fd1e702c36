import Verif.Hotplug

/-!
# C94: A login is offered on a terminal exactly while its device is there
-/

namespace Verif

/-! ## Specification -/

/-- Whether a terminal is wanted, after one more thing happened: not after `initctl stop`, until it is started or the configuration is read again. -/
def hpWants (w : CStr → Bool) : HpEv → CStr → Bool
  | .stop d => fun x => if x = d then false else w x
  | .start d => fun x => if x = d then true else w x
  | .reload => fun _ => true
  | _ => w

def hpWanted (es : List HpEv) : CStr → Bool := es.foldl hpWants (fun _ => true)

/-- There is nothing left to do: all events were read, no getty is about to end, and no terminal would be changed. -/
def HpSettled (s : HpSt) : Prop := s.queue = [] ∧ ∀ x ∈ s.svcs, x.proc ≠ .dying ∧ hpStep s.devs x = x

/-- After the start of the system, with some devices there -/
def hpBoot (devs : CStr → Bool) (names : List CStr) : HpSt := ⟨names.map fun d => hpStep devs { dev := d }, devs, []⟩

/-- The full claim: when there is nothing left to do, a getty runs on a terminal exactly if its device is there and the user has not stopped it. -/
def C94_full : Prop :=
  ∀ (names : List CStr) (devs : CStr → Bool) (es : List HpEv), names.Nodup → HpSettled (hpRun (hpBoot devs names) es) →
    ∀ x ∈ (hpRun (hpBoot devs names) es).svcs,
      (x.proc = .up ↔ (hpRun (hpBoot devs names) es).devs x.dev = true ∧ hpWanted es x.dev = true)

/-- The user gives commands when there is nothing left to do, and the devices of stopped terminals stay as they are. -/
def HpCalm (w : CStr → Bool) (s : HpSt) : List HpEv → Prop
  | [] => True
  | e :: es => (match e with
    | .appear d => w d = true
    | .vanish d => w d = true
    | .stop _ => HpSettled s
    | .start _ => HpSettled s
    | .reload => HpSettled s
    | _ => True) ∧ HpCalm (hpWants w e) (hpEvent s e) es

/-! ## Lemmas -/

/-- From what was read, `V`, and the events left, comes what is. -/
def hpCons (V : CStr → Bool) : List (CStr × Bool) → (CStr → Bool) → Prop
  | [], D => ∀ d, '/' ∉ d → V d = D d
  | (d, c) :: q, D => V d = !c ∧ hpCons (fun x => if x = d then c else V x) q D

theorem hpCons_snoc {D : CStr → Bool} {d : CStr} {on : Bool} (hd : '/' ∉ d) (h0 : D d = !on) : ∀ {q : List (CStr × Bool)} {V : CStr → Bool},
    hpCons V q D → hpCons V (q ++ [(d, on)]) (fun x => if x = d then on else D x)
  | [], V, h => by
    refine ⟨(h d hd).trans h0, fun x hx => ?_⟩
    dsimp only
    split
    · rfl
    · exact h x hx
  | (e, c) :: q, V, h => ⟨h.1, hpCons_snoc hd h0 h.2⟩

theorem hpCons_slash {D : CStr → Bool} {d : CStr} {on : Bool} (hd : '/' ∈ d) : ∀ {q : List (CStr × Bool)} {V : CStr → Bool},
    hpCons V q D → hpCons V q (fun x => if x = d then on else D x)
  | [], V, h => fun x hx => by
    have hne : x ≠ d := fun e => hx (by rw [e]; exact hd)
    dsimp only
    rw [if_neg hne]
    exact h x hx
  | (e, c) :: q, V, h => ⟨h.1, hpCons_slash hd h.2⟩

theorem hpCons_pending {D : CStr → Bool} {d : CStr} (hd : '/' ∉ d) : ∀ {q : List (CStr × Bool)} {V : CStr → Bool},
    hpCons V q D → V d ≠ D d → ∃ c, (d, c) ∈ q
  | [], V, h, hne => absurd (h d hd) hne
  | (e, c) :: q, V, h, hne => by
    by_cases he : d = e
    · exact ⟨c, by rw [he]; exact List.mem_cons_self⟩
    · obtain ⟨c', hc⟩ := hpCons_pending hd (q := q) h.2 (by rw [if_neg he]; exact hne)
      exact ⟨c', List.mem_cons_of_mem _ hc⟩

def HpStable (x : HpSvc) : Prop := ¬ (x.block = .none ∧ x.proc = .off) ∧ ¬ (x.block ≠ .none ∧ x.proc = .up)

theorem hpStep_stable (D : CStr → Bool) (x : HpSvc) : HpStable (hpStep D x) := by
  obtain ⟨d, b, p⟩ := x
  cases b <;> cases p <;> simp only [hpStep] <;> (try split) <;> simp [HpStable]

theorem hpStep_of_stable (D : CStr → Bool) {x : HpSvc} (h : HpStable x) : hpStep D x = x := by
  obtain ⟨d, b, p⟩ := x
  cases b <;> cases p <;> simp_all [HpStable, hpStep]

theorem hpStep_dev (D : CStr → Bool) (x : HpSvc) : (hpStep D x).dev = x.dev := by
  obtain ⟨d, b, p⟩ := x
  cases b <;> cases p <;> simp only [hpStep] <;> (try split) <;> rfl

theorem hpFind_map {f : HpSvc → HpSvc} {d : CStr} : ∀ {ss : List HpSvc}, (ss.map (·.dev)).Nodup →
    hpFind f d ss = ss.map (fun x => if x.dev = d then f x else x)
  | [], _ => rfl
  | s :: ss, h => by
    rw [List.map_cons, List.nodup_cons] at h
    rw [hpFind, List.map_cons]
    split
    · rename_i hs
      congr 1
      have : ∀ x ∈ ss, (if x.dev = d then f x else x) = x := by
        intro x hx
        rw [if_neg]
        intro e
        exact h.1 (List.mem_map.2 ⟨x, hx, e.trans hs.symm⟩)
      rw [List.map_congr_left this, List.map_id']
    · rw [hpFind_map h.2]

/-- What holds of a terminal -/
def HpHolds (w V : CStr → Bool) (q : List (CStr × Bool)) (x : HpSvc) : Prop :=
  HpStable x ∧ '/' ∉ x.dev ∧
  (w x.dev = true → (V x.dev = false → x.block = .missing) ∧
    (V x.dev = true → x.block = .none ∨ (x.block = .missing ∧ ∃ c, (x.dev, c) ∈ q))) ∧
  (w x.dev = false → x.block = .user ∧ ∀ c, (x.dev, c) ∉ q)

structure HpInv (w V : CStr → Bool) (s : HpSt) : Prop where
  nodup : (s.svcs.map (·.dev)).Nodup
  cons : hpCons V s.queue s.devs
  holds : ∀ x ∈ s.svcs, HpHolds w V s.queue x

/-- A step of all terminals after a change `f` of each that keeps its name -/
theorem hpInv_map {w w' V V' : CStr → Bool} {s : HpSt} {f : HpSvc → HpSvc} {q : List (CStr × Bool)} (h : HpInv w V s) (hdev : ∀ x, (f x).dev = x.dev)
    (hc : hpCons V' q s.devs) (hf : ∀ x ∈ s.svcs, HpHolds w' V' q (f x)) : HpInv w' V' ⟨s.svcs.map f, s.devs, q⟩ := by
  refine ⟨?_, hc, ?_⟩
  · show ((s.svcs.map f).map (·.dev)).Nodup
    rw [List.map_map]
    have : ((fun x : HpSvc => x.dev) ∘ f) = (fun x => x.dev) := funext hdev
    rw [this]
    exact h.nodup
  · intro y hy
    obtain ⟨x, hx, e⟩ := List.mem_map.1 hy
    rw [← e]
    exact hf x hx

theorem hpInv_node {w V : CStr → Bool} {s : HpSt} (h : HpInv w V s) {d : CStr} {on : Bool} (hw : w d = true) : HpInv w V (hpNode s d on) := by
  unfold hpNode
  split
  · exact h
  rename_i hne
  have h0 : s.devs d = !on := by
    cases hd : s.devs d <;> cases on <;> simp_all
  by_cases hd : '/' ∈ d
  · rw [if_pos hd]
    exact ⟨h.nodup, hpCons_slash hd h.cons, h.holds⟩
  · rw [if_neg hd]
    refine ⟨h.nodup, hpCons_snoc hd h0 h.cons, fun x hx => ?_⟩
    obtain ⟨h1, h2, h3, h4⟩ := h.holds x hx
    refine ⟨h1, h2, fun hwx => ⟨(h3 hwx).1, fun hv => ?_⟩, fun hwx => ⟨(h4 hwx).1, fun c hm => ?_⟩⟩
    · rcases (h3 hwx).2 hv with hb | ⟨hb, c, hm⟩
      · exact Or.inl hb
      · exact Or.inr ⟨hb, c, List.mem_append_left _ hm⟩
    · rcases List.mem_append.1 hm with hm | hm
      · exact (h4 hwx).2 c hm
      · have := (Prod.mk.inj (List.mem_singleton.1 hm)).1
        rw [this, hw] at hwx
        cases hwx

theorem hpInv_read {w V : CStr → Bool} {s : HpSt} (h : HpInv w V s) {d : CStr} {c : Bool} {q : List (CStr × Bool)} (hq : s.queue = (d, c) :: q) :
    HpInv w (fun x => if x = d then c else V x) (hpEvent s .read) := by
  have hcons := h.cons
  rw [hq] at hcons
  have e : hpEvent s .read = ⟨s.svcs.map (fun x => hpStep s.devs (if x.dev = d then hpDo c x else x)), s.devs, q⟩ := by
    show (match s.queue with | [] => s | (d, creat) :: q => _ : HpSt) = _
    rw [hq]
    dsimp only
    rw [hpFind_map h.nodup, List.map_map]
    rfl
  rw [e]
  refine hpInv_map h (fun x => ?_) hcons.2 fun x hx => ?_
  · rw [hpStep_dev]
    split
    · unfold hpDo
      split
      · rfl
      · split <;> rfl
    · rfl
  obtain ⟨h1, h2, h3, h4⟩ := h.holds x hx
  by_cases hd : x.dev = d
  · rw [if_pos hd]
    have hw : w x.dev = true := by
      cases hw : w x.dev with
      | true => rfl
      | false => exact absurd (by rw [hq, hd]; exact List.mem_cons_self) ((h4 hw).2 c)
    obtain ⟨h5, h6⟩ := h3 hw
    have hV : V x.dev = !c := by rw [hd]; exact hcons.1
    have hpend : s.devs x.dev ≠ c → ∃ c', (x.dev, c') ∈ q := by
      intro hne
      exact hpCons_pending h2 hcons.2 (by rw [if_pos hd]; exact fun e => hne e.symm)
    refine ⟨hpStep_stable _ _, ?_⟩
    cases c with
    | true =>
      have hb := h5 hV
      have hdo : hpDo true x = { x with block := .none } := by
        unfold hpDo
        rw [if_pos ⟨by rw [hb]; decide, rfl⟩]
      rw [hdo]
      have hy : (hpStep s.devs { x with block := .none }).block = .none ∨
          ((hpStep s.devs { x with block := .none }).block = .missing ∧ s.devs x.dev = false) := by
        obtain ⟨xd, xb, xp⟩ := x
        cases xp with
        | off =>
          simp only [hpStep]
          cases s.devs xd with
          | true => exact Or.inl rfl
          | false => exact Or.inr ⟨rfl, rfl⟩
        | up => exact Or.inl rfl
        | dying => exact Or.inl rfl
      rw [hpStep_dev]
      refine ⟨h2, fun _ => ⟨fun hv => ?_, fun _ => ?_⟩, fun hf => ?_⟩
      · have hv' : (if x.dev = d then true else V x.dev) = false := hv
        rw [if_pos hd] at hv'
        cases hv'
      · rcases hy with hy | ⟨hy, hD⟩
        · exact Or.inl hy
        · exact Or.inr ⟨hy, hpend (by rw [hD]; decide)⟩
      · exact absurd (hw.symm.trans hf) (by decide)
    | false =>
      have hb : (hpStep s.devs (hpDo false x)).block = .missing ∧ (hpStep s.devs (hpDo false x)).dev = x.dev := by
        have hb0 := h6 hV
        obtain ⟨xd, xb, xp⟩ := x
        cases xb <;> cases xp <;> simp_all [hpDo, hpStep, HpStable]
      refine ⟨by rw [hb.2]; exact h2, fun _ => ⟨fun _ => hb.1, fun hv => ?_⟩, fun hf => ?_⟩
      · rw [hb.2] at hv
        have hv' : (if x.dev = d then false else V x.dev) = true := hv
        rw [if_pos hd] at hv'
        cases hv'
      · rw [hb.2, hw] at hf
        cases hf
  · rw [if_neg hd, hpStep_of_stable _ h1]
    refine ⟨h1, h2, fun hw => ?_, fun hw => ⟨(h4 hw).1, fun c' hm => (h4 hw).2 c' (by rw [hq]; exact List.mem_cons_of_mem _ hm)⟩⟩
    have hVx : (fun x => if x = d then c else V x) x.dev = V x.dev := if_neg hd
    rw [hVx]
    refine ⟨(h3 hw).1, fun hv => ?_⟩
    rcases (h3 hw).2 hv with hb | ⟨hb, c', hm⟩
    · exact Or.inl hb
    · rw [hq] at hm
      rcases List.mem_cons.1 hm with hm | hm
      · exact absurd (Prod.mk.inj hm).1 hd
      · exact Or.inr ⟨hb, c', hm⟩

theorem hpInv_exit {w V : CStr → Bool} {s : HpSt} (h : HpInv w V s) (d : CStr) : HpInv w V (hpEvent s (.exit d)) := by
  have e : hpEvent s (.exit d) = ⟨s.svcs.map (fun x => if x.dev = d then (if x.proc = .off then x else hpStep s.devs { x with proc := .off }) else x),
      s.devs, s.queue⟩ := by
    show (⟨_, _, _⟩ : HpSt) = _
    rw [hpFind_map h.nodup]
  rw [e]
  refine hpInv_map h (fun x => ?_) h.cons fun x hx => ?_
  · split
    · split
      · rfl
      · rw [hpStep_dev]
    · rfl
  obtain ⟨h1, h2, h3, h4⟩ := h.holds x hx
  split
  · split
    · exact h.holds x hx
    refine ⟨hpStep_stable _ _, by rw [hpStep_dev]; exact h2, ?_⟩
    rw [hpStep_dev]
    have hpend : V x.dev ≠ s.devs x.dev → ∃ c', (x.dev, c') ∈ s.queue := hpCons_pending h2 h.cons
    obtain ⟨xd, xb, xp⟩ := x
    dsimp only at *
    cases xb with
    | none =>
      simp only [hpStep]
      cases hw : w xd with
      | false => exact absurd (h4 hw).1 (by decide)
      | true =>
        have hv : V xd = true := by
          cases hv : V xd with
          | true => rfl
          | false => exact absurd ((h3 hw).1 hv) (by decide)
        refine ⟨fun _ => ⟨fun hv' => absurd (hv.symm.trans hv') (by decide), fun _ => ?_⟩, fun hf => nomatch hf⟩
        cases hD : s.devs xd with
        | true => exact Or.inl rfl
        | false => exact Or.inr ⟨rfl, hpend (by rw [hv, hD]; decide)⟩
    | user => exact ⟨h3, h4⟩
    | missing => exact ⟨h3, h4⟩
  · exact h.holds x hx

/-- A command of the user, when there is nothing left to do -/
theorem hpInv_block {w w' V : CStr → Bool} {s : HpSt} (h : HpInv w V s) (hs : HpSettled s) {f : HpSvc → HpSvc}
    (hf : ∀ x, f x = x ∧ w' x.dev = w x.dev ∨ f x = { x with block := .user } ∧ w' x.dev = false ∨ f x = { x with block := .none } ∧ w' x.dev = true) :
    HpInv w' V ⟨s.svcs.map (fun x => hpStep s.devs (f x)), s.devs, s.queue⟩ := by
  refine hpInv_map h (fun x => ?_) h.cons fun x hx => ?_
  · rw [hpStep_dev]
    rcases hf x with ⟨e, -⟩ | ⟨e, -⟩ | ⟨e, -⟩ <;> rw [e]
  obtain ⟨h1, h2, h3, h4⟩ := h.holds x hx
  have hq : ∀ c, (x.dev, c) ∉ s.queue := fun c hm => by rw [hs.1] at hm; cases hm
  have hVD : V x.dev = s.devs x.dev := by
    have := h.cons
    rw [hs.1] at this
    exact this x.dev h2
  rcases hf x with ⟨e, hw⟩ | ⟨e, hw⟩ | ⟨e, hw⟩
  · rw [e, hpStep_of_stable _ h1]
    refine ⟨h1, h2, ?_⟩
    rw [hw]
    exact ⟨h3, h4⟩
  · refine ⟨hpStep_stable _ _, ?_⟩
    rw [hpStep_dev, e]
    refine ⟨h2, fun hw' => ?_, fun _ => ⟨?_, hq⟩⟩
    · rw [hw] at hw'
      cases hw'
    · obtain ⟨xd, xb, xp⟩ := x
      cases xp <;> rfl
  · refine ⟨hpStep_stable _ _, ?_⟩
    rw [hpStep_dev, e]
    refine ⟨h2, fun _ => ?_, fun hw' => by rw [hw] at hw'; cases hw'⟩
    have hdy := (hs.2 x hx).1
    obtain ⟨xd, xb, xp⟩ := x
    dsimp only at *
    cases xp with
    | dying => exact absurd rfl hdy
    | off =>
      simp only [hpStep]
      rw [hVD]
      cases hD : s.devs xd with
      | true => exact ⟨fun hv => (nomatch hv), fun _ => Or.inl rfl⟩
      | false => exact ⟨fun _ => rfl, fun hv => (nomatch hv)⟩
    | up =>
      simp only [hpStep]
      have hb : xb = .none := by
        cases xb with
        | none => rfl
        | user => exact absurd ⟨HpBlock.noConfusion, rfl⟩ h1.2
        | missing => exact absurd ⟨HpBlock.noConfusion, rfl⟩ h1.2
      refine ⟨fun hv => ?_, fun _ => Or.inl trivial⟩
      cases hw0 : w xd with
      | true => rw [hb] at h3; exact absurd ((h3 hw0).1 hv) (by decide)
      | false => rw [hb] at h4; exact absurd (h4 hw0).1 (by decide)

theorem hpInv_event {w V : CStr → Bool} {s : HpSt} (h : HpInv w V s) (e : HpEv) (hc : HpCalm w s [e]) : ∃ V', HpInv (hpWants w e) V' (hpEvent s e) := by
  cases e with
  | appear d => exact ⟨V, hpInv_node h hc.1⟩
  | vanish d => exact ⟨V, hpInv_node h hc.1⟩
  | read =>
    cases hq : s.queue with
    | nil =>
      refine ⟨V, ?_⟩
      have : hpEvent s .read = s := by
        show (match s.queue with | [] => s | (d, creat) :: q => _ : HpSt) = _
        rw [hq]
      rw [this]
      exact h
    | cons p q => exact ⟨_, hpInv_read h hq⟩
  | exit d => exact ⟨V, hpInv_exit h d⟩
  | stop d =>
    refine ⟨V, ?_⟩
    have e : hpEvent s (.stop d) = ⟨s.svcs.map (fun x => hpStep s.devs (if x.dev = d then { x with block := .user } else x)), s.devs, s.queue⟩ := by
      show (⟨_, _, _⟩ : HpSt) = _
      rw [hpFind_map h.nodup, List.map_map]
      rfl
    rw [e]
    refine hpInv_block h hc.1 fun x => ?_
    show _ ∧ (if x.dev = d then false else w x.dev) = _ ∨ _ ∧ (if x.dev = d then false else w x.dev) = _ ∨ _
    by_cases hd : x.dev = d
    · exact Or.inr (Or.inl ⟨if_pos hd, if_pos hd⟩)
    · exact Or.inl ⟨if_neg hd, if_neg hd⟩
  | start d =>
    refine ⟨V, ?_⟩
    have e : hpEvent s (.start d) = ⟨s.svcs.map (fun x => hpStep s.devs (if x.dev = d then { x with block := .none } else x)), s.devs, s.queue⟩ := by
      show (⟨_, _, _⟩ : HpSt) = _
      rw [hpFind_map h.nodup, List.map_map]
      rfl
    rw [e]
    refine hpInv_block h hc.1 fun x => ?_
    show _ ∧ (if x.dev = d then true else w x.dev) = _ ∨ _ ∨ _ ∧ (if x.dev = d then true else w x.dev) = _
    by_cases hd : x.dev = d
    · exact Or.inr (Or.inr ⟨if_pos hd, if_pos hd⟩)
    · exact Or.inl ⟨if_neg hd, if_neg hd⟩
  | reload =>
    refine ⟨V, ?_⟩
    have e : hpEvent s .reload = ⟨s.svcs.map (fun x => hpStep s.devs { x with block := .none }), s.devs, s.queue⟩ := by
      show (⟨_, _, _⟩ : HpSt) = _
      rw [List.map_map]
      rfl
    rw [e]
    exact hpInv_block h hc.1 fun x => Or.inr (Or.inr ⟨rfl, rfl⟩)

theorem hpInv_run : ∀ {es : List HpEv} {w V : CStr → Bool} {s : HpSt}, HpInv w V s → HpCalm w s es → ∃ V', HpInv (es.foldl hpWants w) V' (hpRun s es)
  | [], w, V, s, h, _ => ⟨V, h⟩
  | e :: es, w, V, s, h, hc => by
    obtain ⟨V', h'⟩ := hpInv_event h e ⟨hc.1, trivial⟩
    exact hpInv_run (es := es) h' hc.2

theorem hpInv_boot {devs : CStr → Bool} {names : List CStr} (hn : names.Nodup) (hs : ∀ d ∈ names, '/' ∉ d) :
    HpInv (fun _ => true) devs (hpBoot devs names) := by
  refine ⟨?_, fun d _ => rfl, fun y hy => ?_⟩
  · show ((names.map _).map _).Nodup
    rw [List.map_map]
    have : ((fun x : HpSvc => x.dev) ∘ fun d => hpStep devs { dev := d }) = id := funext fun d => hpStep_dev devs _
    rw [this, List.map_id]
    exact hn
  · obtain ⟨d, hd, e⟩ := List.mem_map.1 hy
    rw [← e]
    refine ⟨hpStep_stable _ _, by rw [hpStep_dev]; exact hs d hd, ?_⟩
    rw [hpStep_dev]
    refine ⟨fun _ => ?_, fun h => (nomatch h)⟩
    simp only [hpStep]
    cases devs d with
    | true => exact ⟨fun h => (nomatch h), fun _ => Or.inl rfl⟩
    | false => exact ⟨fun _ => rfl, fun h => (nomatch h)⟩

/-! ## The property -/

/-- **C94, part.** However devices in /dev itself come and go and gettys end, and however late init reads of it: when there is nothing left to do, a
    getty runs on a terminal exactly if its device is there and the user has not stopped it.  Missing: commands given while something is
    left to do, devices of stopped terminals that come and go, and devices in directories of /dev. -/
theorem C94_partial {names : List CStr} {devs : CStr → Bool} {es : List HpEv} (hn : names.Nodup) (hd : ∀ d ∈ names, '/' ∉ d)
    (hc : HpCalm (fun _ => true) (hpBoot devs names) es) (hs : HpSettled (hpRun (hpBoot devs names) es)) :
    ∀ x ∈ (hpRun (hpBoot devs names) es).svcs,
      (x.proc = .up ↔ (hpRun (hpBoot devs names) es).devs x.dev = true ∧ hpWanted es x.dev = true) := by
  obtain ⟨V, h⟩ := hpInv_run (hpInv_boot hn hd) hc
  intro x hx
  obtain ⟨h1, h2, h3, h4⟩ := h.holds x hx
  have hVD : V x.dev = (hpRun (hpBoot devs names) es).devs x.dev := by
    have := h.cons
    rw [hs.1] at this
    exact this x.dev h2
  have hdy := (hs.2 x hx).1
  rw [← hVD]
  show _ ↔ _ ∧ es.foldl hpWants (fun _ => true) x.dev = true
  cases hw : es.foldl hpWants (fun _ => true) x.dev with
  | false =>
    have hb := (h4 hw).1
    constructor
    · intro hp
      exact absurd ⟨by rw [hb]; decide, hp⟩ h1.2
    · exact fun hp => nomatch hp.2
  | true =>
    obtain ⟨h5, h6⟩ := h3 hw
    cases hv : V x.dev with
    | false =>
      have hb := h5 hv
      constructor
      · intro hp
        exact absurd ⟨by rw [hb]; decide, hp⟩ h1.2
      · exact fun hp => nomatch hp.1
    | true =>
      rcases h6 hv with hb | ⟨-, c, hm⟩
      · refine ⟨fun _ => ⟨rfl, rfl⟩, fun _ => ?_⟩
        cases hp : x.proc with
        | up => rfl
        | off => exact absurd ⟨hb, hp⟩ h1.1
        | dying => exact absurd hp hdy
      · rw [hs.1] at hm
        cases hm

/-- Two terminals, one with its device -/
def demoHp : HpSt := hpBoot (fun d => decide (d = "ttyS0".toList)) ["ttyS0".toList, "ttyUSB0".toList]

/-- The other appears, the first one is pulled and put back while its getty ends, and the other is stopped by the user. -/
def demoHpEvs : List HpEv :=
  [.appear "ttyUSB0".toList, .vanish "ttyS0".toList, .exit "ttyS0".toList, .appear "ttyS0".toList, .read, .read, .read,
   .stop "ttyUSB0".toList, .exit "ttyUSB0".toList]

example : ∀ x ∈ (hpRun demoHp demoHpEvs).svcs, (x.proc = .up ↔ (hpRun demoHp demoHpEvs).devs x.dev = true ∧ hpWanted demoHpEvs x.dev = true) :=
  C94_partial (by decide) (by decide)
    (by
      refine ⟨rfl, rfl, trivial, rfl, trivial, trivial, trivial, ⟨rfl, ?_⟩, trivial, trivial⟩
      decide)
    ⟨rfl, by decide⟩

example : (hpRun demoHp demoHpEvs).svcs = [⟨"ttyS0".toList, .none, .up⟩, ⟨"ttyUSB0".toList, .user, .off⟩] := by decide

/-- **C94, early start.** If a terminal is started before init reads that its device has appeared, the event is taken for the device's end: the getty is
    ended and not started again, in every system. -/
theorem C94_early {names : List CStr} {devs : CStr → Bool} {d : CStr} (hn : names.Nodup) (hd : d ∈ names) (hs : '/' ∉ d) (hv : devs d = false) :
    let s := hpRun (hpBoot devs names) [.appear d, .start d, .read, .exit d]
    s.queue = [] ∧ s.devs d = true ∧ ⟨d, .missing, .off⟩ ∈ s.svcs := by
  have hnd : ∀ (f : HpSvc → HpSvc), (∀ x, (f x).dev = x.dev) → ∀ ss : List HpSvc, (ss.map (·.dev)).Nodup → ((ss.map f).map (·.dev)).Nodup := by
    intro f hf ss h
    rw [List.map_map]
    have : ((fun x : HpSvc => x.dev) ∘ f) = (fun x => x.dev) := funext hf
    rw [this]
    exact h
  let D : CStr → Bool := fun x => if x = d then true else devs x
  have hD : D d = true := if_pos rfl
  have e1 : hpEvent (hpBoot devs names) (.appear d) = ⟨(hpBoot devs names).svcs, D, [(d, true)]⟩ := by
    show hpNode _ _ _ = _
    unfold hpNode
    rw [if_neg (by show ¬ devs d = true; rw [hv]; decide), if_neg hs]
    rfl
  have n0 : ((hpBoot devs names).svcs.map (·.dev)).Nodup := by
    show ((names.map _).map _).Nodup
    rw [List.map_map]
    have : ((fun x : HpSvc => x.dev) ∘ fun d => hpStep devs { dev := d }) = id := funext fun d => hpStep_dev devs _
    rw [this, List.map_id]
    exact hn
  have m0 : (⟨d, .missing, .off⟩ : HpSvc) ∈ (hpBoot devs names).svcs := by
    refine List.mem_map.2 ⟨d, hd, ?_⟩
    simp only [hpStep, hv]
    rfl
  -- start
  let f2 : HpSvc → HpSvc := fun x => hpStep D (if x.dev = d then { x with block := .none } else x)
  have f2d : ∀ x, (f2 x).dev = x.dev := by
    intro x
    show (hpStep D _).dev = _
    rw [hpStep_dev]
    split <;> rfl
  have e2 : hpEvent ⟨(hpBoot devs names).svcs, D, [(d, true)]⟩ (.start d) = ⟨(hpBoot devs names).svcs.map f2, D, [(d, true)]⟩ := by
    show (⟨_, _, _⟩ : HpSt) = _
    rw [hpFind_map n0, List.map_map]
    rfl
  have n2 := hnd f2 f2d _ n0
  have m2 : (⟨d, .none, .up⟩ : HpSvc) ∈ (hpBoot devs names).svcs.map f2 := by
    refine List.mem_map.2 ⟨_, m0, ?_⟩
    show hpStep D (if d = d then _ else _) = _
    rw [if_pos rfl]
    simp only [hpStep, hD]
    rfl
  generalize (hpBoot devs names).svcs.map f2 = s2 at e2 n2 m2
  -- read
  let f3 : HpSvc → HpSvc := fun x => hpStep D (if x.dev = d then hpDo true x else x)
  have f3d : ∀ x, (f3 x).dev = x.dev := by
    intro x
    show (hpStep D _).dev = _
    rw [hpStep_dev]
    split
    · unfold hpDo
      split
      · rfl
      · split <;> rfl
    · rfl
  have e3 : hpEvent ⟨s2, D, [(d, true)]⟩ .read = ⟨s2.map f3, D, []⟩ := by
    show (⟨_, _, _⟩ : HpSt) = _
    rw [hpFind_map n2, List.map_map]
    rfl
  have n3 := hnd f3 f3d _ n2
  have m3 : (⟨d, .missing, .dying⟩ : HpSvc) ∈ s2.map f3 := by
    refine List.mem_map.2 ⟨_, m2, ?_⟩
    show hpStep D (if d = d then _ else _) = _
    rw [if_pos rfl]
    rfl
  generalize s2.map f3 = s3 at e3 n3 m3
  have e : hpRun (hpBoot devs names) [.appear d, .start d, .read, .exit d] = hpEvent ⟨s3, D, []⟩ (.exit d) := by
    unfold hpRun
    rw [List.foldl_cons, List.foldl_cons, List.foldl_cons, List.foldl_cons, List.foldl_nil, e1, e2, e3]
  rw [e]
  refine ⟨rfl, hD, ?_⟩
  show _ ∈ hpFind _ d s3
  rw [hpFind_map n3]
  refine List.mem_map.2 ⟨_, m3, ?_⟩
  show (if d = d then _ else _) = _
  rw [if_pos rfl]
  rfl

example : (⟨"ttyUSB0".toList, .missing, .off⟩ : HpSvc) ∈
    (hpRun demoHp [.appear "ttyUSB0".toList, .start "ttyUSB0".toList, .read, .exit "ttyUSB0".toList]).svcs :=
  (C94_early (names := ["ttyS0".toList, "ttyUSB0".toList]) (devs := fun d => decide (d = "ttyS0".toList)) (by decide) (by decide) (by decide)
    (by decide)).2.2

/-- **C94, stopped.** A terminal the user has stopped gets a getty again when its device is pulled and put back. -/
theorem C94_stopped : (hpRun demoHp [.stop "ttyS0".toList, .exit "ttyS0".toList, .vanish "ttyS0".toList, .read, .appear "ttyS0".toList, .read]).svcs.head? =
    some ⟨"ttyS0".toList, .none, .up⟩ := by decide

theorem hpFind_mem {f : HpSvc → HpSvc} {d : CStr} {y : HpSvc} : ∀ {ss : List HpSvc}, y ∈ hpFind f d ss → y ∈ ss ∨ ∃ x ∈ ss, x.dev = d ∧ y = f x
  | [], h => nomatch h
  | s :: ss, h => by
    rw [hpFind] at h
    split at h
    · rename_i hs
      rcases List.mem_cons.1 h with e | h
      · exact Or.inr ⟨s, List.mem_cons_self, hs, e⟩
      · exact Or.inl (List.mem_cons_of_mem _ h)
    · rcases List.mem_cons.1 h with e | h
      · exact Or.inl (e ▸ List.mem_cons_self)
      · rcases hpFind_mem h with h | ⟨x, hx, h⟩
        · exact Or.inl (List.mem_cons_of_mem _ h)
        · exact Or.inr ⟨x, List.mem_cons_of_mem _ hx, h⟩

/-- **C94, directories.** A terminal whose device is in a directory of /dev and was not there at first gets no getty when it appears, whatever happens but a
    command of the user. -/
theorem C94_directory {d : CStr} (hs : '/' ∈ d) {s : HpSt} {es : List HpEv} (hq : ∀ c, (d, c) ∉ s.queue)
    (h0 : ∀ x ∈ s.svcs, x.dev = d → x.block = .missing ∧ x.proc = .off) (he : ∀ e ∈ es, e ≠ .start d ∧ e ≠ .reload ∧ e ≠ .stop d) :
    ∀ x ∈ (hpRun s es).svcs, x.dev = d → x.proc = .off := by
  suffices h : ∀ (es : List HpEv) (s : HpSt), (∀ e ∈ es, e ≠ .start d ∧ e ≠ .reload ∧ e ≠ .stop d) → (∀ c, (d, c) ∉ s.queue) →
      (∀ x ∈ s.svcs, x.dev = d → x.block = .missing ∧ x.proc = .off) → ∀ x ∈ (hpRun s es).svcs, x.dev = d → x.block = .missing ∧ x.proc = .off from
    fun x hx hxd => (h es s he hq h0 x hx hxd).2
  intro es
  induction es with
  | nil => intro s _ _ h; exact h
  | cons e es ih =>
    intro s he hq h0
    have hstep : ∀ (D : CStr → Bool) (x : HpSvc), x.block = .missing ∧ x.proc = .off → hpStep D x = x := by
      intro D x hx
      obtain ⟨xd, xb, xp⟩ := x
      obtain ⟨e1, e2⟩ := hx
      dsimp only at e1 e2
      rw [e1, e2]
      rfl
    have hmap : ∀ (D : CStr → Bool) (ss : List HpSvc), (∀ x ∈ ss, x.dev = d → x.block = .missing ∧ x.proc = .off) →
        ∀ x ∈ ss.map (hpStep D), x.dev = d → x.block = .missing ∧ x.proc = .off := by
      intro D ss h y hy hyd
      obtain ⟨x, hx, e⟩ := List.mem_map.1 hy
      have hxd : x.dev = d := by rw [← e, hpStep_dev] at hyd; exact hyd
      rw [← e, hstep D x (h x hx hxd)]
      exact h x hx hxd
    have hfind : ∀ (f : HpSvc → HpSvc) (d' : CStr), d' ≠ d → (∀ x, (f x).dev = x.dev) → ∀ x ∈ hpFind f d' s.svcs, x.dev = d → x.block = .missing ∧ x.proc = .off := by
      intro f d' hne hf y hy hyd
      rcases hpFind_mem hy with h | ⟨x, hx, hxd, e⟩
      · exact h0 y h hyd
      · rw [e, hf, hxd] at hyd
        exact absurd hyd hne
    have hnode : ∀ (d' : CStr) (on : Bool), (∀ c, (d, c) ∉ (hpNode s d' on).queue) ∧ (hpNode s d' on).svcs = s.svcs := by
      intro d' on
      unfold hpNode
      split
      · exact ⟨hq, rfl⟩
      refine ⟨fun c hm => ?_, rfl⟩
      dsimp only at hm
      split at hm
      · exact hq c hm
      · rename_i hns
        rcases List.mem_append.1 hm with hm | hm
        · exact hq c hm
        · exact hns ((Prod.mk.inj (List.mem_singleton.1 hm)).1 ▸ hs)
    have hes : ∀ e ∈ es, e ≠ .start d ∧ e ≠ .reload ∧ e ≠ .stop d := fun e hm => he e (List.mem_cons_of_mem _ hm)
    obtain ⟨g1, g2, g3⟩ := he e List.mem_cons_self
    refine ih (hpEvent s e) hes ?_ ?_
    · cases e with
      | appear d' => exact (hnode d' true).1
      | vanish d' => exact (hnode d' false).1
      | read =>
        show ∀ c, (d, c) ∉ (match s.queue with | [] => s | (d, creat) :: q => _ : HpSt).queue
        cases hqs : s.queue with
        | nil => exact hq
        | cons p q => exact fun c hm => hq c (by rw [hqs]; exact List.mem_cons_of_mem _ hm)
      | exit d' => exact hq
      | stop d' => exact hq
      | start d' => exact hq
      | reload => exact hq
    · cases e with
      | appear d' => show ∀ x ∈ (hpNode s d' true).svcs, _; rw [(hnode d' true).2]; exact h0
      | vanish d' => show ∀ x ∈ (hpNode s d' false).svcs, _; rw [(hnode d' false).2]; exact h0
      | read =>
        show ∀ x ∈ (match s.queue with | [] => s | (d, creat) :: q => _ : HpSt).svcs, _
        cases hqs : s.queue with
        | nil => exact h0
        | cons p q =>
          obtain ⟨d', c⟩ := p
          refine hmap s.devs _ (hfind (hpDo c) d' (fun e => hq c (by rw [hqs, e]; exact List.mem_cons_self)) fun x => ?_)
          unfold hpDo
          split
          · rfl
          · split <;> rfl
      | exit d' =>
        intro y hy hyd
        rcases hpFind_mem hy with h | ⟨x, hx, hxd, e⟩
        · exact h0 y h hyd
        · have : y.dev = x.dev := by
            rw [e]
            split
            · rfl
            · rw [hpStep_dev]
          have hx' := h0 x hx (this ▸ hyd)
          rw [e, if_pos hx'.2]
          exact hx'
      | stop d' => exact hmap s.devs _ (hfind _ d' (fun e => g3 (by rw [e])) fun _ => rfl)
      | start d' => exact hmap s.devs _ (hfind _ d' (fun e => g1 (by rw [e])) fun _ => rfl)
      | reload => exact absurd rfl g2

example : ∀ x ∈ (hpRun (hpBoot (fun _ => false) ["tts/0".toList]) [.appear "tts/0".toList, .read, .appear "ttyS0".toList, .read]).svcs,
    x.dev = "tts/0".toList → x.proc = .off :=
  C94_directory (by decide) (by decide) (by decide) (by decide)

/-- **C94, full claim.** It is false. -/
theorem C94_full_false : ¬ C94_full := by
  intro h
  have := (h ["t".toList] (fun _ => false) [.appear "t".toList, .start "t".toList, .read, .exit "t".toList] (by decide) ⟨rfl, by decide⟩
    ⟨"t".toList, .missing, .off⟩ (by decide)).2 (by decide)
  exact absurd this (by decide)

end Verif
