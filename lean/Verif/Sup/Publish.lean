import Verif.Sup.Pub

/-!
# Supervisor model: which conditions about a service are on
-/

namespace Verif.Sup

open Verif (CStr CondStore)

section
variable {E : Env}

/-! ## Names -/

theorem svcDir_three (s : Svc) (z : CStr) : s.svcDir ++ z = three "service".toList s.ident z := by
  unfold Svc.svcDir three
  rw [List.append_assoc, List.append_assoc]; rfl

theorem readyCond_three (s : Svc) : s.readyCond = three "service".toList s.ident "ready".toList := by
  unfold Svc.readyCond three
  rw [List.append_assoc]; rfl

theorem successCond_three (s : Svc) :
    s.successCond = three s.type.str s.ident "success".toList := by
  simp [Svc.successCond, three]

theorem failureCond_three (s : Svc) :
    s.failureCond = three s.type.str s.ident "failure".toList := by
  simp [Svc.failureCond, three]

/-- The name of service `s` has no slash and is short enough for the paths of its conditions. -/
structure Tidy (s : Svc) : Prop where
  flat : Flat s.ident
  short : s.ident.length ≤ 26

/-- The words used in conditions about daemons. -/
def statusWords : List CStr :=
  ["halted".toList, "missing".toList, "crashed".toList, "stopped".toList, "busy".toList,
   "restart".toList, "conflict".toList, "running".toList, "unknown".toList]

/-- The words used in conditions about run/tasks. -/
def outcomeWords : List CStr := ["success".toList, "failure".toList]

theorem statusStr_mem (s : Svc) : s.statusStr ∈ statusWords := by
  unfold Svc.statusStr statusWords
  split
  · split <;> simp
  · simp
  · simp

theorem statusWords_ok {z : CStr} (h : z ∈ statusWords) :
    Flat z ∧ z ≠ [] ∧ z ≠ "ready".toList ∧ z.length ≤ 8 := by
  revert z; decide

theorem outcomeWords_ok {z : CStr} (h : z ∈ outcomeWords) :
    Flat z ∧ z ≠ [] ∧ z ≠ "ready".toList ∧ z.length ≤ 8 := by
  revert z; decide

theorem condPath_three {t i z : CStr} (ht : t ∈ tops) (hi : i.length ≤ 26) (hz : z.length ≤ 8) :
    condPath (three t i z) = three t i z := by
  have h7 : t.length ≤ 7 := by revert t; decide
  refine List.take_of_length_le ?_
  rw [three_length]; omega

theorem service_top : "service".toList ∈ tops := by decide

theorem runtask_top {s : Svc} (h : s.type.isRuntask = true) : s.type.str ∈ tops := by
  cases e : s.type <;> rw [e] at h <;> first | (cases h; done) | decide

/-- `n` names a condition that is not about the state of a service. -/
structure Alien (n : CStr) : Prop where
  shape : Shape (condPath n)
  ne : ∀ t i z, t ∈ tops → Flat i → Flat z → z ≠ "ready".toList → condPath n ≠ three t i z

theorem alien_other {n p : CStr} (hp : p ∈ others) (h : p <+: n) : Alien n := by
  have h5 := others_len hp
  have h1 : p <+: condPath n := by
    refine List.prefix_of_prefix_length_le h (List.take_prefix 43 n) ?_
    have := h.length_le
    show p.length ≤ (n.take 43).length
    rw [List.length_take]; omega
  refine ⟨.other p hp h1, fun t i z ht hi hz _ e => ?_⟩
  rw [e] at h1
  exact others_tops hp ht h1

theorem alien_ext {n : CStr} (h : extName n = true) : Alien n := by
  unfold extName at h
  obtain ⟨p, hp, hpre⟩ := List.any_eq_true.mp h
  refine alien_other (p := p) ?_ (by simpa using hpre)
  clear hpre; revert hp; revert p; decide

theorem alien_pid (s : Svc) : Alien s.pidCond :=
  alien_other (p := "pid/".toList) (by decide) (List.prefix_append _ _)

theorem alien_ready {s : Svc} (h : Tidy s) : Alien s.readyCond := by
  have e : condPath s.readyCond = three "service".toList s.ident "ready".toList := by
    rw [readyCond_three]; exact condPath_three service_top h.short (by decide)
  refine ⟨.about _ _ _ service_top h.flat (by decide) (by decide) e, ?_⟩
  intro t i z ht hi hz hne he
  rw [e] at he
  exact hne (three_inj (tops_flat service_top) (tops_flat ht) h.flat hi he).2.2.symm

theorem ident_of_cfg {s s' : Svc} (h : s.cfg = s'.cfg) : s.ident = s'.ident := by
  have h1 : s.name = s'.name := (congrArg Svc.name h : s.cfg.name = s'.cfg.name)
  have h2 : s.id = s'.id := (congrArg Svc.id h : s.cfg.id = s'.cfg.id)
  unfold Svc.ident; rw [h1, h2]

theorem Tidy.congr {s s' : Svc} (h : Tidy s) (e : s.ident = s'.ident) : Tidy s' :=
  ⟨e ▸ h.flat, e ▸ h.short⟩

/-- Two condition directories with the same conditions about the states of services. -/
structure Agree (st st' : CondStore) : Prop where
  shape : (∀ e ∈ st.files, Shape e.1) → ∀ e ∈ st'.files, Shape e.1
  look : ∀ t i z, t ∈ tops → Flat i → Flat z → z ≠ [] → z ≠ "ready".toList →
    st'.lookup (three t i z) = st.lookup (three t i z)

theorem Agree.refl (st : CondStore) : Agree st st := ⟨id, fun _ _ _ _ _ _ _ _ => rfl⟩

theorem Wrote.agree {st st' : CondStore} {n : CStr} (h : Wrote st (condPath n) st') (ha : Alien n) :
    Agree st st' :=
  ⟨h.shape ha.shape, fun t i z ht hi hz _ hr => h.lookup (fun e => ha.ne t i z ht hi hz hr e.symm)⟩

theorem CondMod.agree {lab : Lab} {w : World} {st : CondStore} (hr : w.reent = false)
    (ht : ∀ j, Tidy (w.svc j)) (h : CondMod lab w st) : Agree w.conds st := by
  cases h with
  | ready k => exact (set_wrote _ _).agree (alien_ready (ht k))
  | pid k => exact (set_wrote _ _).agree (alien_pid _)
  | pidPath k => exact Wrote.agree (setOn_wrote _ _) (alien_pid _)
  | int n h =>
    by_cases hn : n = nopName
    · rw [hn]
      have : (w.conds.oneshot nopName).1 = w.conds := by unfold CondStore.oneshot; rw [if_pos rfl]
      rw [this]; exact .refl _
    · refine (oneshot_wrote _ _).agree ?_
      simp only [intNames, List.mem_cons, List.not_mem_nil, or_false] at h
      rcases h with rfl | rfl | rfl | rfl | rfl
      · exact alien_other (p := "int/".toList) (by decide) (by decide)
      · exact alien_other (p := "hook/".toList) (by decide) (by decide)
      · exact alien_other (p := "hook/".toList) (by decide) (by decide)
      · exact alien_other (p := "hook/".toList) (by decide) (by decide)
      · exact absurd rfl hn
  | hook n h => exact Wrote.agree (setOn_wrote _ _) (alien_ext h)
  | extSet n h => exact (set_wrote _ _).agree (alien_ext h)
  | extOneshot n h => exact (oneshot_wrote _ _).agree (alien_ext h)
  | extClear n h =>
    have ha := alien_ext h
    unfold CondStore.clear
    split
    · exact .refl _
    · refine ⟨fun hs e he => hs e (List.mem_filter.mp he).1, ?_⟩
      intro t i z ht hi hz hn hr
      rw [lookup_setOff, if_neg]
      rintro (h1 | h1)
      · exact ha.ne t i z ht hi hz hr h1
      · rw [(three_not_under ha.shape ht hi hz hn).1] at h1; cases h1
  | unlink n p h hp =>
    have ha : Alien n := by
      rcases h with h | ⟨k, h⟩
      · exact alien_ext h
      · cases h with
        | pid s => exact alien_pid s
        | ready s h => exact alien_ready ((ht k).congr (ident_of_cfg (h hr)))
    refine ⟨fun hs e he => hs e (List.mem_filter.mp he).1, ?_⟩
    intro t i z ht hi hz hn hr
    rw [lookup_unlink, if_neg]
    intro e
    rcases hp with h1 | h1
    · exact ha.ne t i z ht hi hz hr (h1.symm.trans e.symm)
    · rw [← e, (three_not_under ha.shape ht hi hz hn).1] at h1; cases h1
  | reload => exact ⟨id, fun _ _ _ _ _ _ _ _ => rfl⟩

/-! ## While the state of a service is being set -/

theorem condPath_dir {s : Svc} (h : Tidy s) : condPath s.svcDir = "service".toList ++ '/' :: (s.ident ++ ['/']) := by
  have e : s.svcDir = "service".toList ++ '/' :: (s.ident ++ ['/']) := by
    unfold Svc.svcDir; rw [List.append_assoc]; rfl
  rw [e]
  refine List.take_of_length_le ?_
  have := h.short
  simp only [List.length_append, List.length_cons, List.length_nil, String.length_toList]
  have : "service".length = 7 := by decide
  omega

/-- The paths that go with the state of service `s` are about `s`. -/
theorem StateName.path {s : Svc} (h : Tidy s) {n : CStr} (hn : StateName s n) {t i z : CStr}
    (ht : t ∈ tops) (hi : Flat i) (hz : Flat z) (hne : z ≠ [])
    (hp : condPath n = three t i z ∨ under (condPath n) (three t i z) = true) : i = s.ident := by
  have key : ∀ t' z', t' ∈ tops → condPath n = three t' s.ident z' → Flat z' → z' ≠ [] → i = s.ident := by
    intro t' z' ht' e hz' hne'
    rcases hp with hp | hp
    · exact (three_inj (tops_flat ht') (tops_flat ht) h.flat hi (e.symm.trans hp)).2.1.symm
    · rw [e, (three_not_under (.about _ _ _ ht' h.flat hz' hne' rfl) ht hi hz hne).1] at hp; cases hp
  cases hn with
  | dir hd =>
    rw [condPath_dir h] at hp
    rcases hp with hp | hp
    · exfalso
      refine three_last (t := t) (i := i) hz hne ?_
      rw [← hp, show "service".toList ++ '/' :: (s.ident ++ ['/']) =
        ("service".toList ++ '/' :: s.ident) ++ ['/'] by simp, getLast?_snoc _ _ (by simp)]
      rfl
    · exact (under_dir (tops_flat service_top) (tops_flat ht) h.flat hi hp).2.symm
  | success hr =>
    refine key _ "success".toList (runtask_top hr) ?_ (by decide) (by decide)
    rw [successCond_three]; exact condPath_three (runtask_top hr) h.short (by decide)
  | failure hr =>
    refine key _ "failure".toList (runtask_top hr) ?_ (by decide) (by decide)
    rw [failureCond_three]; exact condPath_three (runtask_top hr) h.short (by decide)

theorem StateName.nop {s : Svc} {n : CStr} (h : StateName s n) : n ≠ nopName := by
  cases h with
  | dir => exact dir_nop s
  | success => exact success_nop s
  | failure => exact failure_nop s

/-- A condition made while the state of a service is being set. -/
structure Makes (w : World) (m : Mid) (n : CStr) (t z : CStr) : Prop where
  path : condPath n = three t (w.svc m.key).ident z
  top : t ∈ tops
  flat : Flat z
  ne : z ≠ []
  made : m.made = none

/-- What setting the state of a service does to the condition directory. -/
inductive MidStep (w : World) (m : Mid) (ms : List Mid) : CondStore → List Mid → Prop
  | cut (g : CStr → Bool) (st : CondStore)
      (hs : ∀ e ∈ st.files, e ∈ w.conds.files)
      (hg : ∀ q, q.getLast? ≠ some '/' → st.lookup q = if g q then none else w.conds.lookup q)
      (ho : ∀ t i z, t ∈ tops → Flat i → Flat z → z ≠ [] → i ≠ (w.svc m.key).ident →
        st.lookup (three t i z) = w.conds.lookup (three t i z))
      (hm : m.made = none ∨ ∀ q, q.getLast? ≠ some '/' → st.lookup q = w.conds.lookup q) :
      MidStep w m ms st (m.drop g :: ms)
  | make (n t z : CStr) (h : Makes w m n t z) :
      MidStep w m ms (w.conds.oneshot n).1 (m.make (condPath n) :: ms)
  | finish (h : Published m (w.svc m.key)) : MidStep w m ms w.conds ms

theorem MidMod.step {w : World} {m : Mid} {ms : List Mid} {st : CondStore} {ms' : List Mid}
    (hr : w.reent = false) (ht : Tidy (w.svc m.key)) (h : MidMod w m ms st ms') :
    MidStep w m ms st ms' := by
  cases h with
  | unlink n p h hp =>
    obtain ⟨hn, hm⟩ := h hr
    refine .cut _ _ (fun e he => (List.mem_filter.mp he).1) ?_ ?_ (.inl hm)
    · intro q _; rw [lookup_unlink]; simp only [decide_eq_true_eq]
    · intro t i z h1 h2 h3 h4 h5
      rw [lookup_unlink, if_neg]
      intro e
      refine h5 (hn.path ht h1 h2 h3 h4 ?_)
      rcases hp with hp | hp
      · exact .inl (hp.symm.trans e.symm)
      · exact .inr (by rw [e]; exact hp)
  | drop p h =>
    have hq : ∀ q, q.getLast? ≠ some '/' → w.conds.lookup q = if decide (q = p) then none else w.conds.lookup q := by
      intro q hq
      simp only [decide_eq_true_eq]
      split
      · rename_i e
        subst e
        rcases h with h | h
        · exact h
        · exact absurd h hq
      · rfl
    exact .cut _ _ (fun e he => he) hq (fun _ _ _ _ _ _ _ _ => rfl) (.inr fun _ _ => rfl)
  | clear n h =>
    obtain ⟨hn, hm⟩ := h hr
    unfold CondStore.clear
    rw [if_neg hn.nop]
    refine .cut _ _ (fun e he => (List.mem_filter.mp he).1) ?_ ?_ (.inl hm)
    · intro q _
      rw [lookup_setOff]
      simp only [Bool.or_eq_true, decide_eq_true_eq]
      by_cases h1 : q = condPath n
      · rw [if_pos (.inl h1.symm), if_pos (.inl h1)]
      · by_cases h2 : under (condPath n) q = true
        · rw [if_pos (.inr h2), if_pos (.inr h2)]
        · rw [if_neg, if_neg]
          · rintro (h | h)
            · exact h1 h
            · exact h2 h
          · rintro (h | h)
            · exact h1 h.symm
            · exact h2 h
    · intro t i z h1 h2 h3 h4 h5
      rw [lookup_setOff, if_neg]
      intro e
      exact h5 (hn.path ht h1 h2 h3 h4 e)
  | status s st h =>
    obtain ⟨e, hd, e2, hs, hm⟩ := h hr
    subst e2
    obtain ⟨z1, z2, _, z4⟩ := statusWords_ok (statusStr_mem s)
    refine .make _ "service".toList s.statusStr ⟨?_, service_top, z1, z2, hm⟩
    rw [e, svcDir_three]
    exact condPath_three service_top (e ▸ ht.short) z4
  | success h =>
    obtain ⟨hrt, _, _, _, hm⟩ := h hr
    refine .make _ _ "success".toList ⟨?_, runtask_top hrt, by decide, by decide, hm⟩
    rw [successCond_three]; exact condPath_three (runtask_top hrt) ht.short (by decide)
  | failure h =>
    obtain ⟨hrt, _, _, hm⟩ := h hr
    refine .make _ _ "failure".toList ⟨?_, runtask_top hrt, by decide, by decide, hm⟩
    rw [failureCond_three]; exact condPath_three (runtask_top hrt) ht.short (by decide)
  | finish h => exact .finish (h hr)

/-! ## Who the conditions are about -/

/-- Service `k` is the only one called `i`, and all its stanzas satisfy `Z`. -/
structure Sole (k : Key) (i : CStr) (Z : Stanza → Prop) (w : World) : Prop where
  tidy : ∀ j, Tidy (w.svc j)
  ne : i ≠ []
  uniq : ∀ j, j ≠ k → (w.svc j).ident ≠ i
  mine : k < w.nextKey → (w.svc k).ident = i
  zs : ∀ z ∈ (w.svc k).zs, Z z
  once : w.twice = false

theorem Prim.identOf {lab : Lab} {a b : World} (h : Prim E lab a b) (j : Key) :
    (b.svc j).ident = (a.svc j).ident ∨ (j = a.nextKey ∧ j < b.nextKey) := by
  cases h.view j with
  | same h => rw [h]; exact .inl rfl
  | mod s' h e =>
    refine .inl ?_
    rw [e]
    cases h with
    | minor _ h => rw [h]; rfl
    | apply z x y ho ht hb hk hz =>
      obtain ⟨_, _, _, _, _, _, _, _, _, _, _, _, e⟩ := applyStanza_eq z x y (a.svc j)
      rw [e]; rfl
    | _ => rfl
  | state new t x h ht e => rw [e]; exact .inl rfl
  | force x h ht hr hs hf e => rw [e]; exact .inl rfl
  | respawn x h ht hr e => rw [e]; exact .inl rfl
  | giveUp x h ht hr hs hb hm hc e => rw [e]; exact .inl rfl
  | again x sv tm h ht hr hs hb hc e => rw [e]; exact .inl rfl
  | age h hs e => rw [e]; exact .inl rfl
  | bump h e => rw [e]; exact .inl rfl
  | marks r d hr hp hs e => rw [e]; exact .inl rfl
  | start p x hp hl hb he hs e => rw [e]; exact .inl rfl
  | startBad p x hp hl hb he hs hn e => rw [e]; exact .inl rfl
  | script p role hp hl hr h e => rw [e]; exact .inl rfl
  | exit s' hp hl hs ht e => rw [e, hs]; exact .inl rfl
  | delBoot h hb e => rw [e]; exact .inl rfl
  | reg z h hz hs ht e => rw [e]; exact .inl rfl
  | new z h hb => exact .inr ⟨h, hb⟩

theorem PubStep.twice {lab : Lab} {a b : World} (h : PubStep lab a b) (hb : b.twice = false) :
    a.twice = false := by
  cases h with
  | same hc hm ht hs => rw [← ht]; exact hb
  | push m c hc hm ht =>
    rw [ht] at hb
    simp only [Bool.or_eq_false_iff] at hb
    exact hb.1
  | conds st h e => rw [e] at hb; exact hb
  | mid m ms st ms' hm h e => rw [e] at hb; exact hb

theorem Virgin.ident {s : Svc} (h : Virgin s) : s.ident = [] := by
  unfold Svc.ident; rw [h.name, h.id]; rfl

theorem Sole.back {lab : Lab} {a b : World} {k : Key} {i : CStr} {Z : Stanza → Prop}
    (hu : Unborn a) (h : Prim E lab a b) (hb : Sole k i Z b) : Sole k i Z a := by
  have key : ∀ j, (a.svc j).ident = (b.svc j).ident ∨ ((a.svc j).ident = [] ∧ j = a.nextKey) := by
    intro j
    rcases h.identOf j with e | ⟨e, _⟩
    · exact .inl e.symm
    · exact .inr ⟨(hu j (by rw [e]; exact Nat.le_refl _)).ident, e⟩
  refine ⟨fun j => ?_, hb.ne, fun j hj => ?_, fun hk => ?_, fun z hz => ?_, h.pub.twice hb.once⟩
  · rcases key j with e | ⟨e, _⟩
    · exact (hb.tidy j).congr e.symm
    · exact ⟨by rw [e]; exact List.not_mem_nil, by rw [e]; exact Nat.zero_le _⟩
  · rcases key j with e | ⟨e, _⟩
    · rw [e]; exact hb.uniq j hj
    · rw [e]; exact fun h => hb.ne h.symm
  · rcases key k with e | ⟨_, e⟩
    · rw [e]; exact hb.mine (Nat.lt_of_lt_of_le hk h.nextKey)
    · rw [e] at hk; exact absurd hk (Nat.lt_irrefl _)
  · exact hb.zs z (zs_sub (fun k hk => (hu k hk).zs) k h z hz)

/-! ## The state set last decides which conditions are on -/

/-- Conditions `top/ident/word` and which of them should be on, given the last entry of the trace
    about the state of the service. -/
structure Topic where
  top : CStr
  words : List CStr
  want : Option (Core × Eff) → Option CStr
  /-- which transitions there are -/
  tr : SState → SState → Prop

structure Topic.Ok (T : Topic) : Prop where
  top : T.top ∈ tops
  words : ∀ z ∈ T.words, Flat z ∧ z ≠ [] ∧ z ≠ "ready".toList ∧ z.length ≤ 8
  nil : T.want none = none
  new : ∀ c k, T.want (some (c, .new k)) = none

/-- The state set last. -/
def tgt : Option (Core × Eff) → SState
  | some (_, .trans _ _ new) => new
  | _ => .halted

/-- The conditions in question. -/
def Topic.Q (T : Topic) (i q : CStr) : Prop := ∃ z ∈ T.words, q = three T.top i z

/-- `q` should be on. -/
def Topic.Want (T : Topic) (i : CStr) (h : Option (Core × Eff)) (q : CStr) : Prop :=
  ∃ z, T.want h = some z ∧ q = three T.top i z

/-- `m` tells which condition files there are. -/
def Noted (T : Topic) (i : CStr) (m : Mid) (st : CondStore) : Prop :=
  ∀ q, T.Q i q → ((st.lookup q).isSome = true ↔ q ∈ m.left ∨ m.made = some q)

/-- The last entry about `k` is the transition that `m` is about. -/
structure Doing (T : Topic) (k : Key) (i : CStr) (w : World) (m : Mid) (c : Core)
    (tl : List (Core × Eff)) : Prop where
  hist : hist k w.trace = (c, .trans k m.old (w.svc k).state) :: tl
  was : (c.svc k).block = m.was.block ∧ (c.svc k).started = m.was.started ∧
    (c.svc k).status = m.was.status
  tr : T.tr m.old (w.svc k).state
  ne : m.old ≠ (w.svc k).state
  old : tgt tl.head? = m.old
  fresh : m.fresh = true → ∀ q, T.Q i q → (q ∈ m.left ↔ T.Want i tl.head? q)

structure PubInv (T : Topic) (k : Key) (i : CStr) (w : World) : Prop where
  shape : ∀ e ∈ w.conds.files, Shape e.1
  link : ∀ q, T.Q i q → w.conds.lookup q = none ∨ w.conds.lookup q = some .link
  keys : ∀ m ∈ w.mids, m.key < w.nextKey
  nodup : (w.mids.map (·.key)).Nodup
  blank : w.nextKey ≤ k → hist k w.trace = []
  state : tgt (hist k w.trace).head? = (w.svc k).state
  mid : ∀ m ∈ w.mids, m.key = k → Noted T i m w.conds ∧ ∃ c tl, Doing T k i w m c tl
  rest : k ∉ w.mids.map (·.key) → ∀ q, T.Q i q →
    ((w.conds.lookup q).isSome = true ↔ T.Want i (hist k w.trace).head? q)

theorem PubInv.same {T : Topic} {k : Key} {i : CStr} {a b : World} (hc : b.conds = a.conds)
    (hm : b.mids = a.mids) (hn : a.nextKey ≤ b.nextKey)
    (hs : (b.svc k).state = (a.svc k).state) (hh : hist k b.trace = hist k a.trace)
    (h : PubInv T k i a) : PubInv T k i b := by
  refine ⟨by rw [hc]; exact h.shape, by rw [hc]; exact h.link,
    by rw [hm]; exact fun m x => Nat.lt_of_lt_of_le (h.keys m x) hn, by rw [hm]; exact h.nodup, ?_,
    by rw [hh, hs]; exact h.state, ?_, by rw [hm, hc, hh]; exact h.rest⟩
  · rw [hh]; exact fun x => h.blank (Nat.le_trans hn x)
  · rw [hm, hc]
    intro m x e
    obtain ⟨h1, c, tl, h2⟩ := h.mid m x e
    exact ⟨h1, c, tl, ⟨by rw [hh, hs]; exact h2.hist, h2.was, by rw [hs]; exact h2.tr,
      by rw [hs]; exact h2.ne, h2.old, h2.fresh⟩⟩

/-- The conditions of service `k` are not touched. -/
theorem PubInv.leave {T : Topic} {k : Key} {i : CStr} {a : World} {st : CondStore} (h : PubInv T k i a)
    (hs : ∀ e ∈ st.files, Shape e.1) (hl : ∀ q, T.Q i q → st.lookup q = a.conds.lookup q)
    (ms : List Mid) (hk : ∀ m ∈ ms, m.key < a.nextKey) (hn : (ms.map (·.key)).Nodup)
    (hm : ∀ m ∈ ms, m.key = k → m ∈ a.mids) (hk2 : k ∈ a.mids.map (·.key) → k ∈ ms.map (·.key)) :
    PubInv T k i { a with conds := st, mids := ms } := by
  refine ⟨hs, fun q hq => by rw [hl q hq]; exact h.link q hq, hk, hn, h.blank, h.state, ?_, ?_⟩
  · intro m x e
    obtain ⟨h1, c, tl, h2⟩ := h.mid m (hm m x e) e
    exact ⟨fun q hq => by rw [hl q hq]; exact h1 q hq, c, tl, ⟨h2.hist, h2.was, h2.tr, h2.ne, h2.old, h2.fresh⟩⟩
  · intro x q hq
    rw [hl q hq]
    exact h.rest (fun y => x (hk2 y)) q hq

/-- What is specific to the conditions in question: which transitions there are, and what is
    on once a transition has been dealt with. -/
structure Topic.Spec (T : Topic) (E : Env) (k : Key) (i : CStr) (lab : Lab) (a : World) : Prop where
  tr : ∀ new, SetBy lab a k new → T.tr (a.svc k).state new
  fin : ∀ m c tl, k < a.nextKey → m.key = k → Published m (a.svc k) → Doing T k i a m c tl → ∀ q, T.Q i q →
    ((q ∈ m.left ∨ m.made = some q) ↔ T.Want i (hist k a.trace).head? q)

theorem SetBy.born {lab : Lab} {a : World} {k : Key} {new : SState} (hu : Unborn a)
    (hr : a.reent = false) (h : SetBy lab a k new) : k < a.nextKey := by
  refine Nat.lt_of_not_le fun hn => ?_
  have v := hu k hn
  cases h with
  | mod _ h => exact v.noState hr h
  | start h => rw [v.state] at h; cases h
  | force h ht => rw [v.timer] at ht; cases ht

theorem PubInv.prim {T : Topic} (hT : T.Ok) {k : Key} {i : CStr} {Z : Stanza → Prop} {lab : Lab}
    {a b : World} (hu : Unborn a) (hr : a.reent = false) (hi : Flat i) (hb : b.twice = false)
    (hsole : Sole k i Z a) (hspec : T.Spec E k i lab a) (hp : Prim E lab a b)
    (h : PubInv T k i a) : PubInv T k i b := by
  have Qd : ∀ q, T.Q i q → ∃ z, q = three T.top i z ∧ Flat z ∧ z ≠ [] ∧ z ≠ "ready".toList := by
    rintro q ⟨z, hz, e⟩
    obtain ⟨h1, h2, h3, _⟩ := hT.words z hz
    exact ⟨z, e, h1, h2, h3⟩
  cases hp.pub with
  | same hc hm ht hs =>
    rcases hs k with ⟨h1, h2⟩ | ⟨e, hk, hst, hh⟩
    · exact h.same hc hm hp.nextKey h1 h2
    · have hbl := h.blank (by rw [e]; exact Nat.le_refl _)
      have hno : ∀ m ∈ a.mids, m.key ≠ k := fun m x y => by
        have := h.keys m x
        rw [y, e] at this; exact Nat.lt_irrefl _ this
      rw [hbl] at hh
      refine ⟨by rw [hc]; exact h.shape, by rw [hc]; exact h.link,
        by rw [hm]; exact fun m x => Nat.lt_of_lt_of_le (h.keys m x) hp.nextKey,
        by rw [hm]; exact h.nodup, fun x => absurd hk (Nat.not_lt.mpr x), by rw [hh, hst]; rfl, ?_, ?_⟩
      · rw [hm]; exact fun m x y => absurd y (hno m x)
      · intro _ q hq
        rw [hc, hh]
        have := h.rest (fun x => by
          obtain ⟨m, hm, e⟩ := List.mem_map.mp x
          exact hno m hm e) q hq
        rw [hbl] at this
        rw [this]
        simp only [Topic.Want, List.head?_cons, List.head?_nil, hT.nil, hT.new]
  | push m c hc hm ht hl hn hf ho hne hh hw he hs =>
    have hborn := he.born hu hr
    rw [ht] at hb
    simp only [Bool.or_eq_false_iff, decide_eq_false_iff_not] at hb
    by_cases hk : m.key = k
    · subst hk
      refine ⟨by rw [hc]; exact h.shape, by rw [hc]; exact h.link, ?_, ?_, ?_, ?_, ?_, ?_⟩
      · rw [hm]; intro m' x
        refine Nat.lt_of_lt_of_le ?_ hp.nextKey
        rcases List.mem_cons.mp x with rfl | x
        · exact hborn
        · exact h.keys m' x
      · rw [hm]; exact List.nodup_cons.mpr ⟨hb.2, h.nodup⟩
      · exact fun x => absurd (Nat.lt_of_lt_of_le hborn hp.nextKey) (Nat.not_lt.mpr x)
      · rw [hh]; rfl
      · intro m' x e
        rw [hm] at x
        have e' : m' = m := by
          rcases List.mem_cons.mp x with x | x
          · exact x
          · exact absurd (List.mem_map.mpr ⟨m', x, e⟩) hb.2
        subst e'
        rw [hc]
        refine ⟨fun q hq => ?_, c, _, ⟨hh, hw, ?_, hne, ?_, ?_⟩⟩
        · rw [hl, hn, lookup_mem]; simp
        · rw [ho]; exact hspec.tr _ he
        · rw [h.state, ho]
        · intro _ q hq
          rw [hl, ← lookup_mem]; exact h.rest hb.2 q hq
      · intro x; rw [hm] at x; exact absurd (List.mem_cons_self ..) x
    · obtain ⟨h1, h2⟩ := hs k (Ne.symm hk)
      refine ⟨by rw [hc]; exact h.shape, by rw [hc]; exact h.link, ?_, ?_, ?_,
        by rw [h2, h1]; exact h.state, ?_, ?_⟩
      · rw [hm]; intro m' x
        refine Nat.lt_of_lt_of_le ?_ hp.nextKey
        rcases List.mem_cons.mp x with rfl | x
        · exact hborn
        · exact h.keys m' x
      · rw [hm]; exact List.nodup_cons.mpr ⟨hb.2, h.nodup⟩
      · rw [h2]; exact fun x => h.blank (Nat.le_trans hp.nextKey x)
      · intro m' x e
        rw [hm] at x
        rcases List.mem_cons.mp x with x | x
        · rw [x] at e; exact absurd e hk
        · obtain ⟨y1, c, tl, y2⟩ := h.mid m' x e
          rw [hc]
          exact ⟨y1, c, tl, ⟨by rw [h2, h1]; exact y2.hist, y2.was, by rw [h1]; exact y2.tr,
            by rw [h1]; exact y2.ne, y2.old, y2.fresh⟩⟩
      · intro x
        rw [hm] at x
        rw [hc, h2]
        exact h.rest (fun y => x (List.mem_cons_of_mem _ y))
  | conds st hx e =>
    subst e
    have ag := hx.agree hr hsole.tidy
    refine h.leave (ag.shape h.shape) ?_ a.mids h.keys h.nodup (fun _ x _ => x) id
    intro q hq
    obtain ⟨z, rfl, z1, z2, z3⟩ := Qd q hq
    exact ag.look _ _ _ hT.top hi z1 z2 z3
  | mid m ms st ms' hm hx e =>
    subst e
    have hmem : m ∈ a.mids := by rw [hm]; exact List.mem_cons_self ..
    have hnd := h.nodup
    rw [hm] at hnd
    obtain ⟨hnd1, hnd2⟩ := List.nodup_cons.mp hnd
    have hkeys : ∀ m' ∈ ms, m'.key < a.nextKey := fun m' x => h.keys m' (by rw [hm]; exact List.mem_cons_of_mem _ x)
    have step := hx.step hr (hsole.tidy m.key)
    clear hx
    by_cases hk : m.key = k
    · subst hk
      have hid := hsole.mine (h.keys m hmem)
      obtain ⟨nt, c, tl, dg⟩ := h.mid m hmem rfl
      have head : ∀ m' st', (∀ e ∈ st'.files, Shape e.1) →
          (∀ q, T.Q i q → st'.lookup q = none ∨ st'.lookup q = some .link) →
          m'.key = m.key → m'.was = m.was → (m'.fresh = true → m.fresh = true ∧ m'.left = m.left) →
          Noted T i m' st' → PubInv T m.key i { a with conds := st', mids := m' :: ms } := by
        intro m' st' hs hl hk' hw hf hn
        refine ⟨hs, hl, ?_, ?_, h.blank, h.state, ?_, ?_⟩
        · intro m2 x
          rcases List.mem_cons.mp x with rfl | x
          · rw [hk']; exact h.keys m hmem
          · exact hkeys m2 x
        · refine List.nodup_cons.mpr ⟨?_, hnd2⟩
          show m'.key ∉ _
          rw [hk']; exact hnd1
        · intro m2 x e
          rcases List.mem_cons.mp x with rfl | x
          · refine ⟨hn, c, tl, ⟨?_, ?_, ?_, ?_, ?_, ?_⟩⟩
            · show Sup.hist _ a.trace = (c, .trans _ m2.was.state _) :: tl
              rw [hw]; exact dg.hist
            · rw [hw]; exact dg.was
            · show T.tr m2.was.state _
              rw [hw]; exact dg.tr
            · show m2.was.state ≠ _
              rw [hw]; exact dg.ne
            · show _ = m2.was.state
              rw [hw]; exact dg.old
            · intro x; rw [(hf x).2]; exact dg.fresh (hf x).1
          · exact absurd (List.mem_map.mpr ⟨m2, x, e⟩) hnd1
        · intro x
          refine absurd ?_ x
          show _ ∈ m'.key :: _
          rw [hk']; exact List.mem_cons_self ..
      cases step with
      | cut g _ hs hg ho hmade =>
        have last : ∀ q, T.Q i q → q.getLast? ≠ some '/' := by
          intro q hq
          obtain ⟨z, rfl, z1, z2, _⟩ := Qd q hq
          exact three_last z1 z2
        refine head _ _ (fun e x => h.shape e (hs e x)) ?_ rfl rfl (fun x => by cases x) ?_
        · intro q hq
          rw [hg q (last q hq)]
          split
          · exact .inl rfl
          · exact h.link q hq
        · intro q hq
          have h0 := nt q hq
          have hl := hg q (last q hq)
          show _ ↔ q ∈ m.left.filter (fun q => !g q) ∨ m.made = some q
          rcases hmade with hmade | hmade
          · rw [hmade] at h0 ⊢
            simp only [reduceCtorEq, or_false] at h0 ⊢
            rw [hl, List.mem_filter, ← h0]
            cases g q <;> simp
          · have h1 := hmade q (last q hq)
            rw [h1, h0, List.mem_filter]
            cases hgq : g q with
            | false => simp
            | true =>
              rw [hl, hgq] at h1
              simp only [if_true] at h1
              rw [← h1] at h0
              have h2 : ¬ (q ∈ m.left ∨ m.made = some q) := fun x => by
                have := h0.mpr x; cases this
              simp only [not_or] at h2
              simp [h2.1, h2.2]
      | make n t z hx =>
        have wr := oneshot_wrote a.conds n
        obtain ⟨on1, on2⟩ := oneshot_there h.shape hx.path hx.top (hsole.tidy m.key).flat hx.flat hx.ne
        refine head _ _ (wr.shape (.about _ _ _ hx.top (hsole.tidy m.key).flat hx.flat hx.ne hx.path) h.shape)
          ?_ rfl rfl (fun x => ⟨x, rfl⟩) ?_
        · intro q hq
          by_cases e : q = condPath n
          · subst e; exact .inr (on2 (h.link _ hq))
          · rw [wr.lookup e]; exact h.link q hq
        · intro q hq
          show _ ↔ q ∈ m.left ∨ some (condPath n) = some q
          by_cases e : q = condPath n
          · subst e; simp [on1]
          · have h0 := nt q hq
            rw [hx.made] at h0
            simp only [reduceCtorEq, or_false] at h0
            rw [wr.lookup e, h0]
            simp [Ne.symm e]
      | finish hx =>
        have fin := hspec.fin m c tl (h.keys m hmem) rfl hx dg
        refine ⟨h.shape, h.link, hkeys, hnd2, h.blank, h.state, ?_, ?_⟩
        · intro m2 x e
          exact absurd (List.mem_map.mpr ⟨m2, x, e⟩) hnd1
        · intro _ q hq
          show (a.conds.lookup q).isSome = true ↔ _
          rw [nt q hq]; exact fin q hq
    · have hid := hsole.uniq m.key hk
      have sub : k ∈ a.mids.map (·.key) → k ∈ ms.map (·.key) := by
        rw [hm]; intro x
        rcases List.mem_cons.mp x with x | x
        · exact absurd x.symm hk
        · exact x
      have memo : ∀ m' ∈ ms, m'.key = k → m' ∈ a.mids := fun m' x _ => by
        rw [hm]; exact List.mem_cons_of_mem _ x
      have other : ∀ m', m'.key = m.key → ∀ st', (∀ e ∈ st'.files, Shape e.1) →
          (∀ q, T.Q i q → st'.lookup q = a.conds.lookup q) →
          PubInv T k i { a with conds := st', mids := m' :: ms } := by
        intro m' e st' hs hl
        refine h.leave hs hl _ ?_ ?_ ?_ (fun x => List.mem_cons_of_mem _ (sub x))
        · intro m2 x
          rcases List.mem_cons.mp x with rfl | x
          · rw [e]; exact h.keys m hmem
          · exact hkeys m2 x
        · refine List.nodup_cons.mpr ⟨?_, hnd2⟩
          show m'.key ∉ _
          rw [e]; exact hnd1
        · intro m2 x y
          rcases List.mem_cons.mp x with rfl | x
          · rw [e] at y; exact absurd y hk
          · exact memo m2 x y
      cases step with
      | cut g _ hs hg ho hmade =>
        refine other (m.drop g) rfl _ (fun e x => h.shape e (hs e x)) ?_
        intro q hq
        obtain ⟨z, rfl, z1, z2, z3⟩ := Qd q hq
        exact ho _ _ _ hT.top hi z1 z2 (fun e => hid e.symm)
      | make n t z hx =>
        refine other (m.make (condPath n)) rfl _ ((oneshot_wrote a.conds n).shape
          (.about _ _ _ hx.top (hsole.tidy m.key).flat hx.flat hx.ne hx.path) h.shape) ?_
        intro q hq
        obtain ⟨z', rfl, z1, z2, z3⟩ := Qd q hq
        refine (oneshot_wrote a.conds n).lookup ?_
        rw [hx.path]
        intro e
        exact hid (three_inj (tops_flat hT.top) (tops_flat hx.top) hi (hsole.tidy m.key).flat e).2.1.symm
      | finish hx => exact h.leave h.shape (fun _ _ => rfl) ms hkeys hnd2 memo sub

/-! ## Between events -/

theorem Reach.mids {w : World} (h : Reach E w) : w.mids = [] := by
  induction h with
  | start => rfl
  | @event w n ev hw ih =>
    have hb := hw.basic
    exact (handle_sm n ev hb.2.1 (fun x => by obtain ⟨cfg, cmd, e⟩ := hb.2.2 x; rw [e]; rfl)).mids.trans ih

/-- What stanzas say about the type of service `k` and how it is run. -/
structure Typed (k : Key) (w : World) : Prop where
  type : k < w.nextKey → ∃ z ∈ (w.svc k).zs, (w.svc k).type = z.type
  manual : (w.svc k).manual = true → ∃ z ∈ (w.svc k).zs, z.manual = true
  from1 : FromZs (w.svc k)
  calm : (∀ z ∈ (w.svc k).zs, z.type.isRuntask = true) →
    (w.svc k).timer ≠ some .retry ∧ (w.svc k).block ≠ .restarting

theorem Typed.start (k : Key) (cfg cmd : Nat) : Typed k (World.start cfg cmd) :=
  ⟨fun h => absurd h (Nat.not_lt_zero _), fun h => (by cases h),
   ⟨fun h => (by cases h), fun h => (by cases h), .inl rfl⟩, fun _ => ⟨fun h => (by cases h), fun h => (by cases h)⟩⟩

theorem Prim.created {lab : Lab} {a b : World} (h : Prim E lab a b) :
    b.nextKey = a.nextKey ∨ (b.nextKey = a.nextKey + 1 ∧ ∃ z : Stanza, b.svc a.nextKey =
      { name := z.name, id := z.id, type := z.type, odd := z.odd, zs := [z]
        block := if z.manual then .user else .none, levels := z.levels }) := by
  cases h with
  | glob _ h => rw [h.1]; exact .inl rfl
  | state k new h =>
    obtain ⟨t, x, _, e⟩ := setStateRaw_eq k new a
    rw [e]; exact .inl rfl
  | pause k =>
    obtain ⟨t, x, _, e⟩ := setStateRaw_eq k .paused (Sup.kill E (a.svc k).pid 19 .pause k a).2
    rw [e]; exact .inl rfl
  | retryForce k =>
    obtain ⟨t, x, _, e⟩ := setStateRaw_eq k .running
      (Sup.mod k (fun s => { s with restartTmo := s.restartSaved }) (timerCancel k a))
    obtain ⟨y, e2⟩ := timerCancel_eq k a
    rw [e, e2]; exact .inl rfl
  | retryRespawn k =>
    obtain ⟨y, e2⟩ := timerCancel_eq k a
    rw [e2]; exact .inl rfl
  | retryGiveUp k =>
    obtain ⟨y, e2⟩ := timerCancel_eq k a
    rw [e2]; exact .inl rfl
  | retryAgain k =>
    obtain ⟨y, e2⟩ := timerCancel_eq k a
    rw [e2]; exact .inl rfl
  | start k p x hp hl hb he hs =>
    rw [start_eq k p x a hs]; exact .inl rfl
  | startBad k p => rw [startParent_eq]; exact .inl rfl
  | collect k p st =>
    obtain ⟨s', tr, t, e, _⟩ := monitorHead_eq (E := E) k st (reap p (some st) a)
    rw [e]; exact .inl rfl
  | lost k st =>
    obtain ⟨s', tr, t, e, _⟩ := monitorHead_eq (E := E) k st a
    rw [e]; exact .inl rfl
  | regOld z k h =>
    unfold regObj; rw [h]; exact .inl rfl
  | regNew z h =>
    unfold regObj; rw [h]
    refine .inr ⟨rfl, z, ?_⟩
    simp only [Sup.emit, upd_same]
  | _ => exact .inl rfl

theorem Typed.same {k : Key} {a b : World} (hn : k < b.nextKey → k < a.nextKey)
    (hf : FromZs (b.svc k)) (hz : (b.svc k).zs = (a.svc k).zs) (ht : (b.svc k).type = (a.svc k).type)
    (hm : (b.svc k).manual = (a.svc k).manual)
    (hc : (∀ z ∈ (a.svc k).zs, z.type.isRuntask = true) →
      (b.svc k).timer ≠ some .retry ∧ (b.svc k).block ≠ .restarting) (h : Typed k a) :
    Typed k b := by
  refine ⟨fun x => ?_, by rw [hm, hz]; exact h.manual, hf, by rw [hz]; exact hc⟩
  rw [hz, ht]
  exact h.type (hn x)

theorem stTimer_retry {new : SState} {s : Svc} {t : Option Cb} {x : Bool} (h : stTimer new s t x)
    (hs : s.timer ≠ some .retry) : t ≠ some .retry := by
  by_cases e : new = .stopping
  · rw [(h.2 e).1]; split <;> simp
  · rw [(h.1 e).1]; exact hs

theorem Typed.prim {k : Key} {lab : Lab} {a b : World} (ho : OrdOk a.toCore) (hr : a.reent = false)
    (hu : Unborn a) (hl : (∀ z ∈ (a.svc k).zs, z.type.isRuntask = true) → lab ≠ .retry k)
    (h : Prim E lab a b) (ha : Typed k a) : Typed k b := by
  by_cases hk : k = a.nextKey ∧ b.nextKey = a.nextKey + 1
  · obtain ⟨hk, hb⟩ := hk
    rcases h.created with e | ⟨_, z, e⟩
    · rw [e] at hb; exact absurd hb (by simp)
    · rw [← hk] at e
      refine ⟨fun _ => ⟨z, by rw [e]; simp⟩, by rw [e]; simp, ha.from1.prim k h, ?_⟩
      rw [e]
      refine fun _ => ⟨by simp, ?_⟩
      dsimp only; split <;> simp
  have hn : k < b.nextKey → k < a.nextKey := by
    intro x
    rcases h.created with e | ⟨e, _⟩
    · rw [← e]; exact x
    · rw [e] at x
      exact Nat.lt_of_le_of_ne (Nat.le_of_lt_succ x) fun y => hk ⟨y, e⟩
  have hf := ha.from1.prim k h
  cases h.view k with
  | same h => exact ha.same hn hf (by rw [h]) (by rw [h]) (by rw [h]) (by rw [h]; exact ha.calm)
  | mod s' h e =>
    cases h with
    | minor _ h =>
      rw [h] at e
      exact ha.same hn hf (by rw [e]) (by rw [e]) (by rw [e]) (by rw [e]; exact ha.calm)
    | blockRestart h hp ht =>
      refine ha.same hn hf (by rw [e]) (by rw [e]) (by rw [e]) (fun hz => ?_)
      exfalso
      have hb : k < a.nextKey := Nat.lt_of_not_le fun hn => by
        rw [(hu k hn).state] at h; cases h
      obtain ⟨z, hz1, hz2⟩ := ha.type hb
      have := hz z hz1
      rw [← hz2] at this
      cases ht2 : (a.svc k).type <;> rw [ht2] at this ht <;> first | (cases this; done) | (revert ht; decide)
    | armRetry x ht h =>
      refine ha.same hn hf (by rw [e]) (by rw [e]) (by rw [e]) (fun hz => ?_)
      exfalso
      rcases h with h | h
      · exact (ha.calm hz).2 (h hr).2.1
      · exact hl hz h
    | apply z x y ho2 ht hb hk2 hz =>
      obtain ⟨_, _, _, _, _, _, _, _, _, _, _, _, e2⟩ := applyStanza_eq z x y (a.svc k)
      rw [e2] at e
      refine ⟨fun _ => by rw [e]; exact ⟨z, hz, ht⟩, by rw [e]; exact fun x => ⟨z, hz, x⟩, hf, ?_⟩
      rw [e]; exact ha.calm
    | _ => 
      refine ha.same hn hf (by rw [e]) (by rw [e]) (by rw [e]) (fun hz => ?_)
      rw [e]
      obtain ⟨h1, h2⟩ := ha.calm hz
      refine ⟨?_, ?_⟩ <;> first | exact h1 | exact h2 | simp
  | state new t x h ht e =>
    exact ha.same hn hf (by rw [e]) (by rw [e]) (by rw [e]) (by
      rw [e]; exact fun hz => ⟨stTimer_retry ht (ha.calm hz).1, (ha.calm hz).2⟩)
  | force x h ht hr2 hs hf2 e =>
    exact ha.same hn hf (by rw [e]) (by rw [e]) (by rw [e]) (by
      rw [e]; exact fun hz => ⟨by simp, (ha.calm hz).2⟩)
  | respawn x h ht hr2 e =>
    exact ha.same hn hf (by rw [e]) (by rw [e]) (by rw [e]) (by
      rw [e]; exact fun hz => ⟨by simp, by simp⟩)
  | giveUp x h ht hr2 hs hb hm hc e =>
    exact ha.same hn hf (by rw [e]) (by rw [e]) (by rw [e]) (by
      rw [e]; exact fun hz => ⟨by simp, by simp⟩)
  | again x sv tm h ht hr2 hs hb hc e =>
    exact ha.same hn hf (by rw [e]) (by rw [e]) (by rw [e]) (by
      rw [e]; exact fun hz => ⟨by simp, by simp⟩)
  | age h hs e => exact ha.same hn hf (by rw [e]) (by rw [e]) (by rw [e]) (by rw [e]; exact ha.calm)
  | bump h e => exact ha.same hn hf (by rw [e]) (by rw [e]) (by rw [e]) (by rw [e]; exact ha.calm)
  | marks r d hr2 hp hs e =>
    exact ha.same hn hf (by rw [e]) (by rw [e]) (by rw [e]) (by rw [e]; exact ha.calm)
  | start p x hp hl2 hb he hs e =>
    exact ha.same hn hf (by rw [e]) (by rw [e]) (by rw [e]) (by rw [e]; exact ha.calm)
  | startBad p x hp hl2 hb he hs hn2 e =>
    exact ha.same hn hf (by rw [e]) (by rw [e]) (by rw [e]) (by rw [e]; exact ha.calm)
  | script p role hp hl2 hro h e =>
    exact ha.same hn hf (by rw [e]) (by rw [e]) (by rw [e]) (by rw [e]; exact ha.calm)
  | exit s' hp hl2 hs ht e =>
    rw [← e] at hs ht
    refine ha.same hn hf (by rw [hs]) (by rw [hs]) (by rw [hs]) (fun hz => ⟨?_, ?_⟩)
    · rcases ht with ht | ht
      · rw [ht.1]; exact (ha.calm hz).1
      · rw [ht]; simp
    · rw [hs]; exact (ha.calm hz).2
  | delBoot h hb e => exact ha.same hn hf (by rw [e]) (by rw [e]) (by rw [e]) (by rw [e]; exact ha.calm)
  | reg z h hz hs ht e =>
    refine ⟨fun _ => ⟨z, by rw [e]; simp⟩, ?_, hf, ?_⟩
    · rw [e]; intro x
      obtain ⟨y, hy, e⟩ := ha.manual x
      exact ⟨y, List.mem_cons_of_mem _ hy, e⟩
    · rw [e]; intro hz
      obtain ⟨h1, h2⟩ := ha.calm (fun z x => hz z (List.mem_cons_of_mem _ x))
      refine ⟨h1, ?_⟩
      dsimp only; split
      · exact h2
      · simp
  | new z h hb => exact absurd (hn hb) (by rw [h]; exact Nat.lt_irrefl _)

theorem Reach.pubInv {T : Topic} (hT : T.Ok) {k : Key} {i : CStr} {Z : Stanza → Prop} (hi : Flat i)
    (hspec : ∀ lab a, Unborn a → a.reent = false → Typed k a → Sole k i Z a →
      ((∀ z ∈ (a.svc k).zs, z.type.isRuntask = true) → lab ≠ .retry k) → T.Spec E k i lab a)
    {w : World} (h : Reach E w) (hr : w.reent = false) (hs : Sole k i Z w) :
    PubInv T k i w := by
  refine (h.inv_born (P := fun w => Typed k w ∧ (Sole k i Z w → PubInv T k i w)) ?_ ?_ hr).2.2 hs
  · intro cfg cmd
    refine ⟨.start k cfg cmd, fun _ => ⟨fun e x => (nomatch x), fun q _ => .inl rfl, fun m x => (nomatch x),
      List.nodup_nil, fun _ => rfl, rfl, fun m x => (nomatch x), fun _ q _ => ?_⟩⟩
    refine ⟨fun x => (nomatch x), ?_⟩
    rintro ⟨z, hz, _⟩
    rw [show T.want (hist k (World.start cfg cmd).trace).head? = none from hT.nil] at hz
    cases hz
  · intro w0 ev a b p0 hz ho ha ua ub pr pa
    have hl : (∀ z ∈ (a.svc k).zs, z.type.isRuntask = true) → labOf w0 ev ≠ .retry k := by
      intro x e
      exact (p0.1.calm (fun z y => x z (hz k z y))).1 (labOf_retry e).2
    refine ⟨pa.1.prim ho ha ua hl pr, fun hb => ?_⟩
    have hsa := hb.back ua pr
    exact (pa.2 hsa).prim hT ua ha hi hb.once hsa (hspec _ a ua ha pa.1 hsa hl) pr

/-! ## Daemons -/

/-- The word for the state that was set last. -/
def wantStatus : Option (Core × Eff) → Option CStr
  | some (c, .trans k _ .halted) => some (Svc.statusStr { c.svc k with state := .halted })
  | some (_, .trans _ _ .running) => some "running".toList
  | some (_, .trans _ _ .paused) => some "running".toList
  | _ => none

def daemonTopic : Topic where
  top := "service".toList
  words := statusWords
  want := wantStatus
  tr old new := new = .paused → old = .running

theorem daemonTopic_ok : daemonTopic.Ok :=
  ⟨service_top, fun _ h => statusWords_ok h, rfl, fun _ _ => rfl⟩

theorem wantStatus_tgt {h : Option (Core × Eff)} (ht : tgt h = .running ∨ tgt h = .paused) :
    wantStatus h = some "running".toList := by
  unfold tgt at ht
  split at ht
  · rcases ht with rfl | rfl <;> rfl
  · rcases ht with h | h <;> cases h

theorem under_svcDir {s : Svc} (h : Tidy s) (z : CStr) :
    under (condPath s.svcDir) (three "service".toList s.ident z) = true := by
  rw [condPath_dir h]
  unfold under dirSlash
  rw [if_pos (by
    rw [show "service".toList ++ '/' :: (s.ident ++ ['/']) =
      ("service".toList ++ '/' :: s.ident) ++ ['/'] by simp, getLast?_snoc _ _ (by simp)]
    rfl)]
  rw [List.isPrefixOf_iff_prefix]
  exact ⟨z, by simp [three]⟩

theorem svcDir_len {s : Svc} (h : Tidy s) : s.svcDir.length ≤ 43 := by
  have e : s.svcDir = "service".toList ++ '/' :: (s.ident ++ ['/']) := by
    unfold Svc.svcDir; rw [List.append_assoc]; rfl
  rw [e]
  have := h.short
  simp only [List.length_append, List.length_cons, List.length_nil, String.length_toList]
  have : "service".length = 7 := by decide
  omega

theorem daemon_spec {k : Key} {i : CStr} {Z : Stanza → Prop}
    (hZ : ∀ z, Z z → z.type.isDaemon = true) {lab : Lab} {a : World}
    (hty : Typed k a) (hs : Sole k i Z a) :
    daemonTopic.Spec E k i lab a := by
  refine ⟨?_, ?_⟩
  · intro new h e
    subst e
    cases h with
    | mod _ h =>
      cases h with
      | pause h => exact h
  · intro m c tl hk hmk hp dg q hq
    obtain ⟨z, hz, rfl⟩ := hq
    have hid := hs.mine hk
    have ht := hs.tidy k
    have hd : (a.svc k).type.isDaemon = true := by
      obtain ⟨z, hz, e⟩ := hty.type hk
      rw [e]; exact hZ z (hs.zs z hz)
    obtain ⟨z1, z2, z3, z4⟩ := statusWords_ok hz
    have hmade : ((a.svc k).state = .halted ∨ (a.svc k).state = .running) →
        m.made = some (three "service".toList i (a.svc k).statusStr) := by
      intro x
      rw [hp.status hd x, svcDir_three, hid,
        condPath_three service_top (by rw [← hid]; exact ht.short) (statusWords_ok (statusStr_mem _)).2.2.2]
    have inj : ∀ z', three "service".toList i z' = three "service".toList i z ↔ z = z' := by
      intro z'
      refine ⟨fun e => (three_inj (tops_flat service_top) (tops_flat service_top) (hid ▸ ht.flat) (hid ▸ ht.flat) e).2.2.symm,
        fun e => by rw [e]⟩
    have want : ∀ h, daemonTopic.Want i h (three "service".toList i z) ↔ wantStatus h = some z := by
      intro h
      refine ⟨?_, fun e => ⟨z, e, rfl⟩⟩
      rintro ⟨z', h1, h2⟩
      rw [(inj z').mp h2.symm]; exact h1
    show (three "service".toList i z ∈ m.left ∨ m.made = some (three "service".toList i z)) ↔
      daemonTopic.Want i _ (three "service".toList i z)
    rw [want, dg.hist]
    show _ ↔ wantStatus (some (c, .trans k m.old (a.svc k).state)) = some z
    by_cases hpa : paused m.old (a.svc k).state
    · have hl := dg.fresh (hp.kept hd hpa) (three "service".toList i z) ⟨z, hz, rfl⟩
      rw [want, wantStatus_tgt (by
        rw [dg.old]
        rcases hpa with ⟨h, _⟩ | ⟨h, _⟩ <;> rw [h] <;> simp)] at hl
      rcases hpa with ⟨_, h⟩ | ⟨_, h⟩
      · rw [hp.silent hd (by rw [h]; simp), hl, h]
        simp [wantStatus]
      · rw [hmade (.inr h), hl, h]
        simp only [Option.some.injEq, inj, wantStatus]
        have : (a.svc k).statusStr = "running".toList := by unfold Svc.statusStr; rw [h]
        rw [this]
        constructor
        · rintro (h | h)
          · exact h
          · exact h.symm
        · exact .inl
    · have hl : three "service".toList i z ∉ m.left := by
        intro x
        have := hp.cleared hd hpa (svcDir_len ht) _ x
        rw [← hid, under_svcDir ht] at this; cases this
      have hst := hp.same.1.trans dg.was.1.symm
      by_cases h1 : (a.svc k).state = .halted
      · rw [hmade (.inl h1), h1]
        simp only [Option.some.injEq, inj, wantStatus, hl, false_or]
        have : (a.svc k).statusStr = Svc.statusStr { c.svc k with state := .halted } := by
          unfold Svc.statusStr
          rw [h1, hst]
        rw [this]
        exact ⟨fun e => e.symm, fun e => e.symm⟩
      · by_cases h2 : (a.svc k).state = .running
        · rw [hmade (.inr h2), h2]
          simp only [Option.some.injEq, inj, wantStatus, hl, false_or]
          have : (a.svc k).statusStr = "running".toList := by unfold Svc.statusStr; rw [h2]
          rw [this]
          exact ⟨fun e => e.symm, fun e => e.symm⟩
        · rw [hp.silent hd (by simp [h1, h2])]
          have h3 : (a.svc k).state ≠ .paused := fun e => hpa (.inl ⟨dg.tr e, e⟩)
          simp only [hl, false_or, reduceCtorEq, false_iff]
          cases e : (a.svc k).state <;> first | exact absurd e h1 | exact absurd e h2 | exact absurd e h3 | simp [wantStatus]

/-! ## Run/tasks -/

/-- The word for the outcome of the last run, once it is done. -/
def wantOutcome : Option (Core × Eff) → Option CStr
  | some (c, .trans k _ .done) =>
    some (if (c.svc k).started = true ∧ (c.svc k).status.rc = 0 then "success".toList
      else "failure".toList)
  | _ => none

def taskTopic (t : SType) : Topic where
  top := t.str
  words := outcomeWords
  want := wantOutcome
  tr old new := old = .done → new = .halted

theorem taskTopic_ok {t : SType} (h : t.isRuntask = true) : (taskTopic t).Ok :=
  ⟨runtask_top (s := { type := t }) h, fun _ h => outcomeWords_ok h, rfl, fun _ _ => rfl⟩

theorem wantOutcome_tgt {h : Option (Core × Eff)} (ht : tgt h ≠ .done) : wantOutcome h = none := by
  unfold tgt at ht
  split at ht
  · rename_i new
    cases new <;> first | rfl | exact absurd rfl ht
  · rename_i hx
    unfold wantOutcome
    split
    · exact absurd rfl (hx _ _ _ _)
    · rfl

theorem task_spec {k : Key} {i : CStr} {Z : Stanza → Prop} {t : SType} (hr : t.isRuntask = true)
    (hZ : ∀ z, Z z → z.type = t ∧ z.manual = false ∧ z.forking = false) {lab : Lab} {a : World}
    (ha : a.reent = false) (hty : Typed k a) (hs : Sole k i Z a)
    (hl : (∀ z ∈ (a.svc k).zs, z.type.isRuntask = true) → lab ≠ .retry k) :
    (taskTopic t).Spec E k i lab a := by
  have hall : ∀ z ∈ (a.svc k).zs, z.type.isRuntask = true := fun z hz => by
    rw [(hZ z (hs.zs z hz)).1]; exact hr
  refine ⟨?_, ?_⟩
  · intro new h e
    have e : (a.svc k).state = .done := e
    cases h with
    | mod _ h =>
      cases h with
      | doneHalted => rfl
      | redo h ht hm =>
        obtain ⟨z, hz, e⟩ := hty.manual hm
        rw [(hZ z (hs.zs z hz)).2.1] at e; cases e
      | forked p b h hf =>
        obtain ⟨z, hz, e⟩ := hty.from1.2.1 hf
        rw [(hZ z (hs.zs z hz)).2.2] at e; cases e
      | stop h | lost h => exact absurd h (by rw [e]; decide)
      | stopDone h | stopTear h | stopCleanup h | stopHalted h =>
        exact absurd (e.symm.trans (h ha).1) (by decide)
      | _ h => exact absurd (e.symm.trans h) (by decide)
    | start h => rw [e] at h; cases h
    | force h ht => exact absurd h (hl hall)
  · intro m c tl hk hmk hp dg q hq
    obtain ⟨z, hz, rfl⟩ := hq
    have hid := hs.mine hk
    have ht := hs.tidy k
    have htop := runtask_top (s := { type := t }) hr
    have hd : (a.svc k).type = t := by
      obtain ⟨z, hz, e⟩ := hty.type hk
      rw [e]; exact (hZ z (hs.zs z hz)).1
    have hrt : (a.svc k).type.isRuntask = true := by rw [hd]; exact hr
    obtain ⟨z1, z2, z3, z4⟩ := outcomeWords_ok hz
    have inj : ∀ z', three t.str i z' = three t.str i z ↔ z = z' := by
      intro z'
      refine ⟨fun e => (three_inj (tops_flat htop) (tops_flat htop) (hid ▸ ht.flat) (hid ▸ ht.flat) e).2.2.symm,
        fun e => by rw [e]⟩
    have want : ∀ h, (taskTopic t).Want i h (three t.str i z) ↔ wantOutcome h = some z := by
      intro h
      refine ⟨?_, fun e => ⟨z, e, rfl⟩⟩
      rintro ⟨z', h1, h2⟩
      rw [(inj z').mp h2.symm]; exact h1
    have hsucc : condPath (a.svc k).successCond = three t.str i "success".toList := by
      rw [successCond_three, hd, hid]
      exact condPath_three htop (hid ▸ ht.short) (by decide)
    have hfail : condPath (a.svc k).failureCond = three t.str i "failure".toList := by
      rw [failureCond_three, hd, hid]
      exact condPath_three htop (hid ▸ ht.short) (by decide)
    show (three t.str i z ∈ m.left ∨ m.made = some (three t.str i z)) ↔
      (taskTopic t).Want i _ (three t.str i z)
    rw [want, dg.hist]
    show _ ↔ wantOutcome (some (c, .trans k m.old (a.svc k).state)) = some z
    have fresh : (a.svc k).state ≠ .halted → m.fresh = true → three t.str i z ∉ m.left := by
      intro hn hf x
      have h0 := (want _).mp ((dg.fresh hf (three t.str i z) ⟨z, hz, rfl⟩).mp x)
      rw [wantOutcome_tgt (by rw [dg.old]; exact fun e => hn (dg.tr e))] at h0
      cases h0
    by_cases h1 : (a.svc k).state = .done
    · obtain ⟨hf, hm⟩ := hp.outcome hrt h1
      have hno := fresh (by rw [h1]; simp) hf
      have hst := hp.same.2.1.trans dg.was.2.1.symm
      have hsu := hp.same.2.2.trans dg.was.2.2.symm
      rw [hm, hst, hsu, h1]
      simp only [hno, false_or, wantOutcome]
      split
      · rw [hsucc]
        simp only [Option.some.injEq, inj]
        exact ⟨fun e => e.symm, fun e => e.symm⟩
      · rw [hfail]
        simp only [Option.some.injEq, inj]
        exact ⟨fun e => e.symm, fun e => e.symm⟩
    · rw [wantOutcome_tgt (h := some (c, .trans k m.old (a.svc k).state)) h1]
      simp only [reduceCtorEq, iff_false]
      by_cases h2 : (a.svc k).state = .halted
      · obtain ⟨e1, e2, e3⟩ := hp.rearmed hrt h2
        rw [e1]
        rintro (x | x)
        · have hz : z ∈ outcomeWords := hz
          simp only [outcomeWords, List.mem_cons, List.not_mem_nil, or_false] at hz
          rcases hz with rfl | rfl
          · rw [hsucc] at e2; exact e2 x
          · rw [hfail] at e3; exact e3 x
        · cases x
      · obtain ⟨e1, e2⟩ := hp.other hrt h1 h2
        rw [e1]
        rintro (x | x)
        · exact fresh h2 e2 x
        · cases x

end

end Verif.Sup
