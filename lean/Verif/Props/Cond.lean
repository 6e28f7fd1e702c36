import Verif.CondLemmas

/-!
# Properties of the condition engine: C02, C03, C04, C05, C47
-/

namespace Verif

/-! ## C02: the state of a condition is a function of its history -/

/-- What can happen to conditions: `initctl cond set`, `initctl cond clear`, one-shots, reload. -/
inductive CondOp
  | set (n : CStr)
  | oneshot (n : CStr)
  | clear (n : CStr)
  | reload
  deriving DecidableEq, Repr

/-- The implementation. -/
def CondOp.run : CondOp → CondStore → CondStore
  | .set n, st => (st.set n).1
  | .oneshot n, st => (st.oneshot n).1
  | .clear n, st => (st.clear n).1
  | .reload, st => st.reload

/-- Run a history given most-recent-first. -/
def runHist : List CondOp → CondStore
  | [] => CondStore.init
  | op :: h => op.run (runHist h)

/-- Spec: does this operation retract `n` (directly or by clearing its directory)? -/
def retracts : CondOp → CStr → Bool
  | .clear m, n => decide (m = n) || under m n
  | _, _ => false

/-- Spec (most recent first): `n` has been asserted and not retracted since. -/
def asserted : List CondOp → CStr → Bool
  | [], _ => false
  | op :: h, n =>
    if retracts op n then false
    else if op = .set n ∨ op = .oneshot n then true
    else asserted h n

/-- Spec: the assertion that brought `n` up (since it was last off) was a one-shot. -/
def bornOneshot : List CondOp → CStr → Bool
  | [], _ => false
  | op :: h, n =>
    if retracts op n then false
    else if asserted h n then bornOneshot h n
    else decide (op = .oneshot n)

/-- Spec: `n` was (re)asserted after the most recent reload. -/
def refreshed : List CondOp → CStr → Bool
  | [], _ => false
  | op :: h, n =>
    if retracts op n then false
    else if op = .reload then false
    else if op = .set n then true
    else if op = .oneshot n ∧ asserted h n = false then true
    else refreshed h n

/-- Spec: the documented state of condition `n` after history `h` (doc/conditions.md). -/
def specState (h : List CondOp) (n : CStr) : CState :=
  if asserted h n = false then .off
  else if bornOneshot h n = true ∨ refreshed h n = true then .on
  else .flux

/-- Number of reloads in a history. -/
def reloads : List CondOp → Nat
  | [] => 0
  | .reload :: h => reloads h + 1
  | _ :: h => reloads h

/-- A usable condition name: fits the path buffer, is not the reserved `nop`. -/
def GoodName (n : CStr) : Prop := n.length ≤ 43 ∧ n ≠ nopName

/-- The names asserted in a history come from `U`, cleared ones are usable. -/
def UsesOnly (U : CStr → Prop) : List CondOp → Prop
  | [] => True
  | .set n :: h => U n ∧ UsesOnly U h
  | .oneshot n :: h => U n ∧ UsesOnly U h
  | .clear n :: h => GoodName n ∧ UsesOnly U h
  | .reload :: h => UsesOnly U h

/-- A set of condition names that can coexist: usable, and none is a directory of another. -/
def Coexist (U : CStr → Prop) : Prop :=
  (∀ n, U n → GoodName n) ∧ ∀ m n, U m → U n → under m n = false

private theorem condPath_good {n : CStr} (h : GoodName n) : condPath n = n :=
  List.take_of_length_le h.1

/-- Simulation invariant between the store and the history. -/
private structure Sim (U : CStr → Prop) (h : List CondOp) (st : CondStore) : Prop where
  rgen : st.rgen = 1 + reloads h
  keys : ∀ e ∈ st.files, U e.1
  none_ : ∀ n, U n → asserted h n = false → st.lookup n = none
  link : ∀ n, U n → asserted h n = true → bornOneshot h n = true → st.lookup n = some .link
  gen : ∀ n, U n → asserted h n = true → bornOneshot h n = false →
    ∃ g, st.lookup n = some (.gen g) ∧ 0 < g ∧ g ≤ st.rgen ∧ (g = st.rgen ↔ refreshed h n = true)

private theorem noCheck {U st n} (hU : Coexist U) (hk : ∀ e ∈ st.files, U e.1) (hn : U n) :
    CondStore.checkFails st n = false ∧ CondStore.isDir st n = false := by
  constructor <;>
  · simp only [CondStore.checkFails, CondStore.isDir, List.any_eq_false]
    intro e he
    simp [hU.2 _ _ hn (hk e he), hU.2 _ _ (hk e he) hn]

private theorem run_sim {U : CStr → Prop} (hU : Coexist U) :
    ∀ h : List CondOp, UsesOnly U h → reloads h < U32 - 1 → Sim U h (runHist h) := by
  intro h
  induction h with
  | nil =>
    intro _ _
    exact ⟨rfl, by simp [runHist, CondStore.init], by simp [runHist, CondStore.init, CondStore.lookup],
      by simp [asserted], by simp [asserted]⟩
  | cons op h ih =>
    intro huse hrl
    cases op with
    | reload =>
      have hrl' : reloads h + 1 < U32 - 1 := hrl
      have s := ih huse (by omega)
      have hr : (runHist (.reload :: h)).rgen = 1 + reloads (.reload :: h) := by
        have h1 := s.rgen
        simp only [runHist, CondOp.run, CondStore.reload, reloads]
        rw [h1, Nat.mod_eq_of_lt (by omega)]; omega
      have hl : ∀ n, (runHist (.reload :: h)).lookup n = (runHist h).lookup n := fun n => rfl
      refine ⟨hr, s.keys, ?_, ?_, ?_⟩
      · intro n hn ha
        rw [hl]; exact s.none_ n hn (by simpa [asserted, retracts] using ha)
      · intro n hn ha hb
        have ha' : asserted h n = true := by simpa [asserted, retracts] using ha
        rw [hl]; exact s.link n hn ha' (by simpa [bornOneshot, retracts, ha'] using hb)
      · intro n hn ha hb
        have ha' : asserted h n = true := by simpa [asserted, retracts] using ha
        obtain ⟨g, h1, h2, h3, h4⟩ := s.gen n hn ha' (by simpa [bornOneshot, retracts, ha'] using hb)
        refine ⟨g, by rw [hl]; exact h1, h2, ?_, ?_⟩
        · have := s.rgen; rw [hr]; simp only [reloads]; omega
        · have := s.rgen; rw [hr]
          simp only [reloads, refreshed, retracts]
          constructor
          · intro; omega
          · simp
    | clear m =>
      have s := ih huse.2 hrl
      have hm := huse.1
      have hst : runHist (.clear m :: h) = ((runHist h).setOff m).1 := by
        simp only [runHist, CondOp.run, CondStore.clear, if_neg hm.2, condPath_good hm]
      have hl : ∀ n, (runHist (.clear m :: h)).lookup n =
          if retracts (.clear m) n = true then none else (runHist h).lookup n := by
        intro n; rw [hst, lookup_setOff]; simp [retracts]
      refine ⟨by rw [hst]; simpa [reloads] using s.rgen, ?_, ?_, ?_, ?_⟩
      · intro e he; rw [hst] at he
        simp only [CondStore.setOff, List.mem_filter] at he
        exact s.keys e he.1
      · intro n hn ha
        rw [hl]
        by_cases hr : retracts (.clear m) n = true
        · simp [hr]
        · simp only [hr]; exact s.none_ n hn (by simpa [asserted, hr] using ha)
      · intro n hn ha hb
        have hr : retracts (.clear m) n = false := by
          cases hc : retracts (.clear m) n <;> simp_all [asserted]
        have ha' : asserted h n = true := by simpa [asserted, hr] using ha
        rw [hl, hr]; exact s.link n hn ha' (by simpa [bornOneshot, hr, ha'] using hb)
      · intro n hn ha hb
        have hr : retracts (.clear m) n = false := by
          cases hc : retracts (.clear m) n <;> simp_all [asserted]
        have ha' : asserted h n = true := by simpa [asserted, hr] using ha
        obtain ⟨g, h1, h2, h3, h4⟩ := s.gen n hn ha' (by simpa [bornOneshot, hr, ha'] using hb)
        refine ⟨g, by rw [hl, hr]; exact h1, h2, by rw [hst]; exact h3, ?_⟩
        rw [hst, setOff_rgen, h4]; simp [refreshed, hr]
    | set m =>
      have s := ih huse.2 hrl
      have hm := huse.1
      have hgm := hU.1 m hm
      obtain ⟨hc, hd⟩ := noCheck hU s.keys hm
      have hr0 : (runHist h).rgen ≠ 0 := by have := s.rgen; omega
      have hst : runHist (.set m :: h) =
          match (runHist h).lookup m with
          | some .link => runHist h
          | _ => (runHist h).write m (.gen (runHist h).rgen) := by
        simp only [runHist, CondOp.run, CondStore.set, if_neg hgm.2, condPath_good hgm,
          CondStore.setOn, hc, hr0, if_false, hd]
        cases (runHist h).lookup m with
        | none => simp
        | some f => cases f <;> simp
      have hrg : (runHist (.set m :: h)).rgen = (runHist h).rgen := by
        rw [hst]; split <;> simp
      have hl : ∀ n, n ≠ m → (runHist (.set m :: h)).lookup n = (runHist h).lookup n := by
        intro n hn; rw [hst]; split
        · rfl
        · rw [lookup_write, if_neg hn]
      have hne : ∀ n, n ≠ m → ¬ (CondOp.set m = CondOp.set n) := by
        intro n hn heq; exact hn (CondOp.set.inj heq).symm
      refine ⟨by rw [hrg]; simpa [reloads] using s.rgen, ?_, ?_, ?_, ?_⟩
      · intro e he; rw [hst] at he
        split at he
        · exact s.keys e he
        · rcases mem_write _ _ _ _ he with h' | h'
          · rw [h']; exact hm
          · exact s.keys e h'
      · intro n hn ha
        by_cases hnm : n = m
        · subst hnm; simp [asserted, retracts] at ha
        · rw [hl n hnm]; exact s.none_ n hn (by simpa [asserted, retracts, hne n hnm] using ha)
      · intro n hn ha hb
        by_cases hnm : n = m
        · subst hnm
          by_cases hprev : asserted h n = true
          · have hb' : bornOneshot h n = true := by simpa [bornOneshot, retracts, hprev] using hb
            have := s.link n hn hprev hb'
            rw [hst]; simp [this]
          · simp [bornOneshot, retracts, hprev] at hb
        · have ha' : asserted h n = true := by simpa [asserted, retracts, hne n hnm] using ha
          rw [hl n hnm]; exact s.link n hn ha' (by simpa [bornOneshot, retracts, ha'] using hb)
      · intro n hn ha hb
        by_cases hnm : n = m
        · subst hnm
          have hnl : (runHist h).lookup n ≠ some .link := by
            intro hlk
            by_cases hprev : asserted h n = true
            · have hb' : bornOneshot h n = false := by simpa [bornOneshot, retracts, hprev] using hb
              obtain ⟨g, h1, _⟩ := s.gen n hn hprev hb'
              rw [h1] at hlk; cases hlk
            · have := s.none_ n hn (by simpa using hprev)
              rw [this] at hlk; cases hlk
          refine ⟨(runHist h).rgen, ?_, by omega, by rw [hrg]; exact Nat.le_refl _, ?_⟩
          · rw [hst]
            split
            · contradiction
            · rw [lookup_write, if_pos rfl]
          · rw [hrg]; simp [refreshed, retracts]
        · have ha' : asserted h n = true := by simpa [asserted, retracts, hne n hnm] using ha
          obtain ⟨g, h1, h2, h3, h4⟩ := s.gen n hn ha' (by simpa [bornOneshot, retracts, ha'] using hb)
          refine ⟨g, by rw [hl n hnm]; exact h1, h2, by rw [hrg]; exact h3, ?_⟩
          rw [hrg, h4]; simp [refreshed, retracts, hne n hnm]
    | oneshot m =>
      have s := ih huse.2 hrl
      have hm := huse.1
      have hgm := hU.1 m hm
      obtain ⟨hc, hd⟩ := noCheck hU s.keys hm
      have hst : runHist (.oneshot m :: h) =
          if ((runHist h).lookup m).isSome then runHist h else (runHist h).write m .link := by
        simp only [runHist, CondOp.run, CondStore.oneshot, if_neg hgm.2, condPath_good hgm, hc, hd,
          Bool.or_false]
        simp only [Bool.false_eq_true, if_false]
        split <;> rfl
      have hrg : (runHist (.oneshot m :: h)).rgen = (runHist h).rgen := by
        rw [hst]; split <;> simp
      have hl : ∀ n, n ≠ m → (runHist (.oneshot m :: h)).lookup n = (runHist h).lookup n := by
        intro n hn; rw [hst]; split
        · rfl
        · rw [lookup_write, if_neg hn]
      have hne : ∀ n, n ≠ m → ¬ (CondOp.oneshot m = CondOp.oneshot n) := by
        intro n hn heq; exact hn (CondOp.oneshot.inj heq).symm
      refine ⟨by rw [hrg]; simpa [reloads] using s.rgen, ?_, ?_, ?_, ?_⟩
      · intro e he; rw [hst] at he
        split at he
        · exact s.keys e he
        · rcases mem_write _ _ _ _ he with h' | h'
          · rw [h']; exact hm
          · exact s.keys e h'
      · intro n hn ha
        by_cases hnm : n = m
        · subst hnm; simp [asserted, retracts] at ha
        · rw [hl n hnm]; exact s.none_ n hn (by simpa [asserted, retracts, hne n hnm] using ha)
      · intro n hn ha hb
        by_cases hnm : n = m
        · subst hnm
          by_cases hprev : asserted h n = true
          · have hb' : bornOneshot h n = true := by simpa [bornOneshot, retracts, hprev] using hb
            have := s.link n hn hprev hb'
            rw [hst, this]; simpa using this
          · have := s.none_ n hn (by simpa using hprev)
            rw [hst, this]; simp [lookup_write]
        · have ha' : asserted h n = true := by simpa [asserted, retracts, hne n hnm] using ha
          rw [hl n hnm]; exact s.link n hn ha' (by simpa [bornOneshot, retracts, ha'] using hb)
      · intro n hn ha hb
        by_cases hnm : n = m
        · subst hnm
          by_cases hprev : asserted h n = true
          · have hb' : bornOneshot h n = false := by simpa [bornOneshot, retracts, hprev] using hb
            obtain ⟨g, h1, h2, h3, h4⟩ := s.gen n hn hprev hb'
            refine ⟨g, ?_, h2, by rw [hrg]; exact h3, ?_⟩
            · rw [hst, h1]; simpa using h1
            · rw [hrg, h4]; simp [refreshed, retracts, hprev]
          · simp [bornOneshot, retracts, hprev] at hb
        · have ha' : asserted h n = true := by simpa [asserted, retracts, hne n hnm] using ha
          obtain ⟨g, h1, h2, h3, h4⟩ := s.gen n hn ha' (by simpa [bornOneshot, retracts, ha'] using hb)
          refine ⟨g, by rw [hl n hnm]; exact h1, h2, by rw [hrg]; exact h3, ?_⟩
          rw [hrg, h4]; simp [refreshed, retracts, hne n hnm]

/-- **C02.**  For every history of set / one-shot / clear / reload over a set of names that
    can coexist in the condition directory, and fewer than 2^32 - 1 reloads, the queried
    state of every such name is the documented function of the history. -/
theorem C02_cond_state_is_function_of_history (U : CStr → Prop) (hU : Coexist U)
    (h : List CondOp) (huse : UsesOnly U h) (hrl : reloads h < U32 - 1) (n : CStr) (hn : U n) :
    (runHist h).get n = specState h n := by
  have s := run_sim hU h huse hrl
  have hr0 : (runHist h).rgen ≠ 0 := by have := s.rgen; omega
  have hp := condPath_good (hU.1 n hn)
  simp only [CondStore.get, hp, CondStore.getPath, CondStore.getGen, specState]
  by_cases ha : asserted h n = true
  · by_cases hb : bornOneshot h n = true
    · rw [s.link n hn ha hb]; simp [ha, hb, hr0]
    · have hb : bornOneshot h n = false := by simpa using hb
      obtain ⟨g, h1, h2, h3, h4⟩ := s.gen n hn ha hb
      have hg : g ≠ 0 := by omega
      rw [h1]
      by_cases hf : refreshed h n = true
      · simp [ha, hb, hr0, hf, h4.2 hf]
      · have : g ≠ (runHist h).rgen := fun he => hf (h4.1 he)
        simp [ha, hb, hr0, hg, hf, this]
  · have ha : asserted h n = false := by simpa using ha
    rw [s.none_ n hn ha]; simp [ha]

/-! ## C47: a change is announced exactly when there is one -/

/-- **C47, setting.**  `cond_set_noupdate` tells its caller to wake the services depending on the
    condition exactly if the condition was not on before; it is on afterwards. -/
theorem C47_set_announces_change (U : CStr → Prop) (hU : Coexist U)
    (h : List CondOp) (huse : UsesOnly U h) (hrl : reloads h < U32 - 1) (n : CStr) (hn : U n) :
    (((runHist h).set n).2 = true ↔ specState h n ≠ .on) ∧ ((runHist h).set n).1.get n = .on := by
  have s := run_sim hU h huse hrl
  have hst := C02_cond_state_is_function_of_history U hU h huse hrl n hn
  have hr0 : (runHist h).rgen ≠ 0 := by have := s.rgen; omega
  have hp := condPath_good (hU.1 n hn)
  have hc := (noCheck hU s.keys hn).1
  constructor
  · rw [← hst]
    simp only [CondStore.set, (hU.1 n hn).2, if_false, CondStore.setOn, hp, hc, Bool.false_eq_true, hr0,
      decide_eq_true_eq, CondStore.get]
  · have := C02_cond_state_is_function_of_history U hU (.set n :: h) ⟨hn, huse⟩ hrl n hn
    have e : runHist (.set n :: h) = ((runHist h).set n).1 := rfl
    rw [← e, this]
    simp [specState, asserted, refreshed, retracts]

/-- **C47, clearing.**  `cond_clear_noupdate` tells its caller to wake the services depending on the
    condition exactly if the condition was not off before; it is off afterwards. -/
theorem C47_clear_announces_change (U : CStr → Prop) (hU : Coexist U)
    (h : List CondOp) (huse : UsesOnly U h) (hrl : reloads h < U32 - 1) (n : CStr) (hn : U n) :
    (((runHist h).clear n).2 = true ↔ specState h n ≠ .off) ∧ ((runHist h).clear n).1.get n = .off := by
  have hst := C02_cond_state_is_function_of_history U hU h huse hrl n hn
  have hp := condPath_good (hU.1 n hn)
  constructor
  · rw [← hst]
    simp only [CondStore.clear, (hU.1 n hn).2, if_false, CondStore.setOff, hp, decide_eq_true_eq,
      CondStore.get]
  · have := C02_cond_state_is_function_of_history U hU (.clear n :: h) ⟨hU.1 n hn, huse⟩ hrl n hn
    have e : runHist (.clear n :: h) = ((runHist h).clear n).1 := rfl
    rw [← e, this]
    simp [specState, asserted, retracts]

/-- Three conditions that coexist: used as a witness that the hypotheses are satisfiable. -/
def exU (n : CStr) : Prop :=
  n = "net/eth0/up".toList ∨ n = "pid/zebra".toList ∨ n = "hook/net/up".toList

example : Coexist exU := by
  constructor
  · rintro n (rfl | rfl | rfl) <;> exact ⟨by decide, by decide⟩
  · rintro m n (rfl | rfl | rfl) (rfl | rfl | rfl) <;> decide

/-- A non-trivial history (most recent first): after a reload the regular condition is in
    flux, the one-shot stays on, the re-asserted one is on. -/
example :
    let h := [CondOp.set "pid/zebra".toList, .reload, .oneshot "hook/net/up".toList,
              .set "pid/zebra".toList, .set "net/eth0/up".toList]
    UsesOnly exU h ∧ reloads h < U32 - 1 ∧
    (runHist h).get "net/eth0/up".toList = .flux ∧
    (runHist h).get "pid/zebra".toList = .on ∧
    (runHist h).get "hook/net/up".toList = .on := by
  refine ⟨?_, by decide, by decide, by decide, by decide⟩
  simp [UsesOnly, exU]

/-- Not vacuous: reasserting a condition in flux is a change, asserting it once more is not. -/
example :
    let h := [CondOp.reload, .set "pid/zebra".toList]
    UsesOnly exU h ∧ reloads h < U32 - 1 ∧ ((runHist h).set "pid/zebra".toList).2 = true ∧
    ((runHist (.set "pid/zebra".toList :: h)).set "pid/zebra".toList).2 = false ∧
    ((runHist h).clear "pid/zebra".toList).2 = true ∧ ((runHist h).clear "net/eth0/up".toList).2 = false := by
  refine ⟨?_, by decide, by decide, by decide, by decide, by decide⟩
  simp [UsesOnly, exU]

/-- The corner the documentation gets wrong ("one-shot conditions never enter flux"): a
    one-shot asserted on top of an existing regular condition stays regular. -/
theorem C02_oneshot_after_set_goes_flux :
    (runHist [.reload, .oneshot "usr/foo".toList, .set "usr/foo".toList]).get "usr/foo".toList
      = .flux := by decide

/-- Reload turns every asserted, non-one-shot condition to flux and keeps the others. -/
theorem C02_reload_effect (U : CStr → Prop) (hU : Coexist U)
    (h : List CondOp) (huse : UsesOnly U h) (hrl : reloads h + 1 < U32 - 1) (n : CStr) (hn : U n) :
    (runHist (.reload :: h)).get n =
      match (runHist h).get n with
      | .off => .off
      | _ => if bornOneshot h n then .on else .flux := by
  rw [C02_cond_state_is_function_of_history U hU (.reload :: h) huse hrl n hn,
    C02_cond_state_is_function_of_history U hU h huse (by omega) n hn]
  have e1 : asserted (.reload :: h) n = asserted h n := by simp [asserted, retracts]
  have e3 : refreshed (.reload :: h) n = false := by simp [refreshed, retracts]
  unfold specState
  rw [e1, e3]
  by_cases ha : asserted h n = true
  · have e2 : bornOneshot (.reload :: h) n = bornOneshot h n := by simp [bornOneshot, retracts, ha]
    rw [e2]
    by_cases hb : bornOneshot h n = true
    · simp [ha, hb]
    · by_cases hf : refreshed h n = true <;> simp [ha, hb, hf]
  · simp [ha]

/-! ## C03: the aggregate is the meet -/

/-- **C03.**  State of a comma-separated list: off if a member is off, else flux if a member
    is flux, else on - for every store and every string. -/
theorem C03_aggregate_is_meet (st : CondStore) (s : CStr) :
    (st.aggStr s = .off ↔ ∃ n, IsMember isComma n s ∧ st.get n = .off) ∧
    (st.aggStr s = .on ↔ ∀ n, IsMember isComma n s → st.get n = .on) ∧
    (st.aggStr s = .flux ↔ (∀ n, IsMember isComma n s → st.get n ≠ .off) ∧
      ∃ n, IsMember isComma n s ∧ st.get n = .flux) := by
  simp only [CondStore.aggStr, CondStore.agg, aggLoop_spec, ← mem_tokens_iff]
  generalize tokens isComma s = l
  by_cases h1 : ∃ n ∈ l, st.get n = .off
  · obtain ⟨n, hn, hg⟩ := h1
    have e : (CState.on = CState.off ∨ ∃ n ∈ l, st.get n = .off) := Or.inr ⟨n, hn, hg⟩
    rw [if_pos e]
    refine ⟨⟨fun _ => ⟨n, hn, hg⟩, fun _ => rfl⟩, ⟨nofun, fun h => ?_⟩, ⟨nofun, fun h => ?_⟩⟩
    · rw [h n hn] at hg; cases hg
    · exact absurd hg (h.1 n hn)
  · by_cases h2 : ∃ n ∈ l, st.get n = .flux
    · obtain ⟨n, hn, hg⟩ := h2
      rw [if_neg (fun h => h.elim nofun h1), if_pos (Or.inr ⟨n, hn, hg⟩)]
      refine ⟨⟨nofun, fun h => absurd h h1⟩, ⟨nofun, fun h => ?_⟩, ⟨fun _ => ⟨?_, n, hn, hg⟩, fun _ => rfl⟩⟩
      · rw [h n hn] at hg; cases hg
      · intro m hm ho; exact h1 ⟨m, hm, ho⟩
    · rw [if_neg (fun h => h.elim nofun h1), if_neg (fun h => h.elim nofun h2)]
      refine ⟨⟨nofun, fun h => absurd h h1⟩, ⟨fun _ m hm => ?_, fun _ => rfl⟩, ⟨nofun, fun h => absurd h.2 h2⟩⟩
      cases hx : st.get m with
      | off => exact absurd ⟨m, hm, hx⟩ h1
      | flux => exact absurd ⟨m, hm, hx⟩ h2
      | on => rfl

/-- The empty list is on, in every store. -/
theorem C03_empty_is_on (st : CondStore) : st.aggStr [] = .on := by
  simp [CondStore.aggStr, tokens_nil, CondStore.agg, CondStore.aggLoop]

example : (runHist [.reload, .set "a".toList, .oneshot "b".toList]).aggStr "b,a".toList = .flux ∧
    (runHist [.reload, .set "a".toList, .oneshot "b".toList]).aggStr "b,a,c".toList = .off ∧
    (runHist [.reload, .set "a".toList, .oneshot "b".toList]).aggStr ",,b".toList = .on := by
  decide

/-! ## C04: who is affected by a condition change -/

/-- **C04.**  For every stored condition list (at most 191 bytes, as stored in a service), a
    changed condition affects the service iff its name is a member of the list. -/
theorem C04_affects_iff_member (name names : CStr) (hlen : names.length ≤ 191) :
    condAffects name names = true ↔ IsMember isComma name names := by
  have : strlcpy 192 names = names := List.take_of_length_le hlen
  simp only [condAffects, this, List.any_eq_true, decide_eq_true_eq, ← mem_tokens_iff]
  constructor
  · rintro ⟨x, hx, rfl⟩; exact hx
  · intro h; exact ⟨name, h, rfl⟩

example : condAffects "pid/b".toList "pid/a,pid/b".toList = true ∧
    condAffects "pid/b".toList "pid/bb,a/pid/b".toList = false := by decide

/-! ## C05: distinct conditions never alias -/

/-- Full statement of C05 (false of the code, see below). -/
def C05_full : Prop :=
  ∀ (st : CondStore) (m n : CStr), m ≠ n → under m n = false → (st.set m).1.get n = st.get n ∧
    (st.clear m).1.get n = st.get n ∧ (st.oneshot m).1.get n = st.get n

/-- **C05 is false**: two 44 byte names that differ only in the last byte share a file. -/
theorem C05_long_names_alias : ¬ C05_full := by
  intro h
  have := (h CondStore.init (List.replicate 43 'a' ++ ['1']) (List.replicate 43 'a' ++ ['2'])
    (by decide) (by decide)).1
  revert this; decide

private theorem lookup_setOn_other (st : CondStore) (m n : CStr) (hne : n ≠ m) :
    (st.setOn m).1.lookup n = st.lookup n := by
  unfold CondStore.setOn
  simp only
  split
  · rfl
  · split
    · rfl
    · simp only
      split
      · rfl
      · rw [lookup_write, if_neg hne]
      · split
        · rfl
        · rw [lookup_write, if_neg hne]

private theorem get_congr (a b : CondStore) (n : CStr) (hr : a.rgen = b.rgen)
    (hl : a.lookup (condPath n) = b.lookup (condPath n)) : a.get n = b.get n := by
  have hg : a.getGen (condPath n) = b.getGen (condPath n) := by
    unfold CondStore.getGen; rw [hl, hr]
  unfold CondStore.get CondStore.getPath
  simp only [hg, hr]

/-- **C05 (partial).**  For names that fit the 43 byte path buffer, setting, one-shot setting
    or clearing `m` never changes the state of a different condition `n` that does not lie
    below `m`, in any store.  Missing from the full statement: names longer than 43 bytes,
    for which it is false. -/
theorem C05_no_alias_partial (st : CondStore) (m n : CStr) (hm : m.length ≤ 43)
    (hn : n.length ≤ 43) (hne : m ≠ n) (hu : under m n = false) :
    (st.set m).1.get n = st.get n ∧ (st.clear m).1.get n = st.get n ∧
    (st.oneshot m).1.get n = st.get n := by
  have hpm : condPath m = m := List.take_of_length_le hm
  have hpn : condPath n = n := List.take_of_length_le hn
  refine ⟨?_, ?_, ?_⟩
  · unfold CondStore.set
    split
    · rfl
    · exact get_congr _ _ _ (by simp) (by rw [hpm, hpn]; exact lookup_setOn_other st m n (Ne.symm hne))
  · unfold CondStore.clear
    split
    · rfl
    · exact get_congr _ _ _ (by simp) (by rw [hpm, hpn, lookup_setOff]; simp [hne, hu])
  · unfold CondStore.oneshot
    split
    · rfl
    · simp only
      split
      · rfl
      · split
        · rfl
        · exact get_congr _ _ _ (by simp) (by
            rw [hpm, hpn, lookup_write, if_neg (Ne.symm hne)])

example : ("pid/a".toList).length ≤ 43 ∧ ("pid/ab".toList).length ≤ 43 ∧
    "pid/a".toList ≠ "pid/ab".toList ∧ under "pid/a".toList "pid/ab".toList = false ∧
    ((CondStore.init.set "pid/a".toList).1).get "pid/a".toList = .on ∧
    ((CondStore.init.set "pid/a".toList).1).get "pid/ab".toList = .off := by decide

end Verif
