import Verif.Watchdog

/-!
# C89: The watchdog timer resets the board when it should, and not otherwise
-/

namespace Verif

/-! ## Specification -/

/-- The program is at most `L` milliseconds late. -/
def Prompt (L : Nat) (s : WdSt) : Prop := s.pc = .gone ∨ s.now ≤ s.due + L

/-- It is so all the time. -/
def Timely (accepts : Nat → Bool) (L : Nat) : WdSt → List WdEv → Prop
  | s, [] => Prompt L s
  | s, e :: es => Prompt L s ∧ Timely accepts L (wdStep accepts s e) es

/-- No signal -/
def NoSig (es : List WdEv) : Prop := .term ∉ es ∧ .pwr ∉ es

/-- The full claim, for a device that takes the timeouts and a program no more than a second late: without SIGPWR there is no reset,
    whether or not the device is handed over with SIGTERM; after SIGPWR, which comes two seconds or more before SIGTERM, there is none until
    SIGTERM, and then there is one within ten seconds. -/
def C89_full : Prop :=
  ∀ (accepts : Nat → Bool) (dflt : Nat), accepts 30 = true → accepts 10 = true → accepts 1 = true → 10000 ≤ dflt →
    (∀ es, Timely accepts 1000 (wdOpen dflt) es → .pwr ∉ es → (wdRun accepts dflt es).reset = false) ∧
    ∀ a b c, Timely accepts 1000 (wdOpen dflt) (a ++ .pwr :: (b ++ .term :: c)) → NoSig a → NoSig b → NoSig c →
      (wdRun accepts dflt a).now + 2000 ≤ (wdRun accepts dflt (a ++ .pwr :: b)).now →
      (wdRun accepts dflt (a ++ .pwr :: b)).reset = false ∧
      ((wdRun accepts dflt (a ++ .pwr :: b)).now + 10000 < (wdRun accepts dflt (a ++ .pwr :: (b ++ .term :: c))).now →
        (wdRun accepts dflt (a ++ .pwr :: (b ++ .term :: c))).reset = true)

/-! ## Lemmas -/

theorem wdFrom_append (accepts : Nat → Bool) (s : WdSt) (a b : List WdEv) :
    wdFrom accepts s (a ++ b) = wdFrom accepts (wdFrom accepts s a) b := List.foldl_append

theorem timely_append {accepts : Nat → Bool} {L : Nat} : ∀ {a b : List WdEv} {s : WdSt},
    Timely accepts L s (a ++ b) → Timely accepts L s a ∧ Timely accepts L (wdFrom accepts s a) b
  | [], b, s, h => by
    refine ⟨?_, h⟩
    cases b with
    | nil => exact h
    | cons e b => exact h.1
  | e :: a, b, s, h => by
    have ih := timely_append (a := a) h.2
    exact ⟨⟨h.1, ih.1⟩, ih.2⟩

theorem timely_head {accepts : Nat → Bool} {L : Nat} {es : List WdEv} {s : WdSt} (h : Timely accepts L s es) : Prompt L s := by
  cases es with
  | nil => exact h
  | cons e es => exact h.1

/-- An invariant of what is allowed, for a prompt program -/
theorem wd_inv {accepts : Nat → Bool} {L : Nat} {I : WdSt → Prop} {ok : WdEv → Prop}
    (hstep : ∀ s e, I s → Prompt L s → Prompt L (wdStep accepts s e) → ok e → I (wdStep accepts s e)) :
    ∀ {es : List WdEv} {s : WdSt}, I s → Timely accepts L s es → (∀ e ∈ es, ok e) → I (wdFrom accepts s es)
  | [], _, h, _, _ => h
  | e :: es, s, h, ht, hok =>
    wd_inv hstep (es := es) (hstep s e h ht.1 (timely_head ht.2) (hok e List.mem_cons_self)) ht.2 fun x hx => hok x (List.mem_cons_of_mem _ hx)

/-- How much time may have passed since the last sign of life when the program can go on -/
def wdSlack (L : Nat) : WdPc → Nat
  | .top => 15000 + L
  | .left => 15000 + 2 * L
  | .hand => 15000 + 3 * L
  | .closing => L
  | _ => 0

/-- What holds as long as no SIGPWR has come -/
structure WdSafe (L dflt : Nat) (s : WdSt) : Prop where
  reset : s.reset = false
  shutdown : s.shutdown = false
  running : s.running = !s.handover
  pc : s.pc ≠ .wnap ∧ s.pc ≠ .wset
  hand : s.pc = .left ∨ s.pc = .hand ∨ s.pc = .magic ∨ s.pc = .wtop ∨ s.pc = .closing ∨ s.pc = .gone → s.handover = true
  magic : s.hw.magic = true ↔ s.pc = .wtop ∨ s.pc = .closing ∨ s.pc = .gone
  on : s.hw.on = true ↔ s.pc ≠ .gone
  timeout : s.hw.timeout = if s.pc = .init then dflt else 30000
  due : s.pc ≠ .gone → s.due ≤ s.hw.last + wdSlack L s.pc

theorem wdSafe_step {accepts : Nat → Bool} {L dflt : Nat} (h30 : accepts 30 = true) (hd : 4 * L ≤ dflt) (hL : 4 * L ≤ 15000) (s : WdSt) (e : WdEv)
    (h : WdSafe L dflt s) (hp : Prompt L s) (hp' : Prompt L (wdStep accepts s e)) (hok : e ≠ .pwr) : WdSafe L dflt (wdStep accepts s e) := by
  obtain ⟨now, due, pc, running, handover, shutdown, ⟨on, timeout, last, magic⟩, reset⟩ := s
  obtain ⟨h1, h2, h3, h4, h5, h6, h7, h8, h9⟩ := h
  dsimp only at h1 h2 h3 h4 h5 h6 h7 h8 h9
  subst h1 h2 h3
  cases e with
  | pwr => exact absurd rfl hok
  | term =>
    unfold wdStep wdSignal
    dsimp only
    split
    · exact ⟨rfl, rfl, rfl, h4, h5, h6, h7, h8, h9⟩
    · refine ⟨rfl, by simp, by simp, h4, fun _ => by simp, h6, h7, h8, fun hg => ?_⟩
      have := h9 hg
      dsimp only
      omega
  | tick n =>
    refine ⟨?_, rfl, rfl, h4, h5, h6, h7, h8, h9⟩
    unfold wdStep
    dsimp only
    rw [Bool.false_or, Bool.and_eq_false_iff]
    by_cases hg : pc = .gone
    · left
      cases on
      · rfl
      · exact absurd hg (h7.1 rfl)
    · right
      rw [decide_eq_false_iff_not]
      have h9 := h9 hg
      rcases hp' with hp' | hp'
      · exact absurd hp' hg
      · have hp' : now + n ≤ due + L := hp'
        cases pc <;> simp only [wdSlack] at h9 <;> simp at h8 <;> omega
  | act =>
    rcases hp with hp | hp
    · have hp : pc = .gone := hp
      subst hp
      unfold wdStep wdAct
      dsimp only
      split
      · exact ⟨rfl, rfl, rfl, h4, h5, h6, h7, h8, fun hg => absurd rfl hg⟩
      · exact ⟨rfl, rfl, rfl, h4, h5, h6, h7, h8, fun hg => absurd rfl hg⟩
    · have hp : now ≤ due + L := hp
      unfold wdStep
      dsimp only
      split
      · unfold wdAct
        cases pc <;> dsimp only
        · unfold wdSet
          rw [if_pos h30]
          exact ⟨rfl, rfl, rfl, by simp, by simp, by simpa using h6, by simpa using h7, by simp, fun _ => by simp [wdSlack]⟩
        · cases handover
          · exact ⟨rfl, rfl, rfl, by simp [wdPing], by simp [wdPing], by simpa [wdPing] using h6, by simpa [wdPing] using h7, by simpa [wdPing] using h8,
              fun _ => by simp [wdPing, wdSlack]⟩
          · refine ⟨rfl, rfl, rfl, by simp, by simp, by simpa using h6, by simpa using h7, by simpa using h8, fun _ => ?_⟩
            have := h9 (by decide)
            simp only [wdSlack] at this
            simp [wdSlack]
            omega
        · refine ⟨rfl, rfl, rfl, by simp, by simp, by simpa using h6, by simpa using h7, by simpa using h8, fun _ => ?_⟩
          have := h9 (by decide)
          simp only [wdSlack] at this
          simp [wdSlack]
          omega
        · refine ⟨by simp, by simp, by simp, by simp, by simpa using h5, by simpa using h6, by simpa using h7, by simpa using h8, fun _ => ?_⟩
          have := h9 (by decide)
          simp only [wdSlack] at this
          simp [wdSlack]
          omega
        · have hh : handover = true := h5 (by simp)
          subst hh
          exact ⟨rfl, rfl, rfl, by simp [wdPing], by simp [wdPing], by simpa [wdPing] using h6, by simpa [wdPing] using h7, by simpa [wdPing] using h8,
              fun _ => by simp [wdPing, wdSlack]⟩
        · exact ⟨rfl, rfl, rfl, by simp, by simpa using h5, by simp, by simpa using h7, by simpa using h8, fun _ => by simp [wdSlack]⟩
        · have hh : handover = true := h5 (by simp)
          subst hh
          refine ⟨rfl, rfl, rfl, by simp, by simp, by simpa using h6, by simpa using h7, by simpa using h8, fun _ => ?_⟩
          have := h9 (by decide)
          simp only [wdSlack] at this
          simp [wdSlack]
          omega
        · exact absurd rfl h4.1
        · exact absurd rfl h4.2
        · have hm : magic = true := h6.2 (by simp)
          subst hm
          exact ⟨rfl, rfl, rfl, by simp, fun _ => h5 (by simp), by simp, by simp, by simpa using h8, fun hg => absurd rfl hg⟩
        · exact ⟨rfl, rfl, rfl, h4, h5, h6, h7, h8, fun hg => absurd rfl hg⟩
      · exact ⟨rfl, rfl, rfl, h4, h5, h6, h7, h8, h9⟩

theorem wdSafe_open (L dflt : Nat) : WdSafe L dflt (wdOpen dflt) :=
  ⟨rfl, rfl, rfl, by simp [wdOpen], by simp [wdOpen], by simp [wdOpen], by simp [wdOpen], rfl, fun _ => Nat.le_refl _⟩

theorem wdSafe_run {accepts : Nat → Bool} {L dflt : Nat} (h30 : accepts 30 = true) (hd : 4 * L ≤ dflt) (hL : 4 * L ≤ 15000) {es : List WdEv}
    (ht : Timely accepts L (wdOpen dflt) es) (hn : .pwr ∉ es) : WdSafe L dflt (wdRun accepts dflt es) :=
  wd_inv (ok := fun e => e ≠ .pwr) (wdSafe_step h30 hd hL) (wdSafe_open L dflt) ht fun _ he e => hn (e ▸ he)

/-! ## The property -/

/-- **C89, no reset.** As long as no SIGPWR comes, and the program is never more than 3.75 seconds late, the board is not reset; not
    even if, at any time, the device is handed over. -/
theorem C89_safe {accepts : Nat → Bool} {dflt : Nat} (h30 : accepts 30 = true) (hd : 15000 ≤ dflt) {es : List WdEv}
    (ht : Timely accepts 3750 (wdOpen dflt) es) (hn : .pwr ∉ es) : (wdRun accepts dflt es).reset = false :=
  (wdSafe_run h30 (by omega) (by omega) ht hn).reset

/-- **C89, handed over.** If it ended without a SIGPWR the timer is stopped, so nothing happens until another program opens the
    device; and as long as it has not ended the timer runs. -/
theorem C89_stopped {accepts : Nat → Bool} {dflt : Nat} (h30 : accepts 30 = true) (hd : 15000 ≤ dflt) {es : List WdEv}
    (ht : Timely accepts 3750 (wdOpen dflt) es) (hn : .pwr ∉ es) :
    (wdRun accepts dflt es).hw.on = false ↔ (wdRun accepts dflt es).pc = .gone := by
  have h := (wdSafe_run h30 (by omega) (by omega) ht hn).on
  rw [← Bool.not_eq_true, h, Decidable.not_not]

/-- How long after the signal the program can go on -/
def wdLeft (L : Nat) : WdPc → Nat
  | .top => L
  | .left => 2 * L
  | .hand => 3 * L
  | .magic => 4 * L
  | .wtop => 5 * L
  | .closing => 6 * L
  | _ => 0

/-- What holds after SIGTERM -/
structure WdEnding (L τ : Nat) (s : WdSt) : Prop where
  running : s.running = false
  handover : s.handover = true
  pc : s.pc ≠ .nap ∧ s.pc ≠ .wnap ∧ s.pc ≠ .wset
  due : s.pc ≠ .gone → s.due ≤ τ + wdLeft L s.pc

theorem wdEnding_step {accepts : Nat → Bool} {L τ : Nat} (s : WdSt) (e : WdEv)
    (h : WdEnding L τ s) (hp : Prompt L s) : WdEnding L τ (wdStep accepts s e) := by
  obtain ⟨now, due, pc, running, handover, shutdown, hw, reset⟩ := s
  obtain ⟨h1, h2, h3, h4⟩ := h
  dsimp only at h1 h2 h3 h4
  subst h1 h2
  have hsig : ∀ b, WdEnding L τ (wdSignal ⟨now, due, pc, false, true, shutdown, hw, reset⟩ b) := by
    intro b
    unfold wdSignal
    dsimp only
    split
    · exact ⟨rfl, rfl, h3, h4⟩
    · refine ⟨rfl, rfl, h3, fun hg => ?_⟩
      have := h4 hg
      dsimp only
      omega
  cases e with
  | pwr => exact hsig false
  | term => exact hsig true
  | tick n => exact ⟨rfl, rfl, h3, h4⟩
  | act =>
    unfold wdStep
    dsimp only
    split
    · have hset : ∀ (s : WdSt) n, (wdSet accepts s n).running = s.running ∧ (wdSet accepts s n).handover = s.handover ∧ (wdSet accepts s n).due = s.due := by
        intro s n
        unfold wdSet
        split <;> exact ⟨rfl, rfl, rfl⟩
      unfold wdAct
      cases pc <;> dsimp only
      case gone => exact ⟨rfl, rfl, h3, fun hg => absurd rfl hg⟩
      case nap => exact absurd rfl h3.1
      case wnap => exact absurd rfl h3.2.1
      case wset => exact absurd rfl h3.2.2
      all_goals
        have h4 := h4 (by decide)
        have hp := hp.resolve_left (by simp)
        dsimp only at hp
        simp only [wdLeft] at h4
      case init =>
        refine ⟨(hset _ _).1, (hset _ _).2.1, by simp, fun _ => ?_⟩
        dsimp only
        rw [(hset _ _).2.2]
        simp only [wdLeft]
        omega
      case left =>
        refine ⟨?_, ?_, by simp, fun _ => ?_⟩
        · dsimp only; split
          · exact (hset _ _).1
          · rfl
        · dsimp only; split
          · exact (hset _ _).2.1
          · rfl
        · dsimp only
          simp only [wdLeft]
          split
          · rw [(hset _ _).2.2]; dsimp only; omega
          · dsimp only; omega
      case closing => exact ⟨rfl, rfl, by simp, fun hg => absurd rfl hg⟩
      all_goals
        refine ⟨rfl, rfl, by simp [wdPing], fun _ => ?_⟩
        simp [wdLeft, wdPing]
        try omega
    · exact ⟨rfl, rfl, h3, h4⟩

/-- **C89, how fast.** A program that is told with SIGTERM to hand over, but not just before it begins to sleep, has done so seven
    of its delays later: the timer is stopped. -/
theorem C89_handover {accepts : Nat → Bool} {L dflt : Nat} (h30 : accepts 30 = true) (hd : 4 * L ≤ dflt) (hL : 4 * L ≤ 15000) {a b : List WdEv}
    (ht : Timely accepts L (wdOpen dflt) (a ++ .term :: b)) (ha : .pwr ∉ a) (hb : .pwr ∉ b)
    (hn : (wdRun accepts dflt a).pc ≠ .nap)
    (hlate : (wdRun accepts dflt a).now + 7 * L < (wdRun accepts dflt (a ++ .term :: b)).now) :
    (wdRun accepts dflt (a ++ .term :: b)).pc = .gone ∧ (wdRun accepts dflt (a ++ .term :: b)).hw.on = false := by
  have hno : .pwr ∉ a ++ WdEv.term :: b := by
    intro h
    rcases List.mem_append.1 h with h | h
    · exact ha h
    · rcases List.mem_cons.1 h with h | h
      · cases h
      · exact hb h
  have hS := wdSafe_run h30 hd hL ht hno
  have hg : (wdRun accepts dflt (a ++ .term :: b)).pc = .gone := by
    obtain ⟨hta, htb⟩ := timely_append ht
    have hSa := wdSafe_run h30 hd hL hta ha
    have he : wdRun accepts dflt (a ++ .term :: b) = wdFrom accepts (wdSignal (wdRun accepts dflt a) true) b := wdFrom_append _ _ _ _
    rw [he] at hlate ⊢
    change Timely accepts L (wdRun accepts dflt a) (.term :: b) at htb
    generalize wdRun accepts dflt a = s at *
    by_cases hgs : s.pc = .gone
    · have hinv := wd_inv (accepts := accepts) (I := fun s => s.pc = .gone) (ok := fun _ => True) (L := L) (fun s e h _ _ _ => by
        cases e with
        | tick n => exact h
        | act =>
          unfold wdStep wdAct
          dsimp only
          split
          · rw [h]
          · exact h
        | term => change (wdSignal s true).pc = _; unfold wdSignal; rw [if_pos h]; exact h
        | pwr => change (wdSignal s false).pc = _; unfold wdSignal; rw [if_pos h]; exact h) (s := wdSignal s true) (es := b) (by unfold wdSignal; rw [if_pos hgs]; exact hgs) htb.2 (fun _ _ => trivial)
      exact hinv
    · have h0 : WdEnding L s.now (wdSignal s true) := by
        unfold wdSignal
        rw [if_neg hgs]
        refine ⟨rfl, Bool.or_true _, ⟨hn, hSa.pc⟩, fun _ => ?_⟩
        dsimp only
        omega
      have hinv := wd_inv (accepts := accepts) (I := WdEnding L s.now) (ok := fun _ => True) (fun s e h hp _ _ => wdEnding_step s e h hp) h0 htb.2 (fun _ _ => trivial)
      refine Decidable.byContradiction fun hx => ?_
      have hdue := hinv.due hx
      have hpr := timely_append (b := []) (s := wdSignal s true) (a := b) (by rw [List.append_nil]; exact htb.2)
      rcases timely_head hpr.2 with h | h
      · exact hx h
      · have : wdLeft L (wdFrom accepts (wdSignal s true) b).pc ≤ 6 * L := by
          cases (wdFrom accepts (wdSignal s true) b).pc <;> simp only [wdLeft] <;> omega
        omega
  refine ⟨hg, ?_⟩
  cases hon : (wdRun accepts dflt (a ++ .term :: b)).hw.on with
  | false => rfl
  | true => exact absurd hg (hS.on.1 hon)

/-- What holds after SIGPWR, until SIGTERM -/
structure WdGrace (p : Nat) (s : WdSt) : Prop where
  shutdown : s.shutdown = true
  running : s.running = false
  handover : s.handover = false
  now : p ≤ s.now
  keep : p + 2000 ≤ s.hw.last + s.hw.timeout
  early : s.reset = true → p + 2000 < s.now
  pc : s.pc ≠ .magic ∧ s.pc ≠ .closing ∧ s.pc ≠ .gone
  on : s.hw.on = true ∧ s.hw.magic = false
  due : s.pc = .wset → p + 1000 ≤ s.due

theorem wdGrace_step {accepts : Nat → Bool} {p : Nat} (s : WdSt) (e : WdEv) (h : WdGrace p s) (hok : e ≠ .term ∧ e ≠ .pwr) :
    WdGrace p (wdStep accepts s e) := by
  obtain ⟨now, due, pc, running, handover, shutdown, ⟨on, timeout, last, magic⟩, reset⟩ := s
  obtain ⟨h1, h2, h3, h4, h5, h6, h7, h8, h9⟩ := h
  dsimp only at h1 h2 h3 h4 h5 h6 h7 h8 h9
  subst h1 h2 h3
  cases e with
  | term => exact absurd rfl hok.1
  | pwr => exact absurd rfl hok.2
  | tick n =>
    refine ⟨rfl, rfl, rfl, by unfold wdStep; dsimp only; omega, h5, ?_, h7, h8, h9⟩
    unfold wdStep
    dsimp only
    rw [Bool.or_eq_true, Bool.and_eq_true, decide_eq_true_eq]
    rintro (h | ⟨-, h⟩)
    · have := h6 h; omega
    · omega
  | act =>
    unfold wdStep
    dsimp only
    split
    · rename_i hdue
      unfold wdAct wdSet wdPing
      cases pc <;> dsimp only
      case magic => exact absurd rfl h7.1
      case closing => exact absurd rfl h7.2.1
      case gone => exact absurd rfl h7.2.2
      case init =>
        split
        · exact ⟨rfl, rfl, rfl, h4, by dsimp only; omega, h6, by simp, h8, by simp⟩
        · exact ⟨rfl, rfl, rfl, h4, h5, h6, by simp, h8, by simp⟩
      case left =>
        simp only [if_true]
        split
        · exact ⟨rfl, rfl, rfl, h4, by dsimp only; omega, h6, by simp, h8, by simp⟩
        · exact ⟨rfl, rfl, rfl, h4, h5, h6, by simp, h8, by simp⟩
      case wset =>
        have := h9 rfl
        simp only [if_true]
        split
        · exact ⟨rfl, rfl, rfl, h4, by dsimp only; omega, h6, by simp, h8, by simp⟩
        · exact ⟨rfl, rfl, rfl, h4, h5, h6, by simp, h8, by simp⟩
      case wnap => exact ⟨rfl, rfl, rfl, h4, h5, h6, by simp, h8, fun _ => by dsimp only; omega⟩
      all_goals exact ⟨rfl, rfl, rfl, h4, h5, h6, by simp, h8, by simp⟩
    · exact ⟨rfl, rfl, rfl, h4, h5, h6, h7, h8, h9⟩

theorem wdGrace_start {L dflt : Nat} (hd : 4 * L + 2000 ≤ dflt) (hL : 4 * L ≤ 13000) {s : WdSt} (h : WdSafe L dflt s) (hp : Prompt L s)
    (ho : s.handover = false) : WdGrace s.now (wdSignal s false) := by
  have hpc : s.pc = .init ∨ s.pc = .top ∨ s.pc = .nap := by
    have h5 := h.hand
    have h4 := h.pc
    rw [ho] at h5
    cases hs : s.pc <;> simp_all
  have hlast : s.now + 2000 ≤ s.hw.last + s.hw.timeout := by
    have h9 := h.due (by rcases hpc with h | h | h <;> rw [h] <;> decide)
    have h8 := h.timeout
    rcases hp with hp | hp
    · rcases hpc with h | h | h <;> rw [h] at hp <;> cases hp
    · rcases hpc with h | h | h <;> rw [h] at h8 h9 <;> simp [wdSlack] at h8 h9 <;> omega
  unfold wdSignal
  rw [if_neg (by rcases hpc with h | h | h <;> rw [h] <;> decide)]
  refine ⟨by simp, rfl, by simp [ho], Nat.le_refl _, hlast, ?_, ?_, ⟨?_, ?_⟩, ?_⟩
  · dsimp only
    rw [h.reset]
    exact nofun
  · rcases hpc with h | h | h <;> rw [h] <;> decide
  · exact h.on.2 (by rcases hpc with h | h | h <;> rw [h] <;> decide)
  · cases hm : s.hw.magic with
    | false => rfl
    | true =>
      have := h.magic.1 hm
      rcases hpc with h | h | h <;> rw [h] at this <;> simp at this
  · rcases hpc with h | h | h <;> rw [h] <;> simp

theorem wdHandover_no {accepts : Nat → Bool} : ∀ {es : List WdEv} {s : WdSt}, s.handover = false → .term ∉ es → (wdFrom accepts s es).handover = false
  | [], _, h, _ => h
  | e :: es, s, h, hn => by
    refine wdHandover_no (es := es) (s := wdStep accepts s e) ?_ fun hx => hn (List.mem_cons_of_mem _ hx)
    cases e with
    | term => exact absurd List.mem_cons_self hn
    | pwr =>
      change (wdSignal s false).handover = false
      unfold wdSignal
      split
      · exact h
      · simp [h]
    | tick n => exact h
    | act =>
      unfold wdStep
      dsimp only
      split
      · unfold wdAct wdSet wdPing
        dsimp only
        split <;> (try split) <;> (try split) <;> first | exact h | simp_all
      · exact h

/-- What is so between SIGPWR and SIGTERM -/
theorem wdGrace_run {accepts : Nat → Bool} {L dflt : Nat} (h30 : accepts 30 = true) (hd : 4 * L + 2000 ≤ dflt) (hL : 4 * L ≤ 13000) {a b : List WdEv}
    (ht : Timely accepts L (wdOpen dflt) a) (ha : NoSig a) (hb : NoSig b) :
    WdGrace (wdRun accepts dflt a).now (wdRun accepts dflt (a ++ .pwr :: b)) := by
  have hS := wdSafe_run h30 (by omega) (by omega) ht ha.2
  have hp : Prompt L (wdRun accepts dflt a) :=
    timely_head (timely_append (b := []) (by rw [List.append_nil]; exact ht)).2
  have ho : (wdRun accepts dflt a).handover = false := wdHandover_no rfl ha.1
  have h0 := wdGrace_start hd hL hS hp ho
  have he : wdRun accepts dflt (a ++ .pwr :: b) = wdFrom accepts (wdSignal (wdRun accepts dflt a) false) b := wdFrom_append _ _ _ _
  rw [he]
  generalize wdSignal (wdRun accepts dflt a) false = s at h0
  clear he
  induction b generalizing s with
  | nil => exact h0
  | cons e b ih =>
    refine ih ⟨fun h => hb.1 (List.mem_cons_of_mem _ h), fun h => hb.2 (List.mem_cons_of_mem _ h)⟩ _ (wdGrace_step s e h0 ⟨?_, ?_⟩)
    · rintro rfl; exact hb.1 List.mem_cons_self
    · rintro rfl; exact hb.2 List.mem_cons_self

/-- **C89, after SIGPWR, part.** The board is not reset within two seconds of SIGPWR.  Missing: that it is not until SIGTERM, which
    is false. -/
theorem C89_grace_partial {accepts : Nat → Bool} {dflt : Nat} (h30 : accepts 30 = true) (hd : 15000 ≤ dflt) {a b : List WdEv}
    (ht : Timely accepts 3250 (wdOpen dflt) a) (ha : NoSig a) (hb : NoSig b)
    (hr : (wdRun accepts dflt (a ++ .pwr :: b)).reset = true) :
    (wdRun accepts dflt a).now + 2000 < (wdRun accepts dflt (a ++ .pwr :: b)).now :=
  (wdGrace_run h30 (by omega) (by omega) ht ha hb).early hr

/-- The timer has not run out unless the board has been reset. -/
def WdTrue (s : WdSt) : Prop := s.reset = true ∨ (s.hw.on = true → s.now ≤ s.hw.last + s.hw.timeout)

theorem wdTrue_step {accepts : Nat → Bool} (s : WdSt) (e : WdEv) (h : WdTrue s) : WdTrue (wdStep accepts s e) := by
  rcases h with h | h
  · left
    cases e with
    | tick n => unfold wdStep; dsimp only; rw [h]; rfl
    | act =>
      unfold wdStep wdAct wdSet wdPing
      dsimp only
      split
      · split <;> (try split) <;> (try split) <;> exact h
      · exact h
    | term => change (wdSignal s true).reset = true; unfold wdSignal; split <;> exact h
    | pwr => change (wdSignal s false).reset = true; unfold wdSignal; split <;> exact h
  · cases e with
    | tick n =>
      unfold WdTrue wdStep
      dsimp only
      cases hon : s.hw.on
      · right; exact nofun
      · by_cases hx : s.hw.last + s.hw.timeout < s.now + n
        · left; simp [hx]
        · right; intro _; omega
    | term => right; change (wdSignal s true).hw.on = true → _; unfold wdStep wdSignal; dsimp only; split <;> exact h
    | pwr => right; change (wdSignal s false).hw.on = true → _; unfold wdStep wdSignal; dsimp only; split <;> exact h
    | act =>
      right
      unfold wdStep wdAct wdSet wdPing
      dsimp only
      split
      · split <;> (try split) <;> (try split) <;> dsimp only <;> first | exact h | (intro _; omega) | (intro hx; rw [Bool.and_eq_true] at hx; exact h hx.1)
      · exact h

theorem wdTrue_from {accepts : Nat → Bool} : ∀ (es : List WdEv) {s : WdSt}, WdTrue s → WdTrue (wdFrom accepts s es)
  | [], _, h => h
  | e :: es, s, h => wdTrue_from es (wdTrue_step s e h)

/-- What holds after SIGTERM that comes when the program waits for it -/
structure WdDoom (L τ : Nat) (s : WdSt) : Prop where
  on : s.hw.on = true ∧ s.hw.magic = false
  flags : s.handover = true ∧ s.shutdown = true
  last : s.hw.last + s.hw.timeout ≤ τ + 10000
  pc : (s.pc = .wset ∧ s.due ≤ τ + 1000 + L) ∨ (s.pc = .wnap ∧ s.due ≤ τ) ∨ s.pc = .wtop ∨ s.pc = .closing ∨ s.pc = .gone

theorem wdDoom_step {accepts : Nat → Bool} {L τ : Nat} (hL : 2 * L ≤ 8000) (s : WdSt) (e : WdEv)
    (h : WdDoom L τ s) (hp : Prompt L s) : WdDoom L τ (wdStep accepts s e) := by
  obtain ⟨now, due, pc, running, handover, shutdown, ⟨on, timeout, last, magic⟩, reset⟩ := s
  obtain ⟨⟨h1, h1'⟩, ⟨h2, h2'⟩, h3, h4⟩ := h
  dsimp only at h1 h1' h2 h2' h3 h4
  subst h1 h1' h2 h2'
  have hsig : ∀ b, WdDoom L τ (wdSignal ⟨now, due, pc, running, true, true, ⟨true, timeout, last, false⟩, reset⟩ b) := by
    intro b
    unfold wdSignal
    dsimp only
    split
    · exact ⟨⟨rfl, rfl⟩, ⟨rfl, rfl⟩, h3, h4⟩
    · refine ⟨⟨rfl, rfl⟩, ⟨rfl, rfl⟩, h3, ?_⟩
      rcases h4 with ⟨h, h'⟩ | ⟨h, h'⟩ | h
      · exact .inl ⟨h, by dsimp only; omega⟩
      · exact .inr (.inl ⟨h, by dsimp only; omega⟩)
      · exact .inr (.inr h)
  cases e with
  | pwr => exact hsig false
  | term => exact hsig true
  | tick n => exact ⟨⟨rfl, rfl⟩, ⟨rfl, rfl⟩, h3, h4⟩
  | act =>
    unfold wdStep
    dsimp only
    split
    · unfold Prompt at hp
      dsimp only at hp
      unfold wdAct wdSet
      rcases h4 with ⟨rfl, h⟩ | ⟨rfl, h⟩ | rfl | rfl | rfl <;> dsimp only
      · have hp := hp.resolve_left nofun
        simp only [if_true]
        split
        · exact ⟨⟨rfl, rfl⟩, ⟨rfl, rfl⟩, by dsimp only; omega, by simp⟩
        · exact ⟨⟨rfl, rfl⟩, ⟨rfl, rfl⟩, h3, by simp⟩
      · have hp := hp.resolve_left nofun
        exact ⟨⟨rfl, rfl⟩, ⟨rfl, rfl⟩, h3, .inl ⟨rfl, by dsimp only; omega⟩⟩
      · exact ⟨⟨rfl, rfl⟩, ⟨rfl, rfl⟩, h3, by simp⟩
      · exact ⟨⟨rfl, rfl⟩, ⟨rfl, rfl⟩, h3, by simp⟩
      · exact ⟨⟨rfl, rfl⟩, ⟨rfl, rfl⟩, h3, by simp⟩
    · exact ⟨⟨rfl, rfl⟩, ⟨rfl, rfl⟩, h3, h4⟩

/-- What holds when the timeout has been made shorter -/
structure WdShort (s : WdSt) : Prop where
  shutdown : s.shutdown = true
  past : s.pc = .hand ∨ s.pc = .wtop ∨ s.pc = .wnap ∨ s.pc = .wset → s.hw.timeout ≤ 10000 ∧ s.hw.last ≤ s.now

theorem wdShort_step {accepts : Nat → Bool} (h10 : accepts 10 = true) {p : Nat} (s : WdSt) (e : WdEv) (hg : WdGrace p s) (h : WdShort s)
    (hok : e ≠ .term ∧ e ≠ .pwr) : WdShort (wdStep accepts s e) := by
  obtain ⟨now, due, pc, running, handover, shutdown, ⟨on, timeout, last, magic⟩, reset⟩ := s
  obtain ⟨h1, h2⟩ := h
  have h3 := hg.running
  have h4 := hg.handover
  have h5 := hg.pc
  dsimp only at h1 h2 h3 h4 h5
  subst h1 h3 h4
  cases e with
  | term => exact absurd rfl hok.1
  | pwr => exact absurd rfl hok.2
  | tick n =>
    refine ⟨rfl, fun h => ?_⟩
    have := h2 h
    unfold wdStep
    dsimp only
    omega
  | act =>
    unfold wdStep
    dsimp only
    split
    · unfold wdAct wdSet wdPing
      cases pc <;> dsimp only
      case magic => exact absurd rfl h5.1
      case closing => exact absurd rfl h5.2.1
      case gone => exact absurd rfl h5.2.2
      case init => split <;> exact ⟨rfl, by simp⟩
      case top => exact ⟨rfl, by simp⟩
      case nap => exact ⟨rfl, by simp⟩
      case left =>
        simp only [if_true, h10]
        exact ⟨rfl, fun _ => ⟨Nat.le_refl _, Nat.le_refl _⟩⟩
      case hand => exact ⟨rfl, fun _ => h2 (by simp)⟩
      case wtop => exact ⟨rfl, fun _ => h2 (by simp)⟩
      case wnap => exact ⟨rfl, fun _ => h2 (by simp)⟩
      case wset =>
        have := h2 (by simp)
        simp only [if_true]
        split
        · exact ⟨rfl, fun _ => ⟨by dsimp only; omega, Nat.le_refl _⟩⟩
        · exact ⟨rfl, fun _ => this⟩
    · exact ⟨rfl, h2⟩

/-- **C89, the reboot, part.** SIGTERM after SIGPWR when the program waits for it: ten seconds later, the time init waits, the board
    has been reset.  Missing: SIGTERM that comes before the program has seen SIGPWR. -/
theorem C89_reboot_partial {accepts : Nat → Bool} {L dflt : Nat} (h30 : accepts 30 = true) (h10 : accepts 10 = true)
    (hd : 4 * L + 2000 ≤ dflt) (hL : 4 * L ≤ 13000) {a b c : List WdEv}
    (ht : Timely accepts L (wdOpen dflt) (a ++ .pwr :: (b ++ .term :: c))) (ha : NoSig a) (hb : NoSig b)
    (hw : (wdRun accepts dflt (a ++ .pwr :: b)).pc = .wtop ∨ (wdRun accepts dflt (a ++ .pwr :: b)).pc = .wnap ∨
      (wdRun accepts dflt (a ++ .pwr :: b)).pc = .wset)
    (hlate : (wdRun accepts dflt (a ++ .pwr :: b)).now + 10000 < (wdRun accepts dflt (a ++ .pwr :: (b ++ .term :: c))).now) :
    (wdRun accepts dflt (a ++ .pwr :: (b ++ .term :: c))).reset = true := by
  have hta := (timely_append ht).1
  have hG := wdGrace_run h30 hd hL hta ha hb
  have hSh : WdShort (wdRun accepts dflt (a ++ .pwr :: b)) := by
    have hS := wdSafe_run h30 (by omega) (by omega) hta ha.2
    have hp : Prompt L (wdRun accepts dflt a) := timely_head (timely_append ht).2
    have ho : (wdRun accepts dflt a).handover = false := wdHandover_no rfl ha.1
    have h0 := wdGrace_start hd hL hS hp ho
    have h1 : WdShort (wdSignal (wdRun accepts dflt a) false) := by
      refine ⟨h0.shutdown, fun h => ?_⟩
      exfalso
      have hpc : (wdSignal (wdRun accepts dflt a) false).pc = (wdRun accepts dflt a).pc := by unfold wdSignal; split <;> rfl
      rw [hpc] at h
      have h5 := hS.hand
      rw [ho] at h5
      have h4 := hS.pc
      rcases h with h | h | h | h
      · exact absurd (h5 (by rw [h]; simp)) (by decide)
      · exact absurd (h5 (by rw [h]; simp)) (by decide)
      · exact h4.1 h
      · exact h4.2 h
    have he : wdRun accepts dflt (a ++ .pwr :: b) = wdFrom accepts (wdSignal (wdRun accepts dflt a) false) b := wdFrom_append _ _ _ _
    rw [he]
    generalize wdSignal (wdRun accepts dflt a) false = s at h0 h1
    clear he hw hlate hG ht
    induction b generalizing s with
    | nil => exact h1
    | cons e b ih =>
      have hne : e ≠ .term ∧ e ≠ .pwr := ⟨by rintro rfl; exact hb.1 List.mem_cons_self, by rintro rfl; exact hb.2 List.mem_cons_self⟩
      exact ih ⟨fun h => hb.1 (List.mem_cons_of_mem _ h), fun h => hb.2 (List.mem_cons_of_mem _ h)⟩ _
        (wdGrace_step s e h0 hne) (wdShort_step h10 s e h0 h1 hne)
  have hsplit : a ++ WdEv.pwr :: (b ++ .term :: c) = (a ++ .pwr :: b) ++ .term :: c := by simp
  rw [hsplit] at ht hlate ⊢
  have htc := (timely_append ht).2
  have he : wdRun accepts dflt ((a ++ .pwr :: b) ++ .term :: c) = wdFrom accepts (wdSignal (wdRun accepts dflt (a ++ .pwr :: b)) true) c :=
    wdFrom_append _ _ _ _
  have hT : WdTrue (wdRun accepts dflt ((a ++ .pwr :: b) ++ .term :: c)) := wdTrue_from _ (.inr fun _ => Nat.zero_le _)
  rw [he] at hlate hT ⊢
  change Timely accepts L (wdRun accepts dflt (a ++ .pwr :: b)) (.term :: c) at htc
  generalize wdRun accepts dflt (a ++ .pwr :: b) = s at *
  have h0 : WdDoom L s.now (wdSignal s true) := by
    unfold wdSignal
    rw [if_neg hG.pc.2.2]
    have := hSh.past (by rcases hw with h | h | h <;> rw [h] <;> simp)
    refine ⟨hG.on, ⟨Bool.or_true _, by simp [hG.shutdown]⟩, by dsimp only; omega, ?_⟩
    rcases hw with h | h | h
    · exact .inr (.inr (.inl h))
    · exact .inr (.inl ⟨h, by dsimp only; omega⟩)
    · exact .inl ⟨h, by dsimp only; omega⟩
  have hD := wd_inv (accepts := accepts) (I := WdDoom L s.now) (ok := fun _ => True) (fun s e h hp _ _ => wdDoom_step (by omega) s e h hp) h0 htc.2
    (fun _ _ => trivial)
  rcases hT with h | h
  · exact h
  · have := h hD.on.1
    have := hD.last
    omega

/-! ## Where it fails -/

/-- All timeouts are accepted. -/
def anyTimeout : Nat → Bool := fun _ => true

instance (L : Nat) (s : WdSt) : Decidable (Prompt L s) := by unfold Prompt; infer_instance

instance timelyDec (accepts : Nat → Bool) (L : Nat) : ∀ (es : List WdEv) (s : WdSt), Decidable (Timely accepts L s es)
  | [], s => inferInstanceAs (Decidable (Prompt L s))
  | e :: es, s => by
    have := timelyDec accepts L es (wdStep accepts s e)
    exact inferInstanceAs (Decidable (Prompt L s ∧ Timely accepts L (wdStep accepts s e) es))

instance (es : List WdEv) : Decidable (NoSig es) := by unfold NoSig; infer_instance

/-- The program sleeps, is told of the shutdown and of the reboot two seconds later, and the board is reset. -/
example : Timely anyTimeout 1 (wdOpen 60000) ([.act, .act, .act, .tick 1000] ++ .pwr :: ([.act, .act, .act, .act, .act, .tick 1000, .act, .act, .act, .tick 999] ++
      .term :: [.tick 1, .act, .act, .act, .tick 1001])) ∧
    (wdRun anyTimeout 60000 ([.act, .act, .act, .tick 1000] ++ .pwr :: [.act, .act, .act, .act, .act, .tick 1000, .act, .act, .act, .tick 999])).pc = .wset ∧
    (wdRun anyTimeout 60000 ([.act, .act, .act, .tick 1000] ++ .pwr :: ([.act, .act, .act, .act, .act, .tick 1000, .act, .act, .act, .tick 999] ++
      .term :: [.tick 1, .act, .act, .act, .tick 1001]))).reset = true := by decide

/-- Two seconds after SIGPWR, while file systems are unmounted, the board is reset: the timeout is now a second and the sign of life comes
    a millisecond too late. -/
theorem C89_early : Timely anyTimeout 1 (wdOpen 60000)
      ([.act, .act, .act, .tick 1000] ++ .pwr :: [.act, .act, .act, .act, .act, .tick 1000, .act, .act, .act, .tick 1001]) ∧
    (wdRun anyTimeout 60000 ([.act, .act, .act, .tick 1000] ++ .pwr :: [.act, .act, .act, .act, .act, .tick 1000, .act, .act, .act, .tick 1001])).reset = true := by
  decide

/-- A device that does not take a second as its timeout gets no sign of life after SIGPWR at all: the board is reset ten seconds
    later, if file systems are unmounted or not. -/
theorem C89_ten : (wdRun (fun n => decide (10 ≤ n)) 60000 ([.act, .act, .act, .tick 1000] ++
    .pwr :: ([.act, .act, .act, .act, .act, .tick 1000, .act, .act, .act, .tick 1000, .act] ++ [.act, .act, .tick 8001]))).reset = true := by decide

/-- SIGPWR comes just before the program begins to sleep, so it does not wake up before SIGTERM; then it takes both for a request to hand over,
    and stops the timer. -/
theorem C89_race : Timely anyTimeout 1 (wdOpen 60000) ([.act, .act] ++ .pwr :: ([.act, .tick 3000] ++ .term :: [.act, .act, .act, .act, .act, .act, .tick 100000])) ∧
    (wdRun anyTimeout 60000 ([.act, .act] ++ .pwr :: ([.act, .tick 3000] ++ .term :: [.act, .act, .act, .act, .act, .act, .tick 100000]))).reset = false ∧
    (wdRun anyTimeout 60000 ([.act, .act] ++ .pwr :: ([.act, .tick 3000] ++ .term :: [.act, .act, .act, .act, .act, .act, .tick 100000]))).hw.on = false := by
  decide

/-- SIGTERM that comes just before the program begins to sleep is answered fifteen seconds later; init kills it after three, and the
    timer goes on. -/
theorem C89_slow : Timely anyTimeout 0 (wdOpen 60000) ([.act, .act] ++ .term :: [.act, .tick 15000]) ∧
    (wdRun anyTimeout 60000 ([.act, .act] ++ .term :: [.act, .tick 15000])).pc = .top ∧
    (wdRun anyTimeout 60000 ([.act, .act] ++ .term :: [.act, .tick 15000])).hw.on = true := by decide

/-- After SIGPWR the timer runs for good: also a system that is halted, where no program runs any more, is reset. -/
theorem C89_halt {accepts : Nat → Bool} {dflt : Nat} (h30 : accepts 30 = true) (hd : 15000 ≤ dflt) {a b : List WdEv}
    (ht : Timely accepts 3250 (wdOpen dflt) a) (ha : NoSig a) (hb : NoSig b) :
    ∃ n₀, ∀ n, n₀ < n → (wdStep accepts (wdRun accepts dflt (a ++ .pwr :: b)) (.tick n)).reset = true := by
  have h := (wdGrace_run h30 (by omega) (by omega) ht ha hb).on.1
  refine ⟨(wdRun accepts dflt (a ++ .pwr :: b)).hw.last + (wdRun accepts dflt (a ++ .pwr :: b)).hw.timeout, fun n hn => ?_⟩
  unfold wdStep
  dsimp only
  rw [h, decide_eq_true (by omega)]
  simp

theorem C89_full_false : ¬ C89_full := by
  intro h
  have := (((h anyTimeout 60000 rfl rfl rfl (by decide)).2 [.act, .act] [.act, .tick 3000] [.act, .act, .act, .act, .act, .act, .tick 100000]
    (by decide) (by decide) (by decide) (by decide) (by decide)).2 (by decide))
  rw [C89_race.2.1] at this
  cases this

end Verif
