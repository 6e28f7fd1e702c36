import Verif.Statusline
import Verif.Line

/-!
# C108: `initctl status` tells how a process ended
-/

namespace Verif

/-! ## Specification -/

/-- How the process of a service ended last: it never ran, it exited, or a signal ended it -/
inductive IqEnd
  | never
  | exited (n : Nat)
  | signal (s : Nat) (core : Bool)
  deriving DecidableEq, Repr

/-- Exit statuses have 8 bits, signals are those of Linux. -/
def IqEnd.real : IqEnd → Prop
  | .never => True
  | .exited n => n < 256
  | .signal s _ => 0 < s ∧ s ≤ 64

/-- What waitpid(2) says, 0 before it said anything -/
def IqEnd.status : IqEnd → Nat
  | .never => 0
  | .exited n => n * 256
  | .signal s core => s + if core then 128 else 0

/-- Names of exit statuses, from the LSB and sysexits.h -/
def iqExitNames : List (Nat × String) :=
  [(0, "SUCCESS"), (1, "FAILURE"), (2, "INVALIDARGUMENT"), (3, "NOTIMPLEMENTED"), (4, "NOPERMISSION"), (5, "NOTINSTALLED"),
    (6, "NOTCONFIGURED"), (7, "NOTRUNNING"), (64, "USAGE"), (65, "DATAERR"), (66, "NOINPUT"), (67, "NOUSER"), (68, "NOHOST"),
    (69, "UNAVAILABLE"), (70, "SOFTWARE"), (71, "OSERR"), (72, "OSFILE"), (73, "CANTCREAT"), (74, "IOERR"), (75, "TEMPFAIL"),
    (76, "PROTOCOL"), (77, "NOPERM"), (78, "CONFIG")]

/-- Names of signals, from signal(7) -/
def iqSignalNames : List (Nat × String) :=
  [(1, "HUP"), (2, "INT"), (3, "QUIT"), (4, "ILL"), (5, "TRAP"), (6, "ABRT"), (7, "BUS"), (8, "FPE"), (9, "KILL"), (10, "USR1"),
    (11, "SEGV"), (12, "USR2"), (13, "PIPE"), (14, "ALRM"), (15, "TERM"), (16, "STKFLT"), (17, "CHLD"), (18, "CONT"), (19, "STOP"),
    (20, "TSTP"), (21, "TTIN"), (22, "TTOU"), (23, "URG"), (24, "XCPU"), (25, "XFSZ"), (26, "VTALRM"), (27, "PROF"), (28, "WINCH"),
    (29, "IO"), (30, "PWR"), (31, "SYS")]

/-- The name after a slash, if there is one -/
def iqName (names : List (Nat × String)) (n : Nat) : String :=
  match names.find? (fun x => x.1 == n) with
  | some x => "/" ++ x.2
  | none => ""

/-- What is to be said of how it ended -/
def IqEnd.says (manual : Bool) : IqEnd → CStr
  | .never => []
  | .exited n => (" (code=exited, status=" ++ toString n ++ iqName iqExitNames n ++ (if manual then ", manual=yes)" else ")")).toList
  | .signal s _ => (" (code=signal, status=" ++ toString s ++ iqName iqSignalNames s ++ ")").toList

/-- The claim: a service that does not run is shown with the word for its state and how its process ended. -/
def C108_full : Prop := ∀ manual s (e : IqEnd), e.real → s ≠ .running →
  iqStatus true manual s e.status = iqWord s ++ e.says manual

/-! ## Lemmas -/

theorem iqWord_le (s : IqState) : (iqWord s).length ≤ 8 := by
  cases s with
  | halted b => cases b <;> decide +kernel
  | done b => cases b <;> decide +kernel
  | stopping b => cases b <;> decide +kernel
  | _ => decide +kernel

theorem iqExit_le (manual : Bool) (w : Nat) : (iqExit manual w).length ≤ 47 := by
  unfold iqExit
  split
  · exact List.length_take_le ..
  · split
    · exact List.length_take_le ..
    · exact Nat.zero_le _

theorem iqColour_le (s : IqState) (w : Nat) : (iqColour s w).length ≤ 7 := by
  unfold iqColour
  split <;> (try split) <;> (try split) <;> decide +kernel

/-- The buffer is large enough. -/
theorem iqStatus_whole (plain manual : Bool) (s : IqState) (w : Nat) :
    iqStatus plain manual s w = (if plain then [] else iqColour s w) ++ iqWord s ++ (if s = .running then [] else iqExit manual w) ++
      (if plain then [] else "\x1b[0m".toList) := by
  unfold iqStatus
  dsimp only
  apply List.take_of_length_le
  have h1 := iqWord_le s
  have h2 := iqExit_le manual w
  have h3 := iqColour_le s w
  have h4 : "\x1b[0m".toList.length = 4 := by decide +kernel
  simp only [List.length_append]
  split <;> split <;> simp only [List.length_nil, h4] <;> omega

theorem iqExit_all : ((List.range 256).all fun n => iqExit false (n * 256) == (IqEnd.exited n).says false) = true := by
  decide +kernel

theorem iqExit_rest : ((List.range 256).all fun n => [2, 3, 4, 5, 6, 69].contains n ||
    iqExit true (n * 256) == (IqEnd.exited n).says true) = true := by decide +kernel

theorem iqExit_table (n : Nat) (hn : n < 256) (manual : Bool) (hm : manual = true → n ∉ [2, 3, 4, 5, 6, 69]) :
    iqExit manual (n * 256) = (IqEnd.exited n).says manual := by
  cases manual with
  | false => exact eq_of_beq (List.all_eq_true.mp iqExit_all n (List.mem_range.mpr hn))
  | true =>
    have := List.all_eq_true.mp iqExit_rest n (List.mem_range.mpr hn)
    rw [Bool.or_eq_true] at this
    rcases this with h | h
    · exact absurd (List.contains_iff_mem.mp h) (hm rfl)
    · exact eq_of_beq h

theorem iqSignal_table : ∀ s, s < 65 → ∀ manual core, 0 < s →
    iqExit manual (IqEnd.signal s core).status = (IqEnd.signal s core).says manual := by decide +kernel

theorem iqCut_table : ∀ n, n < 256 → n ∈ [2, 3, 4, 5, 6, 69] →
    iqExit true (n * 256) = ((IqEnd.exited n).says true).take 47 ∧ 47 < ((IqEnd.exited n).says true).length := by decide +kernel

theorem iqNumber_table : ∀ n, n < 256 → ∀ manual, atoi ((iqExit manual (n * 256)).drop 22) = n ∧
    (iqExit manual (n * 256)).take 22 = " (code=exited, status=".toList := by decide +kernel

theorem iqNumber_signal : ∀ s, s < 65 → ∀ manual core, 0 < s → atoi ((iqExit manual (IqEnd.signal s core).status).drop 22) = s ∧
    (iqExit manual (IqEnd.signal s core).status).take 22 = " (code=signal, status=".toList := by decide +kernel

/-! ## The theorems -/

/-- All that ran and ended is shown as it ended, but for six exit statuses of those that are started by hand. -/
theorem C108_partial (manual : Bool) (s : IqState) (e : IqEnd) (he : e.real) (hs : s ≠ .running) (hn : e ≠ .never)
    (hm : manual = true → ∀ n, e = .exited n → n ∉ [2, 3, 4, 5, 6, 69]) :
    iqStatus true manual s e.status = iqWord s ++ e.says manual := by
  rw [iqStatus_whole, if_pos rfl, if_neg hs, if_pos rfl, List.nil_append, List.append_nil]
  congr 1
  cases e with
  | never => exact absurd rfl hn
  | exited n => exact iqExit_table n he manual (fun h => hm h n rfl)
  | signal k core => exact iqSignal_table k (Nat.lt_succ_of_le he.2) manual core he.1

/-- A crash, and a task -/
example : iqStatus true false (.halted .crashing) (IqEnd.signal 11 true).status = "crashed (code=signal, status=11/SEGV)".toList ∧
    iqStatus true true (.done false) (IqEnd.exited 1).status = "failed (code=exited, status=1/FAILURE, manual=yes)".toList := by
  decide +kernel

/-- However it is cut, exit statuses and signals can be told from one another, with and without colours. -/
theorem C108_number (plain manual : Bool) (s : IqState) (hs : s ≠ .running) (e f : IqEnd) (he : e.real) (hf : f.real)
    (hen : e ≠ .never) (hfn : f ≠ .never)
    (h : iqStatus plain manual s e.status = iqStatus plain manual s f.status) :
    (∃ n, e = .exited n ∧ f = .exited n) ∨ (∃ k c d, e = .signal k c ∧ f = .signal k d) := by
  have key : iqExit manual e.status = iqExit manual f.status ∨ plain = false := by
    cases plain with
    | false => exact .inr rfl
    | true =>
      left
      rw [iqStatus_whole, iqStatus_whole] at h
      simp only [if_pos, if_neg hs, List.nil_append, List.append_nil] at h
      exact List.append_cancel_left h
  have key : iqExit manual e.status = iqExit manual f.status := by
    rcases key with k | k
    · exact k
    · subst k
      rw [iqStatus_whole, iqStatus_whole] at h
      have h := List.append_cancel_right h
      simp only [if_neg hs, Bool.false_eq_true, if_false] at h
      have drop : ∀ (c : CStr), c ++ iqWord s ++ iqExit manual e.status = c ++ iqWord s ++ iqExit manual f.status →
          iqExit manual e.status = iqExit manual f.status := fun c h => List.append_cancel_left h
      by_cases hd : ∃ b, s = .done b
      · obtain ⟨b, rfl⟩ := hd
        have last : ∀ w, ∃ x y, iqColour (.done b) w = "\x1b[1;3".toList ++ [x, y] := by
          intro w
          unfold iqColour
          dsimp only
          split
          · split
            · exact ⟨'1', 'm', by decide +kernel⟩
            · exact ⟨'2', 'm', by decide +kernel⟩
          · split
            · exact ⟨'1', 'm', by decide +kernel⟩
            · exact ⟨'3', 'm', by decide +kernel⟩
        obtain ⟨x, y, hx⟩ := last e.status
        obtain ⟨x', y', hx'⟩ := last f.status
        rw [hx, hx'] at h
        have := congrArg (List.drop (7 + (iqWord (.done b)).length)) h
        have len : ∀ x y, ("\x1b[1;3".toList ++ [x, y] ++ iqWord (.done b)).length = 7 + (iqWord (.done b)).length := by
          intro x y
          simp only [List.length_append, List.length_cons, List.length_nil]
          rw [show "\x1b[1;3".toList.length = 5 from by decide +kernel]
        rw [← len x y, List.drop_left, len x y, ← len x' y', List.drop_left] at this
        exact this
      · have same : iqColour s e.status = iqColour s f.status := by
          cases s with
          | done b => exact absurd ⟨b, rfl⟩ hd
          | _ => rfl
        rw [same] at h
        exact drop _ h
  have dis : " (code=exited, status=".toList ≠ " (code=signal, status=".toList := by decide +kernel
  cases e with
  | never => exact absurd rfl hen
  | exited n =>
    cases f with
    | never => exact absurd rfl hfn
    | exited m =>
      left
      have h1 := (iqNumber_table n he manual).1
      have h2 := (iqNumber_table m hf manual).1
      have k : iqExit manual (n * 256) = iqExit manual (m * 256) := key
      rw [k, h2] at h1
      have : m = n := by omega
      exact ⟨n, rfl, by rw [this]⟩
    | signal k c =>
      exfalso
      have h1 := (iqNumber_table n he manual).2
      have h2 := (iqNumber_signal k (Nat.lt_succ_of_le hf.2) manual c hf.1).2
      have q : iqExit manual (n * 256) = iqExit manual (IqEnd.signal k c).status := key
      rw [q, h2] at h1
      exact dis h1.symm
  | signal k c =>
    cases f with
    | never => exact absurd rfl hfn
    | exited m =>
      exfalso
      have h1 := (iqNumber_table m hf manual).2
      have h2 := (iqNumber_signal k (Nat.lt_succ_of_le he.2) manual c he.1).2
      have q : iqExit manual (IqEnd.signal k c).status = iqExit manual (m * 256) := key
      rw [← q, h2] at h1
      exact dis h1.symm
    | signal k' d =>
      right
      have h1 := (iqNumber_signal k (Nat.lt_succ_of_le he.2) manual c he.1).1
      have h2 := (iqNumber_signal k' (Nat.lt_succ_of_le hf.2) manual d hf.1).1
      rw [key, h2] at h1
      have : k' = k := by omega
      exact ⟨k, c, d, rfl, by rw [this]⟩

/-- Two that are cut -/
example : iqStatus false true (.done false) (IqEnd.exited 2).status ≠ iqStatus false true (.done false) (IqEnd.exited 3).status := by
  decide +kernel

/-- For those started by hand that exit with one of six statuses the text ends too early. -/
theorem C108_cut (s : IqState) (hs : s ≠ .running) (n : Nat) (hn : n ∈ [2, 3, 4, 5, 6, 69]) :
    ∃ lost, lost ≠ [] ∧ iqStatus true true s (IqEnd.exited n).status ++ lost = iqWord s ++ (IqEnd.exited n).says true := by
  have h256 : n < 256 := by
    simp only [List.mem_cons, List.not_mem_nil, or_false] at hn
    omega
  obtain ⟨h1, h2⟩ := iqCut_table n h256 hn
  refine ⟨((IqEnd.exited n).says true).drop 47, fun e => ?_, ?_⟩
  · have := List.drop_eq_nil_iff.mp e
    omega
  · rw [iqStatus_whole, if_pos rfl, if_neg hs, if_pos rfl, List.nil_append, List.append_nil]
    show iqWord s ++ iqExit true (n * 256) ++ _ = _
    rw [h1, List.append_assoc, List.take_append_drop]

/-- One of them -/
example : iqStatus true true (.done false) (IqEnd.exited 2).status = "failed (code=exited, status=2/INVALIDARGUMENT, manual".toList := by
  decide +kernel

/-- A service that never ran is shown like one that exited with 0. -/
theorem C108_never (plain manual : Bool) (s : IqState) :
    iqStatus plain manual s IqEnd.never.status = iqStatus plain manual s (IqEnd.exited 0).status := rfl

/-- One that waits for its conditions -/
example : iqStatus true false .waiting IqEnd.never.status = "waiting (code=exited, status=0/SUCCESS)".toList := by decide +kernel

/-- While it runs nothing is said of how it ended before. -/
theorem C108_running (manual : Bool) (w : Nat) : iqStatus true manual .running w = "running".toList := by
  rw [iqStatus_whole]; rfl

/-- It crashed before. -/
example : iqStatus true false .running (IqEnd.signal 11 false).status = "running".toList := by decide +kernel

/-- Colours are around the same text, and red is for run/tasks that failed, alone. -/
theorem C108_colour (manual : Bool) (s : IqState) (w : Nat) :
    iqStatus false manual s w = iqColour s w ++ iqStatus true manual s w ++ "\x1b[0m".toList ∧
    (iqColour s w = "\x1b[1;31m".toList ↔ (∃ b, s = .done b) ∧ (w % 128 = 0 ∧ w / 256 % 256 ≠ 0 ∨ 0 < w % 128 ∧ w % 128 < 127)) := by
  refine ⟨?_, ?_⟩
  · rw [iqStatus_whole, iqStatus_whole]
    simp only [if_pos, Bool.false_eq_true, if_false, List.nil_append, List.append_nil, List.append_assoc]
  · unfold iqColour
    have d1 : "\x1b[1m".toList ≠ "\x1b[1;31m".toList := by decide +kernel
    have d2 : "\x1b[1;32m".toList ≠ "\x1b[1;31m".toList := by decide +kernel
    have d3 : "\x1b[1;33m".toList ≠ "\x1b[1;31m".toList := by decide +kernel
    cases s with
    | done b =>
      dsimp only
      unfold ptExited ptExitStatus ptSignaled
      by_cases h1 : w % 128 = 0
      · by_cases h2 : w / 256 % 256 = 0
        · simp [h1, h2]
        · simp [h1, h2]
      · by_cases h2 : w % 128 < 127
        · have : 0 < w % 128 := by omega
          simp [h1, h2, this]
        · simp [h1, h2]
    | halted b => exact ⟨fun h => absurd h d1, fun h => by obtain ⟨⟨b, hb⟩, -⟩ := h; cases hb⟩
    | running => exact ⟨fun h => absurd h d2, fun h => by obtain ⟨⟨b, hb⟩, -⟩ := h; cases hb⟩
    | _ => exact ⟨fun h => absurd h d3, fun h => by obtain ⟨⟨b, hb⟩, -⟩ := h; cases hb⟩

/-- A task that failed -/
example : iqColour (.done false) (IqEnd.exited 1).status = "\x1b[1;31m".toList := by decide +kernel

/-- In the list of all services the word is never cut, and always takes 8 columns. -/
theorem C108_list (s : IqState) : (iqBrief s).length = 8 ∧ ∃ k, iqBrief s = iqWord s ++ List.replicate k ' ' := by
  have h := iqWord_le s
  unfold iqBrief
  rw [List.take_of_length_le h]
  refine ⟨?_, _, rfl⟩
  rw [List.length_append, List.length_replicate]
  omega

/-- A long one and a short one -/
example : iqBrief .teardown = "teardown".toList ∧ iqBrief .dead = "dead    ".toList := by decide +kernel

/-- The claim does not hold: a service that never ran -/
theorem C108_full_false : ¬ C108_full := by
  intro h
  have := h false .waiting .never trivial (by decide)
  revert this
  decide +kernel

end Verif
