import Verif.Rtc

/-!
# C83: the clock over a reboot
-/

namespace Verif

/-! ## Specification -/

/-- Nothing is saved and nobody boots. -/
def Passing : ClockEv → Prop
  | .on _ | .off _ | .set _ => True
  | .save | .boot _ => False

/-- The time that passes -/
def passed : List ClockEv → Int
  | [] => 0
  | .on n :: es | .off n :: es => n + passed es
  | _ :: es => passed es

/-- Dates that are valid are read as they were written, up to some year, on one line of the buffer. -/
structure ClockEnv.Dates (E : ClockEnv) (last : Int) : Prop where
  read : ∀ t, E.least ≤ t → t ≤ last → E.read (E.write t) = some t
  line : ∀ t, E.least ≤ t → t ≤ last → '\n' ∉ E.write t ∧ (E.write t).length < 31

/-- Full statement of C83 (false of the code, see below): after a boot the clock is not earlier than when it was last saved,
    with a clock on the board or without. -/
def C83_full : Prop :=
  ∀ (E : ClockEnv) (s : ClockSt) (es : List ClockEv) (k last : Int), E.rescue = false → E.useFile = true → 0 ≤ E.least →
    E.Dates last → E.least ≤ s.now → s.now ≤ last → (∀ t, E.least ≤ t → E.takes t = true) → (∀ e ∈ es, Passing e) →
    s.now ≤ ((es ++ [ClockEv.boot k]).foldl (clockStep E) (clockStep E s .save)).now

/-! ## Proof -/

theorem timeSet_valid {E : ClockEnv} {t : Int} (h0 : 0 ≤ E.least) (h : E.least ≤ t) (s : ClockSt) :
    timeSet E (some t) s = (0, { s with now := t }) := by
  unfold timeSet
  simp only [Option.getD_some]
  rw [if_neg (by omega)]

theorem timeSet_least {E : ClockEnv} (h0 : 0 ≤ E.least) (s : ClockSt) : timeSet E none s = (0, { s with now := E.least }) := by
  unfold timeSet
  simp only [Option.getD_none]
  rw [if_neg (by omega)]

theorem fileRestore_eq {E : ClockEnv} (h0 : 0 ≤ E.least) (s : ClockSt) : fileRestore E s = { s with now := E.least } := by
  unfold fileRestore
  rw [timeSet_least h0]
  simp

theorem pass_rtc {E : ClockEnv} : ∀ (es : List ClockEv) (s : ClockSt) (t : Int), (∀ e ∈ es, Passing e) →
    s.rtc = some { time := some t } → (es.foldl (clockStep E) s).rtc = some { time := some (t + passed es) } := by
  intro es
  induction es with
  | nil => intro s t _ h; simpa [passed] using h
  | cons e es ih =>
    intro s t hp h
    rw [List.foldl_cons]
    have hp' : ∀ e ∈ es, Passing e := fun x hx => hp x (by simp [hx])
    cases e with
    | on n =>
      rw [ih _ (t + n) hp' (by simp [clockStep, h, rtcTick])]
      simp [passed, Int.add_assoc]
    | off n =>
      rw [ih _ (t + n) hp' (by simp [clockStep, h, rtcTick])]
      simp [passed, Int.add_assoc]
    | set x => exact ih _ t hp' h
    | save => exact (hp .save (by simp)).elim
    | boot x => exact (hp (.boot x) (by simp)).elim

theorem passed_nonneg : ∀ es, 0 ≤ passed es
  | [] => Int.le_refl 0
  | .on _ :: es | .off _ :: es => by have := passed_nonneg es; unfold passed; omega
  | .set _ :: es | .save :: es | .boot _ :: es => passed_nonneg es

theorem fileSave_same (E : ClockEnv) (s : ClockSt) : (fileSave E s).rtc = s.rtc ∧ (fileSave E s).now = s.now := by
  unfold fileSave
  repeat' split
  all_goals exact ⟨rfl, rfl⟩

/-! ## Theorems -/

/-- With a clock on the board the time after a boot is that of the last save, and what has passed since with the system on or
    off, whatever the clock of the system was set to meanwhile. -/
theorem C83_board_partial (E : ClockEnv) (s : ClockSt) (d : RtcDev) (es : List ClockEv) (k : Int) (hr : E.rescue = false)
    (h0 : 0 ≤ E.least) (hv : E.least ≤ s.now) (ht : E.takes s.now = true) (hd : s.rtc = some d) (hp : ∀ e ∈ es, Passing e) :
    ((es ++ [ClockEv.boot k]).foldl (clockStep E) (clockStep E s .save)).now = s.now + passed es := by
  have h1 : (clockStep E s .save).rtc = some { time := some s.now } := by
    unfold clockStep clockSave
    dsimp only
    rw [(fileSave_same E _).1]
    unfold rtcSave timeGet
    rw [hr, hd, if_neg (by decide)]
    dsimp only
    rw [if_neg (by omega)]
    dsimp only
    rw [if_pos ht]
  have h2 := pass_rtc (E := E) es _ s.now hp h1
  rw [List.foldl_append, List.foldl_cons, List.foldl_nil]
  generalize hq : es.foldl (clockStep E) (clockStep E s .save) = q at h2 ⊢
  unfold clockStep rtcRestore
  dsimp only
  rw [hr, if_neg (by decide), h2]
  dsimp only
  have := passed_nonneg es
  rw [timeSet_valid h0 (by omega)]
  simp

/-- After a boot the clock is never earlier than the earliest valid time, in whatever state clock, device and file are. -/
theorem C83_sane (E : ClockEnv) (s : ClockSt) (k : Int) (hr : E.rescue = false) (h0 : 0 ≤ E.least) :
    E.least ≤ (clockStep E s (.boot k)).now := by
  unfold clockStep rtcRestore
  dsimp only
  rw [hr, if_neg (by decide)]
  split
  · rw [fileRestore_eq h0]; exact Int.le_refl _
  · split
    · rw [fileRestore_eq h0]; exact Int.le_refl _
    · rename_i t _
      by_cases h : E.least ≤ t
      · rw [timeSet_valid h0 h]; simpa using h
      · have : timeSet E (some t) { s with now := k } = (2, { s with now := k }) := by
          unfold timeSet
          simp only [Option.getD_some]
          rw [if_pos (by omega)]
        rw [this, if_pos (show (2 : Nat) ≠ 0 by decide), fileRestore_eq h0]
        exact Int.le_refl _

/-- The clock on the board is never set to a time that is not valid. -/
theorem C83_saved (E : ClockEnv) (s : ClockSt) (d : RtcDev) (t : Int) (h : (clockStep E s .save).rtc = some d)
    (ht : d.time = some t) : E.least ≤ t ∨ s.rtc = some d := by
  unfold clockStep clockSave at h
  dsimp only at h
  rw [(fileSave_same E _).1] at h
  unfold rtcSave timeGet at h
  split at h
  · exact Or.inr h
  · split at h
    · exact Or.inr h
    · by_cases hl : s.now < E.least
      · rw [if_pos hl] at h; exact Or.inr h
      · rw [if_neg hl] at h
        dsimp only at h
        split at h
        · injection h with h
          rw [← h] at ht
          injection ht with ht
          left; omega
        · exact Or.inr h

/-- What is saved in the file is what could be read from it. -/
theorem C83_file_partial (E : ClockEnv) (s : ClockSt) (last : Int) (hD : E.Dates last) (hu : E.useFile = true)
    (hv : E.least ≤ s.now) (hl : s.now ≤ last) : fileRead E (clockStep E s .save) = (0, some s.now) := by
  have hn : (rtcSave E s).now = s.now := by
    unfold rtcSave
    repeat' split
    all_goals rfl
  obtain ⟨l1, l2⟩ := hD.line s.now hv hl
  have hf : (clockStep E s .save).file = some (E.write s.now ++ ['\n']) := by
    unfold clockStep clockSave fileSave timeGet
    dsimp only
    rw [hu, if_pos rfl, hn, if_neg (by omega)]
  unfold fileRead
  rw [hf]
  have hne : E.write s.now ++ ['\n'] ≠ [] := by simp
  split
  · rename_i e; cases e
  · rename_i e; injection e with e; exact absurd e hne
  · rename_i text e
    injection e with e
    rw [← e, List.take_of_length_le (by simp; omega)]
    have : (E.write s.now ++ ['\n']).takeWhile (fun c => decide (c ≠ '\n')) = E.write s.now := by
      have hall : ∀ c ∈ E.write s.now, (fun c => decide (c ≠ '\n')) c = true :=
        fun c hc => decide_eq_true (fun e : c = '\n' => l1 (e ▸ hc))
      rw [List.takeWhile_append_of_pos hall]
      simp
    rw [this, hD.read s.now hv hl]

/-- But it is never used: without a clock on the board the time after a boot is the earliest valid one, whatever was saved. -/
theorem C83_never (E : ClockEnv) (s : ClockSt) (k : Int) (hr : E.rescue = false) (h0 : 0 ≤ E.least) (hd : s.rtc = none) :
    (clockStep E s (.boot k)).now = E.least := by
  unfold clockStep rtcRestore
  dsimp only
  rw [hr, if_neg (by decide), hd]
  dsimp only
  rw [fileRestore_eq h0]

/-- And what was saved is lost when the clock is not valid at the next save. -/
theorem C83_lost (E : ClockEnv) (s : ClockSt) (hu : E.useFile = true) (hv : s.now < E.least) :
    (clockStep E s .save).file = some [] := by
  have hn : (rtcSave E s).now = s.now := by
    unfold rtcSave
    repeat' split
    all_goals rfl
  unfold clockStep clockSave fileSave timeGet
  dsimp only
  rw [hu, if_pos rfl, hn, if_pos hv]

/-- Saving or restoring the clock leaves `TZ` as it is, if it has from 1 to 127 characters or is not set. -/
theorem C83_zone_partial (tz : Option CStr) (h : ∀ t, tz = some t → t ≠ [] ∧ t.length ≤ 127) : tzKept tz = tz := by
  unfold tzKept
  cases tz with
  | none => rfl
  | some t =>
    obtain ⟨h1, h2⟩ := h t rfl
    have : strlcpy 128 t = t := by
      unfold strlcpy
      exact List.take_of_length_le (by omega)
    simp only [this, if_neg h1]

/-- An empty one, which means UTC, is unset, which means the time zone of the system. -/
theorem C83_zone : tzKept (some []) = none := rfl

/-- A calendar of three days -/
def threeDays : ClockEnv :=
  { least := 10, useFile := true,
    write := fun t => if t = 10 then "10".toList else if t = 11 then "11".toList else "12".toList,
    read := fun c => if c = "10".toList then some 10 else if c = "11".toList then some 11 else
      if c = "12".toList then some 12 else none,
    takes := fun _ => true, rescue := false }

theorem threeDays_dates : threeDays.Dates 12 := by
  have key : ∀ t : Int, threeDays.least ≤ t → t ≤ 12 → t = 10 ∨ t = 11 ∨ t = 12 := by
    intro t h1 h2
    have h1 : 10 ≤ t := h1
    omega
  constructor
  · intro t h1 h2
    rcases key t h1 h2 with rfl | rfl | rfl <;> decide
  · intro t h1 h2
    rcases key t h1 h2 with rfl | rfl | rfl <;> decide

theorem C83_full_false : ¬ C83_full := by
  intro h
  have := h threeDays { now := 12, rtc := none, file := none } [.off 5] 0 12 rfl rfl (by decide) threeDays_dates (by decide) (by decide)
    (fun _ _ => rfl) (by simp [Passing])
  exact absurd this (by decide)

/-- Hypotheses of `C83_board_partial` that can be met. -/
example : threeDays.rescue = false ∧ 0 ≤ threeDays.least ∧ threeDays.least ≤ 12 ∧
    ([ClockEv.on 5, .set 3, .off 100, .boot 0].foldl (clockStep threeDays)
      (clockStep threeDays { now := 12, rtc := some { time := none }, file := none } .save)).now = 117 ∧
    ∀ e ∈ [ClockEv.on 5, .set 3, .off 100], Passing e := by
  refine ⟨rfl, by decide, by decide, by decide, by simp [Passing]⟩

/-- Hypotheses of `C83_file_partial`, `C83_never` and `C83_lost` that can be met. -/
example : fileRead threeDays (clockStep threeDays { now := 11, rtc := none, file := none } .save) = (0, some 11) ∧
    (clockStep threeDays { now := 11, rtc := none, file := some "11\n".toList } (.boot 0)).now = 10 ∧
    (clockStep threeDays { now := 3, rtc := none, file := some "11\n".toList } .save).file = some [] := by decide

/-- Hypotheses of `C83_saved` that can be met. -/
example : (clockStep threeDays { now := 11, rtc := some { time := none }, file := none } .save).rtc = some { time := some 11 } := by
  decide

end Verif
