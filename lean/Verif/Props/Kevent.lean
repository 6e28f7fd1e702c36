import Verif.Kevent
import Verif.UtilLemmas

/-!
# C68: the condition for mains power
-/

namespace Verif

/-! ## Specification -/

/-- The kinds of power supplies the kernel knows, and whether they are mains (anything but a battery) -/
def supplyKinds : List (CStr × Bool) :=
  [("Unknown", false), ("Battery", false), ("UPS", false), ("Mains", true), ("USB", true), ("USB_DCP", true),
   ("USB_CDP", true), ("USB_ACA", true), ("USB_C", true), ("USB_PD", true), ("USB_PD_DRP", true), ("BrickID", true),
   ("Wireless", true)].map fun x => (x.1.toList, x.2)

/-- A power supply.  Its attribute `online` is 0, 1 or 2 (programmable), if it has any. -/
structure Supply where
  type : CStr
  mains : Bool
  online : Option (Fin 3)
  deriving DecidableEq, Repr

/-- It delivers power from the mains. -/
def Supply.on (s : Supply) : Bool := s.mains && match s.online with | none => false | some v => decide (v ≠ 0)

/-- The condition as documented: a mains supply is on line, or there is none at all. -/
def acPower (w : List Supply) : Bool := w.any Supply.on || !w.any Supply.mains

/-- The value of the attribute -/
def onlineText (v : Fin 3) : CStr := [Char.ofNat (48 + v.val)]

/-- The contents of the files below /sys/class/power_supply -/
def sysFiles (s : Supply) : Option CStr × Option CStr :=
  (some (s.type ++ ['\n']), s.online.map fun v => onlineText v ++ ['\n'])

/-- Each string with its zero -/
def nulText (lines : List CStr) : List Char := lines.flatMap fun l => l ++ [Char.ofNat 0]

/-- A string in a message that tells nothing about kind and state -/
def PlainLine (l : CStr) : Prop :=
  (∀ c ∈ l, c.toNat ≠ 0) ∧ ¬ "POWER_SUPPLY_TYPE=".toList <+: l ∧ ¬ "POWER_SUPPLY_ONLINE=".toList <+: l

/-- What the kernel sends when a power supply has changed -/
def ChangeMsg (s : Supply) (msg : List Char) : Prop :=
  ∃ path pre mid post, PlainLine ("change@".toList ++ path) ∧ "power_supply".toList <:+: path ∧
    (∀ l ∈ pre, PlainLine l) ∧ (∀ l ∈ mid, PlainLine l) ∧ (∀ l ∈ post, PlainLine l) ∧
    msg = nulText (("change@".toList ++ path) :: (pre ++ ["POWER_SUPPLY_TYPE=".toList ++ s.type] ++ mid ++
      (s.online.map fun v => "POWER_SUPPLY_ONLINE=".toList ++ onlineText v).toList ++ post))

/-- Any other message: it is not about a change, or not about power supplies. -/
def OtherMsg (msg : List Char) : Prop :=
  ∃ head rest, (∀ c ∈ head, c.toNat ≠ 0) ∧ msg = head ++ Char.ofNat 0 :: rest ∧
    (¬ "change@".toList <+: head ∨ ¬ "power_supply".toList <:+: head)

/-- What can happen, and the message the kernel sends.  `fair`: nothing is added or removed, each message about a mains
    supply is about one that went on or off line, and none fills the buffer. -/
inductive PwrStep (fair : Bool) : List Supply → List Char → List Supply → Prop
  | change {w i s o msg} : w[i]? = some s → ChangeMsg { s with online := o } msg →
      (fair = true → msg.length < 1024 ∧ (s.mains = true → o ≠ none ∧ Supply.on { s with online := o } ≠ s.on)) →
      PwrStep fair w msg (w.set i { s with online := o })
  | other {w msg} : OtherMsg msg → (fair = true → msg.length < 1024) → PwrStep fair w msg w
  | add {w s msg} : OtherMsg msg → fair = false → PwrStep fair w msg (w ++ [s])
  | remove {w i msg} : OtherMsg msg → fair = false → PwrStep fair w msg (w.eraseIdx i)

/-- Any number of these -/
inductive PwrTrace (fair : Bool) : List Supply → List (List Char) → List Supply → Prop
  | nil {w} : PwrTrace fair w [] w
  | cons {w msg w' msgs w''} : PwrStep fair w msg w' → PwrTrace fair w' msgs w'' → PwrTrace fair w (msg :: msgs) w''

/-- Supplies are of kinds the kernel knows. -/
def KnownKinds (w : List Supply) : Prop := ∀ s ∈ w, (s.type, s.mains) ∈ supplyKinds

/-- The daemon, from its start through some messages -/
def kevRun (before : Bool) (w : List Supply) (msgs : List (List Char)) : Option Kev :=
  msgs.foldl (fun k m => k.bind fun k => kevMsg k m) (some (kevInit before (w.map sysFiles)))

/-- The full claim of C68 -/
def C68_full : Prop := ∀ before w msgs w', KnownKinds w → KnownKinds w' → PwrTrace false w msgs w' →
  ∃ k, kevRun before w msgs = some k ∧ k.cond = acPower w'

/-! ## Lemmas -/

theorem nulStrings_ne : ∀ s : List Char, nulStrings s ≠ [] := by
  intro s
  cases s with
  | nil => simp [nulStrings]
  | cons c cs =>
    unfold nulStrings
    split
    · simp
    · split <;> simp

theorem nulStrings_line {l : CStr} (h : ∀ c ∈ l, c.toNat ≠ 0) (rest : List Char) :
    nulStrings (l ++ Char.ofNat 0 :: rest) = l :: nulStrings rest := by
  induction l with
  | nil => show nulStrings (Char.ofNat 0 :: rest) = _; rw [nulStrings]; rfl
  | cons c l ih =>
    show nulStrings (c :: (l ++ Char.ofNat 0 :: rest)) = _
    rw [nulStrings, if_neg (h c List.mem_cons_self), ih fun x hx => h x (List.mem_cons_of_mem _ hx)]

theorem nulStrings_text {ls : List CStr} (h : ∀ l ∈ ls, ∀ c ∈ l, c.toNat ≠ 0) : nulStrings (nulText ls) = ls ++ [[]] := by
  induction ls with
  | nil => rfl
  | cons l ls ih =>
    show nulStrings ((l ++ [Char.ofNat 0]) ++ nulText ls) = _
    rw [List.append_assoc]
    show nulStrings (l ++ Char.ofNat 0 :: nulText ls) = _
    rw [nulStrings_line (h l List.mem_cons_self), ih fun x hx => h x (List.mem_cons_of_mem _ hx)]
    rfl

theorem not_prefix {p l : CStr} (h : ¬ p <+: l) : p.isPrefixOf l = false := by
  rw [Bool.eq_false_iff]; exact fun e => h (List.isPrefixOf_iff_prefix.mp e)

theorem kevLine_plain {l : CStr} (h : PlainLine l) (r : Kev × Bool) : kevLine r l = r := by
  unfold kevLine
  rw [not_prefix h.2.1, not_prefix h.2.2]
  split
  · rfl
  · rw [if_neg (by decide), if_neg (fun h => nomatch h.1)]

theorem kevLines_plain {ls : List CStr} (h : ∀ l ∈ ls, PlainLine l) (r : Kev × Bool) : ls.foldl kevLine r = r := by
  induction ls with
  | nil => rfl
  | cons l ls ih =>
    rw [List.foldl_cons, kevLine_plain (h l List.mem_cons_self)]
    exact ih fun x hx => h x (List.mem_cons_of_mem _ hx)

/-- The kinds are told apart. -/
theorem isAc_kind : ∀ x ∈ supplyKinds, isAc x.1 = x.2 := by decide +kernel

theorem kind_text : ∀ x ∈ supplyKinds, (∀ c ∈ x.1, c.toNat ≠ 0) ∧ (∀ c ∈ x.1, c ≠ '\n') ∧ x.1 ≠ [] ∧
    isAc (x.1.take 9) = isAc x.1 := by decide +kernel

theorem online_text (v : Fin 3) : checkOnline (onlineText v) = decide (v ≠ 0) ∧ (∀ c ∈ onlineText v, c.toNat ≠ 0) ∧
    (∀ c ∈ onlineText v, c ≠ '\n') := by
  revert v; decide +kernel

/-- The effect of one message about a mains supply -/
def kevTell (k : Kev) (on : Bool) : Kev :=
  if on then { online := k.online + 1, cond := if k.online = 0 then true else k.cond }
  else { online := k.online - 1, cond := if k.online - 1 = 0 then false else k.cond }

theorem line_type {t : CStr} (r : Kev × Bool) : kevLine r ("POWER_SUPPLY_TYPE=".toList ++ t) = (r.1, isAc t) := by
  unfold kevLine
  have h1 : "DEVPATH=".toList.isPrefixOf ("POWER_SUPPLY_TYPE=".toList ++ t) = false := rfl
  have h2 : "POWER_SUPPLY_TYPE=".toList.isPrefixOf ("POWER_SUPPLY_TYPE=".toList ++ t) = true :=
    List.isPrefixOf_iff_prefix.mpr (List.prefix_append _ _)
  rw [h1, h2, if_neg (by decide), if_pos rfl]
  rfl

theorem line_online {t : CStr} (r : Kev × Bool) : kevLine r ("POWER_SUPPLY_ONLINE=".toList ++ t) =
    if r.2 then (kevTell r.1 (checkOnline t), r.2) else r := by
  unfold kevLine
  have h1 : "DEVPATH=".toList.isPrefixOf ("POWER_SUPPLY_ONLINE=".toList ++ t) = false := rfl
  have h2 : "POWER_SUPPLY_TYPE=".toList.isPrefixOf ("POWER_SUPPLY_ONLINE=".toList ++ t) = false := rfl
  have h3 : "POWER_SUPPLY_ONLINE=".toList.isPrefixOf ("POWER_SUPPLY_ONLINE=".toList ++ t) = true :=
    List.isPrefixOf_iff_prefix.mpr (List.prefix_append _ _)
  have h4 : ("POWER_SUPPLY_ONLINE=".toList ++ t).drop 20 = t := rfl
  rw [h1, h2, h3, h4, if_neg (by decide), if_neg (by decide)]
  cases hr : r.2 with
  | false => rw [if_neg (fun h => nomatch h.2), if_neg (by decide)]
  | true =>
    rw [if_pos ⟨rfl, rfl⟩, if_pos rfl]
    unfold kevTell
    split <;> rfl

/-- What the daemon makes of the message about a change -/
theorem kevMsg_change {k : Kev} {s : Supply} {msg : List Char} (hs : (s.type, s.mains) ∈ supplyKinds) (h : ChangeMsg s msg)
    (hl : msg.length < 1024) : kevMsg k msg = some (if s.mains = true ∧ s.online ≠ none then kevTell k s.on else k) := by
  obtain ⟨path, pre, mid, post, hp, hps, h1, h2, h3, e⟩ := h
  have hk := isAc_kind _ hs
  have ht := kind_text _ hs
  have hn : ∀ l ∈ ("change@".toList ++ path) :: (pre ++ ["POWER_SUPPLY_TYPE=".toList ++ s.type] ++ mid ++
      (s.online.map fun v => "POWER_SUPPLY_ONLINE=".toList ++ onlineText v).toList ++ post), ∀ c ∈ l, c.toNat ≠ 0 := by
    intro l hl
    rcases List.mem_cons.mp hl with rfl | hl
    · exact hp.1
    · simp only [List.mem_append, List.mem_singleton] at hl
      rcases hl with (((hl | rfl) | hl) | hl) | hl
      · exact (h1 l hl).1
      · intro c hc
        rcases List.mem_append.mp hc with hc' | hc
        · clear hc; revert c; decide
        · exact ht.1 c hc
      · exact (h2 l hl).1
      · rw [Option.mem_toList, Option.map_eq_some_iff] at hl
        obtain ⟨v, -, rfl⟩ := hl
        intro c hc
        rcases List.mem_append.mp hc with hc' | hc
        · clear hc; revert c; decide
        · exact (online_text v).2.1 c hc
      · exact (h3 l hl).1
  have htake : msg.take 1024 = msg := List.take_of_length_le (Nat.le_of_lt hl)
  unfold kevMsg
  dsimp only
  rw [htake, if_neg (Nat.ne_of_lt hl), e, nulStrings_text hn]
  rw [List.cons_append, List.headD_cons, List.isPrefixOf_iff_prefix.mpr (List.prefix_append _ _), if_neg (by decide)]
  rw [if_neg]
  · rw [List.foldl_cons, kevLine_plain hp]
    simp only [List.foldl_append, kevLines_plain h1, kevLines_plain h2, kevLines_plain h3, List.foldl_cons, List.foldl_nil,
      line_type]
    have hnil : ∀ r, kevLine r [] = r := fun r => kevLine_plain ⟨by simp, by decide, by decide⟩ r
    rw [hnil, hk]
    cases ho : s.online with
    | none => simp
    | some v =>
      simp only [Option.map_some, Option.toList_some, List.foldl_cons, List.foldl_nil, line_online, (online_text v).1]
      cases hm : s.mains with
      | false => simp
      | true =>
        have : s.on = decide (v ≠ 0) := by unfold Supply.on; rw [hm, ho]; rfl
        simp [this]
  · intro hnone
    rw [Option.isNone_iff_eq_none] at hnone
    obtain ⟨a, b, hab⟩ := hps
    exact strstr_none hnone ("change@".toList ++ a) b (by rw [← hab]; simp only [List.append_assoc])

theorem kevMsg_other {k : Kev} {msg : List Char} (h : OtherMsg msg) (hl : msg.length < 1024) : kevMsg k msg = some k := by
  obtain ⟨head, rest, hn, e, h⟩ := h
  have htake : msg.take 1024 = msg := List.take_of_length_le (Nat.le_of_lt hl)
  unfold kevMsg
  dsimp only
  rw [htake, if_neg (Nat.ne_of_lt hl), e, nulStrings_line hn, List.headD_cons]
  rcases h with h | h
  · rw [not_prefix h, if_pos rfl]
  · split
    · rfl
    · rw [if_pos]
      rw [Option.isNone_iff_eq_none]
      cases hs : strstr "power_supply".toList head with
      | none => rfl
      | some r => exact absurd ⟨r.1, r.2, (strstr_some hs).symm⟩ h

/-- The number of mains supplies that are on -/
def numOn (w : List Supply) : Nat := (w.filter Supply.on).length

/-- The daemon knows how many supplies are on, and has set the condition accordingly. -/
def KevOk (w : List Supply) (k : Kev) : Prop := k.online = numOn w ∧ k.cond = acPower w

theorem any_on (w : List Supply) : w.any Supply.on = decide (numOn w ≠ 0) := by
  unfold numOn
  rw [Bool.eq_iff_iff, decide_eq_true_iff, List.any_eq_true]
  constructor
  · rintro ⟨s, hs, h⟩ e
    have := List.length_eq_zero_iff.mp e
    have hm : s ∈ w.filter Supply.on := List.mem_filter.mpr ⟨hs, h⟩
    rw [this] at hm
    cases hm
  · intro h
    cases hf : w.filter Supply.on with
    | nil => rw [hf] at h; exact absurd rfl h
    | cons s l =>
      have hm : s ∈ w.filter Supply.on := by rw [hf]; exact List.mem_cons_self
      exact ⟨s, (List.mem_filter.mp hm).1, (List.mem_filter.mp hm).2⟩

theorem sysLine_text {t : CStr} (h : ∀ c ∈ t, c ≠ '\n') : sysLine (some (t ++ ['\n'])) = some (t.take 9) := by
  have : (t ++ ['\n']).takeWhile (fun c => decide (c ≠ '\n')) = t := by
    induction t with
    | nil => rfl
    | cons c t ih =>
      rw [List.cons_append, List.takeWhile_cons, if_pos (decide_eq_true (h c List.mem_cons_self)),
        ih fun x hx => h x (List.mem_cons_of_mem _ hx)]
  unfold sysLine
  dsimp only
  rw [this, if_neg (by simp)]

theorem kevScan_files {w : List Supply} (h : KnownKinds w) :
    kevScan (w.map sysFiles) = ((w.filter (·.mains)).length, numOn w) := by
  induction w with
  | nil => rfl
  | cons s w ih =>
    have hs := h s List.mem_cons_self
    have ht := kind_text _ hs
    have hk := isAc_kind _ hs
    have ih' := ih fun x hx => h x (List.mem_cons_of_mem _ hx)
    show kevScan ((some (s.type ++ ['\n']), s.online.map fun v => onlineText v ++ ['\n']) :: w.map sysFiles) = _
    rw [kevScan]
    rw [ih', sysLine_text ht.2.1]
    have hk' : isAc (s.type.take 9) = s.mains := ht.2.2.2.trans hk
    unfold numOn
    dsimp only
    rw [hk', List.filter_cons, List.filter_cons]
    cases hm : s.mains with
    | false =>
      have : s.on = false := by unfold Supply.on; rw [hm]; rfl
      rw [this]
      rfl
    | true =>
      cases ho : s.online with
      | none =>
        have : s.on = false := by unfold Supply.on; rw [hm, ho]; rfl
        rw [this]
        rfl
      | some v =>
        have : s.on = decide (v ≠ 0) := by unfold Supply.on; rw [hm, ho]; rfl
        rw [this]
        have ho9 : (onlineText v).take 9 = onlineText v := rfl
        simp only [Option.map_some, sysLine_text (online_text v).2.2, ho9, (online_text v).1, if_true, List.length_cons]
        by_cases hv : v = 0
        · simp [hv]
        · simp [hv]

theorem kevInit_ok {w : List Supply} (h : KnownKinds w) : KevOk w (kevInit false (w.map sysFiles)) := by
  unfold kevInit KevOk acPower
  rw [kevScan_files h, any_on]
  refine ⟨rfl, ?_⟩
  dsimp only
  have : w.any Supply.mains = decide ((w.filter (·.mains)).length ≠ 0) := by
    rw [Bool.eq_iff_iff, decide_eq_true_iff, List.any_eq_true]
    constructor
    · rintro ⟨s, hs, h⟩ e
      have := List.length_eq_zero_iff.mp e
      have hm : s ∈ w.filter (·.mains) := List.mem_filter.mpr ⟨hs, h⟩
      rw [this] at hm
      cases hm
    · intro h
      cases hf : w.filter (·.mains) with
      | nil => rw [hf] at h; exact absurd rfl h
      | cons s l =>
        have hm : s ∈ w.filter (·.mains) := by rw [hf]; exact List.mem_cons_self
        exact ⟨s, (List.mem_filter.mp hm).1, (List.mem_filter.mp hm).2⟩
  rw [this, Bool.eq_iff_iff]
  simp only [Bool.false_or, decide_eq_true_iff, Bool.or_eq_true, Bool.not_eq_true', decide_eq_false_iff_not]
  omega

theorem numOn_set {w : List Supply} {i : Nat} {s t : Supply} (h : w[i]? = some s) :
    numOn (w.set i t) + s.on.toNat = numOn w + t.on.toNat := by
  unfold numOn
  induction w generalizing i with
  | nil => simp at h
  | cons x w ih =>
    cases i with
    | zero =>
      simp only [List.getElem?_cons_zero, Option.some.injEq] at h
      subst h
      rw [List.set_cons_zero, List.filter_cons, List.filter_cons]
      cases x.on <;> cases t.on <;> simp
    | succ i =>
      rw [List.getElem?_cons_succ] at h
      have := ih h
      rw [List.set_cons_succ, List.filter_cons, List.filter_cons]
      cases x.on
      · exact this
      · simp only [if_true, List.length_cons]; omega

theorem mains_set {w : List Supply} {i : Nat} {s : Supply} {o : Option (Fin 3)} (h : w[i]? = some s) :
    (w.set i { s with online := o }).any Supply.mains = w.any Supply.mains := by
  induction w generalizing i with
  | nil => rfl
  | cons x w ih =>
    cases i with
    | zero =>
      simp only [List.getElem?_cons_zero, Option.some.injEq] at h
      subst h
      rfl
    | succ i =>
      rw [List.getElem?_cons_succ] at h
      rw [List.set_cons_succ, List.any_cons, List.any_cons, ih h]

theorem KnownKinds.set {w : List Supply} (hw : KnownKinds w) {i : Nat} {s : Supply} {o : Option (Fin 3)} (h : w[i]? = some s) :
    KnownKinds (w.set i { s with online := o }) := by
  intro t ht
  rcases List.mem_or_eq_of_mem_set ht with ht | rfl
  · exact hw t ht
  · exact hw s (List.mem_of_getElem? h)

theorem KevOk.step {w w' : List Supply} {k : Kev} {msg : List Char} (hw : KnownKinds w) (h : KevOk w k)
    (st : PwrStep true w msg w') : ∃ k', kevMsg k msg = some k' ∧ KevOk w' k' ∧ KnownKinds w' := by
  cases st with
  | other ho hl => exact ⟨k, kevMsg_other ho (hl rfl), h, hw⟩
  | add _ hf => cases hf
  | remove _ hf => cases hf
  | @change i s o _ hi hm hf =>
    obtain ⟨hl, ht⟩ := hf rfl
    have hs := hw s (List.mem_of_getElem? hi)
    refine ⟨_, kevMsg_change (s := { s with online := o }) hs hm hl, ?_, hw.set hi⟩
    have hset := numOn_set (t := { s with online := o }) hi
    have hmains := mains_set (o := o) hi
    by_cases hmn : s.mains = true
    · obtain ⟨ho, hne⟩ := ht hmn
      rw [if_pos ⟨hmn, ho⟩]
      generalize Supply.on { s with online := o } = b at *
      unfold KevOk acPower kevTell
      rw [hmains, any_on]
      have hm1 : w.any Supply.mains = true := List.any_eq_true.mpr ⟨s, List.mem_of_getElem? hi, hmn⟩
      have hc := h.2
      unfold acPower at hc
      rw [hm1, any_on] at hc
      rw [hm1]
      have hk := h.1
      generalize numOn (w.set i { s with online := o }) = n' at *
      generalize numOn w = n at *
      cases hb : b with
      | true =>
        have : s.on = false := by cases hs : s.on; rfl; rw [hb, hs] at hne; exact absurd rfl hne
        rw [this, hb] at hset
        simp only [Bool.toNat_false, Bool.toNat_true] at hset
        rw [if_pos rfl]
        refine ⟨by dsimp only; omega, ?_⟩
        have : n' ≠ 0 := by omega
        dsimp only
        rw [hc, hk]
        simp only [this, ne_eq, not_false_eq_true, decide_true, Bool.true_or]
        split
        · rfl
        · rename_i hn; simp [hn]
      | false =>
        have : s.on = true := by cases hs : s.on; rw [hb, hs] at hne; exact absurd rfl hne; rfl
        rw [this, hb] at hset
        simp only [Bool.toNat_false, Bool.toNat_true] at hset
        rw [if_neg (by decide)]
        refine ⟨by dsimp only; omega, ?_⟩
        dsimp only
        rw [hc, hk]
        have e : n' = n - 1 := by omega
        by_cases hn : n - 1 = 0
        · rw [if_pos hn, e, hn]; rfl
        · rw [if_neg hn, e]
          have : n ≠ 0 := by omega
          simp [hn, this]
    · have hmn' : s.mains = false := Bool.eq_false_iff.mpr hmn
      have h1 : s.on = false := by unfold Supply.on; rw [hmn']; rfl
      have h2 : Supply.on { s with online := o } = false := by unfold Supply.on; dsimp only; rw [hmn']; rfl
      rw [h1, h2] at hset
      rw [if_neg (fun h => hmn h.1)]
      refine ⟨h.1.trans hset.symm, ?_⟩
      rw [h.2]
      unfold acPower
      rw [hmains, any_on, any_on, show numOn (w.set i { s with online := o }) = numOn w from hset]

/-! ## C68 -/

/-- Whatever happens: if each message about a mains supply tells of one that went on or off line, and none is so long that
    it fills the buffer, the condition is on just when there is power from the mains, or there are no such supplies. -/
theorem C68_partial {w w' : List Supply} {msgs : List (List Char)} (hw : KnownKinds w) (h : PwrTrace true w msgs w') :
    ∃ k, kevRun false w msgs = some k ∧ k.cond = acPower w' := by
  have key : ∀ {w w' : List Supply} {msgs : List (List Char)}, PwrTrace true w msgs w' → KnownKinds w → ∀ k, KevOk w k →
      ∃ k', msgs.foldl (fun k m => k.bind fun k => kevMsg k m) (some k) = some k' ∧ KevOk w' k' := by
    intro w w' msgs h
    induction h with
    | nil => intro _ k hk; exact ⟨k, rfl, hk⟩
    | cons st _ ih =>
      intro hw k hk
      obtain ⟨k1, e, h1, hw1⟩ := hk.step hw st
      rw [List.foldl_cons, Option.bind_some, e]
      exact ih hw1 k1 h1
  obtain ⟨k, e, hk⟩ := key h hw _ (kevInit_ok hw)
  exact ⟨k, e, hk.2⟩

/-- Messages that are not about changes of power supplies do not matter. -/
theorem C68_other {k : Kev} {msg : List Char} (h : OtherMsg msg) (hl : msg.length < 1024) : kevMsg k msg = some k :=
  kevMsg_other h hl

/-- All kinds of supplies are told apart. -/
theorem C68_kinds : ∀ x ∈ supplyKinds, isAc x.1 = x.2 := isAc_kind

/-- A laptop: a charger and a battery -/
def laptop (on : Fin 3) : List Supply := [⟨"Mains".toList, true, some on⟩, ⟨"Battery".toList, false, none⟩]

/-- The message about its charger -/
def chargerMsg (on : Fin 3) : List Char :=
  nulText ["change@/devices/ACPI0003:00/power_supply/AC".toList, "ACTION=change".toList, "POWER_SUPPLY_NAME=AC".toList,
    "POWER_SUPPLY_TYPE=Mains".toList, "POWER_SUPPLY_ONLINE=".toList ++ onlineText on, "SEQNUM=4711".toList]

theorem plainLine_of {l : CStr} (h : (l.all (fun c => decide (c.toNat ≠ 0)) && !"POWER_SUPPLY_TYPE=".toList.isPrefixOf l &&
    !"POWER_SUPPLY_ONLINE=".toList.isPrefixOf l) = true) : PlainLine l := by
  simp only [Bool.and_eq_true, Bool.not_eq_true'] at h
  refine ⟨fun c hc => of_decide_eq_true (List.all_eq_true.mp h.1.1 c hc), fun hp => ?_, fun hp => ?_⟩
  · have := h.1.2; rw [List.isPrefixOf_iff_prefix.mpr hp] at this; cases this
  · have := h.2; rw [List.isPrefixOf_iff_prefix.mpr hp] at this; cases this

theorem chargerMsg_ok (on : Fin 3) : ChangeMsg ⟨"Mains".toList, true, some on⟩ (chargerMsg on) := by
  refine ⟨"/devices/ACPI0003:00/power_supply/AC".toList, ["ACTION=change".toList, "POWER_SUPPLY_NAME=AC".toList], [],
    ["SEQNUM=4711".toList], plainLine_of (by decide +kernel), ⟨"/devices/ACPI0003:00/".toList, "/AC".toList, by decide +kernel⟩,
    ?_, ?_, ?_, rfl⟩
  · intro l hl
    simp only [List.mem_cons, List.not_mem_nil, or_false] at hl
    rcases hl with rfl | rfl <;> exact plainLine_of (by decide +kernel)
  · intro l hl; cases hl
  · intro l hl
    rw [List.mem_singleton.mp hl]
    exact plainLine_of (by decide +kernel)

theorem laptop_known (on : Fin 3) : KnownKinds (laptop on) := by
  intro s hs
  simp only [laptop, List.mem_cons, List.not_mem_nil, or_false] at hs
  rcases hs with rfl | rfl
  · show ("Mains".toList, true) ∈ supplyKinds
    decide +kernel
  · decide +kernel

theorem laptop_step {fair : Bool} {a b : Fin 3} (h : fair = true → (decide (b ≠ 0)) ≠ decide (a ≠ 0)) :
    PwrStep fair (laptop a) (chargerMsg b) (laptop b) := by
  refine PwrStep.change (i := 0) (s := ⟨"Mains".toList, true, some a⟩) (o := some b) rfl (chargerMsg_ok b) fun hf => ⟨?_, ?_⟩
  · clear h; revert b; decide +kernel
  · intro _
    refine ⟨nofun, ?_⟩
    exact h hf

/-- Hypotheses that can be met: the charger is taken off, put back, and taken off again. -/
example : ∃ k, kevRun false (laptop 1) [chargerMsg 0, chargerMsg 1, chargerMsg 0] = some k ∧ k.cond = false :=
  C68_partial (laptop_known 1) (.cons (laptop_step fun _ => by decide) (.cons (laptop_step fun _ => by decide)
    (.cons (laptop_step fun _ => by decide) .nil)))

/-- Each message that the charger is on is taken for another charger, so the condition stays on when it is taken off. -/
theorem C68_counted_twice : PwrTrace false (laptop 1) [chargerMsg 1, chargerMsg 0] (laptop 0) ∧
    kevRun false (laptop 1) [chargerMsg 1, chargerMsg 0] = some ⟨1, true⟩ ∧ acPower (laptop 0) = false :=
  ⟨.cons (laptop_step (by decide)) (.cons (laptop_step (by decide)) .nil), by decide +kernel, by decide +kernel⟩

/-- When the daemon is started again after the charger was taken off the condition stays on. -/
theorem C68_restarted : kevRun true (laptop 0) [] = some ⟨0, true⟩ ∧ acPower (laptop 0) = false := by
  decide +kernel

/-- The laptop on a docking station that has a supply, which is off -/
def docked : List Supply := [⟨"Mains".toList, true, some 1⟩, ⟨"Mains".toList, true, some 0⟩]

/-- A supply that is removed is not counted off. -/
theorem C68_removed : ∃ msg, PwrTrace false docked [msg] (docked.eraseIdx 0) ∧
    kevRun false docked [msg] = some ⟨1, true⟩ ∧ acPower (docked.eraseIdx 0) = false :=
  ⟨nulText ["remove@/devices/usb/power_supply/usb0".toList], .cons (.remove ⟨
    "remove@/devices/usb/power_supply/usb0".toList, [], by decide, by decide +kernel, .inl (by decide)⟩ rfl) .nil,
    by decide +kernel, by decide +kernel⟩

/-- A message of 1024 bytes or more, about anything, makes the daemon write behind its buffer. -/
theorem C68_overflow (k : Kev) {msg : List Char} (h : 1024 ≤ msg.length) : kevMsg k msg = none := by
  unfold kevMsg
  dsimp only
  rw [if_pos]
  rw [List.length_take]
  omega

theorem C68_full_false : ¬ C68_full := by
  intro h
  obtain ⟨k, e, hk⟩ := h false _ _ _ (laptop_known 1) (laptop_known 0) C68_counted_twice.1
  rw [C68_counted_twice.2.1] at e
  cases e
  rw [C68_counted_twice.2.2] at hk
  cases hk

end Verif
