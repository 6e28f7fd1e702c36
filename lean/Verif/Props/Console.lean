import Verif.Console

/-!
# C97: What a step at boot shows

A terminal shows what is written to it; after a step there is one line with the text of the step and its outcome.
-/

namespace Verif

/-! ## Terminals -/

/-- What a terminal expects: text, or the rest of a sequence -/
inductive VtMode
  | ground
  | esc
  | csi
  deriving DecidableEq, Repr

/-- A terminal: the lines above, the last one first, the line of the cursor, and the column of the cursor.  The cursor stays behind the
    last column until more is written. -/
structure Vt where
  above : List (List Char)
  row : List Char
  col : Nat
  mode : VtMode
  deriving DecidableEq, Repr

/-- A character is written to a terminal of some columns: carriage return, line feed, which returns as well, sequences of which only the
    one that erases the rest of the line changes anything that is shown here, and text, which goes on in the next line -/
def vtPut (cols : Nat) (t : Vt) (c : Char) : Vt :=
  match t.mode with
  | .esc => { t with mode := if c = '[' then .csi else .ground }
  | .csi =>
    if 64 ≤ c.toNat ∧ c.toNat < 127 then
      if c = 'K' then { t with row := t.row.take t.col, mode := .ground } else { t with mode := .ground }
    else t
  | .ground =>
    if c = Char.ofNat 27 then { t with mode := .esc }
    else if c = '\r' then { t with col := 0 }
    else if c = '\n' then { t with above := t.row :: t.above, row := [], col := 0 }
    else if t.col < cols then { t with row := t.row.take t.col ++ c :: t.row.drop (t.col + 1), col := t.col + 1 }
    else { t with above := t.row :: t.above, row := [c], col := 1 }

/-- All that is written -/
def vtRun (cols : Nat) (t : Vt) (s : List Char) : Vt := s.foldl (vtPut cols) t

/-- A terminal with anything on its line and the cursor anywhere on it -/
structure VtOk (cols : Nat) (t : Vt) : Prop where
  ground : t.mode = .ground
  line : t.row.length ≤ cols
  cursor : t.col ≤ t.row.length

/-! ## The claim -/

/-- Text of ASCII that can be printed -/
def AsciiText (s : List Char) : Prop := ∀ c ∈ s, 32 ≤ c.toNat ∧ c.toNat < 127

/-- The word for an outcome -/
def outcome : Nat → List Char
  | 0 => " OK ".toList
  | 1 => "FAIL".toList
  | _ => "WARN".toList

/-- The line for a step: the outcome and the text, or the text, dots up to the last columns, and the outcome -/
def stepLine (style : PStyle) (cols : Nat) (text : List Char) (rc : Nat) : List Char :=
  match style with
  | .modern => ('[' :: outcome rc ++ "] ".toList ++ text).take cols
  | .classic => text.take (cols - 8) ++ ' ' :: List.replicate (cols - 8 - text.length) '.' ++ " [".toList ++ outcome rc ++ "]".toList

/-- A step is shown as it should be, whatever is on the terminal: nothing above is touched and the cursor is on a new line -/
def ShowsStep (style : PStyle) (cols : Nat) (text : List Char) (rc : Nat) (t : Vt) : Prop :=
  ∃ s, printStep style cols text rc = .text s ∧
    vtRun cols t s = { above := stepLine style cols text rc :: t.above, row := [], col := 0, mode := .ground }

def C97_full : Prop :=
  ∀ style cols text rc t, 0 < cols → rc ≤ 2 → AsciiText text → VtOk cols t → ShowsStep style cols text rc t

/-! ## Writing -/

theorem vtRun_append (cols : Nat) (t : Vt) (a b : List Char) : vtRun cols t (a ++ b) = vtRun cols (vtRun cols t a) b :=
  List.foldl_append ..

theorem vtRun_cons (cols : Nat) (t : Vt) (c : Char) (b : List Char) : vtRun cols t (c :: b) = vtRun cols (vtPut cols t c) b := rfl

/-- Characters that are shown -/
def Shown (s : List Char) : Prop := ∀ c ∈ s, c ≠ Char.ofNat 27 ∧ c ≠ '\r' ∧ c ≠ '\n'

theorem AsciiText.shown {s : List Char} (h : AsciiText s) : Shown s := by
  intro c hc
  have := h c hc
  refine ⟨?_, ?_, ?_⟩ <;> rintro rfl <;> exact absurd this (by decide)

theorem vt_text (cols : Nat) (s : List Char) (hs : Shown s) (ab : List (List Char)) (row : List Char) (col : Nat) (hc : col ≤ row.length)
    (hl : col + s.length ≤ cols) :
    vtRun cols ⟨ab, row, col, .ground⟩ s = ⟨ab, row.take col ++ s ++ row.drop (col + s.length), col + s.length, .ground⟩ := by
  induction s generalizing row col with
  | nil => simp [vtRun]
  | cons c s ih =>
    have h := hs c (List.mem_cons_self ..)
    have hl' : col + 1 + s.length ≤ cols := by rw [List.length_cons] at hl; omega
    have hp : vtPut cols ⟨ab, row, col, .ground⟩ c = ⟨ab, row.take col ++ c :: row.drop (col + 1), col + 1, .ground⟩ := by
      unfold vtPut
      dsimp only
      rw [if_neg h.1, if_neg h.2.1, if_neg h.2.2, if_pos (by omega)]
    have ht : (row.take col).length = col := by rw [List.length_take]; omega
    have e1 : (row.take col ++ c :: row.drop (col + 1)).take (col + 1) = row.take col ++ [c] := by
      rw [List.take_append, ht, List.take_of_length_le (by omega), show col + 1 - col = 1 by omega]
      rfl
    have e2 : (row.take col ++ c :: row.drop (col + 1)).drop (col + 1 + s.length) = row.drop (col + (c :: s).length) := by
      rw [List.drop_append, ht, List.drop_of_length_le (by omega), List.nil_append, show col + 1 + s.length - col = s.length + 1 by omega,
        List.drop_succ_cons, List.drop_drop, List.length_cons]
      congr 1
      omega
    rw [vtRun_cons, hp, ih (fun d hd => hs d (List.mem_cons_of_mem _ hd)) _ _ (by
      rw [List.length_append, ht, List.length_cons]; omega) hl', e1, e2]
    simp [Nat.add_comm, Nat.add_left_comm]

/-- Text that goes on in the next line -/
theorem vt_wrap (cols : Nat) (s : List Char) (hs : Shown s) (h0 : s ≠ []) (hl : s.length ≤ cols) (ab : List (List Char)) (row : List Char) :
    vtRun cols ⟨ab, row, cols, .ground⟩ s = ⟨row :: ab, s, s.length, .ground⟩ := by
  cases s with
  | nil => exact absurd rfl h0
  | cons c s =>
    have h := hs c (List.mem_cons_self ..)
    have hp : vtPut cols ⟨ab, row, cols, .ground⟩ c = ⟨row :: ab, [c], 1, .ground⟩ := by
      unfold vtPut
      dsimp only
      rw [if_neg h.1, if_neg h.2.1, if_neg h.2.2, if_neg (Nat.lt_irrefl _)]
    rw [vtRun_cons, hp, vt_text cols s (fun d hd => hs d (List.mem_cons_of_mem _ hd)) _ _ 1 (Nat.le_refl _) (by
      rw [List.length_cons] at hl; omega)]
    simp [Nat.add_comm]

theorem vt_return (cols : Nat) (ab : List (List Char)) (row : List Char) (col : Nat) (s : List Char) :
    vtRun cols ⟨ab, row, col, .ground⟩ ('\r' :: s) = vtRun cols ⟨ab, row, 0, .ground⟩ s := rfl

/-- What is shown of a sequence of characters without the escape sequences -/
theorem vt_csi (cols : Nat) (ab : List (List Char)) (row : List Char) (col : Nat) (s : List Char)
    (w : String) (hw : w ∈ ["1m", "7m", "0m", "1;31m", "1;32m", "1;33m"]) :
    vtRun cols ⟨ab, row, col, .ground⟩ (csi w ++ s) = vtRun cols ⟨ab, row, col, .ground⟩ s := by
  rw [vtRun_append]
  congr 1
  simp only [List.mem_cons, List.not_mem_nil, or_false] at hw
  rcases hw with rfl | rfl | rfl | rfl | rfl | rfl <;> rfl

theorem outcome_len (rc : Nat) : (outcome rc).length = 4 := by
  unfold outcome
  split <;> rfl

theorem outcome_shown (rc : Nat) : Shown (outcome rc) := by
  unfold outcome Shown
  split <;> decide

theorem statusRc_le (rc : Nat) (h : rc ≤ 3) : statusRc rc = rc := by
  unfold statusRc
  rw [if_neg (by omega)]
  rfl

/-- The status for a number, as it is shown -/
def statusShown (rc : Nat) : List Char := '[' :: status2 rc ++ "] ".toList

theorem statusShown_len (rc : Nat) (h : rc ≤ 3) : (statusShown rc).length = 7 := by
  have : rc = 0 ∨ rc = 1 ∨ rc = 2 ∨ rc = 3 := by omega
  rcases this with rfl | rfl | rfl | rfl <;> rfl

theorem statusShown_outcome (rc : Nat) (h : rc ≤ 2) : statusShown rc = '[' :: outcome rc ++ "] ".toList := by
  have : rc = 0 ∨ rc = 1 ∨ rc = 2 := by omega
  rcases this with rfl | rfl | rfl <;> rfl

theorem statusShown_shown (rc : Nat) (h : rc ≤ 3) : Shown (statusShown rc) := by
  have : rc = 0 ∨ rc = 1 ∨ rc = 2 ∨ rc = 3 := by omega
  rcases this with rfl | rfl | rfl | rfl <;> (unfold Shown statusShown status2; decide)

theorem status2_len (rc : Nat) (h : rc ≤ 3) : (status2 rc).length = 4 := by
  have : rc = 0 ∨ rc = 1 ∨ rc = 2 ∨ rc = 3 := by omega
  rcases this with rfl | rfl | rfl | rfl <;> rfl

theorem color_csi (rc : Nat) : ∃ w, w ∈ ["1m", "7m", "0m", "1;31m", "1;32m", "1;33m"] ∧ statusColor rc = csi w := by
  unfold statusColor
  split
  · exact ⟨"1;32m", by simp, rfl⟩
  · exact ⟨"1;31m", by simp, rfl⟩
  · exact ⟨"1;33m", by simp, rfl⟩

/-- Sequences between pieces of text show nothing -/
theorem vt_status_modern (cols : Nat) (rc : Nat) (h : rc ≤ 3) (ab : List (List Char)) (row : List Char) (hw : 7 ≤ cols) (s : List Char) :
    vtRun cols ⟨ab, row, 0, .ground⟩ (statusOf .modern rc ++ s) = vtRun cols ⟨ab, statusShown rc ++ row.drop 7, 7, .ground⟩ s := by
  obtain ⟨w, hwm, hcol⟩ := color_csi rc
  have hsh := statusShown_shown rc h
  have h2 : Shown (status2 rc) := fun c hc => hsh c (by unfold statusShown; simp [hc])
  have hl2 := status2_len rc h
  obtain ⟨c1, c2, c3, c4, h4⟩ : ∃ a b c d, status2 rc = [a, b, c, d] := by
    have : rc = 0 ∨ rc = 1 ∨ rc = 2 ∨ rc = 3 := by omega
    rcases this with rfl | rfl | rfl | rfl <;> exact ⟨_, _, _, _, rfl⟩
  have e : statusOf .modern rc ++ s =
      csi "1m" ++ (['['] ++ (csi w ++ (status2 rc ++ (csi "0m" ++ (csi "1m" ++ ([']'] ++ (csi "0m" ++ ([' '] ++ s)))))))) := by
    unfold statusOf
    dsimp only
    rw [statusRc_le rc h, hcol]
    simp
  rw [e, vt_csi _ _ _ _ _ _ (by simp), vtRun_append, vt_text cols ['['] (by unfold Shown; decide) ab row 0 (Nat.zero_le _) (by simp; omega),
    vt_csi _ _ _ _ _ _ hwm, vtRun_append, vt_text cols (status2 rc) h2 ab _ _ (by simp) (by simp [hl2]; omega),
    vt_csi _ _ _ _ _ _ (by simp), vt_csi _ _ _ _ _ _ (by simp), vtRun_append,
    vt_text cols [']'] (by unfold Shown; decide) ab _ _ (by simp [h4]; try omega) (by simp [h4]; omega),
    vt_csi _ _ _ _ _ _ (by simp), vtRun_append,
    vt_text cols [' '] (by unfold Shown; decide) ab _ _ (by simp [h4]; try omega) (by simp [h4]; omega)]
  congr 1
  simp [statusShown, h4]

theorem vt_status_classic (cols : Nat) (rc : Nat) (h : rc ≤ 2) (ab : List (List Char)) (row : List Char) (col : Nat) (hc : col ≤ row.length)
    (hw : col + 6 ≤ cols) (s : List Char) :
    vtRun cols ⟨ab, row, col, .ground⟩ (statusOf .classic rc ++ s) =
      vtRun cols ⟨ab, row.take col ++ ('[' :: outcome rc ++ "]".toList) ++ row.drop (col + 6), col + 6, .ground⟩ s := by
  have h1 : status1 rc = outcome rc := by
    have : rc = 0 ∨ rc = 1 ∨ rc = 2 := by omega
    rcases this with rfl | rfl | rfl <;> rfl
  have ho := outcome_shown rc
  have hol := outcome_len rc
  have e : statusOf .classic rc ++ s =
      csi (if rc = 1 ∨ rc = 2 then "7m" else "1m") ++ (('[' :: outcome rc ++ "]".toList) ++ (csi "0m" ++ s)) := by
    unfold statusOf
    dsimp only
    rw [statusRc_le rc (by omega), h1]
    simp
  have hlen : ('[' :: outcome rc ++ "]".toList).length = 6 := by simp [hol]
  rw [e, vt_csi _ _ _ _ _ _ (by split <;> simp), vtRun_append, vt_text cols ('[' :: outcome rc ++ "]".toList) (by
      intro c hc
      rw [List.cons_append, List.mem_cons, List.mem_append] at hc
      rcases hc with rfl | hc | hc
      · decide
      · exact ho c hc
      · have : c = ']' := by simpa using hc
        subst this
        decide) ab row col hc (by rw [hlen]; exact hw), vt_csi _ _ _ _ _ _ (by simp), hlen]

/-! ## Lengths -/

theorem byteLen_append (a b : List Char) : byteLen (a ++ b) = byteLen a + byteLen b := by
  induction a with
  | nil => simp [byteLen]
  | cons c a ih =>
    have h : ∀ s : List Char, byteLen (c :: s) = c.utf8Size + byteLen s := fun _ => rfl
    rw [List.cons_append, h, h, ih]
    omega

theorem byteLen_ascii (s : List Char) (h : AsciiText s) : byteLen s = s.length := by
  induction s with
  | nil => rfl
  | cons c s ih =>
    have hc := h c (List.mem_cons_self ..)
    have h1 : c.utf8Size = 1 := by
      unfold Char.utf8Size
      have : c.val ≤ 0x7F := by
        rw [UInt32.le_iff_toNat_le]
        show c.toNat ≤ 127
        omega
      simp [this]
    show c.utf8Size + byteLen s = _
    rw [h1, ih (fun d hd => h d (List.mem_cons_of_mem _ hd)), List.length_cons]
    omega

theorem AsciiText.take {s : List Char} (h : AsciiText s) (n : Nat) : AsciiText (s.take n) := fun c hc => h c (List.mem_of_mem_take hc)

theorem AsciiText.append {a b : List Char} (ha : AsciiText a) (hb : AsciiText b) : AsciiText (a ++ b) := by
  intro c hc
  rcases List.mem_append.1 hc with hc | hc
  · exact ha c hc
  · exact hb c hc

theorem ascii_dots (n : Nat) : AsciiText (List.replicate n '.') := by
  intro c hc
  rw [List.eq_of_mem_replicate hc]
  decide

theorem slen_ascii (s : List Char) (h : AsciiText s) : slen s false = s.length := by
  induction s with
  | nil => rfl
  | cons c s ih =>
    have hc := h.shown c (List.mem_cons_self ..)
    rw [slen, if_neg (by simp), if_neg (fun e => hc.1 e.2), ih (fun d hd => h d (List.mem_cons_of_mem _ hd)), List.length_cons]

theorem padLoop_dots (len t : Nat) (buf : CStr) (h : buf.length + t ≤ len - 1) :
    padLoop len ".".toList t buf = buf ++ List.replicate t '.' := by
  induction t generalizing buf with
  | zero => simp [padLoop]
  | succ t ih =>
    have e : strlcat len buf ".".toList = buf ++ ['.'] := by
      unfold strlcat
      rw [List.take_of_length_le]
      · rfl
      · show 1 ≤ _
        omega
    rw [padLoop, e, ih _ (by rw [List.length_append, List.length_singleton]; omega), List.append_assoc, List.replicate_succ]
    rfl

theorem padLoop_len (len t : Nat) (buf : CStr) : buf.length ≤ (padLoop len ".".toList t buf).length := by
  induction t generalizing buf with
  | zero => exact Nat.le_refl _
  | succ t ih =>
    rw [padLoop]
    refine Nat.le_trans ?_ (ih _)
    unfold strlcat
    rw [List.length_append]
    omega

theorem padLoop_ascii (len t : Nat) (buf : CStr) (h : AsciiText buf) : AsciiText (padLoop len ".".toList t buf) := by
  induction t generalizing buf with
  | zero => exact h
  | succ t ih =>
    rw [padLoop]
    refine ih _ (h.append (AsciiText.take ?_ _))
    unfold AsciiText
    decide

theorem padTurns_wide (i w : Nat) (h : 8 ≤ w) : padTurns i w = w - 8 - i := by
  unfold padTurns
  rw [if_neg (by omega)]

theorem padTurns_narrow (i w : Nat) (h : w < 8) : padTurns i w = w + (2 ^ 64 - 8) - i := by
  unfold padTurns
  rw [if_pos h]

/-- What `pad()` makes of a text that leaves room -/
theorem pad_fits (text : CStr) (cols : Nat) (ha : AsciiText text) (h : text.length + 8 ≤ cols) (h' : cols < 2 ^ 32) :
    pad text cols ".".toList cols = some (text ++ ' ' :: List.replicate (cols - 8 - text.length) '.') := by
  unfold pad
  rw [slen_ascii text ha, padTurns_wide _ _ (by omega)]
  dsimp only
  rw [if_neg (by omega)]
  have e : strlcat cols text " ".toList = text ++ [' '] := by
    unfold strlcat
    rw [List.take_of_length_le]
    · rfl
    · show 1 ≤ _
      omega
  rw [e, padLoop_dots _ _ _ (by rw [List.length_append, List.length_singleton]; omega)]
  simp

theorem cprintf_text (s : CStr) (h : byteLen s < 256) : cprintf s = .text s := if_pos h

/-! ## The property -/

/-- A step is shown as it should be in the modern style if its text has 219 bytes or less and leaves 7 columns, and in the classic one if
    it leaves 8 columns and the terminal has 260 or less -/
theorem C97_partial (style : PStyle) (cols : Nat) (text : List Char) (rc : Nat) (t : Vt) (hrc : rc ≤ 2) (ha : AsciiText text)
    (ht : VtOk cols t)
    (hm : style = .modern → text.length + 7 ≤ cols ∧ text.length ≤ 219)
    (hc : style = .classic → text.length + 8 ≤ cols ∧ cols ≤ 260) : ShowsStep style cols text rc t := by
  obtain ⟨ab, row, col, mode⟩ := t
  have hg : mode = .ground := ht.ground
  subst hg
  cases style with
  | modern =>
    obtain ⟨h1, h2⟩ := hm rfl
    have hbuf : text.take (cols - 1) = text := List.take_of_length_le (by omega)
    have hv : printv .modern cols text = .text ('\r' :: csi "K" ++ statusOf .modern 3 ++ text) := by
      unfold printv
      dsimp only
      rw [hbuf, cprintf_text]
      rw [byteLen_append, byteLen_ascii text ha]
      have : byteLen ('\r' :: csi "K" ++ statusOf .modern 3) = 36 := by decide
      omega
    have hr : printRc .modern rc = .text ('\r' :: statusOf .modern rc ++ "\n".toList) := by
      unfold printRc
      rw [if_neg (by omega)]
      have : rc = 0 ∨ rc = 1 ∨ rc = 2 := by omega
      rcases this with rfl | rfl | rfl <;> exact cprintf_text _ (by decide)
    refine ⟨('\r' :: csi "K" ++ statusOf .modern 3 ++ text) ++ ('\r' :: statusOf .modern rc ++ "\n".toList), ?_, ?_⟩
    · unfold printStep
      rw [hv, hr]
      rfl
    · have e : ('\r' :: csi "K" ++ statusOf .modern 3 ++ text) ++ ('\r' :: statusOf .modern rc ++ "\n".toList) =
          '\r' :: (csi "K" ++ (statusOf .modern (3 : Nat) ++ (text ++ ('\r' :: (statusOf .modern rc ++ "\n".toList))))) := by
        simp
      have hk : ∀ s, vtRun cols ⟨ab, row, 0, .ground⟩ (csi "K" ++ s) = vtRun cols ⟨ab, [], 0, .ground⟩ s := fun s => rfl
      have hs3 := statusShown_len 3 (Nat.le_refl _)
      rw [e, vt_return, hk, vt_status_modern cols 3 (Nat.le_refl _) _ _ (by omega), vtRun_append,
        vt_text cols text ha.shown _ _ 7 (by simp [hs3]) (by omega), vt_return, vt_status_modern cols rc (by omega) _ _ (by omega)]
      show Vt.mk _ _ _ _ = _
      have hr7 := statusShown_len rc (by omega)
      have hst : stepLine .modern cols text rc = statusShown rc ++ text := by
        unfold stepLine
        dsimp only
        rw [← statusShown_outcome rc hrc, List.take_of_length_le]
        rw [List.length_append, hr7]
        omega
      rw [hst]
      simp [hs3]
  | classic =>
    obtain ⟨h1, h2⟩ := hc rfl
    have hbuf : text.take (cols - 1) = text := List.take_of_length_le (by omega)
    have hb : AsciiText (text ++ ' ' :: List.replicate (cols - 8 - text.length) '.') :=
      ha.append (AsciiText.append (a := [' ']) (by unfold AsciiText; decide) (ascii_dots _))
    have hlen : (text ++ ' ' :: List.replicate (cols - 8 - text.length) '.' ++ " ".toList).length = cols - 6 := by
      simp
      omega
    have hall : AsciiText (text ++ ' ' :: List.replicate (cols - 8 - text.length) '.' ++ " ".toList) :=
      hb.append (by unfold AsciiText; decide)
    have hv : printv .classic cols text =
        .text ('\r' :: (text ++ ' ' :: List.replicate (cols - 8 - text.length) '.') ++ " ".toList) := by
      unfold printv
      dsimp only
      rw [hbuf, pad_fits text cols ha h1 (by omega)]
      dsimp only
      rw [cprintf_text]
      have : byteLen ('\r' :: (text ++ ' ' :: List.replicate (cols - 8 - text.length) '.') ++ " ".toList) =
          1 + byteLen (text ++ ' ' :: List.replicate (cols - 8 - text.length) '.' ++ " ".toList) := rfl
      rw [this, byteLen_ascii _ hall, hlen]
      omega
    have hr : printRc .classic rc = .text (statusOf .classic rc ++ "\n".toList) := by
      unfold printRc
      rw [if_neg (by omega)]
      have : rc = 0 ∨ rc = 1 ∨ rc = 2 := by omega
      rcases this with rfl | rfl | rfl <;> exact cprintf_text _ (by decide)
    refine ⟨_, by unfold printStep; rw [hv, hr]; rfl, ?_⟩
    rw [List.cons_append, List.cons_append, vt_return, vtRun_append, vt_text cols _ hall.shown _ _ 0 (Nat.zero_le _) (by omega), hlen,
      vt_status_classic cols rc hrc _ _ _ (by simp; omega) (by omega)]
    show Vt.mk _ _ _ _ = _
    have hd : row.drop cols = [] := List.drop_of_length_le ht.line
    unfold stepLine
    dsimp only
    rw [List.take_of_length_le (by omega : text.length ≤ cols - 8)]
    have e1 : ∀ x y : List Char, x.length = cols - 6 → (x ++ y).take (cols - 6) = x := fun x y h => by rw [← h, List.take_left]
    have e2 : ∀ x : List Char, x.length = cols - 6 → (x ++ row.drop (cols - 6)).drop (cols - 6 + 6) = [] := by
      intro x h
      rw [List.drop_append, h, List.drop_of_length_le (by omega), List.drop_drop, show cols - 6 + (cols - 6 + 6 - (cols - 6)) = cols by omega, hd]
      rfl
    simp only [Nat.zero_add, List.take_zero, List.nil_append]
    rw [e1 _ _ hlen, e2 _ hlen]
    simp

/-- In the modern style a text that leaves fewer than 7 columns goes on in the next line, and there is the outcome: the line of the step
    never tells it, and what went on is overwritten -/
theorem C97_wrap (cols : Nat) (text : List Char) (rc : Nat) (t : Vt) (hrc : rc ≤ 2) (ha : AsciiText text) (ht : VtOk cols t)
    (hl : cols < text.length + 7) (h1 : text.length + 1 ≤ cols) (h2 : text.length ≤ 219) (hw : 7 ≤ cols) :
    ∃ s, printStep .modern cols text rc = .text s ∧
      vtRun cols t s = { above := ('[' :: outcome rc ++ "] ".toList) :: ("[ ⋯  ] ".toList ++ text).take cols :: t.above
                         row := [], col := 0, mode := .ground } := by
  obtain ⟨ab, row, col, mode⟩ := t
  have hg : mode = .ground := ht.ground
  subst hg
  have hbuf : text.take (cols - 1) = text := List.take_of_length_le (by omega)
  have hv : printv .modern cols text = .text ('\r' :: csi "K" ++ statusOf .modern 3 ++ text) := by
    unfold printv
    dsimp only
    rw [hbuf, cprintf_text]
    rw [byteLen_append, byteLen_ascii text ha]
    have : byteLen ('\r' :: csi "K" ++ statusOf .modern 3) = 36 := by decide
    omega
  have hr : printRc .modern rc = .text ('\r' :: statusOf .modern rc ++ "\n".toList) := by
    unfold printRc
    rw [if_neg (by omega)]
    have : rc = 0 ∨ rc = 1 ∨ rc = 2 := by omega
    rcases this with rfl | rfl | rfl <;> exact cprintf_text _ (by decide)
  refine ⟨('\r' :: csi "K" ++ statusOf .modern 3 ++ text) ++ ('\r' :: statusOf .modern rc ++ "\n".toList), ?_, ?_⟩
  · unfold printStep
    rw [hv, hr]
    rfl
  · have e : ('\r' :: csi "K" ++ statusOf .modern 3 ++ text) ++ ('\r' :: statusOf .modern rc ++ "\n".toList) =
        '\r' :: (csi "K" ++ (statusOf .modern (3 : Nat) ++ (text.take (cols - 7) ++ (text.drop (cols - 7) ++
          ('\r' :: (statusOf .modern rc ++ "\n".toList)))))) := by
      rw [← List.append_assoc (text.take _), List.take_append_drop]
      simp
    have hk : ∀ s, vtRun cols ⟨ab, row, 0, .ground⟩ (csi "K" ++ s) = vtRun cols ⟨ab, [], 0, .ground⟩ s := fun s => rfl
    have hs3 := statusShown_len 3 (Nat.le_refl _)
    have hlt : (text.take (cols - 7)).length = cols - 7 := by rw [List.length_take]; omega
    have hld : (text.drop (cols - 7)).length = text.length + 7 - cols := by rw [List.length_drop]; omega
    have hsd : Shown (text.drop (cols - 7)) := fun c hc => ha.shown c (List.mem_of_mem_drop hc)
    rw [e, vt_return, hk, vt_status_modern cols 3 (Nat.le_refl _) _ _ hw, vtRun_append,
      vt_text cols _ (ha.take _).shown _ _ 7 (by simp [hs3]) (by omega), hlt, show 7 + (cols - 7) = cols by omega, vtRun_append,
      vt_wrap cols _ hsd (by intro h; rw [h] at hld; simp at hld; omega) (by omega), vt_return,
      vt_status_modern cols rc (by omega) _ _ hw]
    show Vt.mk _ _ _ _ = _
    rw [List.drop_of_length_le (by omega : (text.drop (cols - 7)).length ≤ 7), statusShown_outcome rc hrc]
    have h3 : "[ ⋯  ] ".toList = statusShown 3 := rfl
    have h4 : (statusShown 3 ++ text).take cols = statusShown 3 ++ text.take (cols - 7) := by
      rw [List.take_append, hs3, List.take_of_length_le (by omega : (statusShown 3).length ≤ cols)]
    have h5 : (statusShown 3).drop cols = [] := List.drop_of_length_le (by omega)
    rw [h3, h4]
    simp [h5]
    exact List.take_of_length_le (by omega)

/-- With more bytes of text than 219 on a terminal that is wide enough, memory behind the text is written to the console -/
theorem C97_long (cols : Nat) (text : List Char) (rc : Int) (ha : AsciiText text) (h1 : 220 ≤ text.length) (h2 : 221 ≤ cols) :
    printStep .modern cols text rc = .overread := by
  have hv : printv .modern cols text = .overread := by
    unfold printv
    dsimp only
    unfold cprintf
    rw [if_neg]
    rw [byteLen_append, byteLen_ascii _ (ha.take _), List.length_take]
    have : byteLen ('\r' :: csi "K" ++ statusOf .modern 3) = 36 := by decide
    omega
  unfold printStep
  rw [hv]
  rfl

/-- In the classic style it is for every text if the terminal has more than 260 columns -/
theorem C97_wide (cols : Nat) (text : List Char) (rc : Int) (ha : AsciiText text) (h : 260 < cols) (h' : cols < 2 ^ 32) :
    printStep .classic cols text rc = .overread := by
  have hat := ha.take (cols - 1)
  have hlt : (text.take (cols - 1)).length ≤ cols - 1 := by rw [List.length_take]; omega
  have hv : printv .classic cols text = .overread := by
    unfold printv
    dsimp only
    by_cases hf : (text.take (cols - 1)).length + 8 ≤ cols
    · rw [pad_fits _ cols hat hf h']
      dsimp only
      unfold cprintf
      rw [if_neg]
      have hall : AsciiText (text.take (cols - 1) ++ ' ' :: List.replicate (cols - 8 - (text.take (cols - 1)).length) '.' ++ " ".toList) :=
        AsciiText.append (hat.append (AsciiText.append (a := [' ']) (by unfold AsciiText; decide) (ascii_dots _))) (by unfold AsciiText; decide)
      have : byteLen ('\r' :: (text.take (cols - 1) ++ ' ' :: List.replicate (cols - 8 - (text.take (cols - 1)).length) '.') ++ " ".toList) =
          1 + byteLen (text.take (cols - 1) ++ ' ' :: List.replicate (cols - 8 - (text.take (cols - 1)).length) '.' ++ " ".toList) := rfl
      rw [this, byteLen_ascii _ hall]
      rw [List.length_append, List.length_append, List.length_cons, List.length_replicate]
      show ¬ (1 + (_ + _ + 1) < 256)
      omega
    · unfold pad
      rw [slen_ascii _ hat, padTurns_wide _ _ (by omega)]
      dsimp only
      rw [if_neg (by omega)]
      dsimp only
      unfold cprintf
      rw [if_neg]
      have hsp : AsciiText (strlcat cols (text.take (cols - 1)) " ".toList) := hat.append (AsciiText.take (by unfold AsciiText; decide) _)
      have hall := AsciiText.append (padLoop_ascii cols (cols - 8 - (text.take (cols - 1)).length) _ hsp) (b := " ".toList)
        (by unfold AsciiText; decide)
      have : ∀ s : List Char, byteLen ('\r' :: s ++ " ".toList) = 1 + byteLen (s ++ " ".toList) := fun _ => rfl
      rw [this, byteLen_ascii _ hall, List.length_append]
      have hge := padLoop_len cols (cols - 8 - (text.take (cols - 1)).length) (strlcat cols (text.take (cols - 1)) " ".toList)
      have hge2 : (text.take (cols - 1)).length ≤ (strlcat cols (text.take (cols - 1)) " ".toList).length := by
        unfold strlcat
        rw [List.length_append]
        omega
      show ¬ (1 + (_ + 1) < 256)
      omega
  unfold printStep
  rw [hv]
  rfl

/-- In the classic style on a terminal of fewer than 8 columns the loop that fills the line goes on for 2^64 turns but a few -/
theorem C97_narrow (cols : Nat) (text : List Char) (rc : Int) (ha : AsciiText text) (h : cols < 8) :
    2 ^ 64 - 16 ≤ padTurns (slen (text.take (cols - 1)) false) cols ∧ printStep .classic cols text rc = .hang := by
  have hlt : (text.take (cols - 1)).length ≤ cols - 1 := by rw [List.length_take]; omega
  have ht := padTurns_narrow (text.take (cols - 1)).length cols h
  rw [slen_ascii _ (ha.take _)]
  refine ⟨by omega, ?_⟩
  have hv : printv .classic cols text = .hang := by
    unfold printv
    dsimp only
    unfold pad
    rw [slen_ascii _ (ha.take _)]
    dsimp only
    rw [if_pos (by omega)]
  unfold printStep
  rw [hv]
  rfl

/-- The claim is false -/
theorem C97_full_false : ¬ C97_full := by
  intro h
  obtain ⟨s, hs, _⟩ := h .classic 5 [] 0 ⟨[], [], 0, .ground⟩ (by decide) (by decide) (by intro c hc; exact (nomatch hc)) ⟨rfl, by decide, by decide⟩
  have := (C97_narrow 5 [] 0 (by intro c hc; exact (nomatch hc)) (by decide)).2
  exact absurd (hs.symm.trans this) (by simp)

/-! ## Examples -/

example : VtOk 80 ⟨[], "login: ".toList, 7, .ground⟩ := ⟨rfl, by decide, by decide⟩

example : AsciiText "Starting System log daemon".toList := by unfold AsciiText; decide

example : stepLine .classic 40 "Starting System log daemon".toList 0 = "Starting System log daemon ...... [ OK ]".toList := by decide

example : stepLine .modern 80 "Starting System log daemon".toList 1 = "[FAIL] Starting System log daemon".toList := by decide

end Verif
