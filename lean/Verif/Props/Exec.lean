import Verif.Exec

/-!
# Splitting command lines (C44) and writing tmpfiles arguments (C45)
-/

namespace Verif

/-! ## C44: specification -/

/-- A word of a command line: bare, or in quotes. -/
inductive Word
  | bare (s : CStr)
  | quoted (q : Char) (body : CStr)

/-- A bare word has no blanks and does not begin with a quote; a quoted one does not contain its own quote. -/
def Word.Ok : Word → Prop
  | .bare s => (∀ c ∈ s, isBlank c = false) ∧ ∀ c, s.head? = some c → isQuote c = false
  | .quoted q body => isQuote q = true ∧ q ∉ body

def Word.text : Word → CStr
  | .bare s => s
  | .quoted q body => q :: (body ++ [q])

def Word.isQuoted : Word → Bool
  | .bare _ => false
  | .quoted _ _ => true

/-- The rest of a command line: each word behind one blank. -/
def wordsText : List (Char × Word) → CStr
  | [] => []
  | (b, w) :: ws => b :: (w.text ++ wordsText ws)

/-- A command line and what its arguments should be. -/
def IsCmd (cmd : CStr) (args : List CStr) : Prop :=
  ∃ (w0 : CStr) (ws : List (Char × Word)), (∀ c ∈ w0, isBlank c = false) ∧ (∀ p ∈ ws, isBlank p.1 = true ∧ p.2.Ok) ∧
    cmd = w0 ++ wordsText ws ∧ args = w0 :: ws.map (fun p => p.2.text)

/-- Every command line that fits is split into its words, and no command line makes the splitter leave the
    string. -/
def C44_full : Prop :=
  (∀ cmd args, IsCmd cmd args → args.length ≤ 16 → splitCmd cmd = .ok args) ∧ ∀ cmd, splitCmd cmd ≠ .wild

/-! ## C44: proof -/

theorem strsep_end {sep : Char → Bool} : ∀ {s : CStr}, (∀ c ∈ s, sep c = false) → strsep sep s = (s, none)
  | s, h => by
    have : s.dropWhile (fun c => !sep c) = [] := by
      induction s with
      | nil => rfl
      | cons c s ih =>
        rw [List.dropWhile_cons, if_pos (by simp [h c List.mem_cons_self])]
        exact ih fun x hx => h x (List.mem_cons_of_mem _ hx)
    unfold strsep
    rw [this]

theorem strsep_mid {sep : Char → Bool} {s : CStr} {d : Char} (h : ∀ c ∈ s, sep c = false) (hd : sep d = true)
    (rest : CStr) : strsep sep (s ++ d :: rest) = (s, some rest) := by
  have : (s ++ d :: rest).dropWhile (fun c => !sep c) = d :: rest ∧ (s ++ d :: rest).takeWhile (fun c => !sep c) = s := by
    induction s with
    | nil => simp [hd]
    | cons c s ih =>
      have ih := ih fun x hx => h x (List.mem_cons_of_mem _ hx)
      rw [List.cons_append, List.dropWhile_cons, List.takeWhile_cons, if_pos (by simp [h c List.mem_cons_self]),
        if_pos (by simp [h c List.mem_cons_self]), ih.2]
      exact ⟨ih.1, rfl⟩
  unfold strsep
  rw [this.1, this.2]

/-- The pieces of the rest of the line after its leading blank. -/
def tailText : List (Char × Word) → Option CStr
  | [] => none
  | (_, w) :: ws => some (w.text ++ wordsText ws)

theorem strsep_bare {s : CStr} (hs : ∀ c ∈ s, isBlank c = false) (ws : List (Char × Word))
    (hw : ∀ p ∈ ws, isBlank p.1 = true ∧ p.2.Ok) : strsep isBlank (s ++ wordsText ws) = (s, tailText ws) := by
  cases ws with
  | nil => rw [wordsText, List.append_nil]; exact strsep_end hs
  | cons p ws =>
    obtain ⟨b, w⟩ := p
    exact strsep_mid hs (hw _ List.mem_cons_self).1 _

theorem splitLoop_ok : ∀ (n : Nat) (ws : List (Char × Word)), (∀ p ∈ ws, isBlank p.1 = true ∧ p.2.Ok) →
    (∀ p, ws.getLast? = some p → p.2.isQuoted = false) →
    splitLoop n (tailText ws) = if ws.length ≤ n then .ok (ws.map fun p => p.2.text) else .tooLong
  | 0, [], _, _ => rfl
  | 0, p :: ws, _, _ => rfl
  | n + 1, [], _, _ => rfl
  | n + 1, (b, w) :: ws, hw, hl => by
    have hw' : ∀ p ∈ ws, isBlank p.1 = true ∧ p.2.Ok := fun p hp => hw p (List.mem_cons_of_mem _ hp)
    have ih := splitLoop_ok n ws hw' (by
      intro p hp
      cases ws with
      | nil => cases hp
      | cons x xs => exact hl p (by rw [List.getLast?_cons_cons]; exact hp))
    have fin : ∀ a, Split.cons a (splitLoop n (tailText ws)) =
        if (ws.length + 1 ≤ n + 1) then .ok (a :: ws.map fun p => p.2.text) else .tooLong := by
      intro a
      rw [ih]
      by_cases h : ws.length ≤ n
      · rw [if_pos h, if_pos (by omega)]; rfl
      · rw [if_neg h, if_neg (by omega)]; rfl
    have hok := (hw _ List.mem_cons_self).2
    show splitLoop (n + 1) (some (w.text ++ wordsText ws)) = _
    cases w with
    | bare s =>
      have hsep := strsep_bare hok.1 ws hw'
      show splitLoop (n + 1) (some (s ++ wordsText ws)) = _
      generalize htx : s ++ wordsText ws = tx at hsep
      cases tx with
      | nil =>
        have hs : s = [] := (List.append_eq_nil_iff.mp htx).1
        have hws : ws = [] := by
          cases ws with
          | nil => rfl
          | cons p ws => have := (List.append_eq_nil_iff.mp htx).2; cases this
        subst hs; subst hws
        rw [splitLoop]
        exact fin []
      | cons c t =>
        have hq : isQuote c = false := by
          cases s with
          | nil =>
            cases ws with
            | nil => cases htx
            | cons p ws =>
              obtain ⟨b', w'⟩ := p
              have hb := (hw' _ List.mem_cons_self).1
              simp only [wordsText, List.nil_append, List.cons.injEq] at htx
              rw [htx.1] at hb
              simp only [isBlank, decide_eq_true_eq] at hb
              rcases hb with rfl | rfl <;> decide
          | cons x s =>
            simp only [List.cons_append, List.cons.injEq] at htx
            rw [← htx.1]; exact hok.2 x rfl
        rw [splitLoop, hq]
        simp only [Bool.false_eq_true, if_false]
        rw [hsep]
        exact fin s
    | quoted q body =>
      have hne : ws ≠ [] := by
        rintro rfl
        have := hl _ rfl
        cases this
      have hbody : ∀ c ∈ body, decide (c = q) = false := by
        intro c hc
        rw [decide_eq_false_iff_not]
        rintro rfl; exact hok.2 hc
      cases ws with
      | nil => exact absurd rfl hne
      | cons p ws =>
        obtain ⟨b', w'⟩ := p
        have hsep : strsep (fun c => decide (c = q)) (body ++ q :: (b' :: (w'.text ++ wordsText ws))) =
            (body, some (b' :: (w'.text ++ wordsText ws))) :=
          strsep_mid hbody (by simp) _
        have e : (Word.quoted q body).text ++ wordsText ((b', w') :: ws) =
            q :: (body ++ q :: (b' :: (w'.text ++ wordsText ws))) := by simp [Word.text, wordsText]
        rw [e, splitLoop, hok.1]
        simp only [if_true]
        rw [hsep]
        exact fin _

/-- Every command line whose last word is not in quotes is split into its words, or refused if it has more than
    sixteen. -/
theorem C44_split_partial (w0 : CStr) (ws : List (Char × Word)) (h0 : ∀ c ∈ w0, isBlank c = false)
    (hw : ∀ p ∈ ws, isBlank p.1 = true ∧ p.2.Ok) (hl : ∀ p, ws.getLast? = some p → p.2.isQuoted = false) :
    splitCmd (w0 ++ wordsText ws) =
      if ws.length ≤ 15 then .ok (w0 :: ws.map fun p => p.2.text) else .tooLong := by
  unfold splitCmd
  rw [strsep_bare h0 ws hw, splitLoop_ok 15 ws hw hl]
  split <;> rfl

example : splitCmd "su -c \"dbus-daemon --system\" messagebus".toList =
    .ok ["su".toList, "-c".toList, "\"dbus-daemon --system\"".toList, "messagebus".toList] := by decide +kernel

example : ∀ p ∈ [(' ', Word.bare "-c".toList), (' ', .quoted '"' "dbus-daemon --system".toList), (' ', .bare "messagebus".toList)],
    isBlank p.1 = true ∧ p.2.Ok := by
  simp [Word.Ok, isBlank, isQuote]

theorem cons_wild {a : CStr} {r : Split} (h : Split.cons a r = .wild) : r = .wild := by
  cases r with
  | ok l => cases h
  | tooLong => cases h
  | wild => rfl

/-- A blank followed by a quote. -/
def OpensQuote (s : CStr) : Prop := ∃ a b c q, s = a ++ b :: q :: c ∧ isBlank b = true ∧ isQuote q = true

theorem strsep_some {sep : Char → Bool} {s r : CStr} (h : (strsep sep s).2 = some r) :
    ∃ a d, s = a ++ d :: r ∧ sep d = true := by
  induction s with
  | nil => cases h
  | cons c s ih =>
    by_cases hc : sep c = true
    · unfold strsep at h
      rw [List.dropWhile_cons, if_neg (by simp [hc])] at h
      cases h
      exact ⟨[], c, rfl, hc⟩
    · have : (strsep sep (c :: s)).2 = (strsep sep s).2 := by
        unfold strsep
        rw [List.dropWhile_cons, if_pos (by simpa using hc)]
        split <;> rfl
      rw [this] at h
      obtain ⟨a, d, rfl, hd⟩ := ih h
      exact ⟨c :: a, d, rfl, hd⟩

/-- The splitter stays within every command line in which no argument begins with a quote. -/
theorem C44_unquoted_safe (cmd : CStr) (h : splitCmd cmd = .wild) : OpensQuote cmd := by
  have loop : ∀ (n : Nat) (s : CStr), splitLoop n (some s) = .wild →
      (∃ q t, s = q :: t ∧ isQuote q = true) ∨ OpensQuote s := by
    intro n
    induction n with
    | zero => intro s h; cases h
    | succ n ih =>
      intro s h
      cases s with
      | nil =>
        rw [splitLoop] at h
        have := cons_wild h
        cases n <;> cases this
      | cons q r =>
        by_cases hq : isQuote q = true
        · exact .inl ⟨q, r, rfl, hq⟩
        · right
          rw [splitLoop, if_neg hq] at h
          have h := cons_wild h
          cases hs : (strsep isBlank (q :: r)).2 with
          | none => rw [hs] at h; cases n <;> cases h
          | some t =>
            rw [hs] at h
            obtain ⟨a, d, e, hd⟩ := strsep_some hs
            rw [e]
            rcases ih t h with ⟨q', t', rfl, hq'⟩ | ⟨a', b', c', q', rfl, h1, h2⟩
            · exact ⟨a, d, t', q', rfl, hd, hq'⟩
            · exact ⟨a ++ d :: a', b', c', q', by simp, h1, h2⟩
  unfold splitCmd at h
  have h := cons_wild h
  cases hs : (strsep isBlank cmd).2 with
  | none => rw [hs] at h; cases h
  | some t =>
    rw [hs] at h
    obtain ⟨a, d, e, hd⟩ := strsep_some hs
    rw [e]
    rcases loop 15 t h with ⟨q', t', rfl, hq'⟩ | ⟨a', b', c', q', rfl, h1, h2⟩
    · exact ⟨a, d, t', q', rfl, hd, hq'⟩
    · exact ⟨a ++ d :: a', b', c', q', by simp, h1, h2⟩

/-- A quoted word at the end of the line makes the splitter read behind the string, and a missing closing quote
    makes it write through a null pointer. -/
theorem C44_reads_outside : ¬ C44_full ∧ splitCmd "sh -c \"echo hi\"".toList = .wild ∧
    splitCmd "sh -c \"echo hi".toList = .wild := by
  have h : splitCmd "sh -c \"echo hi\"".toList = .wild := by decide +kernel
  exact ⟨fun H => H.2 _ h, h, by decide +kernel⟩

/-! ## C45: specification -/

/-- One documented piece of an argument. -/
inductive Piece
  /-- a byte that stands for itself -/
  | lit (c : Char)
  /-- a backslash and a letter or punctuation mark -/
  | esc (c : Char)
  /-- `\xHH` -/
  | hex (a b : Char)
  /-- `\OOO` -/
  | oct (a b c : Char)

/-- A hexadecimal digit and its value. -/
inductive HexDigit : Char → Nat → Prop
  | dec (n : Nat) (h : n < 10) : HexDigit (Char.ofNat (48 + n)) n
  | lower (n : Nat) (h : n < 6) : HexDigit (Char.ofNat (97 + n)) (10 + n)
  | upper (n : Nat) (h : n < 6) : HexDigit (Char.ofNat (65 + n)) (10 + n)

/-- The letters with a meaning of their own, and their bytes. -/
def letters : List (Char × Nat) := [('a', 7), ('b', 8), ('e', 27), ('n', 10), ('t', 9), ('\\', 92), ('\'', 39), ('"', 34)]

/-- The text of a piece stands for these bytes. -/
inductive Piece.Means : Piece → CStr → Nat → Prop
  | lit (c : Char) (h : c ≠ '\\') : Means (.lit c) [c] c.toNat
  | esc {c : Char} {n : Nat} (h : (c, n) ∈ letters) : Means (.esc c) ['\\', c] n
  | hex {a b : Char} {x y : Nat} (ha : HexDigit a x) (hb : HexDigit b y) : Means (.hex a b) ['\\', 'x', a, b] (x * 16 + y)
  | oct {x y z : Nat} (hx : x < 8) (hy : y < 8) (hz : z < 8) :
      Means (.oct (Char.ofNat (48 + x)) (Char.ofNat (48 + y)) (Char.ofNat (48 + z)))
        ['\\', Char.ofNat (48 + x), Char.ofNat (48 + y), Char.ofNat (48 + z)] ((x * 64 + y * 8 + z) % 256)

/-- A whole argument. -/
inductive Means : List Piece → CStr → List Nat → Prop
  | nil : Means [] [] []
  | cons {p : Piece} {ps : List Piece} {t ts : CStr} {n : Nat} {ns : List Nat} (h : p.Means t n) (hs : Means ps ts ns) :
      Means (p :: ps) (t ++ ts) (n :: ns)

/-- Every argument made of documented pieces is written as the bytes it stands for, and no argument is read past
    its end. -/
def C45_full : Prop :=
  (∀ ps arg out, Means ps arg out → writeArg arg = ⟨out, false⟩) ∧ ∀ arg, (writeArg arg).wild = false

/-- Pieces the writer knows: a hexadecimal escape must not use the digits 8 and 9. -/
def Piece.Known : Piece → Prop
  | .hex a b => a ≠ '8' ∧ a ≠ '9' ∧ b ≠ '8' ∧ b ≠ '9'
  | _ => True

/-! ## C45: proof -/

theorem loop_nil (n : Nat) : writeArgLoop n [] = ⟨[], false⟩ := by cases n <;> rfl

theorem loop_lit {c : Char} (h : c ≠ '\\') : ∀ (n : Nat) (s : CStr),
    writeArgLoop n (c :: s) = ⟨c.toNat :: (writeArgLoop n s).bytes, (writeArgLoop n s).wild⟩
  | 0, s => rfl
  | n + 1, s => by
    have hd : decide (c ≠ '\\') = true := by simpa using h
    rw [writeArgLoop, writeArgLoop]
    simp only [List.takeWhile_cons, List.dropWhile_cons, hd, if_true, List.map_cons]
    split <;> rfl

theorem loop_esc (n : Nat) (c : Char) (rest : CStr) : writeArgLoop (n + 1) ('\\' :: c :: rest) =
    ⟨(escape c rest).1 ++ (writeArgLoop n ((c :: rest).drop (escape c rest).2)).bytes,
     (writeArgLoop n ((c :: rest).drop (escape c rest).2)).wild⟩ := by
  rw [writeArgLoop]
  have hd : decide ('\\' ≠ '\\') = false := by decide
  simp only [List.takeWhile_cons, List.dropWhile_cons, hd, Bool.false_eq_true, if_false, List.map_nil, List.nil_append]

theorem HexDigit.known {c : Char} {n : Nat} (h : HexDigit c n) (h8 : c ≠ '8') (h9 : c ≠ '9') :
    isHexish c = true ∧ hexVal c = n := by
  have all : (∀ n < 8, isHexish (Char.ofNat (48 + n)) = true ∧ hexVal (Char.ofNat (48 + n)) = n) ∧
      (∀ n < 6, isHexish (Char.ofNat (97 + n)) = true ∧ hexVal (Char.ofNat (97 + n)) = 10 + n) ∧
      (∀ n < 6, isHexish (Char.ofNat (65 + n)) = true ∧ hexVal (Char.ofNat (65 + n)) = 10 + n) := by decide +kernel
  cases h with
  | dec h =>
    rename_i hn
    have : n ≠ 8 := by rintro rfl; exact h8 (by decide)
    have : n ≠ 9 := by rintro rfl; exact h9 (by decide)
    exact all.1 n (by omega)
  | lower n h => exact all.2.1 n h
  | upper n h => exact all.2.2 n h

theorem HexDigit.lt {c : Char} {n : Nat} (h : HexDigit c n) : n < 16 := by
  cases h <;> omega

theorem octal_facts : ∀ n < 8, isOct (Char.ofNat (48 + n)) = true ∧ (Char.ofNat (48 + n)).toNat - 48 = n ∧
    Char.ofNat (48 + n) ≠ 'x' := by decide +kernel

theorem escape_letter : ∀ p ∈ letters, p.1 ≠ 'x' ∧ isOct p.1 = false ∧ escByte p.1 = p.2 := by decide +kernel

theorem writeArgLoop_means {ps : List Piece} {arg : CStr} {out : List Nat} (h : Means ps arg out)
    (hk : ∀ p ∈ ps, p.Known) : ∀ n, arg.length ≤ n → writeArgLoop n arg = ⟨out, false⟩ := by
  induction h with
  | nil => intro n _; exact loop_nil n
  | @cons p ps t ts b ns hp hs ih =>
    intro n hn
    have ih := ih fun p hp => hk p (List.mem_cons_of_mem _ hp)
    have hkn := hk _ List.mem_cons_self
    cases hp with
    | lit c hc =>
      rw [List.cons_append, List.nil_append, loop_lit hc, ih n (by simp at hn; omega)]
    | @esc c n' hc =>
      obtain ⟨n, rfl⟩ : ∃ m, n = m + 1 := ⟨n - 1, by simp at hn; omega⟩
      obtain ⟨h1, h2, h3⟩ := escape_letter _ hc
      have e : escape c ts = ([b], 1) := by
        unfold escape
        rw [if_neg h1, h2]
        simp only [Bool.false_eq_true, if_false]
        rw [h3]
      show writeArgLoop (n + 1) ('\\' :: c :: ts) = _
      rw [loop_esc, e]
      show (⟨[b] ++ (writeArgLoop n ts).bytes, (writeArgLoop n ts).wild⟩ : Written') = _
      rw [ih n (by simp at hn; omega)]; rfl
    | @hex a b' x y ha hb =>
      obtain ⟨n, rfl⟩ : ∃ m, n = m + 1 := ⟨n - 1, by simp at hn; omega⟩
      obtain ⟨k1, k2, k3, k4⟩ := hkn
      obtain ⟨a1, a2⟩ := ha.known k1 k2
      obtain ⟨b1, b2⟩ := hb.known k3 k4
      have hx := ha.lt
      have hy := hb.lt
      have hu : upTo isHexish 2 (a :: b' :: ts) = [a, b'] := by simp [upTo, a1, b1]
      have e : escape 'x' (a :: b' :: ts) = ([x * 16 + y], 3) := by
        unfold escape
        rw [if_pos rfl]
        unfold writeHex
        rw [hu]
        simp only [List.cons_ne_nil, if_false, List.foldl_cons, List.foldl_nil, a2, b2]
        rw [Nat.mod_eq_of_lt (by omega)]
        simp
      show writeArgLoop (n + 1) ('\\' :: 'x' :: a :: b' :: ts) = _
      rw [loop_esc, e]
      show (⟨[x * 16 + y] ++ (writeArgLoop n ts).bytes, (writeArgLoop n ts).wild⟩ : Written') = _
      rw [ih n (by simp at hn; omega)]; rfl
    | @oct x y z hx hy hz =>
      obtain ⟨n, rfl⟩ : ∃ m, n = m + 1 := ⟨n - 1, by simp at hn; omega⟩
      obtain ⟨x1, x2, x3⟩ := octal_facts x hx
      obtain ⟨y1, y2, _⟩ := octal_facts y hy
      obtain ⟨z1, z2, _⟩ := octal_facts z hz
      generalize Char.ofNat (48 + x) = cx at *
      generalize Char.ofNat (48 + y) = cy at *
      generalize Char.ofNat (48 + z) = cz at *
      have hu : upTo isOct 3 (cx :: cy :: cz :: ts) = [cx, cy, cz] := by simp [upTo, x1, y1, z1]
      have e : escape cx (cy :: cz :: ts) = ([(x * 64 + y * 8 + z) % 256], 3) := by
        unfold escape
        rw [if_neg x3, x1]
        simp only [if_true]
        unfold writeNum
        rw [hu]
        simp only [List.cons_ne_nil, if_false, List.foldl_cons, List.foldl_nil, x2, y2, z2, List.length_cons,
          List.length_nil]
        congr 3
        omega
      show writeArgLoop (n + 1) ('\\' :: cx :: cy :: cz :: ts) = _
      rw [loop_esc, e]
      show (⟨[_] ++ (writeArgLoop n ts).bytes, (writeArgLoop n ts).wild⟩ : Written') = _
      rw [ih n (by simp at hn; omega)]; rfl

/-- An argument made of documented pieces without the hexadecimal digits 8 and 9 is written as the bytes it stands
    for, and not read past its end. -/
theorem C45_decoded_partial (ps : List Piece) (arg : CStr) (out : List Nat) (h : Means ps arg out)
    (hk : ∀ p ∈ ps, p.Known) : writeArg arg = ⟨out, false⟩ :=
  writeArgLoop_means h hk _ (Nat.le_refl _)

example : writeArg "a\\x4f\\101\\n".toList = ⟨[97, 79, 65, 10], false⟩ := by decide +kernel

example : Means [.lit 'a', .esc 'n', .oct '1' '0' '1'] (['a'] ++ (['\\', 'n'] ++ (['\\', '1', '0', '1'] ++ []))) [97, 10, 65] :=
  .cons (.lit 'a' (by decide)) (.cons (.esc (by decide)) (.cons (.oct (x := 1) (y := 0) (z := 1) (by decide) (by decide) (by decide)) .nil))

theorem escape_pos (c : Char) (rest : CStr) : 1 ≤ (escape c rest).2 := by
  unfold escape
  split
  · simp
  · split
    · rename_i h
      unfold writeNum
      have : upTo isOct 3 (c :: rest) ≠ [] := by simp [upTo, h]
      rw [if_neg this]
      cases hu : upTo isOct 3 (c :: rest) with
      | nil => exact absurd hu this
      | cons a l => simp
    · simp

/-- The argument is read past its end only when it ends in a backslash. -/
theorem C45_stays_inside (arg : CStr) (h : (writeArg arg).wild = true) : arg.getLast? = some '\\' := by
  suffices ∀ n s, (writeArgLoop n s).wild = true → s.getLast? = some '\\' from this _ _ h
  intro n
  induction n with
  | zero => intro s h; cases h
  | succ n ih =>
    intro s
    induction s with
    | nil => intro h; cases h
    | cons c s ihs =>
      intro h
      by_cases hc : c = '\\'
      · subst hc
        cases s with
        | nil => rfl
        | cons d rest =>
          rw [loop_esc] at h
          have := ih _ h
          have hsub : ((d :: rest).drop (escape d rest).2).getLast? = (d :: rest).getLast? := by
            rw [List.getLast?_drop, if_neg]
            intro hle
            rw [List.drop_of_length_le (by omega)] at this
            cases this
          rw [hsub] at this
          rw [List.getLast?_cons_cons]
          exact this
      · rw [loop_lit hc] at h
        have := ihs h
        cases s with
        | nil => cases this
        | cons d rest => rw [List.getLast?_cons_cons]; exact this

/-- Two pieces of the promise fail: the digits 8 and 9 are not known, and a backslash at the end of the argument
    makes the writer go on behind it.  -/
theorem C45_hex_and_trailing_backslash : ¬ C45_full ∧ writeArg "\\x80".toList = ⟨"x80".toList.map Char.toNat, false⟩ ∧
    (writeArg "abc\\".toList).wild = true := by
  have h : (writeArg "abc\\".toList).wild = true := by decide +kernel
  refine ⟨fun H => ?_, by decide +kernel, h⟩
  have := H.2 "abc\\".toList
  rw [h] at this
  cases this

/-- A `w` line whose path matches several files writes only the text before the first escape into all but the
    first of them, because the argument has been cut there. -/
theorem C45_second_file_cut (arg : CStr) : writeArg (afterWriteArg arg) =
    ⟨(arg.takeWhile fun c => decide (c ≠ '\\')).map Char.toNat, false⟩ := by
  have : ∀ s : CStr, (∀ c ∈ s, c ≠ '\\') → ∀ n, writeArgLoop n s = ⟨s.map Char.toNat, false⟩ := by
    intro s
    induction s with
    | nil => intro _ n; exact loop_nil n
    | cons c s ih =>
      intro h n
      rw [loop_lit (h c List.mem_cons_self), ih (fun x hx => h x (List.mem_cons_of_mem _ hx))]
      rfl
  refine this _ ?_ _
  intro c hc
  have := List.all_takeWhile (l := arg) (p := fun c => decide (c ≠ '\\'))
  rw [List.all_eq_true] at this
  exact of_decide_eq_true (this c hc)

end Verif
