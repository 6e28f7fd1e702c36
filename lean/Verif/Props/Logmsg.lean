import Verif.Logmsg
import Verif.Props.Output

/-!
# C102: the message given to `logit`
-/

namespace Verif

/-! ## Specification -/

/-- How much room words take, each with a blank behind it -/
def lmSize (ws : List CStr) : Nat := (ws.map fun w => w.length + 1).sum

/-- C102 as stated: the words, with blanks in between, are logged as one message, with the level that was asked for.  It is false. -/
def C102_full : Prop :=
  ∀ user (cfg : LogitCfg) (fac lvl : Nat) input, cfg.words ≠ [] → cfg.fac = fac → fac ≠ 0 → fac % 8 = 0 → cfg.lvl = lvl → lvl < 8 →
    ∃ m blank, lmRun user cfg input = some [m] ∧ (blank = [] ∨ blank = [' ']) ∧ m.text = List.intercalate [' '] cfg.words ++ blank ∧
      m.pri = fac + lvl ∧ m.tag = cfg.ident.getD user

/-! ## Lemmas -/

theorem flatMap_intercalate : ∀ {ws : List CStr}, ws ≠ [] → ws.flatMap (· ++ [' ']) = List.intercalate [' '] ws ++ [' ']
  | [], h => absurd rfl h
  | [w], _ => by simp [List.intercalate]
  | w :: v :: ws, _ => by
    have := flatMap_intercalate (ws := v :: ws) (by simp)
    rw [List.flatMap_cons, this]
    simp [List.intercalate]

theorem lmSize_length (ws : List CStr) : (ws.flatMap (· ++ [' '])).length = lmSize ws := by
  induction ws with
  | nil => rfl
  | cons w ws ih =>
    rw [List.flatMap_cons, List.length_append, ih]
    simp [lmSize]

/-- What is in the buffer after some words, and where the next one goes -/
structure LmInv (done : List CStr) (b : LmBuf) : Prop where
  pos : b.pos = lmSize done
  len : b.pos ≤ 512 → b.len = 512 - b.pos
  text : b.text = (done.flatMap (· ++ [' '])).take 511

theorem lmInv_word {done : List CStr} {b : LmBuf} (h : LmInv done b) (w : CStr) (hw : w.length < 18446744073709551000) :
    (512 < lmSize done ∧ lmWord b w = none) ∨ (lmSize done ≤ 512 ∧ ∃ b', lmWord b w = some b' ∧ LmInv (done ++ [w]) b') := by
  by_cases hp : 512 < b.pos
  · exact .inl ⟨by rw [← h.pos]; exact hp, if_pos hp⟩
  · refine .inr ⟨by rw [← h.pos]; omega, _, if_neg hp, ?_, ?_, ?_⟩
    · dsimp only
      rw [h.pos]
      simp [lmSize]
    · dsimp only
      intro hb
      rw [h.len (by omega)]
      omega
    · dsimp only
      have hl := h.len (by omega)
      have hlen : (done.flatMap (· ++ [' '])).length = b.pos := by rw [lmSize_length, h.pos]
      rw [List.flatMap_append, List.flatMap_singleton,
        List.take_append (l₁ := done.flatMap (· ++ [' '])), hlen]
      split
      · rename_i h0
        have : 511 - b.pos = 0 := by omega
        rw [this, h.text]
        simp
      · rename_i h0
        have e : b.len - 1 = 511 - b.pos := by omega
        rw [h.text, List.take_of_length_le (by omega : (done.flatMap (· ++ [' '])).length ≤ 511),
          List.take_of_length_le (by omega : (done.flatMap (· ++ [' '])).length ≤ b.pos), e]

theorem lmSize_append (a b : List CStr) : lmSize (a ++ b) = lmSize a + lmSize b := by simp [lmSize]

theorem lmWords_inv (ws : List CStr) (hw : ∀ w ∈ ws, w.length < 18446744073709551000) : ∀ (done : List CStr) (b : LmBuf), LmInv done b →
    (ws ≠ [] ∧ 512 < lmSize (done ++ ws.dropLast) ∧ lmWords ws b = none) ∨
    ((ws = [] ∨ lmSize (done ++ ws.dropLast) ≤ 512) ∧ ∃ b', lmWords ws b = some b' ∧ LmInv (done ++ ws) b') := by
  induction ws with
  | nil => exact fun done b h => .inr ⟨.inl rfl, b, rfl, by simpa using h⟩
  | cons w ws ih =>
    intro done b h
    have hdl : lmSize done ≤ lmSize (done ++ (w :: ws).dropLast) := by rw [lmSize_append]; omega
    rcases lmInv_word h w (hw w List.mem_cons_self) with ⟨h1, h2⟩ | ⟨h1, b', h2, h3⟩
    · refine .inl ⟨by simp, by omega, ?_⟩
      show (lmWord b w).bind (lmWords ws) = none
      rw [h2]; rfl
    · have e : lmWords (w :: ws) b = lmWords ws b' := by
        show (lmWord b w).bind (lmWords ws) = _
        rw [h2]; rfl
      rw [e]
      have ih := ih (fun x hx => hw x (List.mem_cons_of_mem _ hx)) _ b' h3
      cases ws with
      | nil =>
        refine .inr ⟨.inr ?_, b', rfl, h3⟩
        simpa using h1
      | cons v vs =>
        rw [List.append_assoc, List.append_assoc] at ih
        rcases ih with ⟨i1, i2, i3⟩ | ⟨i1, i2⟩
        · exact .inl ⟨by simp, i2, i3⟩
        · refine .inr ⟨.inr ?_, i2⟩
          rcases i1 with i1 | i1
          · cases i1
          · exact i1

/-! ## Theorems -/

/-- **C102, overflow.**  `logit` writes behind the end of its buffer, on the stack, exactly if the words before the last one take more
    than 512 bytes.  Words are shorter than the address space. -/
theorem C102_overflow (ws : List CStr) (hw : ∀ w ∈ ws, w.length < 18446744073709551000) :
    lmWords ws {} = none ↔ 512 < lmSize ws.dropLast := by
  rcases lmWords_inv ws hw [] {} ⟨rfl, fun _ => rfl, rfl⟩ with ⟨-, h2, h3⟩ | ⟨h1, b, h2, -⟩
  · exact ⟨fun _ => h2, fun _ => h3⟩
  · rw [h2]
    refine ⟨(fun h => by cases h), fun h => ?_⟩
    rcases h1 with rfl | h1
    · exact absurd h (by decide)
    · exact absurd h (by simpa using h1)

/-- **C102, length.**  Otherwise the first 511 bytes of the words are logged, each word with a blank behind it. -/
theorem C102_cut (ws : List CStr) (b : LmBuf) (hw : ∀ w ∈ ws, w.length < 18446744073709551000) (h : lmWords ws {} = some b) :
    b.text = (ws.flatMap (· ++ [' '])).take 511 := by
  rcases lmWords_inv ws hw [] {} ⟨rfl, fun _ => rfl, rfl⟩ with ⟨-, -, h3⟩ | ⟨-, b', h2, h3⟩
  · rw [h3] at h; cases h
  · rw [h2] at h
    cases h
    exact h3.text

/-- Missing from the full statement: messages of more than 510 bytes, and those that begin with a level as in `<3>`.  All others are
    logged whole, as one message, with the facility and the level that were asked for. -/
theorem C102_logged_partial (user : CStr) (cfg : LogitCfg) (fac lvl : Nat) (input : CStr) (hne : cfg.words ≠ [])
    (hfac : cfg.fac = fac) (h0 : fac ≠ 0) (hlvl : cfg.lvl = lvl) (hl8 : lvl < 8)
    (hsz : (List.intercalate [' '] cfg.words).length ≤ 510) (hm : (List.intercalate [' '] cfg.words).head? ≠ some '<') :
    lmRun user cfg input =
      some [{ tag := cfg.ident.getD user, pri := fac + lvl, text := List.intercalate [' '] cfg.words ++ [' '] }] := by
  have hfm := flatMap_intercalate hne
  have hlen : lmSize cfg.words ≤ 511 := by
    rw [← lmSize_length, hfm]
    simp only [List.length_append, List.length_singleton]
    omega
  have hw : ∀ w ∈ cfg.words, w.length < 18446744073709551000 := by
    intro w hw
    obtain ⟨a, b, e⟩ := List.append_of_mem hw
    rw [e, lmSize_append] at hlen
    simp [lmSize] at hlen
    omega
  have hd : lmSize cfg.words.dropLast ≤ lmSize cfg.words := by
    have : cfg.words = cfg.words.dropLast ++ [cfg.words.getLast hne] := (List.dropLast_concat_getLast hne).symm
    rw (occs := .pos [2]) [this]
    rw [lmSize_append]
    omega
  cases hb : lmWords cfg.words {} with
  | none => exact absurd ((C102_overflow _ hw).mp hb) (by omega)
  | some b =>
    have ht : b.text = List.intercalate [' '] cfg.words ++ [' '] := by
      rw [C102_cut _ b hw hb, List.take_of_length_le (by rw [lmSize_length]; exact hlen), hfm]
    have hmark : ∀ d, markLevel d b.text = (d, b.text) := by
      intro d
      rw [ht]
      generalize List.intercalate [' '] cfg.words = t at hm
      cases t with
      | nil => rfl
      | cons c t =>
        have hc : c ≠ '<' := by
          rintro rfl
          exact hm rfl
        show markLevel d (c :: (t ++ [' '])) = _
        unfold markLevel
        split
        · rename_i e
          exact absurd (List.cons.inj e).1 hc
        · rfl
    unfold lmRun
    rw [hb]
    dsimp only
    rw [if_neg (by rw [ht]; simp), hmark, hfac, hlvl]
    have : sysPri (fac : Int).toNat (lvl : Int).toNat = fac + lvl := by
      unfold sysPri openFac
      rw [Int.toNat_natCast, Int.toNat_natCast, if_pos (by omega), if_neg h0]
      omega
    dsimp only
    rw [this, ht]

/-- **C102, false.**  Two words are enough to write behind the buffer. -/
theorem C102_full_false : ¬ C102_full := by
  intro h
  obtain ⟨m, blank, h1, -⟩ := h [] { words := [List.replicate 512 'a', ['b']] } 8 6 [] (by decide) rfl (by decide) rfl rfl (by decide)
  have : lmRun [] { words := [List.replicate 512 'a', ['b']] } [] = none := by decide +kernel
  rw [this] at h1
  cases h1

/-- A message may have its own level at its start, that is not logged -/
theorem C102_level : lmRun "joe".toList { words := ["<3>oops".toList] } [] =
    some [{ tag := "joe".toList, pri := 8 + 3, text := "oops ".toList }] := by decide +kernel

/-! ## Examples -/

example : let cfg : LogitCfg := { words := ["disk".toList, "is".toList, "full".toList], fac := 24, lvl := 4, ident := some "df".toList }
    cfg.words ≠ [] ∧ (List.intercalate [' '] cfg.words).length ≤ 510 ∧ (List.intercalate [' '] cfg.words).head? ≠ some '<' ∧
    lmRun "joe".toList cfg [] = some [{ tag := "df".toList, pri := 28, text := "disk is full ".toList }] := by decide +kernel

example : (∀ w ∈ [List.replicate 600 'a'], w.length < 18446744073709551000) ∧
    ∃ b, lmWords [List.replicate 600 'a'] {} = some b ∧ b.text = List.replicate 511 'a' := ⟨by decide +kernel, _, rfl, by decide +kernel⟩

end Verif
