import Verif.Sulogin

/-!
# C73: a maintenance shell is given to those who know root's password
-/

namespace Verif

/-! ## Specification -/

/-- The text of a file with these lines, none of them longer than the buffer -/
def TextFile (lines : List CStr) (text : List Char) : Prop :=
  text = lines.flatMap (· ++ ['\n']) ∧ ∀ l ∈ lines, '\n' ∉ l ∧ l.length < 255

/-- A line of passwd(5) or shadow(5) for the user `name` with this password -/
def PwEntry (name pass line : CStr) : Prop := ∃ rest, line = name ++ ':' :: (pass ++ ':' :: rest) ∧ ':' ∉ name ∧ ':' ∉ pass

/-- The first line for the user -/
def FirstEntry (name pass : CStr) (lines : List CStr) : Prop :=
  ∃ pre l post, lines = pre ++ l :: post ∧ PwEntry name pass l ∧ ∀ x ∈ pre, ¬ (name ++ [':']) <+: x

/-- No password is needed: there is none, or the account is locked -/
def NoPass (hash : CStr) : Prop := hash = [] ∨ hash.head? = some '*' ∨ hash.head? = some '!'

/-- Somebody types a password and presses enter, or types as much as is read at once -/
def Types (pw : CStr) (input rest : List Char) : Prop :=
  (∀ c ∈ pw, c ≠ '\n' ∧ c ≠ '\r' ∧ c ≠ Char.ofNat 4) ∧
  ((pw.length < 255 ∧ ∃ nl, (nl = '\n' ∨ nl = '\r') ∧ input = pw ++ nl :: rest) ∨ (pw.length = 255 ∧ input = pw ++ rest))

/-- Somebody types the right password, maybe after some wrong ones -/
inductive Tries (good : CStr → Prop) : List Char → Prop
  | hit {pw input rest} : Types pw input rest → good pw → Tries good input
  | miss {pw input rest} : Types pw input rest → ¬ good pw → Tries good rest → Tries good input

/-- Who may enter: with no password needed, who presses any key but Ctrl-D, else who types the password -/
def MayEnter (crypt : CStr → CStr → Option CStr) (hash : CStr) (tty : Bool) (input : List Char) : Prop :=
  (NoPass hash ∧ ∃ c rest, input = c :: rest ∧ c ≠ Char.ofNat 4) ∨
  (¬ NoPass hash ∧ tty = true ∧ Tries (fun pw => crypt (pw.takeWhile (· ≠ Char.ofNat 0)) hash = some hash) input)

/-- The password of root, in passwd(5) or, if that says so, in shadow(5) -/
def RootHash (users shadow : List CStr) (hash : CStr) : Prop :=
  ∃ p, FirstEntry "root".toList p users ∧ ((p = hash ∧ p ≠ ['x']) ∨ (p = ['x'] ∧ FirstEntry "root".toList hash shadow))

/-- The full claim of C73 -/
def C73_full : Prop := ∀ crypt users shadow ptext stext hash tty input, TextFile users ptext → TextFile shadow stext →
  RootHash users shadow hash →
  (sulogin crypt (some ptext) (some stext) tty input = .shell ↔ MayEnter crypt hash tty input)

/-! ## Lemmas -/

theorem fgetsOne_line : ∀ {l : CStr} {k : Nat} {s : List Char}, '\n' ∉ l → l.length < k → fgetsOne k (l ++ '\n' :: s) = (l ++ ['\n'], s)
  | [], k + 1, s, _, _ => by rw [List.nil_append, fgetsOne, if_pos rfl]; rfl
  | c :: l, k + 1, s, h, hl => by
    have hc : c ≠ '\n' := fun e => h (e ▸ List.mem_cons_self)
    rw [List.length_cons] at hl
    rw [List.cons_append, fgetsOne, if_neg hc, fgetsOne_line (fun h' => h (List.mem_cons_of_mem _ h')) (by omega)]
    rfl

theorem fgetsAll_file : ∀ {lines : List CStr} {text : List Char}, TextFile lines text → fgetsAll text = lines.map (· ++ ['\n'])
  | [], text, h => by
    rw [h.1, List.flatMap_nil, fgetsAll]; rfl
  | l :: ls, text, h => by
    obtain ⟨e, hl⟩ := h
    obtain ⟨h1, h2⟩ := hl l List.mem_cons_self
    have ih := fgetsAll_file (lines := ls) (text := _) ⟨rfl, fun x hx => hl x (List.mem_cons_of_mem _ hx)⟩
    rw [List.flatMap_cons, List.append_assoc] at e
    have hone : fgetsOne 255 text = (l ++ ['\n'], ls.flatMap (· ++ ['\n'])) := by
      rw [e]; exact fgetsOne_line h1 h2
    cases text with
    | nil => cases l <;> cases e
    | cons c s =>
      rw [fgetsAll, hone, ih]
      rfl

theorem strsepColon_some : ∀ {a b : CStr}, ':' ∉ a → strsepColon (a ++ ':' :: b) = (a, some b)
  | [], b, _ => by rw [List.nil_append, strsepColon, if_pos rfl]
  | c :: a, b, h => by
    have hc : c ≠ ':' := fun e => h (e ▸ List.mem_cons_self)
    rw [List.cons_append, strsepColon, if_neg hc, strsepColon_some (fun h' => h (List.mem_cons_of_mem _ h'))]

theorem strsepColon_spec : ∀ (s : CStr), (∃ b, (strsepColon s).2 = some b ∧ s = (strsepColon s).1 ++ ':' :: b) ∨
    ((strsepColon s).2 = none ∧ (strsepColon s).1 = s)
  | [] => .inr ⟨rfl, rfl⟩
  | c :: s => by
    rw [strsepColon]
    split
    · rename_i h
      exact .inl ⟨s, rfl, by rw [h]; rfl⟩
    · rcases strsepColon_spec s with ⟨b, h1, h2⟩ | ⟨h1, h2⟩
      · exact .inl ⟨b, h1, by dsimp only; rw [List.cons_append, ← h2]⟩
      · exact .inr ⟨h1, by dsimp only; rw [h2]⟩

/-- The loop over /etc/passwd finds the entry -/
theorem passwdLoop_eq {p : CStr} {lines : List CStr} (h : FirstEntry "root".toList p lines) (n : Option CStr) :
    passwdLoop (lines.map (· ++ ['\n'])) n = (some "root".toList, if p.head? = some 'x' then none else some p) := by
  obtain ⟨pre, l, post, rfl, ⟨rest, hl, hn, hp⟩, hpre⟩ := h
  induction pre generalizing n with
  | nil =>
    rw [List.nil_append, List.map_cons, passwdLoop, hl]
    have e : "root".toList ++ ':' :: (p ++ ':' :: rest) ++ ['\n'] = "root".toList ++ ':' :: (p ++ ':' :: (rest ++ ['\n'])) := by simp
    rw [e, strsepColon_some hn]
    dsimp only
    rw [if_neg (fun h => h rfl), strsepColon_some hp]
  | cons x pre ih =>
    rw [List.cons_append, List.map_cons, passwdLoop]
    dsimp only
    rw [if_pos]
    · exact ih _ (fun y hy => hpre y (List.mem_cons_of_mem _ hy))
    · intro e
      rcases strsepColon_spec (x ++ ['\n']) with ⟨b, -, h2⟩ | ⟨-, h2⟩
      · rw [e] at h2
        apply hpre x List.mem_cons_self
        have hlen : ("root".toList ++ [':']).length ≤ x.length := by
          rcases List.eq_nil_or_concat b with rfl | ⟨b', z, rfl⟩
          · have := congrArg List.getLast? h2
            rw [List.getLast?_concat] at this
            cases this
          · have := congrArg List.length h2
            simp at this ⊢
            omega
        have h3 : "root".toList ++ [':'] <+: x ++ ['\n'] := ⟨b, by rw [h2]; simp⟩
        exact List.prefix_of_prefix_length_le h3 (List.prefix_append _ _) hlen
      · rw [e] at h2
        have := congrArg List.getLast? h2
        rw [List.getLast?_concat] at this
        cases this

theorem shadowLoop_eq {name user hash : CStr} {l : CStr} {ls : List CStr} (h : PwEntry user hash l) (hn : '\n' ∉ name) :
    shadowLoop name ((l :: ls).map (· ++ ['\n'])) = .found hash := by
  obtain ⟨rest, hl, h1, h2⟩ := h
  rw [List.map_cons, shadowLoop, hl]
  have e : user ++ ':' :: (hash ++ ':' :: rest) ++ ['\n'] = user ++ ':' :: (hash ++ ':' :: (rest ++ ['\n'])) := by simp
  rw [e, strsepColon_some h1]
  dsimp only
  rw [if_neg, strsepColon_some h2]
  intro e
  exact hn (by rw [← e]; simp)

theorem readPwd_iff : ∀ (k : Nat) (input : List Char) (pw : CStr) (rest : List Char), readPwd k input = some (pw, rest) ↔
    (∀ c ∈ pw, c ≠ '\n' ∧ c ≠ '\r' ∧ c ≠ Char.ofNat 4) ∧
    ((pw.length < k ∧ ∃ nl, (nl = '\n' ∨ nl = '\r') ∧ input = pw ++ nl :: rest) ∨ (pw.length = k ∧ input = pw ++ rest))
  | 0, input, pw, rest => by
    rw [readPwd]
    constructor
    · intro h
      injection h with h
      injection h with h1 h2
      subst h1 h2
      exact ⟨fun c hc => (nomatch hc), .inr ⟨rfl, rfl⟩⟩
    · rintro ⟨-, ⟨h, -⟩ | ⟨h, e⟩⟩
      · omega
      · rw [List.length_eq_zero_iff.mp h] at e ⊢
        rw [e]; rfl
  | k + 1, [], pw, rest => by
    rw [readPwd]
    constructor
    · intro h; cases h
    · rintro ⟨-, ⟨-, nl, -, e⟩ | ⟨h, e⟩⟩
      · cases pw <;> cases e
      · cases pw with
        | nil => cases h
        | cons c pw => cases e
  | k + 1, c :: s, pw, rest => by
    rw [readPwd]
    by_cases h1 : c = '\n' ∨ c = '\r'
    · rw [if_pos h1]
      constructor
      · intro h
        injection h with h
        injection h with e1 e2
        subst e1 e2
        exact ⟨fun c hc => (nomatch hc), .inl ⟨Nat.succ_pos k, c, h1, rfl⟩⟩
      · rintro ⟨hc, ⟨-, nl, -, e⟩ | ⟨h, e⟩⟩
        · cases pw with
          | nil => injection e with e1 e2; rw [e2]
          | cons x pw =>
            injection e with e1 e2
            subst e1
            have := hc c List.mem_cons_self
            rcases h1 with h1 | h1
            · exact absurd h1 this.1
            · exact absurd h1 this.2.1
        · cases pw with
          | nil => cases h
          | cons x pw =>
            injection e with e1 e2
            subst e1
            have := hc c List.mem_cons_self
            rcases h1 with h1 | h1
            · exact absurd h1 this.1
            · exact absurd h1 this.2.1
    · rw [if_neg h1]
      by_cases h2 : c = Char.ofNat 4
      · rw [if_pos h2]
        constructor
        · intro h; cases h
        · rintro ⟨hc, ⟨-, nl, hnl, e⟩ | ⟨h, e⟩⟩
          · cases pw with
            | nil => injection e with e1 e2; exact absurd (e1 ▸ hnl) h1
            | cons x pw =>
              injection e with e1 e2
              exact absurd h2 (e1 ▸ (hc x List.mem_cons_self).2.2)
          · cases pw with
            | nil => cases h
            | cons x pw =>
              injection e with e1 e2
              exact absurd h2 (e1 ▸ (hc x List.mem_cons_self).2.2)
      · rw [if_neg h2]
        constructor
        · intro h
          obtain ⟨r, hr, e⟩ := Option.map_eq_some_iff.mp h
          injection e with e1 e2
          obtain ⟨ih1, ih2⟩ := (readPwd_iff k s r.1 r.2).mp hr
          subst e1 e2
          refine ⟨fun x hx => ?_, ?_⟩
          · rcases List.mem_cons.mp hx with rfl | hx
            · exact ⟨fun e => h1 (.inl e), fun e => h1 (.inr e), h2⟩
            · exact ih1 x hx
          · rcases ih2 with ⟨hl, nl, hnl, e⟩ | ⟨hl, e⟩
            · exact .inl ⟨Nat.succ_lt_succ hl, nl, hnl, by rw [List.cons_append, ← e]⟩
            · exact .inr ⟨by rw [List.length_cons, hl], by rw [List.cons_append, ← e]⟩
        · rintro ⟨hc, hor⟩
          cases pw with
          | nil =>
            rcases hor with ⟨-, nl, hnl, e⟩ | ⟨h, -⟩
            · injection e with e1 e2; exact absurd (e1 ▸ hnl) h1
            · cases h
          | cons x pw =>
            have hx : x = c := by
              rcases hor with ⟨-, nl, -, e⟩ | ⟨-, e⟩ <;> (injection e with e1 e2; exact e1.symm)
            subst hx
            have := (readPwd_iff k s pw rest).mpr ⟨fun y hy => hc y (List.mem_cons_of_mem _ hy), by
              rcases hor with ⟨hl, nl, hnl, e⟩ | ⟨hl, e⟩
              · injection e with _ e2
                exact .inl ⟨Nat.lt_of_succ_lt_succ hl, nl, hnl, e2⟩
              · injection e with _ e2
                exact .inr ⟨Nat.succ.inj hl, e2⟩⟩
            rw [this]; rfl

theorem askLoop_iff (crypt : CStr → CStr → Option CStr) (hash : CStr) : ∀ (n : Nat) (input : List Char), input.length ≤ n →
    (askLoop crypt hash input = .shell ↔ Tries (fun pw => crypt (pw.takeWhile (· ≠ Char.ofNat 0)) hash = some hash) input) := by
  intro n
  induction n with
  | zero =>
    intro input hn
    rw [List.length_eq_zero_iff.mp (Nat.le_zero.mp hn), askLoop]
    constructor
    · intro h; cases h
    · intro h
      have : ∀ pw rest, ¬ Types pw [] rest := by
        rintro pw rest ⟨-, ⟨-, nl, -, e⟩ | ⟨hl, e⟩⟩
        · cases pw <;> cases e
        · cases pw with
          | nil => cases hl
          | cons c pw => cases e
      cases h with
      | hit h _ => exact absurd h (this _ _)
      | miss h _ _ => exact absurd h (this _ _)
  | succ n ih =>
    intro input hn
    rw [askLoop]
    cases hr : readPwd 255 input with
    | none =>
      dsimp only
      have hno : ∀ pw rest, ¬ Types pw input rest := fun pw rest ht => by
        rw [(readPwd_iff 255 input pw rest).mpr ht] at hr; cases hr
      constructor
      · intro h; cases h
      · intro h
        cases h with
        | hit h _ => exact absurd h (hno _ _)
        | miss h _ _ => exact absurd h (hno _ _)
    | some r =>
      obtain ⟨pwd, rest⟩ := r
      have ht : Types pwd input rest := (readPwd_iff 255 input pwd rest).mp hr
      have hun : ∀ pw' rest', Types pw' input rest' → pw' = pwd ∧ rest' = rest := fun pw' rest' ht' => by
        have := (readPwd_iff 255 input pw' rest').mpr ht'
        rw [hr] at this
        injection this with this
        injection this with e1 e2
        exact ⟨e1.symm, e2.symm⟩
      have hlt := readPwd_lt 254 input _ hr
      dsimp only at hlt ⊢
      split
      · rename_i hg
        exact ⟨fun _ => .hit ht hg, fun _ => rfl⟩
      · rename_i hg
        rw [ih rest (by omega)]
        constructor
        · exact fun h => .miss ht hg h
        · intro h
          cases h with
          | hit h1 h2 => obtain ⟨rfl, rfl⟩ := hun _ _ h1; exact absurd h2 hg
          | miss h1 _ h3 => obtain ⟨rfl, rfl⟩ := hun _ _ h1; exact h3

theorem sulogin_iff {crypt : CStr → CStr → Option CStr} {passwd shadow : Option (List Char)} {hash : CStr} {tty : Bool}
    {input : List Char} (h : getPasswd passwd shadow = .found hash) :
    sulogin crypt passwd shadow tty input = .shell ↔ MayEnter crypt hash tty input := by
  unfold sulogin MayEnter NoPass
  rw [h]
  dsimp only
  split
  · rename_i hp
    cases input with
    | nil =>
      constructor
      · intro h; cases h
      · rintro (⟨-, c, rest, e, -⟩ | ⟨h, -⟩)
        · cases e
        · exact absurd hp h
    | cons c rest =>
      dsimp only
      constructor
      · intro h
        split at h
        · cases h
        · rename_i hc
          exact .inl ⟨hp, c, rest, rfl, hc⟩
      · rintro (⟨-, c', rest', e, hc⟩ | ⟨h, -⟩)
        · injection e with e1 e2
          rw [if_neg (e1 ▸ hc)]
        · exact absurd hp h
  · rename_i hp
    cases tty with
    | false =>
      rw [if_pos rfl]
      constructor
      · intro h; cases h
      · rintro (⟨h, -⟩ | ⟨-, h, -⟩)
        · exact absurd h hp
        · cases h
    | true =>
      rw [if_neg (by decide), askLoop_iff crypt hash _ input (Nat.le_refl _)]
      exact ⟨fun h => .inr ⟨hp, rfl, h⟩, fun h => h.elim (fun h => absurd h.1 hp) (fun h => h.2.2)⟩

/-! ## The property -/

/-- **C73, part.** With root's password in shadow(5), and first in it, or in passwd(5) and not beginning with `x`: a shell is
    given to those who know it, or to anybody if there is none or the account is locked.

    Missing: shadow(5) files in which root is not first, lines longer than 254 bytes. -/
theorem C73_partial {crypt : CStr → CStr → Option CStr} {users shadow : List CStr} {ptext stext : List Char} {hash p : CStr} {tty : Bool}
    {input : List Char} (hu : TextFile users ptext) (hs : TextFile shadow stext) (hp : FirstEntry "root".toList p users)
    (h : (p = hash ∧ p.head? ≠ some 'x') ∨ (p = ['x'] ∧ ∃ l ls, shadow = l :: ls ∧ PwEntry "root".toList hash l)) :
    sulogin crypt (some ptext) (some stext) tty input = .shell ↔ MayEnter crypt hash tty input := by
  apply sulogin_iff
  unfold getPasswd
  dsimp only
  rw [fgetsAll_file hu, passwdLoop_eq hp]
  rcases h with ⟨rfl, hx⟩ | ⟨rfl, l, ls, rfl, hl⟩
  · rw [if_neg hx]
  · rw [if_pos (show (['x'] : CStr).head? = some 'x' from rfl)]
    dsimp only
    rw [fgetsAll_file hs]
    exact shadowLoop_eq hl (by decide)

/-- With root's password in shadow(5), what counts is the password of the first user there, whoever that is. -/
theorem C73_first {crypt : CStr → CStr → Option CStr} {users shadow : List CStr} {ptext stext : List Char} {user hash p l : CStr}
    {tty : Bool} {input : List Char} (hu : TextFile users ptext) (hs : TextFile (l :: shadow) stext)
    (hp : FirstEntry "root".toList p users) (hx : p.head? = some 'x') (hl : PwEntry user hash l) :
    sulogin crypt (some ptext) (some stext) tty input = .shell ↔ MayEnter crypt hash tty input := by
  apply sulogin_iff
  unfold getPasswd
  dsimp only
  rw [fgetsAll_file hu, passwdLoop_eq hp, if_pos hx]
  dsimp only
  rw [fgetsAll_file hs]
  exact shadowLoop_eq hl (by decide)

/-- Without shadow(5), with a password that is not there, nobody gets a shell. -/
theorem C73_noshadow {crypt : CStr → CStr → Option CStr} {users : List CStr} {ptext : List Char} {p : CStr} {tty : Bool}
    {input : List Char} (hu : TextFile users ptext) (hp : FirstEntry "root".toList p users) (hx : p.head? = some 'x') :
    sulogin crypt (some ptext) none tty input = .fail := by
  unfold sulogin getPasswd
  dsimp only
  rw [fgetsAll_file hu, passwdLoop_eq hp, if_pos hx]

/-- Without passwd(5), or with an empty one, and with an empty shadow(5) and a password that is not in passwd(5), nobody gets a
    shell. -/
theorem C73_nofiles (crypt : CStr → CStr → Option CStr) (shadow : Option (List Char)) (tty : Bool) (input : List Char) :
    sulogin crypt none shadow tty input = .fail ∧ sulogin crypt (some []) shadow tty input = .fail ∧
    ∀ users ptext p, TextFile users ptext → FirstEntry "root".toList p users → p.head? = some 'x' →
      sulogin crypt (some ptext) (some []) tty input = .fail := by
  have h0 : fgetsAll [] = [] := by rw [fgetsAll]
  refine ⟨rfl, ?_, fun users ptext p hu hp hx => ?_⟩
  · unfold sulogin getPasswd
    dsimp only
    rw [h0]
    rfl
  · unfold sulogin getPasswd
    dsimp only
    rw [fgetsAll_file hu, passwdLoop_eq hp, if_pos hx]
    dsimp only
    rw [h0]
    rfl

/-! ### Where the claim fails -/

/-- Lines of a file -/
def linesText (ls : List String) : List Char := (ls.map String.toList).flatMap (· ++ ['\n'])

/-- A crypt(3) for examples -/
def toyCrypt (pw salt : CStr) : Option CStr := some (salt.take 3 ++ pw)

/-- The first user in shadow(5) is locked, as system users are: anybody who presses enter gets a shell for root. -/
theorem C73_locked : sulogin toyCrypt (some (linesText ["root:x:0:0:root:/root:/bin/sh"]))
    (some (linesText ["bin:*:19000:0:99999:7:::", "root:$6$secret:19000:0:99999:7:::"])) true "\n".toList = .shell := by
  decide +kernel

/-- The password of another user opens the shell, that of root does not. -/
theorem C73_other : let files : List String := ["joe:$6$joe:19000:0:99999:7:::", "root:$6$secret:19000:0:99999:7:::"]
    sulogin toyCrypt (some (linesText ["root:x:0:0:root:/root:/bin/sh"])) (some (linesText files)) true "joe\n".toList = .shell ∧
    sulogin toyCrypt (some (linesText ["root:x:0:0:root:/root:/bin/sh"])) (some (linesText files)) true "secret\n".toList = .goon := by
  decide +kernel

/-- Without an entry for root, the password of whoever is first in shadow(5) opens the shell. -/
theorem C73_noroot : sulogin toyCrypt (some (linesText ["joe:x:1000:1000::/home/joe:/bin/sh"]))
    (some (linesText ["joe:$6$joe:19000:0:99999:7:::"])) true "joe\n".toList = .shell := by
  decide +kernel

/-- A first line without colon: sulogin crashes. -/
theorem C73_crash : sulogin toyCrypt (some (linesText ["root:x:0:0:root:/root:/bin/sh"]))
    (some (linesText ["# users", "root:$6$secret:19000:0:99999:7:::"])) true "secret\n".toList = .crash := by
  decide +kernel

/-- A password in passwd(5) that begins with `x` is looked for in shadow(5). -/
theorem C73_x : sulogin toyCrypt (some (linesText ["root:xyJ4Rm0f5e/cE:0:0:root:/root:/bin/sh"])) (some (linesText ["bin:*:19000:0:99999:7:::"]))
    true "\n".toList = .shell := by
  decide +kernel

theorem C73_full_false : ¬ C73_full := fun h => by
  have hf : ∀ ls : List String, (∀ l ∈ ls.map String.toList, '\n' ∉ l ∧ l.length < 255) → TextFile (ls.map String.toList) (linesText ls) :=
    fun ls hl => ⟨rfl, hl⟩
  have := (h toyCrypt _ _ _ _ "$6$secret".toList true "\n".toList (hf ["root:x:0:0:root:/root:/bin/sh"] (by decide +kernel))
    (hf ["bin:*:19000:0:99999:7:::", "root:$6$secret:19000:0:99999:7:::"] (by decide +kernel))
    ⟨['x'], ⟨[], _, [], rfl, ⟨"0:0:root:/root:/bin/sh".toList, by decide +kernel, by decide, by decide⟩, fun x hx => (nomatch hx)⟩,
      .inr ⟨rfl, [_], _, [], rfl, ⟨"19000:0:99999:7:::".toList, by decide +kernel, by decide, by decide⟩, by decide +kernel⟩⟩).mp C73_locked
  rcases this with ⟨hn, -⟩ | ⟨-, -, ht⟩
  · revert hn
    unfold NoPass
    decide
  · have key : askLoop toyCrypt "$6$secret".toList "\n".toList = .shell := (askLoop_iff _ _ _ _ (Nat.le_refl _)).mpr ht
    revert key
    decide +kernel

/-! ### Examples -/

example : FirstEntry "root".toList ['x'] [ "bin:x:1:1:::".toList, "root:x:0:0:root:/root:/bin/sh".toList] :=
  ⟨[_], _, [], rfl, ⟨"0:0:root:/root:/bin/sh".toList, by decide +kernel, by decide, by decide⟩, by decide +kernel⟩

example : MayEnter toyCrypt "$6$secret".toList true "guess\nsecret\n".toList :=
  .inr ⟨by unfold NoPass; decide, rfl,
    .miss (pw := "guess".toList) (rest := "secret\n".toList) ⟨by decide, .inl ⟨by decide, '\n', .inl rfl, by decide⟩⟩ (by decide +kernel)
      (.hit (pw := "secret".toList) (rest := []) ⟨by decide, .inl ⟨by decide, '\n', .inl rfl, by decide⟩⟩ (by decide +kernel))⟩

/-- The usual files -/
example : sulogin toyCrypt (some (linesText ["bin:x:1:1:::", "root:x:0:0:root:/root:/bin/sh"]))
    (some (linesText ["root:$6$secret:19000:0:99999:7:::", "bin:*:19000:0:99999:7:::"])) true "guess\nsecret\n".toList = .shell ∧
    sulogin toyCrypt (some (linesText ["bin:x:1:1:::", "root:x:0:0:root:/root:/bin/sh"]))
      (some (linesText ["root:$6$secret:19000:0:99999:7:::", "bin:*:19000:0:99999:7:::"])) true "guess\n\n".toList = .goon := by
  decide +kernel

end Verif
