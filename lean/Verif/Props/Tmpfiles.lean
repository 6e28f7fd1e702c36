import Verif.Tmpfiles

/-!
# C57: lines of tmpfiles.d do what they say

tmpfiles.d(5): fields are separated by blanks, as many as one likes.  `d` and `D` make a directory, or set the mode and
the owner of the one there is; `f` makes a file if there is none; `f+` and `F` write it in any case; `p`, `b`, `c` and
`L` make a pipe, a device or a symbolic link if there is nothing, and with `+` in place of what is there.  What is made
has the mode and the owner of the line.
-/

namespace Verif

/-- A field -/
structure TmpWord (w : CStr) : Prop where
  some : w ≠ []
  plain : ∀ c ∈ w, isBlank c = false

/-- What is between fields -/
structure TmpGap (g : CStr) : Prop where
  some : g ≠ []
  blank : ∀ c ∈ g, isBlank c = true

/-- The text of a line with seven fields -/
structure TmpText (t p m u g a arg line : CStr) : Prop where
  words : TmpWord t ∧ TmpWord p ∧ TmpWord m ∧ TmpWord u ∧ TmpWord g ∧ TmpWord a
  percent : '%' ∉ p
  argSome : arg ≠ []
  argLine : '\n' ∉ arg
  argBlank : ∀ c, arg.head? = some c → isBlank c = false
  text : ∃ s1 s2 s3 s4 s5 s6, TmpGap s1 ∧ TmpGap s2 ∧ TmpGap s3 ∧ TmpGap s4 ∧ TmpGap s5 ∧ TmpGap s6 ∧
    line = t ++ s1 ++ p ++ s2 ++ m ++ s3 ++ u ++ s4 ++ g ++ s5 ++ a ++ s6 ++ arg

/-- What a user or group is by its field -/
def OwnerIs (f : CStr) (who : CStr) : Prop := (f = "-".toList ∧ who = "root".toList) ∨ (f ≠ "-".toList ∧ who = f)

/-- What a mode is by its field: `-` for the default, or octal digits -/
inductive ModeIs : CStr → Nat → Prop
  | dflt : ModeIs "-".toList 0
  | octal {ds : CStr} : (∀ c ∈ ds, '0' ≤ c ∧ c ≤ '7') →
      ModeIs ds (ds.foldl (fun v c => 8 * v + (c.toNat - '0'.toNat)) 0)

/-- The device of a field `major:minor` -/
def DevIs (arg : Option CStr) (a b : Nat) : Prop :=
  arg = some ((Nat.repr a).toList ++ ':' :: (Nat.repr b).toList)

/-- What shall be there after a line, by tmpfiles.d(5); `old` is what is there now, and not a symbolic link -/
inductive TmpWants : TmpLine → Option TNode → Option TNode → Prop
  | dirNew {l} : l.type.head? = some 'd' ∨ l.type.head? = some 'D' →
      TmpWants l none (some { kind := .dir, mode := if l.mode = 0 then 0o755 else l.mode, user := l.user, group := l.group })
  | dirOld {l n} : l.type.head? = some 'd' ∨ l.type.head? = some 'D' → n.kind = .dir →
      TmpWants l (some n) (some { n with mode := if l.mode = 0 then 0o755 else l.mode, user := l.user, group := l.group })
  | fileNew {l} : l.type.head? = some 'f' ∨ l.type.head? = some 'F' →
      TmpWants l none (some { kind := .reg, mode := if l.mode = 0 then 0o644 else l.mode, user := l.user, group := l.group,
                              data := (l.arg.map fun a => (writeArg a).bytes).getD [] })
  | fileOld {l n} : l.type.head? = some 'f' → l.type[1]? ≠ some '+' → TmpWants l (some n) (some n)
  | fileOver {l n} : l.type.head? = some 'F' ∨ (l.type.head? = some 'f' ∧ l.type[1]? = some '+') → n.kind = .reg →
      TmpWants l (some n) (some { n with mode := if l.mode = 0 then 0o644 else l.mode, user := l.user, group := l.group,
                                         data := (l.arg.map fun a => (writeArg a).bytes).getD [] })
  | fifoNew {l} : l.type.head? = some 'p' →
      TmpWants l none (some { kind := .fifo, mode := if l.mode = 0 then 0o644 else l.mode, user := l.user, group := l.group })
  | blkNew {l a b} : l.type.head? = some 'b' → DevIs l.arg a b →
      TmpWants l none (some { kind := .blk a b, mode := if l.mode = 0 then 0o644 else l.mode, user := l.user,
                              group := l.group })
  | chrNew {l a b} : l.type.head? = some 'c' → DevIs l.arg a b →
      TmpWants l none (some { kind := .chr a b, mode := if l.mode = 0 then 0o644 else l.mode, user := l.user,
                              group := l.group })
  | lnkNew {l t} : l.type.head? = some 'L' → l.arg = some t → TmpWants l none (some { kind := .lnk t, mode := 0o777 })
  | lnkOver {l n t} : l.type.head? = some 'L' → l.type[1]? = some '+' → l.arg = some t →
      TmpWants l (some n) (some { kind := .lnk t, mode := 0o777 })
  | special {l n} : l.type.head? = some 'p' ∨ l.type.head? = some 'b' ∨ l.type.head? = some 'c' ∨ l.type.head? = some 'L' →
      l.type[1]? ≠ some '+' → TmpWants l (some n) (some n)

/-- The full claim: the fields are found, and what shall be there is there, for users and groups there are -/
def C57_full : Prop :=
  (∀ t p m u g a arg line mode user group, TmpText t p m u g a arg line → ModeIs m mode → OwnerIs u user →
    OwnerIs g group → tmpParse line = some ⟨t, p, mode, user, group, some arg⟩) ∧
  ∀ E l old new, TmpWants l old new → E.isUser l.user = true → E.isGroup l.group = true →
    (∀ n, old = some n → ∀ t, n.kind ≠ .lnk t) → tmpCreate E l old = new

/-! ## Lemmas -/

private theorem tmpAll {p : Char → Bool} : ∀ {w : CStr}, (∀ c ∈ w, p c = true) → w.takeWhile p = w
  | [], _ => rfl
  | c :: w, h => by
    rw [List.takeWhile_cons, if_pos (h c (by simp)), tmpAll fun d hd => h d (by simp [hd])]

private theorem tmpNone {p : Char → Bool} : ∀ {w : CStr}, (∀ c ∈ w, p c = true) → w.dropWhile p = []
  | [], _ => rfl
  | c :: w, h => by
    rw [List.dropWhile_cons, if_pos (h c (by simp)), tmpNone fun d hd => h d (by simp [hd])]

private theorem tok_word {w rest : CStr} (hw : TmpWord w) (b : Char) (hb : isBlank b = true) (pre : CStr)
    (hp : ∀ c ∈ pre, isBlank c = true) : tmpTok isBlank (pre ++ w ++ (b :: rest)) = (some w, rest) := by
  unfold tmpTok
  have e1 : (pre ++ w ++ (b :: rest)).dropWhile isBlank = w ++ (b :: rest) := by
    rw [List.append_assoc, List.dropWhile_append_of_pos hp]
    cases w with
    | nil => exact absurd rfl hw.some
    | cons c cs => rw [List.cons_append, List.dropWhile_cons_of_neg (by simp [hw.plain c (by simp)])]
  rw [e1]
  cases hw' : w ++ (b :: rest) with
  | nil => simp at hw'
  | cons c cs =>
    dsimp only
    rw [← hw']
    have hq : ∀ c ∈ w, (fun x => !isBlank x) c = true := by
      intro c hc; simp [hw.plain c hc]
    rw [List.takeWhile_append_of_pos hq, List.dropWhile_append_of_pos hq]
    simp [hb]

private theorem TmpGap.split {g : CStr} (h : TmpGap g) : ∃ b pre, g = b :: pre ∧ isBlank b = true ∧
    ∀ c ∈ pre, isBlank c = true := by
  cases g with
  | nil => exact absurd rfl h.some
  | cons b pre => exact ⟨b, pre, rfl, h.blank b (by simp), fun c hc => h.blank c (by simp [hc])⟩

private theorem octal_of {m : CStr} {mode : Nat} (h : ModeIs m mode) : octalOf m = mode := by
  cases h with
  | dflt => decide
  | @octal ds h =>
    unfold octalOf
    have hq : ∀ c ∈ m, isOct c = true := by
      intro c hc
      have := h c hc
      unfold isOct
      simp only [decide_eq_true_eq]
      exact ⟨this.1, this.2⟩
    rw [tmpAll hq]
    congr 1
    funext v c
    rw [Nat.mul_comm]
    rfl

private theorem owner_of {f who : CStr} (h : OwnerIs f who) : orRoot (some f) = who := by
  unfold orRoot
  dsimp only
  rcases h with ⟨h, e⟩ | ⟨h, e⟩
  · rw [if_pos h, e]
  · rw [if_neg h, e]

/-- With exactly one blank before the last field -/
private theorem parse_one {t p m u g a : CStr} {s1 s2 s3 s4 s5 : CStr} {b : Char} (ht : TmpWord t) (hp : TmpWord p)
    (hm : TmpWord m) (hu : TmpWord u) (hg : TmpWord g) (ha : TmpWord a) (h1 : TmpGap s1) (h2 : TmpGap s2)
    (h3 : TmpGap s3) (h4 : TmpGap s4) (h5 : TmpGap s5) (hb : isBlank b = true) (hpc : '%' ∉ p) {x : CStr}
    (hx : x ≠ []) (hn : '\n' ∉ x) :
    tmpParse (t ++ s1 ++ p ++ s2 ++ m ++ s3 ++ u ++ s4 ++ g ++ s5 ++ a ++ b :: x) =
      some ⟨t, p, octalOf m, orRoot (some u), orRoot (some g), some x⟩ := by
  obtain ⟨b1, p1, rfl, k1, q1⟩ := h1.split
  obtain ⟨b2, p2, rfl, k2, q2⟩ := h2.split
  obtain ⟨b3, p3, rfl, k3, q3⟩ := h3.split
  obtain ⟨b4, p4, rfl, k4, q4⟩ := h4.split
  obtain ⟨b5, p5, rfl, k5, q5⟩ := h5.split
  have e1 := tok_word (rest := p1 ++ p ++ b2 :: (p2 ++ m ++ b3 :: (p3 ++ u ++ b4 :: (p4 ++ g ++ b5 :: (p5 ++ a ++ b :: x)))))
    ht b1 k1 [] nofun
  have e2 := tok_word (rest := p2 ++ m ++ b3 :: (p3 ++ u ++ b4 :: (p4 ++ g ++ b5 :: (p5 ++ a ++ b :: x)))) hp b2 k2 p1 q1
  have e3 := tok_word (rest := p3 ++ u ++ b4 :: (p4 ++ g ++ b5 :: (p5 ++ a ++ b :: x))) hm b3 k3 p2 q2
  have e4 := tok_word (rest := p4 ++ g ++ b5 :: (p5 ++ a ++ b :: x)) hu b4 k4 p3 q3
  have e5 := tok_word (rest := p5 ++ a ++ b :: x) hg b5 k5 p4 q4
  have e6 := tok_word (rest := x) ha b hb p5 q5
  have e7 : tmpTok (fun c => decide (c = '\n')) x = (some x, []) := by
    unfold tmpTok
    cases x with
    | nil => exact absurd rfl hx
    | cons c cs =>
      have hc : c ≠ '\n' := fun e => hn (by simp [e])
      rw [List.dropWhile_cons_of_neg (by simpa using hc)]
      dsimp only
      have hq : ∀ y ∈ c :: cs, (fun x : Char => !decide (x = '\n')) y = true := by
        intro y hy
        have : y ≠ '\n' := fun e => hn (e ▸ hy)
        simp [this]
      rw [tmpAll hq, tmpNone hq]
      rfl
  have et : t ++ b1 :: p1 ++ p ++ b2 :: p2 ++ m ++ b3 :: p3 ++ u ++ b4 :: p4 ++ g ++ b5 :: p5 ++ a ++ b :: x =
      [] ++ t ++ b1 :: (p1 ++ p ++ b2 :: (p2 ++ m ++ b3 :: (p3 ++ u ++ b4 :: (p4 ++ g ++ b5 :: (p5 ++ a ++ b :: x))))) := by
    simp
  rw [et]
  unfold tmpParse
  rw [e1]
  dsimp only
  rw [e2]
  dsimp only
  rw [if_neg hpc, e3]
  dsimp only
  rw [e4]
  dsimp only
  rw [e5]
  dsimp only
  rw [e6]
  dsimp only
  rw [e7]
  rfl

/-! ## The theorems -/

/-- **C57, fields.**  However many blanks are between the first six fields: if there is exactly one before the last
    field, then all fields are found. -/
theorem C57_fields_partial {t p m u g a arg : CStr} {mode : Nat} {user group : CStr} {s1 s2 s3 s4 s5 : CStr} {b : Char}
    (hw : TmpWord t ∧ TmpWord p ∧ TmpWord m ∧ TmpWord u ∧ TmpWord g ∧ TmpWord a) (h1 : TmpGap s1) (h2 : TmpGap s2)
    (h3 : TmpGap s3) (h4 : TmpGap s4) (h5 : TmpGap s5) (hb : isBlank b = true) (hpc : '%' ∉ p) (hx : arg ≠ [])
    (hn : '\n' ∉ arg) (hm : ModeIs m mode) (hu : OwnerIs u user) (hg : OwnerIs g group) :
    tmpParse (t ++ s1 ++ p ++ s2 ++ m ++ s3 ++ u ++ s4 ++ g ++ s5 ++ a ++ b :: arg) =
      some ⟨t, p, mode, user, group, some arg⟩ := by
  obtain ⟨w1, w2, w3, w4, w5, w6⟩ := hw
  rw [parse_one w1 w2 w3 w4 w5 w6 h1 h2 h3 h4 h5 hb hpc hx hn, octal_of hm, owner_of hu, owner_of hg]

/-- With more blanks they are part of the last field: this is the line of the comment in the source, and the link leads
    to a file whose name begins with two blanks. -/
theorem C57_blanks :
    tmpParse "L     /tmp/foobar -    -    -     -   /dev/null".toList =
      some ⟨"L".toList, "/tmp/foobar".toList, 0, "root".toList, "root".toList, some "  /dev/null".toList⟩ := by
  decide +kernel

private theorem create_dir {E : TmpEnv} {l : TmpLine} {old : Option TNode}
    (h : l.type.head? = some 'd' ∨ l.type.head? = some 'D') :
    tmpCreate E l old = mksubsys E (modeOr l.mode 0o755) l.user l.group old := by
  unfold tmpCreate
  rcases h with h | h <;> rw [h] <;> rfl

private theorem create_over {E : TmpEnv} {l : TmpLine} {old : Option TNode}
    (h : l.type.head? = some 'F' ∨ (l.type.head? = some 'f' ∧ l.type[1]? = some '+')) :
    tmpCreate E l old = match l.arg with
      | none => createFile E (modeOr l.mode 0o644) l.user l.group old
      | some _ => writeFile E l.arg old := by
  unfold tmpCreate
  rcases h with h | ⟨h, h2⟩
  · rw [h]
    simp
    cases l.arg <;> rfl
  · rw [h]
    simp [TmpLine.plus, h2]
    cases l.arg <;> rfl

private theorem create_file {E : TmpEnv} {l : TmpLine} {old : Option TNode}
    (h : l.type.head? = some 'f') (h2 : l.type[1]? ≠ some '+') :
    tmpCreate E l old = if E.stat old then old else writeFile E l.arg old := by
  unfold tmpCreate
  rw [h]
  simp [TmpLine.plus, h2]

private theorem create_fifo {E : TmpEnv} {l : TmpLine} {old : Option TNode}
    (h : l.type.head? = some 'p') : tmpCreate E l old = mkSpecial E l .fifo old := by
  unfold tmpCreate; rw [h]; rfl

private theorem create_lnk {E : TmpEnv} {l : TmpLine} {old : Option TNode}
    (h : l.type.head? = some 'L') : tmpCreate E l old = mkLink E l old := by
  unfold tmpCreate; rw [h]; rfl

private theorem create_lnk' {E : TmpEnv} {l : TmpLine} {old : Option TNode} (h : l.type.head? = some 'l') :
    tmpCreate E l old =
      if E.leads (l.arg.getD ("/usr/share/factory".toList ++ l.path)) then mkLink E l old else old := by
  unfold tmpCreate; rw [h]; rfl

private theorem create_blk {E : TmpEnv} {l : TmpLine} {old : Option TNode}
    (h : l.type.head? = some 'b') : tmpCreate E l old = match parseMm l.arg with
    | none => old
    | some (a, b) => mkSpecial E l (.blk a b) old := by
  unfold tmpCreate; rw [h]; rfl

private theorem create_chr {E : TmpEnv} {l : TmpLine} {old : Option TNode}
    (h : l.type.head? = some 'c') : tmpCreate E l old = match parseMm l.arg with
    | none => old
    | some (a, b) => mkSpecial E l (.chr a b) old := by
  unfold tmpCreate; rw [h]; rfl

private theorem stat_some {E : TmpEnv} {n : TNode} (h : ∀ t, n.kind ≠ .lnk t) : E.stat (some n) = true := by
  obtain ⟨k, _, _, _, _⟩ := n
  cases k with
  | lnk t => exact absurd rfl (h t)
  | _ => rfl

/-- **C57, directories.**  They are as the line says. -/
theorem C57_dir {E : TmpEnv} {l : TmpLine} {old new : Option TNode} (h : TmpWants l old new)
    (ht : l.type.head? = some 'd' ∨ l.type.head? = some 'D') (hu : E.isUser l.user = true)
    (hg : E.isGroup l.group = true) : tmpCreate E l old = new := by
  rw [create_dir ht]
  unfold mksubsys modeOr
  rw [if_pos hu, if_pos hg]
  cases h with
  | dirNew => rfl
  | dirOld => rfl
  | _ => exfalso; rcases ht with ht | ht <;> simp_all

/-- **C57, files.**  A file and its contents are as the line says.  Missing: mode and owner. -/
theorem C57_file_partial {E : TmpEnv} {l : TmpLine} {old new : Option TNode} (h : TmpWants l old new)
    (ht : l.type.head? = some 'f' ∨ l.type.head? = some 'F') (he : E.empties = true)
    (hl : ∀ n, old = some n → ∀ t, n.kind ≠ .lnk t) :
    (tmpCreate E l old).map (fun n => (n.kind, n.data)) = new.map (fun n => (n.kind, n.data)) := by
  have over : ∀ {l : TmpLine}, (match l.arg with
      | none => createFile E (modeOr l.mode 0o644) l.user l.group none
      | some _ => writeFile E l.arg none).map (fun n : TNode => (n.kind, n.data)) =
      some (TKind.reg, (l.arg.map fun a => (writeArg a).bytes).getD []) := by
    intro l
    cases l.arg <;> rfl
  cases h with
  | fileNew _ =>
    by_cases h1 : l.type.head? = some 'F' ∨ (l.type.head? = some 'f' ∧ l.type[1]? = some '+')
    · rw [create_over h1, over]
      rfl
    · have h2 : l.type.head? = some 'f' := ht.resolve_right fun h => h1 (.inl h)
      rw [create_file h2 (fun h => h1 (.inr ⟨h2, h⟩))]
      simp only [TmpEnv.stat, Bool.false_eq_true, if_false]
      cases l.arg <;> rfl
  | @fileOld n h1 h2 =>
    rw [create_file h1 h2, stat_some (hl n rfl)]
    rfl
  | @fileOver n h1 h2 =>
    rw [create_over h1]
    cases ha : l.arg with
    | none => simp only [createFile, he, if_true, Option.map_some, Option.map_none, Option.getD_none]
    | some a => simp only [writeFile, h2, if_true, Option.map_some, Option.getD_some]
  | _ => exfalso; rcases ht with ht | ht <;> simp_all

/-- A new file whose line asks for what it gets anyway -/
theorem C57_file_plain {E : TmpEnv} {l : TmpLine} {new : Option TNode} (h : TmpWants l none new)
    (ht : l.type.head? = some 'f' ∨ l.type.head? = some 'F') (hm : l.mode = 0 ∨ l.mode = 0o644)
    (hu : l.user = "root".toList) (hg : l.group = "root".toList) (hk : E.umask = 0o022) :
    tmpCreate E l none = new := by
  have hmode : (if l.mode = 0 then 0o644 else l.mode) = 0o644 := by
    rcases hm with h | h <;> simp [h]
  have hmask : maskMode E.umask 0o666 = 0o644 := by rw [hk]; decide
  cases h with
  | fileNew _ =>
    rw [hmode]
    by_cases h1 : l.type.head? = some 'F' ∨ (l.type.head? = some 'f' ∧ l.type[1]? = some '+')
    · rw [create_over h1]
      cases ha : l.arg with
      | none => simp only [createFile, modeOr, hmode, Option.map_none, Option.getD_none]
      | some a => simp only [writeFile, hmask, hu, hg, Option.map_some, Option.getD_some]
    · have h2 : l.type.head? = some 'f' := ht.resolve_right fun h => h1 (.inl h)
      rw [create_file h2 (fun h => h1 (.inr ⟨h2, h⟩))]
      simp only [TmpEnv.stat, Bool.false_eq_true, if_false, writeFile, hmask, hu, hg]
      cases l.arg <;> rfl
  | _ => exfalso; rcases ht with ht | ht <;> simp_all

/-- **C57, links.**  A symbolic link is as the line says, unless it shall be put in place of something that is not a
    directory. -/
theorem C57_link_partial {E : TmpEnv} {l : TmpLine} {old new : Option TNode} (h : TmpWants l old new)
    (ht : l.type.head? = some 'L')
    (hl : ∀ n, old = some n → n.kind = .dir ∨ (l.type[1]? ≠ some '+' ∧ ∀ t, n.kind ≠ .lnk t)) :
    tmpCreate E l old = new := by
  rw [create_lnk ht]
  unfold mkLink
  cases h with
  | lnkNew _ ha => simp only [TmpEnv.stat, Bool.false_eq_true, if_false, lnFile, ha, Option.getD_some]
  | @lnkOver n t _ hp ha =>
    have hd : n.kind = .dir := (hl n rfl).resolve_right fun h => h.1 hp
    have hp' : l.plus = true := by simp [TmpLine.plus, hp]
    rw [stat_some (by simp [hd])]
    simp only [hp', if_true, rmrf, TmpEnv.isDir, hd, lnFile, ha, Option.getD_some]
  | @special n _ hp =>
    have hp' : l.plus = false := by simp [TmpLine.plus, hp]
    have : E.stat (some n) = true := by
      rcases hl n rfl with h | h
      · exact stat_some (by simp [h])
      · exact stat_some h.2
    simp only [this, hp', Bool.false_eq_true, if_true, if_false]
  | _ => exfalso; simp_all

/-- **C57, nothing is lost.**  Without `+`, lines of the types `b`, `c`, `f`, `l`, `L` and `p` leave what is there as it
    is. -/
theorem C57_kept {E : TmpEnv} {l : TmpLine} {n : TNode} {c : Char} (ht : l.type.head? = some c)
    (hc : c = 'b' ∨ c = 'c' ∨ c = 'f' ∨ c = 'l' ∨ c = 'L' ∨ c = 'p') (hp : l.type[1]? ≠ some '+')
    (hl : ∀ t, n.kind ≠ .lnk t) : tmpCreate E l (some n) = some n := by
  have hs := stat_some (E := E) hl
  have hp' : l.plus = false := by simp [TmpLine.plus, hp]
  have sp : ∀ k, mkSpecial E l k (some n) = some n := by
    intro k
    simp only [mkSpecial, hs, hp', Bool.false_eq_true, if_true, if_false]
  have lk : mkLink E l (some n) = some n := by
    simp only [mkLink, hs, hp', Bool.false_eq_true, if_true, if_false]
  rcases hc with rfl | rfl | rfl | rfl | rfl | rfl
  · rw [create_blk ht]; split
    · rfl
    · exact sp _
  · rw [create_chr ht]; split
    · rfl
    · exact sp _
  · rw [create_file ht hp, if_pos hs]
  · rw [create_lnk' ht, lk]; split <;> rfl
  · rw [create_lnk ht, lk]
  · rw [create_fifo ht, sp]

private theorem special_twice (E : TmpEnv) (l : TmpLine) (k : TKind) (old : Option TNode) :
    mkSpecial E l k (mkSpecial E l k old) = mkSpecial E l k old := by
  have key : ∀ n, mkSpecial E l k (some n) = some n ∨
      mkSpecial E l k (some n) = some { kind := k, mode := maskMode E.umask (modeOr l.mode 0o644) } := by
    intro n
    unfold mkSpecial
    dsimp only
    split
    · split
      · exact .inr rfl
      · exact .inl rfl
    · exact .inl rfl
  have self : mkSpecial E l k (some { kind := k, mode := maskMode E.umask (modeOr l.mode 0o644) }) =
      some { kind := k, mode := maskMode E.umask (modeOr l.mode 0o644) } := by
    rcases key { kind := k, mode := maskMode E.umask (modeOr l.mode 0o644) } with h | h <;> exact h
  cases old with
  | none => exact self
  | some n =>
    rcases key n with h | h
    · rw [h, h]
    · rw [h, self]

private theorem link_twice (E : TmpEnv) (l : TmpLine) (old : Option TNode) :
    mkLink E l (mkLink E l old) = mkLink E l old := by
  have key : ∀ n, mkLink E l (some n) = some n ∨ mkLink E l (some n) =
      some { kind := .lnk (l.arg.getD ("/usr/share/factory".toList ++ l.path)), mode := 0o777 } := by
    intro n
    unfold mkLink
    dsimp only
    split
    · split
      · unfold rmrf
        split
        · exact .inr rfl
        · exact .inl rfl
      · exact .inl rfl
    · exact .inl rfl
  have self : mkLink E l (some { kind := .lnk (l.arg.getD ("/usr/share/factory".toList ++ l.path)), mode := 0o777 }) =
      some { kind := .lnk (l.arg.getD ("/usr/share/factory".toList ++ l.path)), mode := 0o777 } := by
    rcases key { kind := .lnk (l.arg.getD ("/usr/share/factory".toList ++ l.path)), mode := 0o777 } with h | h <;> exact h
  cases old with
  | none => exact self
  | some n =>
    rcases key n with h | h
    · rw [h, h]
    · rw [h, self]

/-- **C57, twice.**  Every line does the same when it is read again, for example at the next start. -/
theorem C57_twice (E : TmpEnv) (l : TmpLine) (old : Option TNode) :
    tmpCreate E l (tmpCreate E l old) = tmpCreate E l old := by
  have over : ∀ old, (match l.arg with
      | none => createFile E (modeOr l.mode 0o644) l.user l.group (match l.arg with
        | none => createFile E (modeOr l.mode 0o644) l.user l.group old
        | some _ => writeFile E l.arg old)
      | some _ => writeFile E l.arg (match l.arg with
        | none => createFile E (modeOr l.mode 0o644) l.user l.group old
        | some _ => writeFile E l.arg old)) =
      (match l.arg with
        | none => createFile E (modeOr l.mode 0o644) l.user l.group old
        | some _ => writeFile E l.arg old) := by
    intro old
    cases l.arg with
    | none =>
      cases old with
      | none => simp only [createFile]; split <;> rfl
      | some n =>
        simp only [createFile]
        cases E.empties <;> rfl
    | some a =>
      cases old with
      | none => rfl
      | some n =>
        simp only [writeFile]
        by_cases hk : n.kind = .reg
        · simp [hk]
        · simp [hk]
  have same : ∀ f : Option TNode → Option TNode, (∀ o, tmpCreate E l o = f o) → (∀ o, f (f o) = f o) →
      tmpCreate E l (tmpCreate E l old) = tmpCreate E l old := by
    intro f h1 h2
    rw [h1, h1, h2]
  cases ht : l.type.head? with
  | none =>
    refine same id (fun o => ?_) (fun _ => rfl)
    unfold tmpCreate; rw [ht]; rfl
  | some c =>
    by_cases hd : c = 'd' ∨ c = 'D'
    · refine same _ (fun o => create_dir (hd.imp (fun h => by rw [ht, h]) (fun h => by rw [ht, h]))) (fun o => ?_)
      unfold mksubsys
      dsimp only
      split
      · cases o <;> rfl
      · rfl
    by_cases hf : c = 'f' ∨ c = 'F'
    · by_cases h1 : l.type.head? = some 'F' ∨ (l.type.head? = some 'f' ∧ l.type[1]? = some '+')
      · exact same _ (fun o => create_over h1) over
      · have h2 : l.type.head? = some 'f' := by
          rcases hf with h | h
          · rw [ht, h]
          · exact absurd (.inl (by rw [ht, h])) h1
        refine same _ (fun o => create_file h2 (fun h => h1 (.inr ⟨h2, h⟩))) (fun o => ?_)
        cases o with
        | none =>
          simp only [TmpEnv.stat, Bool.false_eq_true, if_false]
          cases l.arg <;> rfl
        | some n =>
          by_cases hs : E.stat (some n) = true
          · simp only [hs, if_true]
          · have hk : n.kind ≠ .reg := by
              intro h
              exact hs (stat_some (by simp [h]))
            simp only [Bool.not_eq_true] at hs
            simp only [hs, Bool.false_eq_true, if_false, writeFile, hk]
    by_cases hb : c = 'b'
    · subst hb
      refine same _ (fun o => create_blk ht) (fun o => ?_)
      split
      · rfl
      · exact special_twice _ _ _ _
    by_cases hc : c = 'c'
    · subst hc
      refine same _ (fun o => create_chr ht) (fun o => ?_)
      split
      · rfl
      · exact special_twice _ _ _ _
    by_cases hl : c = 'l'
    · subst hl
      refine same _ (fun o => create_lnk' ht) (fun o => ?_)
      split
      · exact link_twice _ _ _
      · rfl
    by_cases hL : c = 'L'
    · subst hL
      exact same _ (fun o => create_lnk ht) (link_twice E l)
    by_cases hp : c = 'p'
    · subst hp
      exact same _ (fun o => create_fifo ht) (special_twice _ _ _)
    · refine same id (fun o => ?_) (fun _ => rfl)
      unfold tmpCreate
      rw [ht]
      split <;> simp_all

/-! ## Where it fails -/

private def demoTmp : TmpEnv := ⟨0o022, fun _ => true, fun _ => true, fun _ => true, fun _ => false, true⟩

/-- The line for the log of failed logins in tmpfiles.d/var.conf asks for mode 0660 and group utmp.  Everybody may read
    the file that is made. -/
theorem C57_mode : ∃ l, tmpParse "f  /var/log/btmp\t0660 root utmp -".toList = some l ∧ l.mode = 0o660 ∧
    l.group = "utmp".toList ∧
    tmpCreate demoTmp l none = some { kind := .reg, mode := 0o644, user := "root".toList, group := "root".toList } :=
  ⟨⟨"f".toList, "/var/log/btmp".toList, 0o660, "root".toList, "utmp".toList, none⟩, by decide +kernel, rfl, rfl,
    by decide +kernel⟩

/-- `L+` does not replace a file, as /etc/mtab in tmpfiles.d/etc.conf. -/
theorem C57_over : ∃ l, tmpParse "L+ /etc/mtab\t\t- - - - ../proc/self/mounts".toList = some l ∧
    ∀ E n, n.kind = .reg → tmpCreate E l (some n) = some n := by
  refine ⟨⟨"L+".toList, "/etc/mtab".toList, 0, "root".toList, "root".toList, some "../proc/self/mounts".toList⟩,
    by decide +kernel, fun E n hk => ?_⟩
  rw [create_lnk rfl]
  unfold mkLink
  rw [stat_some (by simp [hk])]
  simp only [rmrf, TmpEnv.isDir, hk, Bool.false_eq_true, if_false, lnFile, ite_self]

/-- A device with number 0 is not made, as the first disk. -/
theorem C57_minor (E : TmpEnv) : ∃ l, tmpParse "b /dev/sda 0660 root disk - 8:0".toList = some l ∧
    tmpCreate E l none = none := by
  refine ⟨⟨"b".toList, "/dev/sda".toList, 0o660, "root".toList, "disk".toList, some "8:0".toList⟩,
    by decide +kernel, ?_⟩
  rw [create_blk rfl]
  have : parseMm (some "8:0".toList) = none := by decide +kernel
  rw [this]

/-- The full claim is false. -/
theorem C57_full_false : ¬ C57_full := by
  intro h
  obtain ⟨l, _, hm, hg, hc⟩ := C57_mode
  have := h.2 demoTmp ⟨"f".toList, "/x".toList, 0o660, "root".toList, "utmp".toList, none⟩ none _
    (.fileNew (.inl rfl)) rfl rfl nofun
  revert this
  decide +kernel

/-! ## Examples -/

example : tmpParse "d  /run/console              1777 - - -".toList =
    some ⟨"d".toList, "/run/console".toList, 0o1777, "root".toList, "root".toList, none⟩ := by decide +kernel

example : tmpCreate demoTmp ⟨"d".toList, "/run/console".toList, 0o1777, "root".toList, "root".toList, none⟩ none =
    some { kind := .dir, mode := 0o1777 } :=
  C57_dir (.dirNew (.inl rfl)) (.inl rfl) rfl rfl

example : tmpCreate demoTmp ⟨"f".toList, "/run/console/console.lock".toList, 0o644, "root".toList, "root".toList,
    some "nobody".toList⟩ none = some { kind := .reg, mode := 0o644, data := "nobody".toList.map Char.toNat } := by
  decide +kernel

example : TmpGap "  ".toList ∧ TmpWord "/run/shm".toList ∧ ModeIs "0755".toList 0o755 ∧ OwnerIs "-".toList "root".toList :=
  ⟨⟨by decide, by decide⟩, ⟨by decide, by decide⟩, .octal (ds := "0755".toList) (by decide), .inl ⟨rfl, rfl⟩⟩

end Verif
