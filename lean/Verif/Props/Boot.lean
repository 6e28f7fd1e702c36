import Verif.Boot
import Verif.CStrLemmas

/-!
# C59: boot parameters mean what they say

doc/cmdline.md.  A parameter is a word, or `name=value`; where a parameter is given more than once, the last one counts,
but for `finit.cond`.
-/

namespace Verif

/-- Settings -/
inductive BootKey
  | config | fstab | debug | progress | rescue | single | level | mode | repair
  deriving DecidableEq

/-- The parameter is this one, with or without a value. -/
def IsParam (name : String) (a : CStr) : Prop := a = name.toList ∨ ∃ v, a = name.toList ++ '=' :: v

/-- The parameter is about the setting. -/
def About (a : CStr) : BootKey → Prop
  | .config => IsParam "finit.config" a
  | .fstab => IsParam "finit.fstab" a
  | .debug => IsParam "finit.debug" a
  | .progress => IsParam "finit.status" a ∨ IsParam "finit.show_status" a ∨ IsParam "finit.status_style" a
  | .rescue => a = "rescue".toList ∨ a = "recover".toList
  | .single => a = "single".toList ∨ a = "S".toList
  | .level => a ≠ [] ∧ ∀ c ∈ a, '0' ≤ c ∧ c ≤ '9'
  | .mode => IsParam "fsck.mode" a
  | .repair => IsParam "fsck.repair" a

/-- The value of a `bool` -/
inductive BoolIs : CStr → Bool → Prop
  | on : BoolIs "on".toList true
  | true : BoolIs "true".toList true
  | one : BoolIs "1".toList true
  | off : BoolIs "off".toList false
  | false : BoolIs "false".toList false
  | zero : BoolIs "0".toList false

/-- What a parameter says of a setting -/
inductive BootSays : CStr → BootKey → (BootOpts → Prop) → Prop
  | config (v) : BootSays ("finit.config".toList ++ '=' :: v) .config (·.config = v)
  | fstab (v) : BootSays ("finit.fstab".toList ++ '=' :: v) .fstab (·.fstab = some v)
  | debug : BootSays "finit.debug".toList .debug (·.debug = true)
  | debugIs {v b} : BoolIs v b → BootSays ("finit.debug".toList ++ '=' :: v) .debug (·.debug = b)
  | status : BootSays "finit.status".toList .progress (·.progress ≠ .silent)
  | statusIs {v b} : BoolIs v b →
      BootSays ("finit.status".toList ++ '=' :: v) .progress (fun o => o.progress ≠ .silent ↔ b = true)
  | classic : BootSays "finit.status_style=classic".toList .progress (·.progress = .classic)
  | modern : BootSays "finit.status_style=modern".toList .progress (·.progress = .modern)
  | rescue : BootSays "rescue".toList .rescue (·.rescue = true)
  | single : BootSays "single".toList .single (·.single = true)
  | s : BootSays "S".toList .single (·.single = true)
  | level {c : Char} : '1' ≤ c → c ≤ '9' → c ≠ '6' → BootSays [c] .level (·.cmdlevel = c.toNat - '0'.toNat)
  | skip : BootSays "fsck.mode=skip".toList .mode (·.fsckMode = none)
  | auto : BootSays "fsck.mode=auto".toList .mode (·.fsckMode = some [])
  | force : BootSays "fsck.mode=force".toList .mode (·.fsckMode = some "-f".toList)
  | preen : BootSays "fsck.repair=preen".toList .repair (·.fsckRepair = "-p".toList)
  | yes : BootSays "fsck.repair=yes".toList .repair (·.fsckRepair = "-y".toList)
  | no : BootSays "fsck.repair=no".toList .repair (·.fsckRepair = "-n".toList)

/-- The full claim: the last parameter about a setting counts -/
def C59_full : Prop :=
  ∀ o pre a post k P, BootSays a k P → (∀ b ∈ post, ¬ About b k) → P (bootOpts o (pre ++ a :: post))

/-- A parameter finit knows, other than a runlevel -/
def Known (a : CStr) : Prop :=
  "finit.".toList <+: a ∨ "fsck.".toList <+: a ∨ About a .rescue ∨ About a .single

/-! ## Lemmas -/

/-- Both have the same setting. -/
private def SameAt (o o' : BootOpts) : BootKey → Prop
  | .config => o.config = o'.config
  | .fstab => o.fstab = o'.fstab
  | .debug => o.debug = o'.debug
  | .progress => o.progress = o'.progress
  | .rescue => o.rescue = o'.rescue
  | .single => o.single = o'.single
  | .level => o.cmdlevel = o'.cmdlevel
  | .mode => o.fsckMode = o'.fsckMode
  | .repair => o.fsckRepair = o'.fsckRepair

private theorem BootSays.congr {a : CStr} {k : BootKey} {P : BootOpts → Prop} (h : BootSays a k P) {o o' : BootOpts}
    (hs : SameAt o o' k) (hP : P o) : P o' := by
  cases h <;> (unfold SameAt at hs; rw [hs] at hP; exact hP)

private theorem split_eq (s : CStr) : (∃ n, splitEq s = (n, none) ∧ s = n) ∨
    ∃ n a, splitEq s = (n, some a) ∧ s = n ++ '=' :: a := by
  have e := List.takeWhile_append_dropWhile (p := (fun c : Char => decide (c ≠ '='))) (l := s)
  unfold splitEq
  cases h : s.dropWhile (fun c : Char => decide (c ≠ '=')) with
  | nil =>
    refine .inl ⟨_, rfl, ?_⟩
    rw [h, List.append_nil] at e
    exact e.symm
  | cons c a =>
    refine .inr ⟨_, a, rfl, ?_⟩
    have hc : c = '=' := by
      have := List.head?_dropWhile_not (fun c : Char => decide (c ≠ '=')) s
      rw [h] at this
      simpa using this
    rw [h, hc] at e
    exact e.symm

/-- What follows a prefix, as a parameter -/
private theorem isParam_of {pre : String} {n : CStr} {b : CStr} (hb : pre.toList <+: b)
    (hn : (splitEq (b.drop pre.toList.length)).1 = n) (name : String) (he : name.toList = pre.toList ++ n) :
    IsParam name b := by
  obtain ⟨r, rfl⟩ := hb
  rw [List.drop_left] at hn
  rcases split_eq r with ⟨n', e, hr⟩ | ⟨n', a, e, hr⟩
  · rw [e] at hn
    left
    rw [he, ← hn, ← hr]
  · rw [e] at hn
    right
    refine ⟨a, ?_⟩
    rw [he, ← hn, hr, List.append_assoc]

private theorem keep_finit {o : BootOpts} {b : CStr} (hb : "finit.".toList <+: b) {k : BootKey} (hk : ¬ About b k) :
    SameAt (finitOpt o (splitEq (b.drop 6)).1 (splitEq (b.drop 6)).2) o k := by
  have is : ∀ {n : CStr} (name : String), (splitEq (b.drop 6)).1 = n → name.toList = "finit.".toList ++ n →
      IsParam name b := fun name hn he => isParam_of hb hn name he
  generalize hn : (splitEq (b.drop 6)).1 = n at is ⊢
  generalize (splitEq (b.drop 6)).2 = arg
  unfold finitOpt
  split
  · cases arg <;> cases k <;> rfl
  split
  · rename_i h
    cases arg with
    | none => cases k <;> rfl
    | some a =>
      cases k with
      | config => exact absurd (is "finit.config" h (by decide)) hk
      | _ => rfl
  split
  · rename_i h
    cases k with
    | debug => exact absurd (is "finit.debug" h (by decide)) hk
    | _ => rfl
  split
  · rename_i h
    cases arg with
    | none => cases k <;> rfl
    | some a =>
      cases k with
      | fstab => exact absurd (is "finit.fstab" h (by decide)) hk
      | _ => rfl
  split
  · rename_i h
    cases arg with
    | none => cases k <;> rfl
    | some a =>
      cases k with
      | progress => exact absurd (.inr (.inr (is "finit.status_style" h (by decide)))) hk
      | _ => dsimp only; split <;> rfl
  split
  · rename_i h
    cases k with
    | progress =>
      rcases h with h | h
      · exact absurd (.inl (is "finit.status" h (by decide))) hk
      · exact absurd (.inr (.inl (is "finit.show_status" h (by decide)))) hk
    | _ => rfl
  · cases k <;> rfl

private theorem keep_fsck {o : BootOpts} {b : CStr} (hb : "fsck.".toList <+: b) {k : BootKey} (hk : ¬ About b k) :
    SameAt (fsckOpt o (splitEq (b.drop 5)).1 (splitEq (b.drop 5)).2) o k := by
  have is : ∀ {n : CStr} (name : String), (splitEq (b.drop 5)).1 = n → name.toList = "fsck.".toList ++ n →
      IsParam name b := fun name hn he => isParam_of hb hn name he
  generalize hn : (splitEq (b.drop 5)).1 = n at is ⊢
  generalize (splitEq (b.drop 5)).2 = arg
  unfold fsckOpt
  split
  · rename_i h
    cases arg with
    | none => cases k <;> rfl
    | some a =>
      cases k with
      | mode => exact absurd (is "fsck.mode" h (by decide)) hk
      | _ => dsimp only; split; rfl; split; rfl; split <;> rfl
  split
  · rename_i h
    cases arg with
    | none => cases k <;> rfl
    | some a =>
      cases k with
      | repair => exact absurd (is "fsck.repair" h (by decide)) hk
      | _ => dsimp only; split; rfl; split; rfl; split <;> rfl
  · cases k <;> rfl

private theorem keep_arg {o : BootOpts} {b : CStr} {k : BootKey} (hk : ¬ About b k) (hl : k = .level → Known b) :
    SameAt (bootArg o b) o k := by
  unfold bootArg
  split
  · exact keep_finit (by assumption) hk
  split
  · exact keep_fsck (by assumption) hk
  split
  · cases k with
    | rescue => exact absurd (by assumption) hk
    | _ => rfl
  split
  · cases k with
    | single => exact absurd (by assumption) hk
    | _ => rfl
  · cases k with
    | level =>
      exfalso
      rcases hl rfl with h | h | h | h <;> exact absurd h (by assumption)
    | _ => rfl

private theorem SameAt.trans {a b c : BootOpts} {k : BootKey} (h1 : SameAt a b k) (h2 : SameAt b c k) : SameAt a c k := by
  cases k <;> exact Eq.trans h1 h2

private theorem SameAt.symm {a b : BootOpts} {k : BootKey} (h : SameAt a b k) : SameAt b a k := by
  cases k <;> exact Eq.symm h

private theorem SameAt.refl (a : BootOpts) (k : BootKey) : SameAt a a k := by
  cases k <;> rfl

private theorem keep_all {k : BootKey} : ∀ {post : List CStr} {o : BootOpts}, (∀ b ∈ post, ¬ About b k) →
    (k = .level → ∀ b ∈ post, Known b) → SameAt (bootOpts o post) o k
  | [], o, _, _ => SameAt.refl o k
  | b :: post, o, h, hl =>
    (keep_all (o := bootArg o b) (post := post) (fun c hc => h c (List.mem_cons_of_mem _ hc))
      (fun e c hc => hl e c (List.mem_cons_of_mem _ hc))).trans
      (keep_arg (h b (List.mem_cons_self ..)) (fun e => hl e b (List.mem_cons_self ..)))

private theorem boolIs {v : CStr} {b : Bool} (h : BoolIs v b) (d : Bool) : getBool (some v) d = b := by
  cases h <;> rfl

private theorem level_digit {c : Char} (h1 : '1' ≤ c) (h2 : c ≤ '9') (h6 : c ≠ '6') :
    parseLevel [c] = c.toNat - '0'.toNat ∧ c ≠ 'S' := by
  have key : ∀ n : Fin 58, 49 ≤ n.1 → n.1 ≠ 54 →
      parseLevel [Char.ofNat n.1] = n.1 - 48 ∧ Char.ofNat n.1 ≠ 'S' := by decide +kernel
  have l1 : 49 ≤ c.toNat := h1
  have l2 : c.toNat ≤ 57 := h2
  have l6 : c.toNat ≠ 54 := fun e => h6 (by rw [← Char.ofNat_toNat c, e])
  have := key ⟨c.toNat, by omega⟩ l1 l6
  rw [Char.ofNat_toNat] at this
  exact this

private theorem says {a : CStr} {k : BootKey} {P : BootOpts → Prop} (h : BootSays a k P) (o : BootOpts) :
    P (bootArg o a) := by
  cases h with
  | config v => rfl
  | fstab v => rfl
  | debug => rfl
  | @debugIs v b hb =>
    change getBool (some v) true = b
    exact boolIs hb true
  | status => exact nofun
  | @statusIs v b hb =>
    change (if getBool (some v) true = true then Progress.modern else .silent) ≠ .silent ↔ b = true
    rw [boolIs hb true]
    cases b <;> simp
  | classic => rfl
  | modern => rfl
  | rescue => rfl
  | single => rfl
  | s => rfl
  | @level c h1 h2 h6 =>
    obtain ⟨hp, hS⟩ := level_digit h1 h2 h6
    unfold bootArg
    rw [if_neg (fun h => absurd (show 6 ≤ 1 from h.length_le) (by decide)),
      if_neg (fun h => absurd (show 5 ≤ 1 from h.length_le) (by decide)),
      if_neg (fun h => h.elim (fun h => absurd (show 1 = 6 from congrArg List.length h) (by decide))
        (fun h => absurd (show 1 = 7 from congrArg List.length h) (by decide))),
      if_neg (fun h => h.elim (fun h => absurd (show 1 = 6 from congrArg List.length h) (by decide))
        (fun h => hS (by injection h)))]
    exact hp
  | skip => rfl
  | auto => rfl
  | force => rfl
  | preen => rfl
  | yes => rfl
  | no => rfl

/-! ## Theorems -/

/-- **C59.**  The last parameter about a setting counts, whatever else is given.  For the runlevel, what follows it must
    be parameters finit knows. -/
theorem C59_last_partial {o : BootOpts} {pre post : List CStr} {a : CStr} {k : BootKey} {P : BootOpts → Prop}
    (h : BootSays a k P) (hp : ∀ b ∈ post, ¬ About b k) (hl : k = .level → ∀ b ∈ post, Known b) :
    P (bootOpts o (pre ++ a :: post)) := by
  have e : bootOpts o (pre ++ a :: post) = bootOpts (bootArg (bootOpts o pre) a) post := by
    simp [bootOpts]
  rw [e]
  exact h.congr (keep_all hp hl).symm (says h _)

/-- Without a parameter about it, a setting is what it was when finit was built. -/
theorem C59_default {o : BootOpts} {args : List CStr} :
    ((∀ b ∈ args, ¬ About b .config) → (bootOpts o args).config = o.config) ∧
    ((∀ b ∈ args, ¬ About b .fstab) → (bootOpts o args).fstab = o.fstab) ∧
    ((∀ b ∈ args, ¬ About b .debug) → (bootOpts o args).debug = o.debug) ∧
    ((∀ b ∈ args, ¬ About b .progress) → (bootOpts o args).progress = o.progress) ∧
    ((∀ b ∈ args, ¬ About b .rescue) → (bootOpts o args).rescue = o.rescue) ∧
    ((∀ b ∈ args, ¬ About b .single) → (bootOpts o args).single = o.single) ∧
    ((∀ b ∈ args, ¬ About b .mode) → (bootOpts o args).fsckMode = o.fsckMode) ∧
    ((∀ b ∈ args, ¬ About b .repair) → (bootOpts o args).fsckRepair = o.fsckRepair) :=
  ⟨fun h => keep_all (k := .config) h nofun, fun h => keep_all (k := .fstab) h nofun,
   fun h => keep_all (k := .debug) h nofun, fun h => keep_all (k := .progress) h nofun,
   fun h => keep_all (k := .rescue) h nofun, fun h => keep_all (k := .single) h nofun,
   fun h => keep_all (k := .mode) h nofun, fun h => keep_all (k := .repair) h nofun⟩

private theorem conds_arg (o : BootOpts) (b : CStr) :
    (∃ l, b = "finit.cond=".toList ++ l ∧ (bootArg o b).conds = l :: o.conds) ∨
    ((∀ l, b ≠ "finit.cond=".toList ++ l) ∧ (bootArg o b).conds = o.conds) := by
  by_cases hb : ∃ l, b = "finit.cond=".toList ++ l
  · obtain ⟨l, rfl⟩ := hb
    exact .inl ⟨l, rfl, rfl⟩
  · refine .inr ⟨fun l h => hb ⟨l, h⟩, ?_⟩
    unfold bootArg
    split
    · rename_i hf
      obtain ⟨r, rfl⟩ := hf
      rw [show ("finit.".toList ++ r).drop 6 = r from rfl]
      unfold finitOpt
      rcases split_eq r with ⟨n, e, hr⟩ | ⟨n, a, e, hr⟩
      · rw [e]
        dsimp only
        split; · rfl
        split; · rfl
        split; · rfl
        split; · rfl
        split; · rfl
        split <;> rfl
      · rw [e]
        dsimp only
        split
        · rename_i hn
          exact absurd ⟨a, by rw [hr, hn]; rfl⟩ hb
        split; · rfl
        split; · rfl
        split; · rfl
        split
        · split <;> rfl
        split <;> rfl
    split
    · unfold fsckOpt
      split
      · cases (splitEq (b.drop 5)).2 with
        | none => rfl
        | some a => dsimp only; split; rfl; split; rfl; split <;> rfl
      split
      · cases (splitEq (b.drop 5)).2 with
        | none => rfl
        | some a => dsimp only; split; rfl; split; rfl; split <;> rfl
      · rfl
    split
    · rfl
    split <;> rfl

/-- **C59, conditions.**  Exactly the conditions of all `finit.cond` parameters are set. -/
theorem C59_conds {o : BootOpts} {args : List CStr} (ho : o.conds = []) (c : CStr) :
    c ∈ bootConds (bootOpts o args) ↔ ∃ l, "finit.cond=".toList ++ l ∈ args ∧ ∃ n, IsMember (· = ',') n l ∧
      c = if "boot/".toList <+: n then n else "boot/".toList ++ n := by
  have all : ∀ (args : List CStr) (o : BootOpts) (l : CStr),
      l ∈ (bootOpts o args).conds ↔ l ∈ o.conds ∨ "finit.cond=".toList ++ l ∈ args := by
    intro args
    induction args with
    | nil => intro o l; simp [bootOpts]
    | cons b args ih =>
      intro o l
      change l ∈ (bootOpts (bootArg o b) args).conds ↔ _
      rw [ih, List.mem_cons]
      rcases conds_arg o b with ⟨l', rfl, e⟩ | ⟨hb, e⟩
      · rw [e, List.mem_cons, List.append_cancel_left_eq]
        constructor
        · rintro ((h | h) | h)
          · exact .inr (.inl h)
          · exact .inl h
          · exact .inr (.inr h)
        · rintro (h | h | h)
          · exact .inl (.inr h)
          · exact .inl (.inl h)
          · exact .inr h
      · rw [e]
        constructor
        · rintro (h | h)
          · exact .inl h
          · exact .inr (.inr h)
        · rintro (h | h | h)
          · exact .inl h
          · exact absurd h.symm (hb l)
          · exact .inr h
  unfold bootConds
  rw [List.mem_flatMap]
  constructor
  · rintro ⟨l, hl, hc⟩
    rw [List.mem_map] at hc
    obtain ⟨n, hn, rfl⟩ := hc
    refine ⟨l, ?_, n, (mem_tokens_iff _ _ _).1 hn, rfl⟩
    rcases (all args o l).1 hl with h | h
    · rw [ho] at h
      exact nomatch h
    · exact h
  · rintro ⟨l, hl, n, hn, rfl⟩
    exact ⟨l, (all args o l).2 (.inr hl), List.mem_map.2 ⟨n, (mem_tokens_iff _ _ _).2 hn, rfl⟩⟩

private theorem level_arg (o : BootOpts) (b : CStr) :
    (bootArg o b).cmdlevel = o.cmdlevel ∨ (bootArg o b).cmdlevel = parseLevel b := by
  by_cases hk : Known b
  · by_cases ha : About b .level
    · by_cases hS : (bootArg o b).cmdlevel = o.cmdlevel
      · exact .inl hS
      · unfold bootArg at hS ⊢
        rcases hk with h | h | h | h
        · exact absurd (ha.2 'f' (h.subset (by decide))) (by decide)
        · exact absurd (ha.2 'f' (h.subset (by decide))) (by decide)
        · rcases h with rfl | rfl <;> exact absurd (ha.2 'r' (by decide)) (by decide)
        · rcases h with rfl | rfl
          · exact absurd (ha.2 's' (by decide)) (by decide)
          · exact absurd (ha.2 'S' (by decide)) (by decide)
    · exact .inl (keep_arg (k := .level) ha (fun _ => hk))
  · right
    unfold bootArg
    have h3 : ¬ (b = "rescue".toList ∨ b = "recover".toList) := fun h => hk (.inr (.inr (.inl h)))
    have h4 : ¬ (b = "single".toList ∨ b = "S".toList) := fun h => hk (.inr (.inr (.inr h)))
    rw [if_neg fun h => hk (.inl h), if_neg fun h => hk (.inr (.inl h)), if_neg h3, if_neg h4]

private theorem parseLevel_ok (b : CStr) : parseLevel b = 0 ∨ (1 ≤ parseLevel b ∧ parseLevel b ≤ 9 ∧ parseLevel b ≠ 6) := by
  unfold parseLevel
  split
  · split
    · exact .inl rfl
    · right; omega
  · exact .inl rfl

private theorem level_all {Q : Nat → Prop} : ∀ (args : List CStr) (o : BootOpts), Q o.cmdlevel →
    (∀ b ∈ args, Q (parseLevel b)) → Q (bootOpts o args).cmdlevel
  | [], _, h, _ => h
  | b :: args, o, h, hb => by
    refine level_all args (bootArg o b) ?_ (fun c hc => hb c (List.mem_cons_of_mem _ hc))
    rcases level_arg o b with e | e
    · rw [e]; exact h
    · rw [e]; exact hb b (List.mem_cons_self ..)

/-- **C59, single.**  Unless a runlevel is given, `single` and `S` lead to runlevel 1 and otherwise the configured one is
    taken. -/
theorem C59_single {o : BootOpts} {args : List CStr} (cfg : Nat) (ho : o.cmdlevel = 0) (hs : o.single = false)
    (h : ∀ b ∈ args, ¬ About b .level) :
    ((∃ b ∈ args, About b .single) → firstLevel (bootOpts o args) cfg = 1) ∧
    ((∀ b ∈ args, ¬ About b .single) → firstLevel (bootOpts o args) cfg = cfg) := by
  have h0 : (bootOpts o args).cmdlevel = 0 := by
    refine level_all (Q := (· = 0)) args o ho fun b hb => ?_
    unfold parseLevel
    split
    · rename_i hd
      cases b with
      | nil => rfl
      | cons c cs =>
        refine absurd ⟨by simp, fun d hm => ?_⟩ (h _ hb)
        have := List.all_eq_true.1 hd d hm
        simpa using this
    · rfl
  unfold firstLevel
  rw [if_neg (by simp [h0])]
  constructor
  · rintro ⟨b, hb, ha⟩
    have key : ∀ (args : List CStr) (o : BootOpts), o.single = true → (bootOpts o args).single = true := by
      intro args
      induction args with
      | nil => exact fun o h => h
      | cons b args ih =>
        intro o h
        refine ih (bootArg o b) ?_
        by_cases hb : About b .single
        · rcases hb with rfl | rfl <;> rfl
        · rw [show (bootArg o b).single = o.single from keep_arg (k := .single) hb nofun]
          exact h
    obtain ⟨pre, post, rfl⟩ := List.append_of_mem hb
    have e : bootOpts o (pre ++ b :: post) = bootOpts (bootArg (bootOpts o pre) b) post := by
      simp [bootOpts]
    rw [if_pos]
    rw [e]
    refine key post _ ?_
    rcases ha with rfl | rfl <;> rfl
  · intro hn
    rw [if_neg]
    rw [show (bootOpts o args).single = o.single from keep_all (k := .single) hn nofun, hs]
    simp

/-- **C59, never down.**  No boot parameters, and no `runlevel` line, make a system go down right after it has come up. -/
theorem C59_never_down (o : BootOpts) (args : List CStr) (dflt : Nat) (token : Option Nat) (ho : o.cmdlevel = 0) :
    1 ≤ firstLevel (bootOpts o args) (confLevel dflt token) ∧ firstLevel (bootOpts o args) (confLevel dflt token) ≤ 9 ∧
    firstLevel (bootOpts o args) (confLevel dflt token) ≠ 6 := by
  have h := level_all (Q := fun n => n = 0 ∨ (1 ≤ n ∧ n ≤ 9 ∧ n ≠ 6)) args o (.inl ho) (fun b _ => parseLevel_ok b)
  have hc : 1 ≤ confLevel dflt token ∧ confLevel dflt token ≤ 9 ∧ confLevel dflt token ≠ 6 := by
    unfold confLevel
    extract_lets l
    split
    · omega
    · omega
  unfold firstLevel
  split
  · omega
  · split
    · omega
    · exact hc

/-! ## Where it fails -/

private def builtin : BootOpts :=
  { config := "/etc/finit.conf".toList, fstab := some "/etc/fstab".toList, debug := false, progress := .modern,
    fsckMode := some [], fsckRepair := "-p".toList }

/-- A parameter that finit does not know, as any that the kernel does not know, cancels the runlevel before it. -/
theorem C59_unknown : firstLevel (bootOpts builtin ["3".toList, "splash".toList]) 2 = 2 := by decide +kernel

/-- The full claim is false. -/
theorem C59_full_false : ¬ C59_full := by
  intro h
  have := h builtin [] "3".toList ["splash".toList] .level _ (.level (c := '3') (by decide) (by decide) (by decide))
    (by
      intro b hb
      rw [List.mem_singleton] at hb
      subst hb
      exact fun h => absurd (h.2 's' (by decide)) (by decide))
  revert this
  decide +kernel

/-! ## Examples -/

example : (bootOpts builtin ["9".toList, "3".toList, "fsck.mode=skip".toList, "S".toList]).cmdlevel = 3 := by
  refine C59_last_partial (pre := ["9".toList]) (.level (c := '3') (by decide) (by decide) (by decide)) ?_ ?_
  · intro b hb
    simp only [List.mem_cons, List.not_mem_nil, or_false] at hb
    rcases hb with rfl | rfl
    · exact fun h => absurd (h.2 'f' (by decide)) (by decide)
    · exact fun h => absurd (h.2 'S' (by decide)) (by decide)
  · intro _ b hb
    simp only [List.mem_cons, List.not_mem_nil, or_false] at hb
    rcases hb with rfl | rfl
    · exact .inr (.inl (by decide))
    · exact .inr (.inr (.inr (.inr rfl)))

example : bootConds (bootOpts builtin ["finit.cond=a,,boot/b".toList, "x".toList, "finit.cond=c".toList]) =
    ["boot/c".toList, "boot/a".toList, "boot/b".toList] := by decide +kernel

end Verif
