import Verif.Line
import Verif.CStrLemmas
import Verif.UtilLemmas

/-!
# Lemmas about service lines
-/

namespace Verif

/-! ## Words -/

/-- A word without blanks and quotes. -/
structure PlainWord (w : CStr) : Prop where
  ne : w ≠ []
  blank : ∀ c ∈ w, isBlank c = false
  quote : ∀ c ∈ w, isQuote c = false

theorem argLoop_plain : ∀ (w : CStr) (colon : Bool) (b : Char) (s : CStr),
    (∀ c ∈ w, isBlank c = false) → (∀ c ∈ w, isQuote c = false) → isBlank b = true →
    (colon = true ∨ ':' ∈ w → (s.dropWhile isBlank).head? ≠ some ',') → argLoop none colon (w ++ b :: s) = (w, s)
  | [], colon, b, s, _, _, hb, hs => by
    have hq : isQuote b = false := by
      simp only [isBlank, decide_eq_true_eq] at hb
      rcases hb with rfl | rfl <;> rfl
    have hc : b ≠ ':' := by
      simp only [isBlank, decide_eq_true_eq] at hb
      rcases hb with rfl | rfl <;> decide
    cases colon
    · simp [argLoop, hq, hc, hb]
    · simp [argLoop, hq, hc, hb, hs (Or.inl rfl)]
  | c :: w, colon, b, s, h1, h2, hb, hs => by
    have ih := fun colon hs => argLoop_plain w colon b s (fun x hx => h1 x (List.mem_cons_of_mem _ hx))
      (fun x hx => h2 x (List.mem_cons_of_mem _ hx)) hb hs
    have hq := h2 c List.mem_cons_self
    have hk := h1 c List.mem_cons_self
    simp only [List.cons_append, argLoop, hq, hk]
    by_cases hc : c = ':'
    · subst hc
      rw [ih true (fun _ => hs (Or.inr List.mem_cons_self))]
      simp
    · rw [ih colon (fun h => hs (h.imp id (List.mem_cons_of_mem _)))]
      simp [hc]

theorem argLoop_end : ∀ (w : CStr) (colon : Bool),
    (∀ c ∈ w, isBlank c = false) → (∀ c ∈ w, isQuote c = false) → argLoop none colon w = (w, [])
  | [], _, _, _ => rfl
  | c :: w, colon, h1, h2 => by
    have ih := fun colon => argLoop_end w colon (fun x hx => h1 x (List.mem_cons_of_mem _ hx))
      (fun x hx => h2 x (List.mem_cons_of_mem _ hx))
    have hq := h2 c List.mem_cons_self
    have hk := h1 c List.mem_cons_self
    simp only [argLoop, hq, hk, ih]
    by_cases hc : c = ':' <;> simp [hc]

theorem PlainWord.dropBlank {w : CStr} (h : PlainWord w) (s : CStr) :
    (w ++ s).dropWhile isBlank = w ++ s := by
  cases w with
  | nil => exact absurd rfl h.ne
  | cons c w => rw [List.cons_append, List.dropWhile_cons, if_neg (by simp [h.blank c List.mem_cons_self])]

theorem parseArgs_plain {w : CStr} (h : PlainWord w) {b : Char} (hb : isBlank b = true) {s : CStr}
    (hs : ':' ∈ w → (s.dropWhile isBlank).head? ≠ some ',') : parseArgs (w ++ b :: s) = some (w, s) := by
  unfold parseArgs
  rw [h.dropBlank]
  cases w with
  | nil => exact absurd rfl h.ne
  | cons c w =>
    have := argLoop_plain (c :: w) false b s h.blank h.quote hb (fun h => hs (h.resolve_left (by simp)))
    simp only [List.cons_append] at this ⊢
    rw [this]

theorem parseArgs_end {w : CStr} (h : PlainWord w) : parseArgs w = some (w, []) := by
  unfold parseArgs
  have := h.dropBlank []
  rw [List.append_nil] at this
  rw [this]
  cases w with
  | nil => exact absurd rfl h.ne
  | cons c w => simp only [argLoop_end (c :: w) false h.blank h.quote]

/-! ## Options -/

/-- What one word does. -/
inductive Kind
  | user (a : CStr) | levels (a : CStr) | cond (a : CStr) | id (a : CStr) | log (a : CStr) | pid (a : CStr)
  | name (a : CStr) | notify (a : CStr) | halt (a : CStr) | delay (a : CStr) | pre (a : CStr) | post (a : CStr)
  | ready (a : CStr) | cleanup (a : CStr) | reload (a : CStr) | stop (a : CStr) | env (a : CStr)
  | cgroup (a : CStr) | conflict (a : CStr) | ifstmt (a : CStr)
  | forking | manual | nowarn | respawn
  | max (n : Int) | tmo (n : Int) | oncrash (a : CStr)
  deriving DecidableEq

/-- What it sets. -/
def Kind.apply : Kind → Opts → Opts
  | .user a, o => { o with username := some a }
  | .levels a, o => { o with runlevels := some a }
  | .cond a, o => { o with cond := some a }
  | .id a, o => { o with id := some a }
  | .log a, o => { o with log := some a }
  | .pid a, o => { o with pid := some a }
  | .name a, o => { o with name := some a }
  | .notify a, o => { o with notify := some a }
  | .halt a, o => { o with halt := some a }
  | .delay a, o => { o with delay := some a }
  | .pre a, o => { o with pre := some a }
  | .post a, o => { o with post := some a }
  | .ready a, o => { o with ready := some a }
  | .cleanup a, o => { o with cleanup := some a }
  | .reload a, o => { o with reload := some a }
  | .stop a, o => { o with stop := some a }
  | .env a, o => { o with env := some a }
  | .cgroup a, o => { o with cgroup := some a }
  | .conflict a, o => { o with conflict := some a }
  | .ifstmt a, o => { o with ifstmt := some a }
  | .forking, o => { o with forking := true }
  | .manual, o => { o with manual := true }
  | .nowarn, o => { o with nowarn := true }
  | .respawn, o => { o with respawn := true }
  | .max n, o => { o with restartMax := n }
  | .tmo n, o => { o with restartTmo := n }
  | .oncrash a, o => { o with oncrash := onCrashArg a o.oncrash }

/-- The number of the setting. -/
def Kind.cls : Kind → Nat
  | .user _ => 0 | .levels _ => 1 | .cond _ => 2 | .id _ => 3 | .log _ => 4 | .pid _ => 5 | .name _ => 6
  | .notify _ => 7 | .halt _ => 8 | .delay _ => 9 | .pre _ => 10 | .post _ => 11 | .ready _ => 12
  | .cleanup _ => 13 | .reload _ => 14 | .stop _ => 15 | .env _ => 16 | .cgroup _ => 17 | .conflict _ => 18
  | .ifstmt _ => 19 | .forking => 20 | .manual => 21 | .nowarn => 22 | .respawn => 23 | .max _ => 24
  | .tmo _ => 25 | .oncrash _ => 26

theorem Kind.comm (j k : Kind) (h : j.cls ≠ k.cls) (o : Opts) : j.apply (k.apply o) = k.apply (j.apply o) := by
  cases j <;> cases k <;> first | rfl | exact absurd rfl h

theorem Kind.last (j k : Kind) (h : j.cls = k.cls) (hc : k.cls ≠ 26) (o : Opts) :
    k.apply (j.apply o) = k.apply o := by
  cases j <;> cases k <;> first | rfl | exact (hc rfl).elim | exact absurd h (by simp [Kind.cls])

/-- A word is the command, undefined behaviour, or a setting. -/
inductive Act
  | cmd | ub | set (k : Kind)

def Act.toTok : Act → Opts → Tok
  | .cmd, _ => .cmd
  | .ub, _ => .ub
  | .set k, o => .opt (k.apply o)

def secAct (a : CStr) : Act :=
  if atoi a * 1000 < -2147483648 ∨ 2147483647 < atoi a * 1000 then .ub else .set (.tmo (atoi a * 1000))

def actTable : List (String × (CStr → CStr → Act)) :=
  [("log", fun w _ => .set (.log w)), ("pid", fun w _ => .set (.pid w)), ("name:", fun _ a => .set (.name a)),
   ("notify:", fun _ a => .set (.notify a)), ("type:forking", fun _ _ => .set .forking),
   ("manual:yes", fun _ _ => .set .manual),
   ("restart:", fun _ a => .set (.max (if (matchCmd "always" a).isSome then -1 else atoi a))),
   ("restarttmo:", fun _ a => secAct a), ("restart_sec:", fun _ a => secAct a),
   ("norestart", fun _ _ => .set (.max 0)), ("nowarn", fun _ _ => .set .nowarn),
   ("oncrash:", fun _ a => .set (.oncrash a)), ("respawn", fun _ _ => .set .respawn),
   ("halt:", fun _ a => .set (.halt a)), ("kill:", fun _ a => .set (.delay a)), ("pre:", fun _ a => .set (.pre a)),
   ("post:", fun _ a => .set (.post a)), ("ready:", fun _ a => .set (.ready a)),
   ("cleanup:", fun _ a => .set (.cleanup a)), ("reload:", fun _ a => .set (.reload a)),
   ("stop:", fun _ a => .set (.stop a)), ("env:", fun _ a => .set (.env a)),
   ("cgroup", fun _ a => .set (.cgroup a)), ("conflict:", fun _ a => .set (.conflict a)),
   ("if:", fun _ a => .set (.ifstmt a))]

def actFind (w : CStr) : List (String × (CStr → CStr → Act)) → Act
  | [] => .cmd
  | (pre, f) :: t =>
    match matchCmd pre w with
    | some a => f w a
    | none => actFind w t

def wordAct (w : CStr) : Act :=
  if w.head? = some '@' then .set (.user (w.drop 1))
  else if w.head? = some '[' then .set (.levels w)
  else if w.head? = some '<' then .set (.cond (w.drop 1))
  else if w.head? = some ':' then .set (.id (w.drop 1))
  else actFind w actTable

/-- Two tables agree. -/
inductive SameTable : List (String × (CStr → CStr → Opts → Tok)) → List (String × (CStr → CStr → Act)) → Prop
  | nil : SameTable [] []
  | cons {p : String} {f : CStr → CStr → Opts → Tok} {g : CStr → CStr → Act}
      {t : List (String × (CStr → CStr → Opts → Tok))} {u : List (String × (CStr → CStr → Act))}
      (h : ∀ w a o, f w a o = (g w a).toTok o) (ht : SameTable t u) : SameTable ((p, f) :: t) ((p, g) :: u)

theorem SameTable.find {t : List (String × (CStr → CStr → Opts → Tok))} {u : List (String × (CStr → CStr → Act))}
    (h : SameTable t u) (w : CStr) (o : Opts) : optFind w o t = (actFind w u).toTok o := by
  induction h with
  | nil => rfl
  | @cons p f g t u h _ ih =>
    simp only [optFind, actFind]
    cases matchCmd p w with
    | some a => exact h _ _ _
    | none => exact ih

theorem restartSec_act (o : Opts) (a : CStr) : restartSec o a = (secAct a).toTok o := by
  unfold restartSec secAct
  split <;> rfl

theorem sameTable : SameTable optTable actTable := by
  unfold optTable actTable
  repeat' (first | exact SameTable.nil | refine SameTable.cons ?_ ?_)
  all_goals first | exact fun _ _ _ => rfl | exact fun _ _ _ => restartSec_act _ _

theorem optWord_act (w : CStr) (o : Opts) : optWord w o = (wordAct w).toTok o := by
  unfold optWord wordAct
  repeat' split
  all_goals first | rfl | exact sameTable.find w o

/-! ## Several options -/

/-- Option words with a blank after each. -/
def wordsLine (ws : List CStr) (s : CStr) : CStr := ws.foldr (fun w s => w ++ ' ' :: s) s

/-- The settings made by a list of words; none if one of them is undefined behaviour. -/
def applyAll : List Act → Opts → Option Opts
  | [], o => some o
  | .set k :: t, o => applyAll t (k.apply o)
  | _ :: _, _ => none

/-- An option word. -/
structure OptionWord (w : CStr) : Prop extends PlainWord w where
  comma : w.head? ≠ some ','
  opt : wordAct w ≠ .cmd

theorem wordsLine_comma {ws : List CStr} (h : ∀ w ∈ ws, OptionWord w) {s : CStr}
    (hs : (s.dropWhile isBlank).head? ≠ some ',') : ((wordsLine ws s).dropWhile isBlank).head? ≠ some ',' := by
  cases ws with
  | nil => exact hs
  | cons w ws =>
    have hw := h w List.mem_cons_self
    change ((w ++ _).dropWhile isBlank).head? ≠ _
    rw [hw.dropBlank]
    cases w with
    | nil => exact absurd rfl hw.ne
    | cons c w => exact hw.comma

theorem optLoop_words (n : Nat) : ∀ (ws : List CStr) (o : Opts) (s : CStr), (∀ w ∈ ws, OptionWord w) →
    (s.dropWhile isBlank).head? ≠ some ',' →
    optLoop (ws.length + n) o (wordsLine ws s) =
      match applyAll (ws.map wordAct) o with
      | some o => optLoop n o s
      | none => .ub
  | [], o, s, _, _ => by simp [wordsLine, applyAll]
  | w :: ws, o, s, h, hs => by
    have hw := h w List.mem_cons_self
    have ht : ∀ x ∈ ws, OptionWord x := fun x hx => h x (List.mem_cons_of_mem _ hx)
    have e : (w :: ws).length + n = (ws.length + n) + 1 := by simp; omega
    have hp : parseArgs (w ++ ' ' :: wordsLine ws s) = some (w, wordsLine ws s) :=
      parseArgs_plain hw.toPlainWord rfl (fun _ => wordsLine_comma ht hs)
    rw [e]
    change optLoop (_ + 1) o (w ++ ' ' :: wordsLine ws s) = _
    simp only [optLoop, hp, optWord_act, List.map_cons]
    cases ha : wordAct w with
    | cmd => exact absurd ha hw.opt
    | ub => rfl
    | set k => exact optLoop_words n ws (k.apply o) s ht hs

/-- The setting of a word, if it is an option that has one. -/
def Act.cls : Act → Option Nat
  | .set k => some k.cls
  | .ub => some 25
  | .cmd => none

theorem applyAll_perm {l m : List Act} (h : l.Perm m) (hd : (l.map Act.cls).Nodup) (hc : ∀ a ∈ l, a ≠ .cmd)
    (o : Opts) : applyAll l o = applyAll m o := by
  induction h generalizing o with
  | nil => rfl
  | @cons a l m _ ih =>
    rw [List.map_cons, List.nodup_cons] at hd
    have hc' : ∀ x ∈ l, x ≠ Act.cmd := fun x hx => hc x (List.mem_cons_of_mem _ hx)
    cases a with
    | cmd => exact absurd rfl (hc _ List.mem_cons_self)
    | ub => rfl
    | set k => exact ih hd.2 hc' _
  | swap a b l =>
    cases a with
    | cmd => exact absurd rfl (hc .cmd (by simp))
    | ub => cases b with
      | cmd => exact absurd rfl (hc .cmd (by simp))
      | ub => rfl
      | set k => rfl
    | set j => cases b with
      | cmd => exact absurd rfl (hc .cmd (by simp))
      | ub => rfl
      | set k =>
        have hne : j.cls ≠ k.cls := by
          intro e
          rw [List.map_cons, List.map_cons, List.nodup_cons] at hd
          exact hd.1 (by simp [Act.cls, e])
        simp only [applyAll]
        rw [Kind.comm j k hne]
  | @trans l m n h1 _ ih1 ih2 =>
    rw [ih1 hd hc o]
    exact ih2 ((h1.map Act.cls).nodup_iff.1 hd) (fun a ha => hc a (h1.mem_iff.2 ha)) o

/-- A setting that does not look at the value it had. -/
def Kind.Fresh (k : Kind) : Prop := ∀ j : Kind, j.cls = k.cls → ∀ o, k.apply (j.apply o) = k.apply o

/-- Options that a later setting `k` makes equal stay so. -/
theorem Kind.forget (k j : Kind) (hk : k.Fresh) {o p : Opts} (h : k.apply o = k.apply p) :
    k.apply (j.apply o) = k.apply (j.apply p) := by
  by_cases e : j.cls = k.cls
  · rw [hk j e, hk j e, h]
  · rw [Kind.comm k j (fun h => e h.symm), Kind.comm k j (fun h => e h.symm), h]

theorem applyAll_append : ∀ (l m : List Act) (o : Opts),
    applyAll (l ++ m) o = (applyAll l o).bind (applyAll m)
  | [], _, _ => rfl
  | .set k :: l, m, o => applyAll_append l m (k.apply o)
  | .cmd :: _, _, _ => rfl
  | .ub :: _, _, _ => rfl

theorem applyAll_forget (k : Kind) (hk : k.Fresh) (m : List Act) : ∀ (l : List Act) (o p : Opts),
    k.apply o = k.apply p → applyAll (l ++ .set k :: m) o = applyAll (l ++ .set k :: m) p
  | [], o, p, h => by
    change applyAll m (k.apply o) = applyAll m (k.apply p)
    rw [h]
  | .set j :: l, o, p, h => applyAll_forget k hk m l _ _ (Kind.forget k j hk h)
  | .cmd :: _, _, _, _ => rfl
  | .ub :: _, _, _, _ => rfl

/-- A setting that is made again later is of no consequence. -/
theorem applyAll_last (j k : Kind) (h : j.cls = k.cls) (hk : k.Fresh) (a l m : List Act) (o : Opts) :
    applyAll (a ++ .set j :: (l ++ .set k :: m)) o = applyAll (a ++ (l ++ .set k :: m)) o := by
  rw [applyAll_append, applyAll_append]
  cases applyAll a o with
  | none => rfl
  | some o => exact applyAll_forget k hk m l _ _ (hk j h o)

/-! ## The description -/

theorem strstr_word : ∀ (w : CStr) (s : CStr), (∀ c ∈ w, isBlank c = false) →
    ¬ (∃ a, w = a ++ "--".toList) →
    strstr "-- ".toList (w ++ ' ' :: s) = (strstr "-- ".toList s).map (fun r => (w ++ ' ' :: r.1, r.2))
  | [], s, _, _ => by
    simp [strstr]
  | c :: w, s, h, hn => by
    have ih := strstr_word w s (fun x hx => h x (List.mem_cons_of_mem _ hx))
      (fun ⟨a, ha⟩ => hn ⟨c :: a, by rw [ha]; rfl⟩)
    have hp : List.isPrefixOf "-- ".toList (c :: (w ++ ' ' :: s)) = false := by
      rw [Bool.eq_false_iff]
      intro hp
      rw [List.isPrefixOf_iff_prefix] at hp
      obtain ⟨t, ht⟩ := hp
      have ht : c :: (w ++ ' ' :: s) = '-' :: '-' :: ' ' :: t := ht.symm
      injection ht with hc ht
      cases w with
      | nil => simp at ht
      | cons d w =>
        rw [List.cons_append] at ht
        injection ht with hd ht
        cases w with
        | nil => exact hn ⟨[], by rw [hc, hd]; rfl⟩
        | cons e w =>
          rw [List.cons_append] at ht
          injection ht with he ht
          have := h e (by simp)
          rw [he] at this
          simp [isBlank] at this
    rw [List.cons_append]
    simp only [strstr, hp]
    rw [ih]
    cases strstr "-- ".toList s with
    | none => rfl
    | some r => rfl

/-- A word that cannot be part of the mark in front of a description. -/
def NoMark (w : CStr) : Prop := ¬ ∃ a, w = a ++ "--".toList

theorem strstr_words : ∀ (ws : List CStr) (s : CStr), (∀ w ∈ ws, OptionWord w ∧ NoMark w) →
    strstr "-- ".toList (wordsLine ws s) = (strstr "-- ".toList s).map (fun r => (wordsLine ws r.1, r.2))
  | [], s, _ => by
    change strstr "-- ".toList s = _
    cases strstr "-- ".toList s <;> rfl
  | w :: ws, s, h => by
    have ih := strstr_words ws s (fun x hx => h x (List.mem_cons_of_mem _ hx))
    have hw := h w List.mem_cons_self
    change strstr _ (w ++ ' ' :: wordsLine ws s) = _
    rw [strstr_word w _ hw.1.blank hw.2, ih]
    cases strstr "-- ".toList s with
    | none => rfl
    | some r => rfl

theorem wordsLine_append : ∀ (ws : List CStr) (s : CStr), wordsLine ws s = wordsLine ws [] ++ s
  | [], s => rfl
  | w :: ws, s => by
    change w ++ ' ' :: wordsLine ws s = (w ++ ' ' :: wordsLine ws []) ++ s
    rw [wordsLine_append ws s]
    simp

theorem wordsLine_last : ∀ (ws : List CStr), ws ≠ [] → (wordsLine ws []).getLast? = some ' '
  | [], h => absurd rfl h
  | [w], _ => by simp [wordsLine]
  | w :: v :: ws, _ => by
    change (w ++ ' ' :: wordsLine (v :: ws) []).getLast? = _
    have ih := wordsLine_last (v :: ws) (by simp)
    have hne : wordsLine (v :: ws) [] ≠ [] := by
      intro e; rw [e] at ih; simp at ih
    rw [List.getLast?_append, List.getLast?_cons, ih]
    rfl

theorem endsMark_append (p s : CStr) (hp : p.getLast? = some ' ') (hs : s ≠ "--".toList) :
    (2 < (p ++ s).length ∧ (p ++ s).drop ((p ++ s).length - 2) = "--".toList) ↔
      (2 < s.length ∧ s.drop (s.length - 2) = "--".toList) := by
  have hp0 : p ≠ [] := by intro e; rw [e] at hp; simp at hp
  have hpl : 0 < p.length := List.length_pos_iff.2 hp0
  by_cases h2 : 2 ≤ s.length
  · have e : (p ++ s).drop ((p ++ s).length - 2) = s.drop (s.length - 2) := by
      rw [List.length_append, show p.length + s.length - 2 = p.length + (s.length - 2) by omega,
        List.drop_append, List.drop_eq_nil_of_le (by omega : p.length ≤ p.length + (s.length - 2))]
      simp
    rw [e, List.length_append]
    constructor
    · rintro ⟨_, h⟩
      refine ⟨?_, h⟩
      rcases Nat.lt_or_ge 2 s.length with hl | hl
      · exact hl
      · have : s.length = 2 := by omega
        rw [this] at h
        exact absurd (by simpa using h) hs
    · rintro ⟨hl, h⟩
      exact ⟨by omega, h⟩
  · constructor
    · rintro ⟨_, h⟩
      exfalso
      have hlast : ∀ l : CStr, l.drop (l.length - 2) = "--".toList → ∃ m, l = m ++ "--".toList := by
        intro l hl
        exact ⟨l.take (l.length - 2), by rw [← hl]; exact (List.take_append_drop _ _).symm⟩
      obtain ⟨m, hm⟩ := hlast _ h
      obtain ⟨q, hq⟩ : ∃ q, p = q ++ [' '] := by
        obtain ⟨q, hq⟩ := List.getLast?_eq_some_iff.1 hp
        exact ⟨q, hq⟩
      rw [hq] at hm
      match s, h2 with
      | [], _ =>
        have : (q ++ [' '] ++ []).getLast? = (m ++ "--".toList).getLast? := by rw [hm]
        simp at this
      | [c], _ =>
        have e1 : (q ++ [' '] ++ [c]).dropLast.getLast? = (m ++ "--".toList).dropLast.getLast? := by rw [hm]
        have e2 : (q ++ [' '] ++ [c]).dropLast = q ++ [' '] := by simp
        have e3 : (m ++ "--".toList).dropLast = m ++ ['-'] := by
          rw [show m ++ "--".toList = (m ++ ['-']) ++ ['-'] by simp]; simp
        rw [e2, e3] at e1
        simp at e1
      | _ :: _ :: _, h2 => exact absurd (by simp) h2
    · rintro ⟨h, _⟩; omega

theorem splitDesc_words (ws : List CStr) (s : CStr) (h : ∀ w ∈ ws, OptionWord w ∧ NoMark w)
    (hs : s ≠ "--".toList) :
    splitDesc (wordsLine ws s) = (wordsLine ws (splitDesc s).1, (splitDesc s).2) := by
  by_cases h0 : ws = []
  · subst h0; rfl
  unfold splitDesc
  rw [strstr_words ws s h]
  cases strstr "-- ".toList s with
  | some r => rfl
  | none =>
    simp only [Option.map_none]
    have he := endsMark_append (wordsLine ws []) s (wordsLine_last ws h0) hs
    rw [← wordsLine_append] at he
    by_cases hc : 2 < s.length ∧ s.drop (s.length - 2) = "--".toList
    · rw [if_pos hc, if_pos (he.2 hc), wordsLine_append ws s, wordsLine_append ws (s.take _)]
      congr 1
      rw [List.length_append, show (wordsLine ws []).length + s.length - 2 =
        (wordsLine ws []).length + (s.length - 2) by omega, List.take_append,
        List.take_of_length_le (by omega : (wordsLine ws []).length ≤ _)]
      simp
    · rw [if_neg hc, if_neg (fun h => hc (he.1 h))]

end Verif
