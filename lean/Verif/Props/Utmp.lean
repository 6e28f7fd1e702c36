import Verif.Utmp

/-!
# C90: The login records tell who is where
-/

namespace Verif

/-! ## Specification -/

/-- The name of a terminal, without /dev -/
def TtyName (tty name : CStr) : Prop := tty = "/dev/".toList ++ name ∨ (tty = name ∧ ¬ "/dev/".toList <+: tty)

/-- A record can hold four characters to tell terminals apart: the first ones of the name, or of the number of a pseudo terminal. -/
def shortName (name : CStr) : CStr := if "pts/".toList <+: name then (name.drop 4).take 4 else name.take 4

/-- The last process recorded for a terminal -/
def LastOn (es : List UtEv) (name : CStr) (type : UtType) (pid : Nat) (user : CStr) : Prop :=
  ∃ a tty b, es = a ++ .proc type tty pid user :: b ∧ TtyName tty name ∧ ∀ t tty' p u, .proc t tty' p u ∈ b → ¬ TtyName tty' name

/-- The records of a terminal -/
def recordsOf (u : List UtRec) (name : CStr) : List UtRec := u.filter fun r => utIsProc r.type && decide (r.line = name)

/-- The terminals in the order of a list, with any number of events on them; processes are of the three types that are recorded -/
structure OnTerminals (names : List CStr) (es : List UtEv) : Prop where
  procs : ∀ type tty pid user, .proc type tty pid user ∈ es →
    (type = .init ∨ type = .login ∨ type = .user) ∧ user.length ≤ 32 ∧ ∃ n ∈ names, TtyName tty n
  names : ∀ n ∈ names, n.length ≤ 32 ∧ shortName n ≠ []

/-- The full claim: `utmp` has one record for every terminal that was used, that of the last process on it; and no process that is known to
    have ended is there as if it had not. -/
def C90_full : Prop :=
  ∀ (names : List CStr) (es : List UtEv), OnTerminals names es → names.length ≤ 200 →
    (∀ name type pid user, LastOn es name type pid user → .dead pid ∉ es →
      recordsOf (utRun false es).utmp name = [⟨type, pid, name, shortName name, user⟩]) ∧
    ∀ a b pid, es = a ++ .dead pid :: b → (∀ t tty u, .proc t tty pid u ∉ b) →
      ∀ r ∈ (utRun false es).utmp, utIsProc r.type = true → r.pid = pid → r.type = .dead

/-! ## Lemmas -/

theorem ttyName_iff {tty name : CStr} : TtyName tty name ↔ utLine tty = name := by
  unfold TtyName utLine
  constructor
  · rintro (rfl | ⟨rfl, h⟩)
    · rw [if_pos (by rfl)]; rfl
    · rw [if_neg]
      intro e
      exact h ⟨tty.drop 5, by conv => rhs; rw [← List.take_append_drop 5 tty, e]⟩
  · intro h
    split at h
    · rename_i e
      left
      rw [← h]
      conv => lhs; rw [← List.take_append_drop 5 tty, e]
    · rename_i e
      right
      refine ⟨h, fun hp => e ?_⟩
      obtain ⟨t, ht⟩ := hp
      rw [← ht]
      rfl

theorem shortName_eq (name : CStr) : (utId name).take 4 = shortName name := by
  unfold utId shortName
  by_cases h : name.take 4 = "pts/".toList
  · rw [if_pos h, if_pos]
    exact ⟨name.drop 4, by conv => rhs; rw [← List.take_append_drop 4 name, h]⟩
  · rw [if_neg h, if_neg]
    rintro ⟨t, ht⟩
    exact h (by rw [← ht]; rfl)

/-- What tells entries apart -/
def utKey (r : UtRec) : Nat × CStr :=
  match r.type with
  | .runLvl => (1, [])
  | .bootTime => (2, [])
  | _ => (0, r.id)

/-- The record made for an event; nothing is put for the end of a process. -/
def evRec : UtEv → Option UtRec
  | .boot => some ⟨.bootTime, 0, ['~'], ['~', '~'], "reboot".toList⟩
  | .level pre now => some ⟨.runLvl, utLevel pre * 256 + utLevel now % 256, ['~'], ['~', '~'], "runlevel".toList⟩
  | .halt => some ⟨.runLvl, 0, ['~'], ['~', '~'], "shutdown".toList⟩
  | .proc type tty pid user => some ⟨type, pid, utLine tty, shortName (utLine tty), user⟩
  | .dead _ => none

/-- Records of terminals have an identity. -/
def HasId (r : UtRec) : Prop := utIsProc r.type = true → r.id ≠ []

theorem utMatch_key {r e : UtRec} (hr : HasId r) (he : HasId e) : utMatch r e = decide (utKey e = utKey r) := by
  obtain ⟨tr, pr, lr, ir, ur⟩ := r
  obtain ⟨te, pe, le, ie, ue⟩ := e
  unfold HasId at hr he
  dsimp only at hr he
  cases tr <;> cases te <;> simp_all [utMatch, utEqual, utIsProc, utKey]

theorem utPut_key : ∀ (u : List UtRec) {r : UtRec}, HasId r → (∀ e ∈ u, HasId e) →
    (utPut u r).map utKey = if utKey r ∈ u.map utKey then u.map utKey else u.map utKey ++ [utKey r]
  | [], r, _, _ => rfl
  | e :: u, r, hr, hu => by
    have ih := utPut_key u hr fun x hx => hu x (List.mem_cons_of_mem _ hx)
    rw [utPut, utMatch_key hr (hu e List.mem_cons_self)]
    by_cases h : utKey e = utKey r
    · rw [if_pos (decide_eq_true h), if_pos (by rw [List.map_cons, h]; exact List.mem_cons_self), List.map_cons, List.map_cons, h]
    · rw [if_neg (by simp [h]), List.map_cons, ih, List.map_cons]
      by_cases hm : utKey r ∈ u.map utKey
      · rw [if_pos hm, if_pos (List.mem_cons_of_mem _ hm)]
      · rw [if_neg hm, if_neg, List.cons_append]
        intro hx
        rcases List.mem_cons.1 hx with hx | hx
        · exact h hx.symm
        · exact hm hx

theorem utPut_mem : ∀ (u : List UtRec) {r : UtRec}, HasId r → (∀ e ∈ u, HasId e) → (u.map utKey).Nodup →
    ∀ x, x ∈ utPut u r ↔ x = r ∨ (x ∈ u ∧ utKey x ≠ utKey r)
  | [], r, _, _, _, x => by simp [utPut]
  | e :: u, r, hr, hu, hn, x => by
    rw [List.map_cons, List.nodup_cons] at hn
    have ih := utPut_mem u hr (fun x hx => hu x (List.mem_cons_of_mem _ hx)) hn.2 x
    rw [utPut, utMatch_key hr (hu e List.mem_cons_self)]
    by_cases h : utKey e = utKey r
    · rw [if_pos (decide_eq_true h), List.mem_cons, List.mem_cons]
      constructor
      · rintro (hx | hx)
        · exact .inl hx
        · refine .inr ⟨.inr hx, fun hk => hn.1 ?_⟩
          rw [h, ← hk]
          exact List.mem_map_of_mem hx
      · rintro (hx | ⟨hx | hx, hk⟩)
        · exact .inl hx
        · rw [hx] at hk; exact absurd h hk
        · exact .inr hx
    · rw [if_neg (by simp [h]), List.mem_cons, List.mem_cons, ih]
      constructor
      · rintro (hx | hx | hx)
        · exact .inr ⟨.inl hx, by rw [hx]; exact h⟩
        · exact .inl hx
        · exact .inr ⟨.inr hx.1, hx.2⟩
      · rintro (hx | ⟨hx | hx, hk⟩)
        · exact .inr (.inl hx)
        · exact .inl hx
        · exact .inr (.inr ⟨hx, hk⟩)

theorem nodup_subset_length {α : Type} [DecidableEq α] : ∀ {l m : List α}, l.Nodup → (∀ x ∈ l, x ∈ m) → l.length ≤ m.length
  | [], _, _, _ => Nat.zero_le _
  | x :: l, m, hn, hs => by
    rw [List.nodup_cons] at hn
    have hx := hs x List.mem_cons_self
    have ih := nodup_subset_length (l := l) (m := m.erase x) hn.2 fun y hy =>
      (List.mem_erase_of_ne (by rintro rfl; exact hn.1 hy)).2 (hs y (List.mem_cons_of_mem _ hy))
    rw [List.length_erase_of_mem hx] at ih
    have := List.length_pos_of_mem hx
    rw [List.length_cons]
    omega

/-- Exactly the last record of every key is there. -/
structure UtInv (names : List CStr) (es : List UtEv) (u : List UtRec) : Prop where
  nodup : (u.map utKey).Nodup
  keys : ∀ k ∈ u.map utKey, k ∈ (1, []) :: (2, []) :: names.map fun n => (0, shortName n)
  ids : ∀ r ∈ u, HasId r
  mem : ∀ r, r ∈ u ↔ ∃ a e b, es = a ++ e :: b ∧ evRec e = some r ∧ ∀ e' ∈ b, ∀ r', evRec e' = some r' → utKey r' ≠ utKey r

theorem append_single_split {α : Type} {es a b : List α} {e x : α} (h : es ++ [e] = a ++ x :: b) :
    (b = [] ∧ x = e ∧ a = es) ∨ ∃ b', b = b' ++ [e] ∧ es = a ++ x :: b' := by
  rcases List.eq_nil_or_concat b with rfl | ⟨b', y, rfl⟩
  · obtain ⟨h1, h2⟩ := List.append_inj' h rfl
    exact .inl ⟨rfl, (List.cons.inj h2).1.symm, h1.symm⟩
  · rw [List.concat_eq_append] at h
    have h' : es ++ [e] = (a ++ x :: b') ++ [y] := by rw [h]; simp
    obtain ⟨h1, h2⟩ := List.append_inj' h' rfl
    have := (List.cons.inj h2).1
    subst this
    exact .inr ⟨b', List.concat_eq_append, h1⟩

theorem utInv_none {names : List CStr} {es : List UtEv} {u : List UtRec} (h : UtInv names es u) {e : UtEv} (he : evRec e = none) :
    UtInv names (es ++ [e]) u := by
  refine ⟨h.nodup, h.keys, h.ids, fun r => ?_⟩
  rw [h.mem]
  constructor
  · rintro ⟨a, x, b, rfl, hx, hb⟩
    refine ⟨a, x, b ++ [e], by simp, hx, fun e' he' r' hr' => ?_⟩
    rcases List.mem_append.1 he' with h1 | h1
    · exact hb e' h1 r' hr'
    · rw [List.mem_singleton.1 h1, he] at hr'
      cases hr'
  · rintro ⟨a, x, b, hs, hx, hb⟩
    rcases append_single_split hs with ⟨rfl, rfl, rfl⟩ | ⟨b', rfl, rfl⟩
    · rw [he] at hx; cases hx
    · exact ⟨a, x, b', rfl, hx, fun e' he' => hb e' (List.mem_append_left _ he')⟩

theorem utInv_put {names : List CStr} {es : List UtEv} {u : List UtRec} (h : UtInv names es u) {e : UtEv} {r : UtRec} (he : evRec e = some r)
    (hid : HasId r) (hk : utKey r ∈ (1, []) :: (2, []) :: names.map fun n => (0, shortName n)) : UtInv names (es ++ [e]) (utPut u r) := by
  have hkeys := utPut_key u hid h.ids
  have hmem := utPut_mem u hid h.ids h.nodup
  refine ⟨?_, ?_, ?_, ?_⟩
  · rw [hkeys]
    split
    · exact h.nodup
    · rename_i hx
      rw [List.nodup_append]
      refine ⟨h.nodup, by simp, fun a ha b hb e => hx ?_⟩
      rw [List.mem_singleton.1 hb] at e
      rw [← e]; exact ha
  · rw [hkeys]
    split
    · exact h.keys
    · intro k hk'
      rcases List.mem_append.1 hk' with h1 | h1
      · exact h.keys k h1
      · rw [List.mem_singleton.1 h1]; exact hk
  · intro x hx
    rcases (hmem x).1 hx with rfl | ⟨hx, -⟩
    · exact hid
    · exact h.ids x hx
  · intro x
    rw [hmem]
    constructor
    · rintro (rfl | ⟨hx, hne⟩)
      · exact ⟨es, e, [], rfl, he, fun e' he' => nomatch he'⟩
      · obtain ⟨a, y, b, rfl, hy, hb⟩ := (h.mem x).1 hx
        refine ⟨a, y, b ++ [e], by simp, hy, fun e' he' r' hr' => ?_⟩
        rcases List.mem_append.1 he' with h1 | h1
        · exact hb e' h1 r' hr'
        · rw [List.mem_singleton.1 h1, he] at hr'
          rw [← Option.some.inj hr']
          exact hne.symm
    · rintro ⟨a, y, b, hs, hy, hb⟩
      rcases append_single_split hs with ⟨rfl, rfl, rfl⟩ | ⟨b', rfl, rfl⟩
      · rw [he] at hy
        exact .inl (Option.some.inj hy).symm
      · refine .inr ⟨(h.mem x).2 ⟨a, y, b', rfl, hy, fun e' he' => hb e' (List.mem_append_left _ he')⟩, ?_⟩
        exact (hb e (List.mem_append_right _ (List.mem_singleton.2 rfl)) r he).symm

theorem utInv_small {names : List CStr} {es : List UtEv} {u : List UtRec} (h : UtInv names es u) (hl : names.length ≤ 264) (rot : Bool) : utRotate rot u = u := by
  have := nodup_subset_length h.nodup h.keys
  rw [List.length_map, List.length_cons, List.length_cons, List.length_map] at this
  unfold utRotate
  rw [if_neg]
  rintro ⟨-, hx⟩
  omega

theorem utInv_step {names : List CStr} {es : List UtEv} {f : UtFiles} {e : UtEv} {rot : Bool} (h : UtInv names es f.utmp) (hl : names.length ≤ 264)
    (hok : OnTerminals names (es ++ [e])) : UtInv names (es ++ [e]) (utStep rot f e).utmp := by
  have hnp : ∀ {r : UtRec}, utIsProc r.type = false → HasId r := fun h1 h2 => by rw [h1] at h2; cases h2
  cases e with
  | dead pid =>
    have hi := utInv_none h (e := .dead pid) rfl
    have : (utStep rot f (.dead pid)).utmp = utRotate rot f.utmp := rfl
    rw [this, utInv_small hi hl]
    exact hi
  | boot =>
    have hi := utInv_put h (e := .boot) rfl (hnp rfl) (by simp [utKey])
    have : (utStep rot f .boot).utmp = utRotate rot (utPut f.utmp ⟨.bootTime, 0, ['~'], ['~', '~'], "reboot".toList⟩) := rfl
    rw [this, utInv_small hi hl]
    exact hi
  | halt =>
    have hi := utInv_put h (e := .halt) rfl (hnp rfl) (by simp [utKey])
    have : (utStep rot f .halt).utmp = utRotate rot (utPut f.utmp ⟨.runLvl, 0, ['~'], ['~', '~'], "shutdown".toList⟩) := rfl
    rw [this, utInv_small hi hl]
    exact hi
  | level pre now =>
    have hi := utInv_put h (e := .level pre now) rfl (hnp rfl) (by simp [utKey])
    have : (utStep rot f (.level pre now)).utmp =
      utRotate rot (utPut f.utmp ⟨.runLvl, utLevel pre * 256 + utLevel now % 256, ['~'], ['~', '~'], "runlevel".toList⟩) := rfl
    rw [this, utInv_small hi hl]
    exact hi
  | proc type tty pid user =>
    obtain ⟨htype, hu, n, hn, htty⟩ := hok.procs type tty pid user (by simp)
    have hline := ttyName_iff.1 htty
    obtain ⟨hnl, hne⟩ := hok.names n hn
    have hproc : utIsProc type = true ∧ type ≠ .dead := by rcases htype with rfl | rfl | rfl <;> exact ⟨rfl, by decide⟩
    have hi := utInv_put h (e := .proc type tty pid user) rfl (by intro _; rw [hline]; exact hne) (by
      have : utKey ⟨type, pid, utLine tty, shortName (utLine tty), user⟩ = (0, shortName n) := by
        rw [hline]
        rcases htype with rfl | rfl | rfl <;> rfl
      rw [this]
      exact List.mem_cons_of_mem _ (List.mem_cons_of_mem _ (List.mem_map_of_mem hn)))
    have : (utStep rot f (.proc type tty pid user)).utmp = utRotate rot (utPut f.utmp ⟨type, pid, utLine tty, shortName (utLine tty), user⟩) := by
      unfold utStep utmpSet
      dsimp only
      rw [if_neg hproc.2]
      have e1 : (utLine tty).take 32 = utLine tty := List.take_of_length_le (by rw [hline]; exact hnl)
      have e2 : user.take 32 = user := List.take_of_length_le hu
      rcases htype with rfl | rfl | rfl <;> dsimp only <;> rw [e1, e2, shortName_eq]
    rw [this, utInv_small hi hl]
    exact hi

theorem utInv_run {names : List CStr} {es : List UtEv} {rot : Bool} (hok : OnTerminals names es) (hl : names.length ≤ 264) :
    UtInv names es (utRun rot es).utmp := by
  have key : ∀ (k : Nat) (es : List UtEv), es.length = k → OnTerminals names es → UtInv names es (utRun rot es).utmp := by
    intro k
    induction k with
    | zero =>
      intro es he _
      rw [List.length_eq_zero_iff.1 he]
      exact ⟨by simp [utRun], by simp [utRun], by simp [utRun], by simp [utRun]⟩
    | succ k ih =>
      intro es he hok
      rcases List.eq_nil_or_concat es with rfl | ⟨es', e, rfl⟩
      · cases he
      · rw [List.concat_eq_append] at he hok ⊢
        have h := ih es' (by simpa using he) ⟨fun t y p u hx => hok.procs t y p u (List.mem_append_left _ hx), hok.names⟩
        have : utRun rot (es' ++ [e]) = utStep rot (utRun rot es') e := by unfold utRun; rw [List.foldl_append]; rfl
        rw [this]
        exact utInv_step h hl hok
  exact key _ es rfl hok

theorem list_single {α : Type} {l : List α} {x : α} (hn : l.Nodup) (hx : x ∈ l) (h : ∀ y ∈ l, y = x) : l = [x] := by
  cases l with
  | nil => cases hx
  | cons a l =>
    have ha := h a List.mem_cons_self
    subst ha
    cases l with
    | nil => rfl
    | cons b l =>
      have hb := h b (by simp)
      rw [List.nodup_cons] at hn
      exact absurd (hb ▸ List.mem_cons_self) hn.1

theorem nodup_of_map {α β : Type} {f : α → β} : ∀ {l : List α}, (l.map f).Nodup → l.Nodup
  | [], _ => List.nodup_nil
  | a :: l, h => by
    rw [List.map_cons, List.nodup_cons] at h
    exact List.nodup_cons.2 ⟨fun hx => h.1 (List.mem_map_of_mem hx), nodup_of_map h.2⟩

theorem eq_of_key {l : List UtRec} (hn : (l.map utKey).Nodup) {x y : UtRec} (hx : x ∈ l) (hy : y ∈ l) (h : utKey x = utKey y) : x = y := by
  induction l with
  | nil => cases hx
  | cons a l ih =>
    rw [List.map_cons, List.nodup_cons] at hn
    rcases List.mem_cons.1 hx with hx' | hx' <;> rcases List.mem_cons.1 hy with hy' | hy'
    · rw [hx', hy']
    · refine absurd ?_ hn.1
      rw [← hx', h]
      exact List.mem_map_of_mem hy'
    · refine absurd ?_ hn.1
      rw [← hy', ← h]
      exact List.mem_map_of_mem hx'
    · exact ih hn.2 hx' hy'

theorem mem_split_last {α : Type} [DecidableEq α] {x : α} : ∀ {l : List α}, x ∈ l → ∃ a b, l = a ++ x :: b ∧ x ∉ b
  | y :: l, h => by
    by_cases hx : x ∈ l
    · obtain ⟨a, b, rfl, hb⟩ := mem_split_last hx
      exact ⟨y :: a, b, rfl, hb⟩
    · rcases List.mem_cons.1 h with rfl | h
      · exact ⟨[], l, rfl, hx⟩
      · exact absurd h hx

/-- One record is left when all are alike. -/
theorem filter_single {names : List CStr} {es : List UtEv} {u : List UtRec} (h : UtInv names es u) {r : UtRec} (hr : r ∈ u) {p : UtRec → Bool} (hp : p r = true)
    (hk : ∀ x ∈ u, p x = true → utKey x = utKey r) : u.filter p = [r] := by
  refine list_single (List.Pairwise.filter _ (nodup_of_map h.nodup)) (List.mem_filter.2 ⟨hr, hp⟩) fun y hy => ?_
  obtain ⟨hy, hpy⟩ := List.mem_filter.1 hy
  exact eq_of_key h.nodup hy hr (hk y hy hpy)

/-! ## The property -/

/-- Terminals with different names have different first four characters. -/
def Distinct (names : List CStr) : Prop := ∀ m ∈ names, ∀ n ∈ names, shortName m = shortName n → m = n

/-- **C90, terminals, part.** For terminals that differ in their first four characters: there is one record of every terminal that
    was used, that of the last process on it, and no other.  Missing: other terminals, and that processes end. -/
theorem C90_terminals_partial {names : List CStr} {es : List UtEv} {rot : Bool} (hok : OnTerminals names es) (hl : names.length ≤ 264)
    (hd : Distinct names) {name : CStr} {type : UtType} {pid : Nat} {user : CStr} (h : LastOn es name type pid user) :
    recordsOf (utRun rot es).utmp name = [⟨type, pid, name, shortName name, user⟩] := by
  have hi := utInv_run (rot := rot) hok hl
  obtain ⟨a, tty, b, hes, htty, hb⟩ := h
  have hline := ttyName_iff.1 htty
  obtain ⟨htype, -, n, hn, hn'⟩ := hok.procs type tty pid user (by rw [hes]; simp)
  have hnn : n = name := (ttyName_iff.1 hn').symm.trans hline
  subst hnn
  have hkey : ∀ {t p y u}, (t = UtType.init ∨ t = .login ∨ t = .user) → utKey ⟨t, p, y, shortName y, u⟩ = (0, shortName y) := by
    rintro t p y u (rfl | rfl | rfl) <;> rfl
  have hmem : (⟨type, pid, n, shortName n, user⟩ : UtRec) ∈ (utRun rot es).utmp := by
    rw [hi.mem]
    refine ⟨a, _, b, hes, by rw [evRec, hline], fun e' he' r' hr' hk => ?_⟩
    rw [hkey htype] at hk
    cases e' with
    | dead _ => cases hr'
    | boot => rw [← Option.some.inj hr'] at hk; cases hk
    | halt => rw [← Option.some.inj hr'] at hk; cases hk
    | level _ _ => rw [← Option.some.inj hr'] at hk; cases hk
    | proc t y p u =>
      obtain ⟨ht', -, m, hm, hm'⟩ := hok.procs t y p u (by rw [hes]; exact List.mem_append_right _ (List.mem_cons_of_mem _ he'))
      rw [← Option.some.inj hr', hkey ht'] at hk
      have hym := ttyName_iff.1 hm'
      rw [hym] at hk
      have := hd m hm n hn (Prod.mk.inj hk).2
      subst this
      exact hb t y p u he' hm'
  have hproc : utIsProc type = true := by rcases htype with rfl | rfl | rfl <;> rfl
  refine filter_single hi hmem (by simp [hproc]) fun r hr hp => ?_
  rw [Bool.and_eq_true, decide_eq_true_eq] at hp
  obtain ⟨a', e, b', hes', he, -⟩ := (hi.mem r).1 hr
  rw [hkey htype]
  cases e with
  | dead _ => cases he
  | boot => rw [← Option.some.inj he] at hp; cases hp.1
  | halt => rw [← Option.some.inj he] at hp; cases hp.1
  | level _ _ => rw [← Option.some.inj he] at hp; cases hp.1
  | proc t y p u =>
    obtain ⟨ht', -⟩ := hok.procs t y p u (by rw [hes']; simp)
    have h2 := hp.2
    rw [← Option.some.inj he] at h2 ⊢
    rw [hkey ht']
    dsimp only at h2
    rw [h2]

/-- Three terminals, one of them used by two processes -/
def demoTtys : List CStr := ["tty1".toList, "console".toList, "pts/12".toList]

def demoLogins : List UtEv :=
  [.boot, .level 10 2, .proc .init "/dev/tty1".toList 100 [], .proc .login "tty1".toList 100 "LOGIN".toList, .proc .user "/dev/pts/12".toList 200 "ann".toList,
    .proc .user "tty1".toList 100 "bob".toList, .level 2 3]

theorem demoLogins_ok : OnTerminals demoTtys demoLogins := by
  constructor
  · intro type tty pid user h
    simp only [demoLogins, List.mem_cons, UtEv.proc.injEq, reduceCtorEq, false_or, List.not_mem_nil, or_false] at h
    rcases h with ⟨rfl, rfl, rfl, rfl⟩ | ⟨rfl, rfl, rfl, rfl⟩ | ⟨rfl, rfl, rfl, rfl⟩ | ⟨rfl, rfl, rfl, rfl⟩
    · exact ⟨.inl rfl, by decide, "tty1".toList, by simp [demoTtys], .inl rfl⟩
    · exact ⟨.inr (.inl rfl), by decide, "tty1".toList, by simp [demoTtys], .inr ⟨rfl, by decide⟩⟩
    · exact ⟨.inr (.inr rfl), by decide, "pts/12".toList, by simp [demoTtys], .inl rfl⟩
    · exact ⟨.inr (.inr rfl), by decide, "tty1".toList, by simp [demoTtys], .inr ⟨rfl, by decide⟩⟩
  · decide

example : recordsOf (utRun true demoLogins).utmp "tty1".toList = [⟨.user, 100, "tty1".toList, "tty1".toList, "bob".toList⟩] :=
  C90_terminals_partial demoLogins_ok (by decide) (by unfold Distinct; decide)
    ⟨demoLogins.take 5, "tty1".toList, [.level 2 3], rfl, .inr ⟨rfl, by decide⟩, by simp⟩

/-- **C90, nobody.** A terminal that no process was recorded for has no record, however the others are named and however many there are. -/
theorem C90_nobody {es : List UtEv} {rot : Bool} {name : CStr} (hshort : ∀ type tty pid user, .proc type tty pid user ∈ es → tty.length ≤ 32)
    (h : ∀ type tty pid user, .proc type tty pid user ∈ es → ¬ TtyName tty name) : recordsOf (utRun rot es).utmp name = [] := by
  have put : ∀ (u : List UtRec) (r : UtRec), recordsOf u name = [] → ¬ (utIsProc r.type = true ∧ r.line = name) → recordsOf (utPut u r) name = [] := by
    intro u r hu hr
    have hx : ∀ x ∈ utPut u r, x = r ∨ x ∈ u := by
      clear hu
      induction u with
      | nil => intro x hx; exact .inl (List.mem_singleton.1 hx)
      | cons e u ih =>
        intro x hx
        rw [utPut] at hx
        split at hx
        · rcases List.mem_cons.1 hx with rfl | hx
          · exact .inl rfl
          · exact .inr (List.mem_cons_of_mem _ hx)
        · rcases List.mem_cons.1 hx with rfl | hx
          · exact .inr List.mem_cons_self
          · exact (ih x hx).imp id (List.mem_cons_of_mem _)
    unfold recordsOf at hu ⊢
    rw [List.filter_eq_nil_iff] at hu ⊢
    intro x hx'
    rcases hx x hx' with rfl | hx'
    · simpa using hr
    · exact hu x hx'
  have rotn : ∀ u, recordsOf u name = [] → recordsOf (utRotate rot u) name = [] := by
    intro u hu
    unfold utRotate
    split
    · rfl
    · exact hu
  have key : ∀ (es : List UtEv) (f : UtFiles), (∀ type tty pid user, .proc type tty pid user ∈ es → tty.length ≤ 32) →
      (∀ type tty pid user, .proc type tty pid user ∈ es → ¬ TtyName tty name) → recordsOf f.utmp name = [] →
      recordsOf (es.foldl (utStep rot) f).utmp name = [] := by
    intro es
    induction es with
    | nil => intro f _ _ hf; exact hf
    | cons e es ih =>
      intro f hs hno hf
      rw [List.foldl_cons]
      refine ih _ (fun t y p u hm => hs t y p u (List.mem_cons_of_mem _ hm)) (fun t y p u hm => hno t y p u (List.mem_cons_of_mem _ hm)) ?_
      cases e with
      | boot => exact rotn _ (put _ _ hf (by simp [utIsProc]))
      | halt => exact rotn _ (put _ _ hf (by simp [utIsProc]))
      | level pre now => exact rotn _ (put _ _ hf (by simp [utIsProc]))
      | dead pid => exact rotn _ hf
      | proc t y p u =>
        have hy := hno t y p u List.mem_cons_self
        have hl := hs t y p u List.mem_cons_self
        rw [ttyName_iff] at hy
        have e1 : (utLine y).take 32 = utLine y := List.take_of_length_le (by
          unfold utLine
          split
          · rw [List.length_drop]; omega
          · exact hl)
        show recordsOf (utmpSet rot f t p (utLine y) (utId (utLine y)) u).utmp name = []
        unfold utmpSet
        dsimp only
        refine rotn _ ?_
        split
        · exact hf
        · refine put _ _ hf ?_
          rintro ⟨h1, h2⟩
          cases t <;> dsimp only at h1 h2 <;> first | exact hy (e1.symm.trans h2) | cases h1
  exact key es _ hshort h rfl

example : recordsOf (utRun true demoLogins).utmp "console".toList = [] :=
  C90_nobody (by
    intro type tty pid user h
    simp only [demoLogins, List.mem_cons, UtEv.proc.injEq, reduceCtorEq, false_or, List.not_mem_nil, or_false] at h
    rcases h with ⟨rfl, rfl, rfl, rfl⟩ | ⟨rfl, rfl, rfl, rfl⟩ | ⟨rfl, rfl, rfl, rfl⟩ | ⟨rfl, rfl, rfl, rfl⟩ <;> decide) (by
    intro type tty pid user h
    simp only [demoLogins, List.mem_cons, UtEv.proc.injEq, reduceCtorEq, false_or, List.not_mem_nil, or_false] at h
    rw [ttyName_iff]
    rcases h with ⟨rfl, rfl, rfl, rfl⟩ | ⟨rfl, rfl, rfl, rfl⟩ | ⟨rfl, rfl, rfl, rfl⟩ | ⟨rfl, rfl, rfl, rfl⟩ <;> decide)

/-- The records of changes of runlevel -/
def levelRecords (u : List UtRec) : List UtRec := u.filter fun r => decide (r.type = .runLvl)

theorem level_only {names : List CStr} {es : List UtEv} {u : List UtRec} (hi : UtInv names es u) {r : UtRec} (hr : r ∈ u) (ht : r.type = .runLvl) :
    levelRecords u = [r] := by
  refine filter_single hi hr (by simp [ht]) fun x hx hp => ?_
  rw [decide_eq_true_eq] at hp
  unfold utKey
  rw [hp, ht]

theorem level_mem {names : List CStr} {es a b : List UtEv} {u : List UtRec} (hi : UtInv names es u) {e : UtEv} {r : UtRec} (hes : es = a ++ e :: b)
    (he : evRec e = some r) (ht : r.type = .runLvl) (hok : OnTerminals names es) (hb : ∀ pre now, .level pre now ∉ b) (hb' : .halt ∉ b) : r ∈ u := by
  refine (hi.mem r).2 ⟨a, e, b, hes, he, fun e' he' r' hr' hk => ?_⟩
  have hk' : utKey r' = (1, []) := hk.trans (by unfold utKey; rw [ht])
  cases e' with
  | dead _ => cases hr'
  | boot => rw [← Option.some.inj hr'] at hk'; cases hk'
  | halt => exact hb' he'
  | level pre now => exact hb pre now he'
  | proc t y p q =>
    obtain ⟨ht', -⟩ := hok.procs t y p q (by rw [hes]; exact List.mem_append_right _ (List.mem_cons_of_mem _ he'))
    rw [← Option.some.inj hr'] at hk'
    rcases ht' with rfl | rfl | rfl <;> cases hk'

/-- How a runlevel is written: a digit, nothing for that of the boot -/
def LevelCode (lvl c : Nat) : Prop := (lvl = 10 ∧ c = 0) ∨ (lvl ≤ 9 ∧ c = '0'.toNat + lvl)

/-- **C90, runlevel.** There is one record of the runlevel; it has the last one, and the one before, as who(1) and runlevel(8) read it: as two
    characters.  Terminals may be named in any way. -/
theorem C90_level {names : List CStr} {es a b : List UtEv} {rot : Bool} (hok : OnTerminals names es) (hl : names.length ≤ 264) {pre now : Nat}
    (h : es = a ++ .level pre now :: b) (hb : ∀ pre now, .level pre now ∉ b) (hb' : .halt ∉ b) (hpre : pre ≤ 10) (hnow : now ≤ 10) :
    ∃ pid, levelRecords (utRun rot es).utmp = [⟨.runLvl, pid, ['~'], ['~', '~'], "runlevel".toList⟩] ∧ LevelCode pre (pid / 256) ∧ LevelCode now (pid % 256) := by
  have hi := utInv_run (rot := rot) hok hl
  refine ⟨utLevel pre * 256 + utLevel now % 256, level_only hi (level_mem hi h rfl rfl hok hb hb') rfl, ?_, ?_⟩
  · have : (utLevel pre * 256 + utLevel now % 256) / 256 = utLevel pre := by omega
    rw [this]
    unfold LevelCode utLevel
    split
    · exact .inl ⟨by assumption, rfl⟩
    · exact .inr ⟨by omega, Nat.add_comm _ _⟩
  · have h2 : utLevel now < 256 := by
      unfold utLevel
      split
      · decide
      · have : '0'.toNat = 48 := rfl
        omega
    have : (utLevel pre * 256 + utLevel now % 256) % 256 = utLevel now := by omega
    rw [this]
    unfold LevelCode utLevel
    split
    · exact .inl ⟨by assumption, rfl⟩
    · exact .inr ⟨by omega, Nat.add_comm _ _⟩

example : ∃ pid, levelRecords (utRun true demoLogins).utmp = [⟨.runLvl, pid, ['~'], ['~', '~'], "runlevel".toList⟩] ∧ LevelCode 2 (pid / 256) ∧
    LevelCode 3 (pid % 256) :=
  C90_level (b := []) demoLogins_ok (by decide) (show demoLogins = demoLogins.take 6 ++ [.level 2 3] from rfl) (by simp) (by simp) (by decide) (by decide)

/-- **C90, shutdown.** From the shutdown on the runlevel is not there any more: its record has become that of the shutdown. -/
theorem C90_halt {names : List CStr} {es a b : List UtEv} {rot : Bool} (hok : OnTerminals names es) (hl : names.length ≤ 264)
    (h : es = a ++ .halt :: b) (hb : ∀ pre now, .level pre now ∉ b) (hb' : .halt ∉ b) :
    levelRecords (utRun rot es).utmp = [⟨.runLvl, 0, ['~'], ['~', '~'], "shutdown".toList⟩] :=
  level_only (utInv_run hok hl) (level_mem (utInv_run hok hl) h rfl rfl hok hb hb') rfl

example : levelRecords (utRun true [.boot, .level 10 2, .halt]).utmp = [⟨.runLvl, 0, ['~'], ['~', '~'], "shutdown".toList⟩] :=
  C90_halt (names := []) (a := [.boot, .level 10 2]) (b := []) ⟨by simp, by simp⟩ (by decide) rfl (by simp) (by simp)

/-- **C90, boot.** There is one record of the boot, however often it was recorded, and none before. -/
theorem C90_boot {names : List CStr} {es : List UtEv} {rot : Bool} (hok : OnTerminals names es) (hl : names.length ≤ 264) :
    (utRun rot es).utmp.filter (fun r => decide (r.type = .bootTime)) =
      if .boot ∈ es then [⟨.bootTime, 0, ['~'], ['~', '~'], "reboot".toList⟩] else [] := by
  have hi := utInv_run (rot := rot) hok hl
  have only : ∀ x ∈ (utRun rot es).utmp, x.type = .bootTime → x = ⟨.bootTime, 0, ['~'], ['~', '~'], "reboot".toList⟩ ∧ .boot ∈ es := by
    intro x hx ht
    obtain ⟨a, e, b, hes, he, -⟩ := (hi.mem x).1 hx
    cases e with
    | dead _ => cases he
    | boot => exact ⟨(Option.some.inj he).symm, by rw [hes]; simp⟩
    | halt => rw [← Option.some.inj he] at ht; cases ht
    | level _ _ => rw [← Option.some.inj he] at ht; cases ht
    | proc t y p q =>
      obtain ⟨ht', -⟩ := hok.procs t y p q (by rw [hes]; simp)
      rw [← Option.some.inj he] at ht
      rcases ht' with rfl | rfl | rfl <;> cases ht
  split
  · rename_i hm
    obtain ⟨a, b, hes, hb⟩ := mem_split_last hm
    have hr : (⟨.bootTime, 0, ['~'], ['~', '~'], "reboot".toList⟩ : UtRec) ∈ (utRun rot es).utmp := by
      refine (hi.mem _).2 ⟨a, .boot, b, hes, rfl, fun e' he' r' hr' hk => ?_⟩
      have hk' : utKey r' = (2, []) := hk
      cases e' with
      | dead _ => cases hr'
      | boot => exact hb he'
      | halt => rw [← Option.some.inj hr'] at hk'; cases hk'
      | level _ _ => rw [← Option.some.inj hr'] at hk'; cases hk'
      | proc t y p q =>
        obtain ⟨ht', -⟩ := hok.procs t y p q (by rw [hes]; exact List.mem_append_right _ (List.mem_cons_of_mem _ he'))
        rw [← Option.some.inj hr'] at hk'
        rcases ht' with rfl | rfl | rfl <;> cases hk'
    refine filter_single hi hr rfl fun x hx hp => ?_
    rw [(only x hx (of_decide_eq_true hp)).1]
  · rename_i hm
    rw [List.filter_eq_nil_iff]
    intro x hx hp
    exact hm (only x hx (of_decide_eq_true hp)).2

/-- What an event leaves in the history -/
inductive Past : UtEv → UtRec → Prop
  | boot : Past .boot ⟨.bootTime, 0, ['~'], ['~', '~'], "reboot".toList⟩
  | level {pre now p n : Nat} (hp : LevelCode pre p) (hn : LevelCode now n) : Past (.level pre now) ⟨.runLvl, p * 256 + n, ['~'], ['~', '~'], "runlevel".toList⟩
  | halt : Past .halt ⟨.runLvl, 0, ['~'], ['~', '~'], "shutdown".toList⟩
  | proc {type : UtType} {tty name : CStr} {pid : Nat} {user : CStr} (h : TtyName tty name) :
    Past (.proc type tty pid user) ⟨type, pid, name, shortName name, user⟩
  | dead {pid : Nat} : Past (.dead pid) ⟨.dead, pid, [], [], []⟩

/-- An event and its record, one by one -/
inductive AllPast : List UtEv → List UtRec → Prop
  | nil : AllPast [] []
  | cons {e : UtEv} {r : UtRec} {es : List UtEv} {rs : List UtRec} (h : Past e r) (t : AllPast es rs) : AllPast (e :: es) (r :: rs)

/-- Names fit into records, and runlevels are runlevels. -/
def Fitting : UtEv → Prop
  | .level pre now => pre ≤ 10 ∧ now ≤ 10
  | .proc type tty _ user => (type = .init ∨ type = .login ∨ type = .user) ∧ tty.length ≤ 32 ∧ user.length ≤ 32
  | _ => True

/-- **C90, history.** `wtmp` has a record for every event, in order, whatever is done to `utmp`. -/
theorem C90_history {es : List UtEv} {rot : Bool} (h : ∀ e ∈ es, Fitting e) : AllPast es (utRun rot es).wtmp := by
  have code : ∀ l, l ≤ 10 → LevelCode l (utLevel l) := by
    intro l hl
    unfold LevelCode utLevel
    split
    · exact .inl ⟨by assumption, rfl⟩
    · exact .inr ⟨by omega, Nat.add_comm _ _⟩
  have one : ∀ (f : UtFiles) (e : UtEv), Fitting e → ∃ r, (utStep rot f e).wtmp = f.wtmp ++ [r] ∧ Past e r := by
    intro f e he
    cases e with
    | boot => exact ⟨_, rfl, .boot⟩
    | halt => exact ⟨_, rfl, .halt⟩
    | dead pid => exact ⟨_, rfl, .dead⟩
    | level pre now =>
      refine ⟨_, rfl, ?_⟩
      have h2 : utLevel now % 256 = utLevel now := Nat.mod_eq_of_lt (by
        have := he.2
        unfold utLevel
        split
        · decide
        · have : '0'.toNat = 48 := rfl
          omega)
      dsimp only
      rw [h2]
      exact .level (code _ he.1) (code _ he.2)
    | proc type tty pid user =>
      obtain ⟨ht, hl, hu⟩ := he
      have e1 : (utLine tty).take 32 = utLine tty := List.take_of_length_le (by
        unfold utLine
        split
        · rw [List.length_drop]; omega
        · exact hl)
      have e2 : user.take 32 = user := List.take_of_length_le hu
      refine ⟨⟨type, pid, utLine tty, shortName (utLine tty), user⟩, ?_, .proc (ttyName_iff.2 rfl)⟩
      show (utmpSet rot f type pid (utLine tty) (utId (utLine tty)) user).wtmp = _
      unfold utmpSet
      rcases ht with rfl | rfl | rfl <;> dsimp only <;> rw [e1, e2, shortName_eq]
  have key : ∀ (es : List UtEv) (f : UtFiles), (∀ e ∈ es, Fitting e) → ∃ rs, (es.foldl (utStep rot) f).wtmp = f.wtmp ++ rs ∧ AllPast es rs := by
    intro es
    induction es with
    | nil => intro f _; exact ⟨[], by simp, .nil⟩
    | cons e es ih =>
      intro f hf
      obtain ⟨r, hr, hp⟩ := one f e (hf e List.mem_cons_self)
      obtain ⟨rs, hrs, hps⟩ := ih (utStep rot f e) fun x hx => hf x (List.mem_cons_of_mem _ hx)
      exact ⟨r :: rs, by rw [List.foldl_cons, hrs, hr]; simp, .cons hp hps⟩
  obtain ⟨rs, hrs, hp⟩ := key es ⟨[], []⟩ h
  have : (utRun rot es).wtmp = rs := by unfold utRun; rw [hrs]; rfl
  rw [this]
  exact hp

example : AllPast demoLogins (utRun false demoLogins).wtmp := C90_history (by
  intro e he
  simp only [demoLogins, List.mem_cons, List.not_mem_nil, or_false] at he
  rcases he with rfl | rfl | rfl | rfl | rfl | rfl | rfl
  all_goals simp [Fitting])

/-- **C90, ended.** That a process has ended changes nothing in `utmp`: who has left the terminal is still there, as who(1) shows it. -/
theorem C90_ended {es : List UtEv} {pid : Nat} : (utRun false (es ++ [.dead pid])).utmp = (utRun false es).utmp := by
  unfold utRun
  rw [List.foldl_append]
  rfl

/-- **C90, collision.** Two serial lines have the same first four characters: of two people logged in one is shown. -/
theorem C90_collide : (utRun false [.proc .user "/dev/ttyS0".toList 100 "ann".toList, .proc .user "/dev/ttyS1".toList 101 "bob".toList]).utmp =
    [⟨.user, 101, "ttyS1".toList, "ttyS".toList, "bob".toList⟩] := by decide

/-- **C90, nameless.** The end of a process in the history does not tell the terminal: last(1) finds no end for the login. -/
theorem C90_nameless {es : List UtEv} {pid : Nat} {rot : Bool} :
    (utRun rot (es ++ [.dead pid])).wtmp = (utRun rot es).wtmp ++ [⟨.dead, pid, [], [], []⟩] := by
  unfold utRun
  rw [List.foldl_append]
  rfl

/-- **C90, lost.** When the files are rotated and there are 266 records, that of a login on one more terminal leaves `utmp` empty, and nobody is logged
    in. -/
theorem C90_lost {es : List UtEv} {tty name user : CStr} {pid : Nat} (h : (utRun true es).utmp.length = 266) (htty : TtyName tty name)
    (hne : shortName name ≠ []) (hnew : ∀ r ∈ (utRun true es).utmp, r.id ≠ [] ∧ r.id ≠ shortName name) :
    (utRun true (es ++ [.proc .user tty pid user])).utmp = [] := by
  have put : ∀ (u : List UtRec) (r : UtRec), utIsProc r.type = true → r.id ≠ [] → (∀ x ∈ u, x.id ≠ [] ∧ x.id ≠ r.id) →
      (utPut u r).length = u.length + 1 := by
    intro u r hp hr
    induction u with
    | nil => intro _; rfl
    | cons x u ih =>
      intro hu
      obtain ⟨h1, h2⟩ := hu x List.mem_cons_self
      have : utMatch r x = false := by
        unfold utMatch utEqual
        rw [if_pos hp, if_pos ⟨h1, hr⟩, decide_eq_false h2, Bool.and_false]
      rw [utPut, this, if_neg (by simp), List.length_cons, List.length_cons, ih fun y hy => hu y (List.mem_cons_of_mem _ hy)]
  have e1 : utRun true (es ++ [.proc .user tty pid user]) = utStep true (utRun true es) (.proc .user tty pid user) := by
    unfold utRun; rw [List.foldl_append]; rfl
  rw [e1]
  show (utmpSet true (utRun true es) .user pid (utLine tty) (utId (utLine tty)) user).utmp = []
  unfold utmpSet utRotate
  dsimp only
  have hid : (utId (utLine tty)).take 4 = shortName name := by rw [ttyName_iff.1 htty, shortName_eq]
  rw [if_pos]
  refine ⟨rfl, ?_⟩
  rw [if_neg (by decide), put _ _ rfl (by dsimp only; rw [hid]; exact hne) (by dsimp only; rw [hid]; exact hnew), h]
  decide

/-- Many sessions over the network -/
example : (utRun true (((List.range 266).map fun n => .proc .user ("pts/".toList ++ Nat.toDigits 10 n) (1000 + n) "ann".toList) ++
    [.proc .user "tty1".toList 99 "bob".toList])).utmp = [] :=
  C90_lost (name := "tty1".toList) (by decide +kernel) (.inr ⟨rfl, by decide⟩) (by decide) (by decide +kernel)

/-- **C90, full claim.** It is false, for two reasons, of which one is shown. -/
theorem C90_full_false : ¬ C90_full := by
  intro h
  have h1 := (h ["ttyS0".toList, "ttyS1".toList] [.proc .user "/dev/ttyS0".toList 100 "ann".toList, .proc .user "/dev/ttyS1".toList 101 "bob".toList]
    ⟨by
      intro type tty pid user hm
      simp only [List.mem_cons, UtEv.proc.injEq, List.not_mem_nil, or_false] at hm
      rcases hm with ⟨rfl, rfl, rfl, rfl⟩ | ⟨rfl, rfl, rfl, rfl⟩
      · exact ⟨.inr (.inr rfl), by decide, "ttyS0".toList, by simp, .inl rfl⟩
      · exact ⟨.inr (.inr rfl), by decide, "ttyS1".toList, by simp, .inl rfl⟩, by decide⟩ (by decide)).1 "ttyS0".toList .user 100 "ann".toList
    ⟨[], _, _, rfl, .inl rfl, by
      intro t y p u hm
      rw [ttyName_iff]
      simp only [List.mem_cons, UtEv.proc.injEq, List.not_mem_nil, or_false] at hm
      obtain ⟨rfl, rfl, rfl, rfl⟩ := hm
      decide⟩ (by simp)
  rw [C90_collide] at h1
  exact absurd h1 (by decide)

end Verif
