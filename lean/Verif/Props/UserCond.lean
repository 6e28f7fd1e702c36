import Verif.UserCond
import Verif.Props.Cond

/-!
# C77: conditions set by the user

What `initctl cond set` and `initctl cond clear` do to the conditions as Finit sees them, whom
Finit wakes, and what `initctl cond get` says.
-/

namespace Verif

/-! ## Specification -/

/-- A name that a user may give a condition: it fits `cond_path()` of Finit with `usr/` before it. -/
def UserName (n : CStr) : Prop := n ≠ [] ∧ n.length ≤ 39 ∧ ∀ c ∈ n, c ≠ '/' ∧ c ≠ '.' ∧ c ≠ ' ' ∧ c ≠ '\t'

/-- One of the arguments names the condition `usr/n`, with or without `usr/`, alone or among others. -/
def UserNamed (args : List CStr) (n : CStr) : Prop :=
  ∃ a ∈ args, ∃ w, IsMember isBlank w a ∧ (w = n ∨ w = "usr/".toList ++ n)

/-- The arguments are lists of such names. -/
def GoodArgs (args : List CStr) : Prop :=
  args ≠ [] ∧ ∀ a ∈ args, a ≠ [] ∧ ∀ w, IsMember isBlank w a → ∃ n, UserName n ∧ (w = n ∨ w = "usr/".toList ++ n)

/-- What may happen: a command of the user, or Finit changes a condition or reloads. -/
inductive UserOp
  | user (op : CondCmd) (args : List CStr)
  | finit (op : CondOp)

/-- Finit does not change conditions below `usr/` by itself. -/
def UserOp.Ok : UserOp → Prop
  | .user _ args => GoodArgs args
  | .finit (.set n) | .finit (.oneshot n) | .finit (.clear n) => condPath n ≠ "usr".toList ∧ ¬ "usr/".toList <+: condPath n
  | .finit .reload => True

/-- What it does -/
def UserOp.run : UserOp → UserConds → UserConds
  | .user op args, u => (condMain op u args).1
  | .finit op, u => { u with st := op.run u.st }

/-- The conditions when the plugin has made its directory -/
def UserConds.init : UserConds := { st := CondStore.init, dir := true }

/-- A history, the last first -/
def runUser : List UserOp → UserConds
  | [] => UserConds.init
  | op :: h => op.run (runUser h)

/-- The last command that names the condition sets it. -/
def Said : List UserOp → CStr → Prop
  | [], _ => False
  | .user .set args :: h, n => UserNamed args n ∨ Said h n
  | .user .clr args :: h, n => ¬ UserNamed args n ∧ Said h n
  | .finit _ :: h, n => Said h n

/-- How often the configuration was reloaded -/
def userReloads : List UserOp → Nat
  | [] => 0
  | .finit .reload :: h => userReloads h + 1
  | _ :: h => userReloads h

/-- The directory is as the commands leave it: the files in it are symlinks. -/
structure UserOk (u : UserConds) : Prop where
  dir : u.dir = true
  gen : u.st.rgen ≠ 0
  files : ∀ e ∈ u.st.files, e.1 ≠ "usr".toList ∧ ("usr/".toList <+: e.1 → e.2 = .link ∧ '/' ∉ e.1.drop 4)

/-- Full statement of C77 (false of the code, see below): whatever names are given, if the command says that all went well
    then Finit sees the conditions as set. -/
def C77_full : Prop :=
  ∀ (u : UserConds) (args : List CStr), UserOk u → (condMain .set u args).2.2 = 0 → ∀ n, UserNamed args n →
    (condMain .set u args).1.st.get ("usr/".toList ++ n) = .on

/-! ## Lemmas -/

theorem not_prefix_slash {n : CStr} (h : '/' ∉ n) : ("usr/".toList).isPrefixOf n = false := by
  rcases Bool.eq_false_or_eq_true (("usr/".toList).isPrefixOf n) with h' | h'
  · exact absurd ((List.isPrefixOf_iff_prefix.mp h').subset (by decide)) h
  · exact h'

theorem userArg_plain {n : CStr} (h : '/' ∉ n) : userArg n = n := by
  unfold userArg condUsr
  rw [not_prefix_slash h]
  rfl

theorem userArg_usr (n : CStr) : userArg ("usr/".toList ++ n) = n := by
  unfold userArg condUsr
  rw [if_pos (List.isPrefixOf_iff_prefix.mpr (List.prefix_append ..))]
  rfl

theorem userArg_of {w n : CStr} (h : '/' ∉ n) (hw : w = n ∨ w = "usr/".toList ++ n) : userArg w = n := by
  rcases hw with rfl | rfl
  · exact userArg_plain h
  · exact userArg_usr n

theorem UserName.slash {n : CStr} (h : UserName n) : '/' ∉ n := fun hm => (h.2.2 _ hm).1 rfl

theorem UserName.dot {n : CStr} (h : UserName n) : '.' ∉ n := fun hm => (h.2.2 _ hm).2.1 rfl

theorem userPath_plain {n : CStr} (h : '/' ∉ n) (hl : n.length ≤ 231) : userPath n = "usr/".toList ++ n := by
  unfold userPath
  rw [if_neg h]
  exact List.take_of_length_le (by simp [condUsr]; omega)

theorem under_user {u : UserConds} (h : UserOk u) {n : CStr} : u.st.isDir ("usr/".toList ++ n) = true → n = [] ∨ n.getLast? = some '/' := by
  intro hd
  obtain ⟨e, he, hu⟩ := List.any_eq_true.mp hd
  by_cases hn : n = []
  · exact .inl hn
  right
  have hp := List.isPrefixOf_iff_prefix.mp hu
  unfold dirSlash at hp
  split at hp
  · rename_i hl
    rw [List.getLast?_append, List.getLast?_eq_some_getLast hn] at hl
    rw [List.getLast?_eq_some_getLast hn]
    exact hl
  · obtain ⟨t, ht⟩ := hp
    have hh := ((h.files e he).2 ⟨n ++ ['/'] ++ t, by rw [← ht]; simp⟩).2
    exact absurd (by rw [← ht]; simp) hh

theorem lookup_mem {st : CondStore} {p : CStr} {f : CFile} (h : st.lookup p = some f) : (p, f) ∈ st.files := by
  unfold CondStore.lookup at h
  obtain ⟨e, he, rfl⟩ := Option.map_eq_some_iff.mp h
  have := List.find?_some he
  have hm := List.mem_of_find?_eq_some he
  simp at this
  rwa [← this]

theorem mem_lookup {st : CondStore} {e : CStr × CFile} (h : e ∈ st.files) : ∃ f, st.lookup e.1 = some f := by
  cases hl : st.lookup e.1 with
  | some f => exact ⟨f, rfl⟩
  | none => exact absurd rfl ((lookup_eq_none_iff st e.1).mp hl e h)

theorem mem_write_file {st : CondStore} {p : CStr} {f : CFile} {e : CStr × CFile} (h : e ∈ (st.write p f).files) :
    e = (p, f) ∨ e ∈ st.files := by
  unfold CondStore.write at h
  split at h
  · simp only [List.mem_map] at h
    obtain ⟨a, ha, rfl⟩ := h
    by_cases hp : a.1 = p
    · simp [hp]
    · simp [hp, ha]
  · simp only [List.mem_append, List.mem_singleton] at h
    exact h.symm

theorem lookup_unlink (st : CondStore) (p q : CStr) : (st.unlink p).lookup q = if p = q then none else st.lookup q := by
  by_cases h : p = q
  · rw [if_pos h, lookup_eq_none_iff]
    intro e he heq
    simp only [CondStore.unlink, List.mem_filter] at he
    simp [heq, h] at he
  · rw [if_neg h]
    simp only [CondStore.lookup, CondStore.unlink]
    rw [find_filter_keep]
    intro e he
    have he : e.1 = q := by simpa using he
    simp [he, Ne.symm h]

theorem UserOk.link {u : UserConds} (h : UserOk u) {n : CStr} {f : CFile} (hl : u.st.lookup ("usr/".toList ++ n) = some f) : f = .link :=
  ((h.files _ (lookup_mem hl)).2 (List.prefix_append ..)).1

/-- What setting one condition does -/
theorem condSetOne_ok {u : UserConds} (h : UserOk u) {n : CStr} (h0 : n ≠ []) (hs : '/' ∉ n) (hl : n.length ≤ 231) :
    (condSetOne u n).2.2 = true ∧ UserOk (condSetOne u n).1 ∧ (condSetOne u n).1.st.rgen = u.st.rgen ∧
    (∀ p, (condSetOne u n).1.st.lookup p = if p = "usr/".toList ++ n then some .link else u.st.lookup p) ∧
    (condSetOne u n).2.1 = if u.st.lookup ("usr/".toList ++ n) = none then [.made n] else [] := by
  have hdir : u.st.isDir ("usr/".toList ++ n) = false := by
    rcases Bool.eq_false_or_eq_true (u.st.isDir ("usr/".toList ++ n)) with hd | hd
    · rcases under_user h hd with e | e
      · exact absurd e h0
      · exact absurd (List.mem_of_getLast? e) hs
    · exact hd
  unfold condSetOne
  rw [if_neg (by rw [h.dir]; decide), if_neg h0]
  dsimp only
  rw [userPath_plain hs hl, hdir]
  cases hf : u.st.lookup ("usr/".toList ++ n) with
  | some f =>
    have := h.link hf
    subst this
    refine ⟨rfl, h, rfl, fun p => ?_, by simp⟩
    by_cases hp : p = "usr/".toList ++ n
    · rw [if_pos hp, hp]; exact hf
    · rw [if_neg hp]; rfl
  | none =>
    refine ⟨rfl, ⟨h.dir, by simpa using h.gen, fun e he => ?_⟩, by simp, fun p => by simpa using lookup_write u.st ("usr/".toList ++ n) p .link, by simp⟩
    rcases mem_write_file (by simpa using he) with rfl | he
    · exact ⟨(fun e => by simp at e), fun _ => ⟨rfl, by simpa using hs⟩⟩
    · exact h.files e he

/-- What clearing one condition does -/
theorem condClrOne_ok {u : UserConds} (h : UserOk u) {n : CStr} (h0 : n ≠ []) (hs : '/' ∉ n) (hl : n.length ≤ 231) :
    (condClrOne u n).2.2 = true ∧ UserOk (condClrOne u n).1 ∧ (condClrOne u n).1.st.rgen = u.st.rgen ∧
    (∀ p, (condClrOne u n).1.st.lookup p = if p = "usr/".toList ++ n then none else u.st.lookup p) ∧
    (condClrOne u n).2.1 = if u.st.lookup ("usr/".toList ++ n) = none then [] else [.gone n] := by
  have hdir : u.st.isDir ("usr/".toList ++ n) = false := by
    rcases Bool.eq_false_or_eq_true (u.st.isDir ("usr/".toList ++ n)) with hd | hd
    · rcases under_user h hd with e | e
      · exact absurd e h0
      · exact absurd (List.mem_of_getLast? e) hs
    · exact hd
  unfold condClrOne
  rw [if_neg (by rw [h.dir]; decide), if_neg h0]
  dsimp only
  rw [userPath_plain hs hl, hdir]
  cases hf : u.st.lookup ("usr/".toList ++ n) with
  | none =>
    refine ⟨rfl, h, rfl, fun p => ?_, by simp⟩
    by_cases hp : p = "usr/".toList ++ n
    · rw [if_pos hp, hp]; exact hf
    · rw [if_neg hp]; rfl
  | some f =>
    refine ⟨rfl, ⟨h.dir, h.gen, fun e he => h.files e ?_⟩, rfl, fun p => ?_, by simp⟩
    · exact (List.mem_filter.mp (show e ∈ (u.st.unlink ("usr/".toList ++ n)).files from by simpa using he)).1
    · have := lookup_unlink u.st ("usr/".toList ++ n) p
      simp only [Option.isSome_some, if_true]
      rw [this]
      by_cases hp : p = "usr/".toList ++ n
      · rw [if_pos hp, if_pos hp.symm]
      · rw [if_neg hp, if_neg (fun e => hp e.symm)]

/-- A word that names a condition -/
def UserWord (w : CStr) : Prop := ∃ n, UserName n ∧ (w = n ∨ w = "usr/".toList ++ n)

theorem UserWord.arg {w : CStr} (h : UserWord w) : UserName (userArg w) := by
  obtain ⟨n, hn, hw⟩ := h
  rw [userArg_of hn.slash hw]
  exact hn

/-- What setting some conditions does -/
theorem condWords_set : ∀ {ws : List CStr} {u : UserConds}, UserOk u → (∀ w ∈ ws, UserWord w) →
    (condWords .set u ws).2.2 = 0 ∧ UserOk (condWords .set u ws).1 ∧ (condWords .set u ws).1.st.rgen = u.st.rgen ∧
    (∀ p, (condWords .set u ws).1.st.lookup p = if ∃ w ∈ ws, p = "usr/".toList ++ userArg w then some .link else u.st.lookup p) ∧
    ∀ e, e ∈ (condWords .set u ws).2.1 ↔ ∃ w ∈ ws, e = .made (userArg w) ∧ u.st.lookup ("usr/".toList ++ userArg w) = none
  | [], u, h, _ => ⟨rfl, h, rfl, fun p => by simp [condWords], fun e => by simp [condWords]⟩
  | w :: ws, u, h, hw => by
    have hn := (hw w List.mem_cons_self).arg
    obtain ⟨a1, a2, a3, a4, a5⟩ := condSetOne_ok h hn.1 hn.slash (by have := hn.2.1; omega)
    obtain ⟨b1, b2, b3, b4, b5⟩ := condWords_set (ws := ws) a2 (fun w' h' => hw w' (List.mem_cons_of_mem _ h'))
    unfold condWords
    dsimp only [condOne]
    rw [if_neg hn.slash, if_neg hn.dot, if_neg (by rw [a1]; decide)]
    refine ⟨b1, b2, b3.trans a3, fun p => ?_, fun e => ?_⟩
    · dsimp only
      rw [b4, a4]
      by_cases h1 : ∃ w ∈ ws, p = "usr/".toList ++ userArg w
      · obtain ⟨w', hw', e⟩ := h1
        rw [if_pos ⟨w', hw', e⟩, if_pos ⟨w', List.mem_cons_of_mem _ hw', e⟩]
      · rw [if_neg h1]
        by_cases h2 : p = "usr/".toList ++ userArg w
        · rw [if_pos h2, if_pos ⟨w, List.mem_cons_self, h2⟩]
        · rw [if_neg h2, if_neg]
          rintro ⟨w', hw', e⟩
          rcases List.mem_cons.mp hw' with rfl | hw'
          · exact h2 e
          · exact h1 ⟨w', hw', e⟩
    · dsimp only
      rw [List.mem_append, b5, a5]
      constructor
      · rintro (he | ⟨w', hw', e1, e2⟩)
        · split at he
          · rename_i hl
            exact ⟨w, List.mem_cons_self, List.mem_singleton.mp he, hl⟩
          · cases he
        · rw [a4] at e2
          split at e2
          · cases e2
          · exact ⟨w', List.mem_cons_of_mem _ hw', e1, e2⟩
      · rintro ⟨w', hw', e1, e2⟩
        by_cases hs : userArg w' = userArg w
        · left
          rw [hs] at e1 e2
          rw [if_pos e2, e1]
          exact List.mem_singleton.mpr rfl
        · right
          rcases List.mem_cons.mp hw' with rfl | hw'
          · exact absurd rfl hs
          · refine ⟨w', hw', e1, ?_⟩
            rw [a4, if_neg (fun e => hs (List.append_cancel_left e))]
            exact e2

/-- What clearing some conditions does -/
theorem condWords_clr : ∀ {ws : List CStr} {u : UserConds}, UserOk u → (∀ w ∈ ws, UserWord w) →
    (condWords .clr u ws).2.2 = 0 ∧ UserOk (condWords .clr u ws).1 ∧ (condWords .clr u ws).1.st.rgen = u.st.rgen ∧
    (∀ p, (condWords .clr u ws).1.st.lookup p = if ∃ w ∈ ws, p = "usr/".toList ++ userArg w then none else u.st.lookup p) ∧
    ∀ e, e ∈ (condWords .clr u ws).2.1 ↔ ∃ w ∈ ws, e = .gone (userArg w) ∧ u.st.lookup ("usr/".toList ++ userArg w) ≠ none
  | [], u, h, _ => ⟨rfl, h, rfl, fun p => by simp [condWords], fun e => by simp [condWords]⟩
  | w :: ws, u, h, hw => by
    have hn := (hw w List.mem_cons_self).arg
    obtain ⟨a1, a2, a3, a4, a5⟩ := condClrOne_ok h hn.1 hn.slash (by have := hn.2.1; omega)
    obtain ⟨b1, b2, b3, b4, b5⟩ := condWords_clr (ws := ws) a2 (fun w' h' => hw w' (List.mem_cons_of_mem _ h'))
    unfold condWords
    dsimp only [condOne]
    rw [if_neg hn.slash, if_neg hn.dot, if_neg (by rw [a1]; decide)]
    refine ⟨b1, b2, b3.trans a3, fun p => ?_, fun e => ?_⟩
    · dsimp only
      rw [b4, a4]
      by_cases h1 : ∃ w ∈ ws, p = "usr/".toList ++ userArg w
      · obtain ⟨w', hw', e⟩ := h1
        rw [if_pos ⟨w', hw', e⟩, if_pos ⟨w', List.mem_cons_of_mem _ hw', e⟩]
      · rw [if_neg h1]
        by_cases h2 : p = "usr/".toList ++ userArg w
        · rw [if_pos h2, if_pos ⟨w, List.mem_cons_self, h2⟩]
        · rw [if_neg h2, if_neg]
          rintro ⟨w', hw', e⟩
          rcases List.mem_cons.mp hw' with rfl | hw'
          · exact h2 e
          · exact h1 ⟨w', hw', e⟩
    · dsimp only
      rw [List.mem_append, b5, a5]
      constructor
      · rintro (he | ⟨w', hw', e1, e2⟩)
        · split at he
          · cases he
          · rename_i hl
            exact ⟨w, List.mem_cons_self, List.mem_singleton.mp he, hl⟩
        · rw [a4] at e2
          split at e2
          · exact absurd rfl e2
          · exact ⟨w', List.mem_cons_of_mem _ hw', e1, e2⟩
      · rintro ⟨w', hw', e1, e2⟩
        by_cases hs : userArg w' = userArg w
        · left
          rw [hs] at e1 e2
          rw [if_neg e2, e1]
          exact List.mem_singleton.mpr rfl
        · right
          rcases List.mem_cons.mp hw' with rfl | hw'
          · exact absurd rfl hs
          · refine ⟨w', hw', e1, ?_⟩
            rw [a4, if_neg (fun e => hs (List.append_cancel_left e))]
            exact e2

theorem condWords_cons (op : CondCmd) (w : CStr) (ws : List CStr) (u : UserConds) : condWords op u (w :: ws) =
    if '/' ∈ userArg w then (u, [], 2) else if '.' ∈ userArg w then (u, [], 2)
    else if (condOne op u (userArg w)).2.2 = false then ((condOne op u (userArg w)).1, (condOne op u (userArg w)).2.1, 73)
    else ((condWords op (condOne op u (userArg w)).1 ws).1, (condOne op u (userArg w)).2.1 ++ (condWords op (condOne op u (userArg w)).1 ws).2.1,
      (condWords op (condOne op u (userArg w)).1 ws).2.2) := rfl

theorem condWords_append (op : CondCmd) : ∀ (ws vs : List CStr) (u : UserConds), condWords op u (ws ++ vs) =
    if (condWords op u ws).2.2 ≠ 0 then condWords op u ws
    else ((condWords op (condWords op u ws).1 vs).1, (condWords op u ws).2.1 ++ (condWords op (condWords op u ws).1 vs).2.1,
      (condWords op (condWords op u ws).1 vs).2.2)
  | [], vs, u => by simp [condWords]
  | w :: ws, vs, u => by
    rw [List.cons_append, condWords_cons, condWords_cons]
    by_cases h1 : '/' ∈ userArg w
    · simp [h1]
    · by_cases h2 : '.' ∈ userArg w
      · simp [h1, h2]
      · rw [if_neg h1, if_neg h2, if_neg h1, if_neg h2]
        generalize condOne op u (userArg w) = r
        by_cases h3 : r.2.2 = false
        · simp [h3]
        · rw [if_neg h3, if_neg h3, condWords_append op ws vs]
          dsimp only
          by_cases h4 : (condWords op r.1 ws).2.2 ≠ 0
          · rw [if_pos h4, if_pos h4]
          · rw [if_neg h4, if_neg h4]
            simp [List.append_assoc]

/-- The arguments are worked on word by word. -/
theorem condArgs_words (op : CondCmd) : ∀ (args : List CStr) (u : UserConds), (∀ a ∈ args, a ≠ []) →
    condArgs op u args = condWords op u (args.flatMap (tokens isBlank))
  | [], u, _ => rfl
  | a :: as, u, h => by
    rw [List.flatMap_cons, condWords_append]
    unfold condArgs
    rw [if_neg (h a List.mem_cons_self)]
    dsimp only
    rw [condArgs_words op as _ (fun x hx => h x (List.mem_cons_of_mem _ hx))]

theorem condMain_words {args : List CStr} (h : GoodArgs args) (op : CondCmd) (u : UserConds) :
    condMain op u args = condWords op u (args.flatMap (tokens isBlank)) := by
  unfold condMain
  rw [if_neg h.1, condArgs_words op args u (fun a ha => (h.2 a ha).1)]

theorem GoodArgs.words {args : List CStr} (h : GoodArgs args) : ∀ w ∈ args.flatMap (tokens isBlank), UserWord w := by
  intro w hw
  obtain ⟨a, ha, hwa⟩ := List.mem_flatMap.mp hw
  exact (h.2 a ha).2 w ((mem_tokens_iff _ _ _).mp hwa)

/-- The words are those that name the condition. -/
theorem named_words {args : List CStr} {n : CStr} (hg : GoodArgs args) :
    (UserName n ∧ UserNamed args n) ↔ ∃ w ∈ args.flatMap (tokens isBlank), n = userArg w := by
  constructor
  · rintro ⟨hn, a, ha, w, hw, e⟩
    exact ⟨w, List.mem_flatMap.mpr ⟨a, ha, (mem_tokens_iff _ _ _).mpr hw⟩, (userArg_of hn.slash e).symm⟩
  · rintro ⟨w, hw, rfl⟩
    have h := hg.words w hw
    refine ⟨h.arg, ?_⟩
    obtain ⟨a, ha, hwa⟩ := List.mem_flatMap.mp hw
    refine ⟨a, ha, w, (mem_tokens_iff _ _ _).mp hwa, ?_⟩
    obtain ⟨n, hn, e⟩ := h
    rw [userArg_of hn.slash e]
    exact e

theorem condPath_usr {n : CStr} (h : n.length ≤ 39) : condPath ("usr/".toList ++ n) = "usr/".toList ++ n :=
  List.take_of_length_le (by simp; omega)

theorem get_usr_on {u : UserConds} (h : UserOk u) {n : CStr} (hn : n.length ≤ 39) (hl : u.st.lookup ("usr/".toList ++ n) ≠ none) :
    u.st.get ("usr/".toList ++ n) = .on := by
  unfold CondStore.get
  rw [condPath_usr hn]
  cases hf : u.st.lookup ("usr/".toList ++ n) with
  | none => exact absurd hf hl
  | some f =>
    have := h.link hf
    subst this
    have hg : u.st.getGen ("usr/".toList ++ n) = u.st.rgen := by
      unfold CondStore.getGen
      rw [hf]
    unfold CondStore.getPath
    dsimp only
    rw [hg, if_neg h.gen, if_neg h.gen, if_pos rfl]

theorem get_usr_off {u : UserConds} {n : CStr} (hn : n.length ≤ 39) (hl : u.st.lookup ("usr/".toList ++ n) = none) :
    u.st.get ("usr/".toList ++ n) = .off := by
  unfold CondStore.get
  rw [condPath_usr hn]
  have hg : u.st.getGen ("usr/".toList ++ n) = 0 := by
    unfold CondStore.getGen
    rw [hl]
  unfold CondStore.getPath
  dsimp only
  rw [hg, if_pos rfl]

theorem get_of_lookup {s t : CondStore} {c : CStr} (hr : s.rgen = t.rgen) (hl : s.lookup (condPath c) = t.lookup (condPath c)) :
    s.get c = t.get c := by
  have hg : s.getGen (condPath c) = t.getGen (condPath c) := by
    unfold CondStore.getGen
    rw [hl, hr]
  unfold CondStore.get CondStore.getPath
  dsimp only
  rw [hg, hr]

theorem strlcat_usr {n : CStr} (h : n.length ≤ 39) : strlcat 192 condUsr n = "usr/".toList ++ n := by
  unfold strlcat condUsr
  rw [List.take_of_length_le (by simp; omega)]

theorem update_affects {n l : CStr} (hn : n.length ≤ 39) (hl : l.length ≤ 191) :
    condAffects (strlcat 192 condUsr n) l = true ↔ IsMember isComma ("usr/".toList ++ n) l := by
  rw [strlcat_usr hn, C04_affects_iff_member _ _ hl]

/-- The state of a condition of the user is on or off. -/
theorem UserOk.lookup_get {u : UserConds} (h : UserOk u) {n : CStr} (hn : n.length ≤ 39) :
    u.st.lookup ("usr/".toList ++ n) = none ↔ u.st.get ("usr/".toList ++ n) = .off := by
  constructor
  · exact get_usr_off hn
  · intro hg
    cases hl : u.st.lookup ("usr/".toList ++ n) with
    | none => rfl
    | some f => rw [get_usr_on h hn (by rw [hl]; exact (fun e => by cases e))] at hg; cases hg

/-- Finit leaves the directory as it is. -/
theorem finit_ok {u : UserConds} (h : UserOk u) {op : CondOp} (ho : (UserOp.finit op).Ok) (hr : u.st.rgen + 1 < U32) :
    UserOk { u with st := op.run u.st } ∧ ∀ n, (op.run u.st).lookup ("usr/".toList ++ n) = u.st.lookup ("usr/".toList ++ n) := by
  have hwrite : ∀ {p : CStr} {f : CFile}, p ≠ "usr".toList → ¬ "usr/".toList <+: p → UserOk { u with st := u.st.write p f } ∧
      ∀ n, (u.st.write p f).lookup ("usr/".toList ++ n) = u.st.lookup ("usr/".toList ++ n) := by
    intro p f hp hp'
    refine ⟨⟨h.dir, by simpa using h.gen, fun e he => ?_⟩, fun n => ?_⟩
    · rcases mem_write_file he with rfl | he
      · exact ⟨hp, fun h' => absurd h' hp'⟩
      · exact h.files e he
    · rw [lookup_write, if_neg]
      intro e
      exact hp' (e ▸ List.prefix_append ..)
  cases op with
  | set m =>
    dsimp only [CondOp.run, CondStore.set, CondStore.setOn]
    split
    · exact ⟨h, fun _ => rfl⟩
    · split
      · exact ⟨h, fun _ => rfl⟩
      · split
        · exact ⟨h, fun _ => rfl⟩
        · dsimp only
          split
          · exact ⟨h, fun _ => rfl⟩
          · exact hwrite ho.1 ho.2
          · split
            · exact ⟨h, fun _ => rfl⟩
            · exact hwrite ho.1 ho.2
  | oneshot m =>
    dsimp only [CondOp.run, CondStore.oneshot]
    split
    · exact ⟨h, fun _ => rfl⟩
    · split
      · exact ⟨h, fun _ => rfl⟩
      · split
        · exact ⟨h, fun _ => rfl⟩
        · exact hwrite ho.1 ho.2
  | clear m =>
    dsimp only [CondOp.run, CondStore.clear]
    split
    · exact ⟨h, fun _ => rfl⟩
    · refine ⟨⟨h.dir, h.gen, fun e he => h.files e (List.mem_filter.mp he).1⟩, fun n => ?_⟩
      rw [lookup_setOff, if_neg]
      rintro (e | hu)
      · exact ho.2 (e ▸ List.prefix_append ..)
      · have hp := List.isPrefixOf_iff_prefix.mp hu
        -- a directory above a file of `usr/` is `usr`, or lies below it
        have ho : condPath m ≠ "usr".toList ∧ ¬ "usr/".toList <+: condPath m := ho
        generalize condPath m = q at hp ho
        rcases Nat.lt_or_ge 3 q.length with hl | hl
        · apply ho.2
          have h1 : q <+: dirSlash q := by
            unfold dirSlash
            split
            · exact List.prefix_refl _
            · exact List.prefix_append ..
          exact List.prefix_of_prefix_length_le (List.prefix_append ..) (h1.trans hp) (show 4 ≤ q.length from hl)
        · match q, hl with
          | [], _ => exact absurd hp (by simp [dirSlash])
          | [a], _ =>
            unfold dirSlash at hp
            split at hp
            · rename_i hh; simp at hh; subst hh; simp at hp
            · simp at hp
          | [a, b], _ =>
            unfold dirSlash at hp
            split at hp
            · rename_i hh; simp at hh; subst hh; simp at hp
            · simp at hp
          | [a, b, c], _ =>
            unfold dirSlash at hp
            split at hp
            · rename_i hh; simp at hh; subst hh; simp at hp
            · simp at hp
              exact ho.1 (by rw [hp.1, hp.2.1, hp.2.2]; rfl)
  | reload =>
    refine ⟨⟨h.dir, ?_, h.files⟩, fun _ => rfl⟩
    show (u.st.rgen + 1) % U32 ≠ 0
    rw [Nat.mod_eq_of_lt hr]
    omega

/-! ## Theorems -/

/-- `initctl cond set` exits with 0; then Finit sees the conditions named as set, and no other condition has changed.  Finit
    steps exactly the services with a condition that was not set before. -/
theorem C77_set_partial (u : UserConds) (h : UserOk u) (args : List CStr) (hg : GoodArgs args) :
    (condMain .set u args).2.2 = 0 ∧ UserOk (condMain .set u args).1 ∧
    (∀ n, UserName n → UserNamed args n → (condMain .set u args).1.st.get ("usr/".toList ++ n) = .on) ∧
    (∀ c, c.length ≤ 43 → (∀ n, UserNamed args n → c ≠ "usr/".toList ++ n) → (condMain .set u args).1.st.get c = u.st.get c) ∧
    ∀ l, l.length ≤ 191 → (usrWakes (condMain .set u args).2.1 l = true ↔
      ∃ n, UserName n ∧ UserNamed args n ∧ u.st.get ("usr/".toList ++ n) = .off ∧ IsMember isComma ("usr/".toList ++ n) l) := by
  rw [condMain_words hg]
  obtain ⟨a1, a2, a3, a4, a5⟩ := condWords_set h hg.words
  refine ⟨a1, a2, fun n hn hm => get_usr_on a2 hn.2.1 ?_, fun c hc hno => get_of_lookup a3 ?_, fun l hl => ?_⟩
  · obtain ⟨w, hw, rfl⟩ := (named_words hg).mp ⟨hn, hm⟩
    rw [a4, if_pos ⟨w, hw, rfl⟩]
    exact (fun e => by cases e)
  · rw [a4, if_neg]
    rintro ⟨w, hw, e⟩
    have hcc : condPath c = c := List.take_of_length_le hc
    exact hno _ ((named_words hg).mpr ⟨w, hw, rfl⟩).2 (hcc ▸ e)
  · simp only [usrWakes, usrUpdates, List.any_map, List.any_eq_true, Function.comp_apply]
    constructor
    · rintro ⟨e, he, hc⟩
      obtain ⟨w, hw, rfl, hn⟩ := (a5 e).mp he
      have hnm := (named_words hg).mpr ⟨w, hw, rfl⟩
      exact ⟨_, hnm.1, hnm.2, get_usr_off hnm.1.2.1 hn, (update_affects hnm.1.2.1 hl).mp hc⟩
    · rintro ⟨n, hn, hm, ho, hc⟩
      obtain ⟨w, hw, rfl⟩ := (named_words hg).mp ⟨hn, hm⟩
      exact ⟨.made (userArg w), (a5 _).mpr ⟨w, hw, rfl, (h.lookup_get hn.2.1).mpr ho⟩, (update_affects hn.2.1 hl).mpr hc⟩

/-- `initctl cond clear` exits with 0; then Finit sees the conditions named as off, and no other condition has changed.  Finit
    steps exactly the services with a condition that was set before. -/
theorem C77_clear_partial (u : UserConds) (h : UserOk u) (args : List CStr) (hg : GoodArgs args) :
    (condMain .clr u args).2.2 = 0 ∧ UserOk (condMain .clr u args).1 ∧
    (∀ n, UserName n → UserNamed args n → (condMain .clr u args).1.st.get ("usr/".toList ++ n) = .off) ∧
    (∀ c, c.length ≤ 43 → (∀ n, UserNamed args n → c ≠ "usr/".toList ++ n) → (condMain .clr u args).1.st.get c = u.st.get c) ∧
    ∀ l, l.length ≤ 191 → (usrWakes (condMain .clr u args).2.1 l = true ↔
      ∃ n, UserName n ∧ UserNamed args n ∧ u.st.get ("usr/".toList ++ n) = .on ∧ IsMember isComma ("usr/".toList ++ n) l) := by
  rw [condMain_words hg]
  obtain ⟨a1, a2, a3, a4, a5⟩ := condWords_clr h hg.words
  refine ⟨a1, a2, fun n hn hm => get_usr_off hn.2.1 ?_, fun c hc hno => get_of_lookup a3 ?_, fun l hl => ?_⟩
  · obtain ⟨w, hw, rfl⟩ := (named_words hg).mp ⟨hn, hm⟩
    rw [a4, if_pos ⟨w, hw, rfl⟩]
  · rw [a4, if_neg]
    rintro ⟨w, hw, e⟩
    have hcc : condPath c = c := List.take_of_length_le hc
    exact hno _ ((named_words hg).mpr ⟨w, hw, rfl⟩).2 (hcc ▸ e)
  · simp only [usrWakes, usrUpdates, List.any_map, List.any_eq_true, Function.comp_apply]
    constructor
    · rintro ⟨e, he, hc⟩
      obtain ⟨w, hw, rfl, hn⟩ := (a5 e).mp he
      have hnm := (named_words hg).mpr ⟨w, hw, rfl⟩
      exact ⟨_, hnm.1, hnm.2, get_usr_on h hnm.1.2.1 hn, (update_affects hnm.1.2.1 hl).mp hc⟩
    · rintro ⟨n, hn, hm, ho, hc⟩
      obtain ⟨w, hw, rfl⟩ := (named_words hg).mp ⟨hn, hm⟩
      refine ⟨.gone (userArg w), (a5 _).mpr ⟨w, hw, rfl, fun e => ?_⟩, (update_affects hn.2.1 hl).mpr hc⟩
      rw [get_usr_off hn.2.1 e] at ho
      cases ho

/-- At any time a condition of the user is on if the last command that names it was to set it, and off otherwise, however
    often the configuration is reloaded and whatever Finit does to its own conditions. -/
theorem C77_history_partial : ∀ (h : List UserOp), (∀ o ∈ h, o.Ok) → userReloads h < U32 - 2 →
    UserOk (runUser h) ∧ ∀ n, UserName n →
      (Said h n → (runUser h).st.get ("usr/".toList ++ n) = .on) ∧ (¬ Said h n → (runUser h).st.get ("usr/".toList ++ n) = .off) := by
  have main : ∀ (h : List UserOp), (∀ o ∈ h, o.Ok) → userReloads h < U32 - 2 →
      UserOk (runUser h) ∧ (runUser h).st.rgen = userReloads h + 1 ∧ ∀ n, UserName n →
      (Said h n → (runUser h).st.get ("usr/".toList ++ n) = .on) ∧ (¬ Said h n → (runUser h).st.get ("usr/".toList ++ n) = .off) := by
    intro h
    induction h with
    | nil => exact fun _ _ => ⟨⟨rfl, by decide, fun e he => by cases he⟩, rfl, fun n hn => ⟨False.elim, fun _ => get_usr_off hn.2.1 rfl⟩⟩
    | cons o h ih =>
      intro hok hr
      have hr' : userReloads h < U32 - 2 := by
        refine Nat.lt_of_le_of_lt ?_ hr
        cases o with
        | user => exact Nat.le_refl _
        | finit c => cases c <;> simp [userReloads]
      obtain ⟨i1, i2, i3⟩ := ih (fun o ho => hok o (List.mem_cons_of_mem _ ho)) hr'
      have ho := hok o List.mem_cons_self
      cases o with
      | finit c =>
        obtain ⟨f1, f2⟩ := finit_ok i1 ho (by rw [i2]; unfold U32 at hr' ⊢; omega)
        refine ⟨f1, ?_, fun n hn => ?_⟩
        · show (c.run (runUser h).st).rgen = _
          cases c with
          | set m =>
            show (CondStore.set _ m).1.rgen = _
            unfold CondStore.set
            split <;> simpa [userReloads] using i2
          | oneshot m =>
            show (CondStore.oneshot _ m).1.rgen = _
            unfold CondStore.oneshot
            split
            · exact i2
            · dsimp only
              split
              · exact i2
              · split <;> simpa [userReloads] using i2
          | clear m =>
            show (CondStore.clear _ m).1.rgen = _
            unfold CondStore.clear
            split <;> simpa [userReloads] using i2
          | reload =>
            show ((runUser h).st.rgen + 1) % U32 = _
            rw [i2]
            simp only [userReloads] at hr ⊢
            exact Nat.mod_eq_of_lt (by unfold U32 at hr ⊢; omega)
        · refine ⟨fun hs => get_usr_on f1 hn.2.1 ?_, fun hs => get_usr_off hn.2.1 ?_⟩
          · show (c.run (runUser h).st).lookup _ ≠ none
            rw [f2]
            intro e
            have := (i3 n hn).1 hs
            rw [get_usr_off hn.2.1 e] at this
            cases this
          · show (c.run (runUser h).st).lookup _ = none
            rw [f2]
            exact (i1.lookup_get hn.2.1).mpr ((i3 n hn).2 hs)
      | user op args =>
        have hrg : ((UserOp.user op args).run (runUser h)).st.rgen = (runUser h).st.rgen := by
          show (condMain op (runUser h) args).1.st.rgen = _
          rw [condMain_words ho]
          cases op with
          | set => exact (condWords_set i1 ho.words).2.2.1
          | clr => exact (condWords_clr i1 ho.words).2.2.1
        refine ⟨?_, hrg.trans i2, fun n hn => ?_⟩
        · cases op with
          | set => exact (C77_set_partial _ i1 args ho).2.1
          | clr => exact (C77_clear_partial _ i1 args ho).2.1
        · by_cases hm : UserNamed args n
          · cases op with
            | set => exact ⟨fun _ => (C77_set_partial _ i1 args ho).2.2.1 n hn hm, fun hs => absurd (.inl hm) hs⟩
            | clr => exact ⟨fun hs => absurd hm hs.1, fun _ => (C77_clear_partial _ i1 args ho).2.2.1 n hn hm⟩
          · have hoth : ∀ m, UserNamed args m → "usr/".toList ++ n ≠ "usr/".toList ++ m := by
              intro m hm' e
              exact hm (List.append_cancel_left e ▸ hm')
            cases op with
            | set =>
              have := (C77_set_partial _ i1 args ho).2.2.2.1 ("usr/".toList ++ n) (by have := hn.2.1; simp; omega) hoth
              exact ⟨fun hs => this.trans ((i3 n hn).1 (hs.resolve_left hm)), fun hs => this.trans ((i3 n hn).2 (fun h' => hs (.inr h')))⟩
            | clr =>
              have := (C77_clear_partial _ i1 args ho).2.2.2.1 ("usr/".toList ++ n) (by have := hn.2.1; simp; omega) hoth
              exact ⟨fun hs => this.trans ((i3 n hn).1 hs.2), fun hs => this.trans ((i3 n hn).2 (fun h' => hs ⟨hm, h'⟩))⟩
  intro h hok hr
  exact ⟨(main h hok hr).1, (main h hok hr).2.2⟩

/-- The file that is made or removed by one word -/
theorem condOne_other (op : CondCmd) (u : UserConds) {n p : CStr} (hs : '/' ∉ n) (hd : '.' ∉ n)
    (hp : ∀ m, p = "usr/".toList ++ m → m = [] ∨ '/' ∈ m ∨ '.' ∈ m) :
    (condOne op u n).1.st.lookup p = u.st.lookup p ∧ (condOne op u n).1.st.rgen = u.st.rgen := by
  have hne : n ≠ [] → userPath n ≠ p := by
    intro h0 e
    unfold userPath condUsr at e
    rw [if_neg hs, List.take_append] at e
    have e' : "usr/".toList ++ n.take 231 = p := e
    rcases hp _ e'.symm with h | h | h
    · cases n with
      | nil => exact h0 rfl
      | cons c n => cases h
    · exact hs (List.mem_of_mem_take h)
    · exact hd (List.mem_of_mem_take h)
  cases op with
  | set =>
    dsimp only [condOne, condSetOne]
    split
    · exact ⟨rfl, rfl⟩
    · split
      · exact ⟨rfl, rfl⟩
      · rename_i h0
        split
        · exact ⟨rfl, rfl⟩
        · exact ⟨by rw [lookup_write, if_neg (fun e => hne h0 e.symm)], by simp⟩
  | clr =>
    dsimp only [condOne, condClrOne]
    split
    · exact ⟨rfl, rfl⟩
    · split
      · split <;> exact ⟨rfl, rfl⟩
      · rename_i h0
        split
        · exact ⟨by rw [lookup_unlink, if_neg (hne h0)], rfl⟩
        · split <;> exact ⟨rfl, rfl⟩

/-- Whatever the arguments are, no file is made, changed or removed but those directly in `usr/`, with names that have no
    periods in them. -/
theorem C77_safe (op : CondCmd) (u : UserConds) (args : List CStr) (p : CStr)
    (hp : ∀ m, p = "usr/".toList ++ m → m = [] ∨ '/' ∈ m ∨ '.' ∈ m) :
    (condMain op u args).1.st.lookup p = u.st.lookup p ∧ (condMain op u args).1.st.rgen = u.st.rgen := by
  have words : ∀ (ws : List CStr) (u : UserConds),
      (condWords op u ws).1.st.lookup p = u.st.lookup p ∧ (condWords op u ws).1.st.rgen = u.st.rgen := by
    intro ws
    induction ws with
    | nil => exact fun _ => ⟨rfl, rfl⟩
    | cons w ws ih =>
      intro u
      rw [condWords_cons]
      split
      · exact ⟨rfl, rfl⟩
      · rename_i h1
        split
        · exact ⟨rfl, rfl⟩
        · rename_i h2
          have h := condOne_other op u h1 h2 hp
          split
          · exact h
          · exact ⟨(ih _).1.trans h.1, (ih _).2.trans h.2⟩
  have all : ∀ (as : List CStr) (u : UserConds),
      (condArgs op u as).1.st.lookup p = u.st.lookup p ∧ (condArgs op u as).1.st.rgen = u.st.rgen := by
    intro as
    induction as with
    | nil => exact fun _ => ⟨rfl, rfl⟩
    | cons a as ih =>
      intro u
      unfold condArgs
      split
      · exact ⟨rfl, rfl⟩
      · have h := words (tokens isBlank a) u
        dsimp only
        split
        · exact h
        · exact ⟨(ih _).1.trans h.1, (ih _).2.trans h.2⟩
  unfold condMain
  split
  · exact ⟨rfl, rfl⟩
  · exact all args u

theorem tokens_noblank {w : CStr} (h0 : w ≠ []) (h : ∀ c ∈ w, isBlank c = false) : tokens isBlank w = [w] := by
  unfold tokens
  have := tokensAux_append_nosep isBlank w [] [] h
  rw [List.append_nil] at this
  rw [this]
  simp [tokensAux, h0]

/-- An argument with a slash, other than the one of `usr/`, or a period in it ends the program with exit status 2.  What the
    arguments before it name has been seen to, what those after it name has not. -/
theorem C77_reject (op : CondCmd) (u : UserConds) (h : UserOk u) (before after : List CStr) (hb : before = [] ∨ GoodArgs before)
    (w n : CStr) (hw : w = "usr/".toList ++ n ∨ w = n ∧ ¬ "usr/".toList <+: n) (hn : '/' ∈ n ∨ '.' ∈ n) (hbl : ∀ c ∈ w, c ≠ ' ' ∧ c ≠ '\t') :
    condMain op u (before ++ w :: after) =
      if before = [] then (u, [], 2) else ((condMain op u before).1, (condMain op u before).2.1, 2) := by
  have h0 : w ≠ [] := by
    rcases hw with rfl | ⟨rfl, _⟩
    · simp
    · rintro rfl
      simp at hn
  have harg : userArg w = n := by
    rcases hw with rfl | ⟨rfl, hp⟩
    · exact userArg_usr n
    · unfold userArg condUsr
      rw [if_neg (fun e => hp (List.isPrefixOf_iff_prefix.mp e))]
  have hone : ∀ v, condArgs op v (w :: after) = (v, [], 2) := by
    intro v
    have : condWords op v (tokens isBlank w) = (v, [], 2) := by
      rw [tokens_noblank h0 (fun c hc => by simp [isBlank, hbl c hc]), condWords_cons, harg]
      by_cases hs : '/' ∈ n
      · rw [if_pos hs]
      · rw [if_neg hs, if_pos (hn.resolve_left hs)]
    unfold condArgs
    rw [if_neg h0, this]
    simp
  have happ : ∀ (as : List CStr) (v : UserConds), (condArgs op v as).2.2 = 0 →
      condArgs op v (as ++ w :: after) = ((condArgs op v as).1, (condArgs op v as).2.1, 2) := by
    intro as
    induction as with
    | nil => intro v _; rw [List.nil_append, hone]; rfl
    | cons a as ih =>
      intro v hz
      rw [List.cons_append]
      unfold condArgs at hz ⊢
      by_cases ha : a = []
      · rw [if_pos ha] at hz
        simp at hz
      · rw [if_neg ha] at hz ⊢
        rw [if_neg ha]
        dsimp only at hz ⊢
        by_cases hc : (condWords op v (tokens isBlank a)).2.2 ≠ 0
        · rw [if_pos hc] at hz
          exact absurd hz hc
        · rw [if_neg hc] at hz ⊢
          rw [if_neg hc, ih _ hz]
  unfold condMain
  rw [if_neg (by simp)]
  rcases hb with rfl | hb
  · rw [List.nil_append, hone, if_pos rfl]
  · have hz : (condArgs op u before).2.2 = 0 := by
      have : condMain op u before = condArgs op u before := by unfold condMain; rw [if_neg hb.1]
      rw [← this, condMain_words hb]
      cases op with
      | set => exact (condWords_set h hb.words).1
      | clr => exact (condWords_clr h hb.words).1
    rw [happ _ _ hz, if_neg hb.1, if_neg hb.1]

/-- How a state is told by an exit status -/
def exitOf : CState → Nat
  | .on => 0
  | .off => 1
  | .flux => 255

/-- The argument `w` of `initctl cond get` means the condition `c`: either as it is, or without `usr/`. -/
def GetMeans (w c : CStr) : Prop :=
  w ≠ [] ∧ (∀ x ∈ w, x ≠ ' ' ∧ x ≠ '\t') ∧ c.length ≤ 43 ∧
  ((∃ n, '/' ∉ n ∧ c = "usr/".toList ++ n ∧ (w = n ∨ w = c)) ∨ w = c ∧ '/' ∈ c ∧ ¬ "usr/".toList <+: c)

theorem condGetOne_eq {st : CondStore} (hr : st.rgen ≠ 0) (hf : ∀ e ∈ st.files, e.2 ≠ .gen 0) {w c : CStr} (h : GetMeans w c) :
    condGetOne st w = exitOf (st.get c) := by
  obtain ⟨h0, hb, hl, hc⟩ := h
  have hp : userPath (userArg w) = c := by
    rcases hc with ⟨n, hs, rfl, hw⟩ | ⟨rfl, hs, hu⟩
    · rw [userArg_of hs hw, userPath_plain hs (by simp at hl; omega)]
    · have : userArg w = w := by
        unfold userArg condUsr
        rw [if_neg (fun e => hu (List.isPrefixOf_iff_prefix.mp e))]
      rw [this]
      unfold userPath
      rw [if_pos hs]
      exact List.take_of_length_le (by omega)
  have hcp : condPath c = c := List.take_of_length_le hl
  unfold condGetOne
  rw [tokens_noblank h0 (fun x hx => by simp [isBlank, hb x hx])]
  dsimp only
  rw [hp]
  have : condRead st c = st.get c := by
    unfold condRead CondStore.get CondStore.getPath CondStore.getGen
    rw [hcp]
    cases hk : st.lookup c with
    | none => simp
    | some f =>
      cases f with
      | link => simp [hr]
      | gen g =>
        have : g ≠ 0 := by
          rintro rfl
          exact hf _ (lookup_mem hk) rfl
        simp [hr, this]
  rw [this]
  cases st.get c <;> rfl

/-- The exit status of `initctl cond get` tells the state that Finit sees, of any condition. -/
theorem C77_get_partial (st : CondStore) (hr : st.rgen ≠ 0) (hf : ∀ e ∈ st.files, e.2 ≠ .gen 0) (w c : CStr) (h : GetMeans w c) :
    condGet st [w] = match st.get c with | .on => 0 | .off => 1 | .flux => 255 := by
  have : condGet st [w] = condGetOne st w := by
    simp [condGet, condGetArgs, h.1]
  rw [this, condGetOne_eq hr hf h]
  cases st.get c <;> rfl

/-- With more arguments it is 0 exactly if all the conditions are on. -/
theorem C77_get_all_partial (st : CondStore) (hr : st.rgen ≠ 0) (hf : ∀ e ∈ st.files, e.2 ≠ .gen 0) (l : List (CStr × CStr)) (hne : l ≠ [])
    (h : ∀ x ∈ l, GetMeans x.1 x.2) : condGet st (l.map (·.1)) = 0 ↔ ∀ x ∈ l, st.get x.2 = .on := by
  have key : ∀ (l : List (CStr × CStr)) (rc : Nat), (∀ x ∈ l, GetMeans x.1 x.2) →
      (condGetArgs st rc (l.map (·.1)) = 0 ↔ rc = 0 ∧ ∀ x ∈ l, st.get x.2 = .on) := by
    intro l
    induction l with
    | nil => intro rc _; simp [condGetArgs]
    | cons x l ih =>
      intro rc h
      have hx := h x List.mem_cons_self
      rw [List.map_cons]
      unfold condGetArgs
      rw [if_neg hx.1, ih _ (fun y hy => h y (List.mem_cons_of_mem _ hy)), condGetOne_eq hr hf hx, Nat.or_eq_zero_iff]
      have : exitOf (st.get x.2) = 0 ↔ st.get x.2 = .on := by cases st.get x.2 <;> simp [exitOf]
      rw [this]
      simp [and_assoc]
  unfold condGet
  rw [if_neg (by simpa using hne), key l 0 h]
  simp

/-- A name of 40 and more characters: `initctl cond set` and `initctl cond get` say that the condition is set, but Finit goes
    on to see it as off. -/
theorem C77_long (u : UserConds) (h : UserOk u) (n : CStr) (hl : 39 < n.length) (hl' : n.length ≤ 231)
    (hc : ∀ c ∈ n, c ≠ '/' ∧ c ≠ '.' ∧ c ≠ ' ' ∧ c ≠ '\t') (hoff : u.st.get ("usr/".toList ++ n) = .off) :
    (condMain .set u [n]).2.2 = 0 ∧ condGet (condMain .set u [n]).1.st [n] = 0 ∧
    (condMain .set u [n]).1.st.get ("usr/".toList ++ n) = .off := by
  have h0 : n ≠ [] := by rintro rfl; simp at hl
  have hs : '/' ∉ n := fun hm => (hc _ hm).1 rfl
  have hd : '.' ∉ n := fun hm => (hc _ hm).2.1 rfl
  have hb : ∀ c ∈ n, isBlank c = false := fun c hm => by simp [isBlank, hc c hm]
  obtain ⟨a1, a2, a3, a4, _⟩ := condSetOne_ok h h0 hs hl'
  have hmain : condMain .set u [n] = ((condSetOne u n).1, (condSetOne u n).2.1, 0) := by
    unfold condMain
    rw [if_neg (by simp), condArgs_words _ _ _ (by simpa using h0)]
    simp only [List.flatMap_cons, List.flatMap_nil, List.append_nil]
    rw [tokens_noblank h0 hb, condWords_cons, userArg_plain hs, if_neg hs, if_neg hd]
    have hset : condOne .set u n = condSetOne u n := rfl
    rw [hset, if_neg (by rw [a1]; decide)]
    simp [condWords]
  rw [hmain]
  refine ⟨rfl, ?_, ?_⟩
  · have : condGet (condSetOne u n).1.st [n] = condGetOne (condSetOne u n).1.st n := by
      simp [condGet, condGetArgs, h0]
    show condGet (condSetOne u n).1.st [n] = 0
    rw [this]
    unfold condGetOne
    rw [tokens_noblank h0 hb]
    dsimp only
    rw [userArg_plain hs, userPath_plain hs hl']
    have : condRead (condSetOne u n).1.st ("usr/".toList ++ n) = .on := by
      unfold condRead
      rw [a4, if_pos rfl]
      exact if_neg a2.gen
    rw [this]
  · rw [← hoff]
    refine get_of_lookup a3 ?_
    show (condSetOne u n).1.st.lookup _ = _
    rw [a4, if_neg]
    intro e
    have := congrArg List.length e
    simp [condPath] at this
    omega

/-- `initctl cond clear usr/` when no condition of the user is set removes their directory and exits with 0; from then on no
    condition can be set. -/
theorem C77_dir (u : UserConds) (h : UserOk u) (hno : ∀ e ∈ u.st.files, ¬ "usr/".toList <+: e.1) :
    (condMain .clr u ["usr/".toList]).2.2 = 0 ∧
    ∀ args, GoodArgs args → (∃ n, UserNamed args n) → condMain .set (condMain .clr u ["usr/".toList]).1 args =
      ((condMain .clr u ["usr/".toList]).1, [], 73) := by
  have hd : u.st.isDir condUsr = false := by
    rcases Bool.eq_false_or_eq_true (u.st.isDir condUsr) with hd | hd
    · obtain ⟨e, he, hu⟩ := List.any_eq_true.mp hd
      exact absurd (List.isPrefixOf_iff_prefix.mp hu) (hno e he)
    · exact hd
  have hmain : condMain .clr u ["usr/".toList] = ({ u with dir := false }, [], 0) := by
    have h1 : tokens isBlank "usr/".toList = ["usr/".toList] := by decide
    have h2 : userArg "usr/".toList = [] := by decide
    have h3 : condClrOne u [] = ({ u with dir := false }, [], true) := by
      unfold condClrOne
      rw [if_neg (by rw [h.dir]; decide), if_pos rfl, hd]
      rfl
    unfold condMain
    rw [if_neg (by simp), condArgs_words _ _ _ (by simp)]
    rw [List.flatMap_cons, List.flatMap_nil, List.append_nil, h1, condWords_cons, h2, if_neg (by simp), if_neg (by simp)]
    have hclr : condOne .clr u [] = condClrOne u [] := rfl
    rw [hclr, h3]
    simp [condWords]
  rw [hmain]
  refine ⟨rfl, fun args hg hn => ?_⟩
  rw [condMain_words hg]
  cases hws : args.flatMap (tokens isBlank) with
  | nil =>
    obtain ⟨n, a, ha, w, hw, _⟩ := hn
    have : w ∈ args.flatMap (tokens isBlank) := List.mem_flatMap.mpr ⟨a, ha, (mem_tokens_iff _ _ _).mpr hw⟩
    rw [hws] at this
    cases this
  | cons w ws =>
    have hn := (hg.words w (by rw [hws]; exact List.mem_cons_self)).arg
    rw [condWords_cons, if_neg hn.slash, if_neg hn.dot]
    simp [condOne, condSetOne]

/-! ## Witnesses and examples -/

/-- `usr/foo` and `pid/sshd` are on. -/
def userDemo : UserConds :=
  { st := { rgen := 3, files := [("usr/foo".toList, .link), ("pid/sshd".toList, .gen 3), ("net/lo/up".toList, .gen 2)] }, dir := true }

theorem userDemo_ok : UserOk userDemo where
  dir := rfl
  gen := by decide
  files := by decide

/-- `initctl cond get usr/pid/sshd` says that the condition is on, but there is none of this name. -/
theorem C77_get_nested : condGet userDemo.st ["usr/pid/sshd".toList] = 0 ∧ userDemo.st.get "usr/pid/sshd".toList = .off := by
  decide

/-- The claim for all names is false. -/
theorem C77_full_false : ¬ C77_full := by
  intro h
  have hl := C77_long userDemo userDemo_ok (List.replicate 40 'a') (by decide) (by decide) (by decide) (by decide +kernel)
  have := h userDemo [List.replicate 40 'a'] userDemo_ok hl.1 (List.replicate 40 'a')
    ⟨_, List.mem_singleton.mpr rfl, List.replicate 40 'a', (mem_tokens_iff _ _ _).mp (by decide +kernel), .inl rfl⟩
  rw [hl.2.2] at this
  cases this

theorem userName_of {n : CStr} (h : decide (n ≠ [] ∧ n.length ≤ 39 ∧ ∀ c ∈ n, c ≠ '/' ∧ c ≠ '.' ∧ c ≠ ' ' ∧ c ≠ '\t') = true) : UserName n :=
  by simpa [UserName] using h

theorem goodArgs_demo : GoodArgs ["bar usr/baz".toList, "foo".toList] := by
  refine ⟨by simp, fun a ha => ?_⟩
  rcases List.mem_cons.mp ha with rfl | ha
  · refine ⟨by simp, fun w hw => ?_⟩
    have hm := (mem_tokens_iff _ _ _).mpr hw
    have ht : tokens isBlank "bar usr/baz".toList = ["bar".toList, "usr/baz".toList] := by decide
    rw [ht] at hm
    rcases List.mem_cons.mp hm with rfl | hm
    · exact ⟨"bar".toList, userName_of (by decide), .inl rfl⟩
    · rw [List.mem_singleton.mp hm]
      exact ⟨"baz".toList, userName_of (by decide), .inr rfl⟩
  · rw [List.mem_singleton.mp ha]
    refine ⟨by simp, fun w hw => ?_⟩
    have hm := (mem_tokens_iff _ _ _).mpr hw
    have ht : tokens isBlank "foo".toList = ["foo".toList] := by decide
    rw [ht] at hm
    rw [List.mem_singleton.mp hm]
    exact ⟨"foo".toList, userName_of (by decide), .inl rfl⟩

/-- The hypotheses hold, and what it does -/
example : (condMain .set userDemo ["bar usr/baz".toList, "foo".toList]).2 = ([.made "bar".toList, .made "baz".toList], 0) := by decide

example : (condMain .set userDemo ["bar usr/baz".toList, "foo".toList]).1.st.get "usr/baz".toList = .on :=
  (C77_set_partial userDemo userDemo_ok _ goodArgs_demo).2.2.1 "baz".toList (userName_of (by decide))
    ⟨_, List.mem_cons_self, "usr/baz".toList, (mem_tokens_iff _ _ _).mp (by decide), .inr rfl⟩

example : (condMain .clr userDemo ["bar usr/baz".toList, "foo".toList]).2 = ([.gone "foo".toList], 0) ∧
    usrWakes (condMain .clr userDemo ["bar usr/baz".toList, "foo".toList]).2.1 "pid/sshd,usr/foo".toList = true := by decide

example : (runUser [.finit .reload, .user .set ["bar usr/baz".toList, "foo".toList], .finit (.set "pid/sshd".toList)]).st.get "usr/bar".toList = .on := by
  decide

example : GetMeans "net/lo/up".toList "net/lo/up".toList ∧ condGet userDemo.st ["net/lo/up".toList] = 255 := by
  refine ⟨⟨by simp, by decide, by decide, .inr ⟨rfl, by decide, by decide⟩⟩, by decide⟩

example : condMain .set userDemo (["bar usr/baz".toList, "foo".toList] ++ "a/b".toList :: ["c".toList]) =
    ((condMain .set userDemo ["bar usr/baz".toList, "foo".toList]).1, [.made "bar".toList, .made "baz".toList], 2) :=
  C77_reject .set userDemo userDemo_ok _ _ (.inr goodArgs_demo) "a/b".toList "a/b".toList (.inr ⟨rfl, by decide⟩) (by decide) (by decide)

example : UserOk UserConds.init ∧ ∀ e ∈ UserConds.init.st.files, ¬ "usr/".toList <+: e.1 :=
  ⟨⟨rfl, by decide, fun e he => by cases he⟩, fun e he => by cases he⟩

end Verif
