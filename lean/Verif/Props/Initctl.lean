import Verif.Initctl
import Verif.Props.Api

/-!
# The commands of `initctl` on services (C75)
-/

namespace Verif

/-! ## Specification -/

/-- The services that were told to start, stop, restart or reload, in order. -/
def actsIn (cs : List Call) : List (SvcAct × Nat) :=
  cs.filterMap fun c => match c with | .act a i => some (a, i) | _ => none

/-- The processes that were sent a signal, in order. -/
def killsIn (cs : List Call) : List (Nat × Int) :=
  cs.filterMap fun c => match c with | .kill i s => some (i, s) | _ => none

/-- What the arguments ask for, one after the other: for each word all the services it means, in order of
    registration; if the word has an id, the first. -/
def AskedFor (l : List Ent) (args : List CStr) (is : List Nat) : Prop :=
  ∃ calls, List.Forall₂ (Handles l) (args.flatMap (tokens isSpace)) calls ∧ is = calls.flatten.filterMap id

/-- Each word of the argument means some service. -/
def AllKnown (l : List Ent) (arg : CStr) : Prop := ∀ tok ∈ tokens isSpace arg, ∃ e ∈ l, Denotes e tok

/-- An argument of the documented form: not empty, short enough for a request, of words of the documented form. -/
structure GoodArg (arg : CStr) : Prop where
  ne : arg ≠ []
  nul : '\x00' ∉ arg
  short : arg.length < 368
  words : ∀ tok ∈ tokens isSpace arg, ProperTok tok

/-- The services that the argument means. -/
def Meant (l : List Ent) (arg : CStr) (is : List Nat) : Prop :=
  is.Pairwise (· < ·) ∧ ∀ i, i ∈ is ↔ ∃ e, l[i]? = some e ∧ Denotes e arg

/-- The whole promise.  `initctl start` and its like tell every service that an argument means to start, and exit
    with 0 exactly if there is a service for each, or errors are to be ignored; `initctl -q status` exits with 0
    exactly if there are services of that name and all of them run, or are done; `initctl ident` prints the
    identities of the services that the argument means. -/
def C75_full : Prop :=
  (∀ (E : ApiEnv) (st : ApiSt) (p : Int) (noerr : Bool) (a : SvcAct) (args : List CStr), args ≠ [] →
    (∀ arg ∈ args, GoodArg arg) → isReserved st.runlevel = false →
    (∀ i e arg tok, arg ∈ args → tok ∈ tokens isSpace arg → E.list[i]? = some e → Denotes e tok →
      (a, i) ∈ actsIn (cliJobs E st p noerr a args).1) ∧
    ((cliJobs E st p noerr a args).2 = 0 ↔ noerr = true ∨ ∀ arg ∈ args, AllKnown E.list arg)) ∧
  (∀ (E : ApiEnv) (st : ApiSt) (p : Int) (svc : Nat → CliSvc) (arg : CStr) (is : List Nat), GoodArg arg →
    (∀ c ∈ arg, isSpace c = false) → Meant E.list arg is →
    ((∃ sh, cliStatusArg E st p svc false true arg = (sh, .rc 0)) ↔
      is ≠ [] ∧ ∀ i ∈ is, if (svc i).runtask then (svc i).started = true else (svc i).running = true)) ∧
  (∀ (l : List Ent) (arg : CStr) (is : List Nat), GoodArg arg → (∀ c ∈ arg, isSpace c = false) → Meant l arg is →
    cliIdent l (some arg) = is)

/-! ## Helpers -/

theorem cliData_eq {s : CStr} (h : s.length < 368) : cliData s = s ++ List.replicate (368 - s.length) '\x00' := by
  unfold cliData
  rw [take_short h]

theorem actsIn_append (a b : List Call) : actsIn (a ++ b) = actsIn a ++ actsIn b := List.filterMap_append

theorem killsIn_append (a b : List Call) : killsIn (a ++ b) = killsIn a ++ killsIn b := List.filterMap_append

theorem actsIn_dbg (st : ApiSt) (buf : List Char) : actsIn (dbgData st buf) = [] := by
  unfold dbgData; split <;> rfl

theorem killsIn_dbg (st : ApiSt) (buf : List Char) : killsIn (dbgData st buf) = [] := by
  unfold dbgData; split <;> rfl

theorem actsIn_acts (a : SvcAct) (l : List (Option Nat)) :
    actsIn (l.filterMap (·.map (Call.act a))) = (l.filterMap id).map fun i => (a, i) := by
  induction l with
  | nil => rfl
  | cons o l ih =>
    cases o with
    | none => simpa [actsIn] using ih
    | some i =>
      simp only [actsIn, List.filterMap_cons, Option.map_some, id, List.map_cons] at ih ⊢
      rw [ih]

theorem forall₂_append {α β} {R : α → β → Prop} {a b : List α} {c d : List β} (h1 : List.Forall₂ R a c)
    (h2 : List.Forall₂ R b d) : List.Forall₂ R (a ++ b) (c ++ d) := by
  induction h1 with
  | nil => exact h2
  | cons h _ ih => exact .cons h ih

theorem askedFor_nil (l : List Ent) : AskedFor l [] [] := ⟨[], .nil, rfl⟩

theorem askedFor_cons {l : List Ent} {arg : CStr} {args : List CStr} {is js : List Nat} (h1 : AskedFor l [arg] is)
    (h2 : AskedFor l args js) : AskedFor l (arg :: args) (is ++ js) := by
  obtain ⟨c, hc, rfl⟩ := h1
  obtain ⟨d, hd, rfl⟩ := h2
  refine ⟨c ++ d, ?_, by simp⟩
  rw [List.flatMap_cons]
  refine forall₂_append (by simpa using hc) hd

/-- The query made beforehand. -/
theorem query_send (E : ApiEnv) (st : ApiSt) (p : Int) {arg : CStr} (h : GoodArg arg) :
    (cliRc (apiRequest E st p { cmd := 130, data := cliData arg }).2 = 0 ↔ AllKnown E.list arg) ∧
    actsIn (apiRequest E st p { cmd := 130, data := cliData arg }).1 = [] ∧
    killsIn (apiRequest E st p { cmd := 130, data := cliData arg }).1 = [] := by
  obtain ⟨n, h1, h2⟩ := C26_query_partial E.list arg (368 - arg.length) h.nul h.words
  have key : apiRequest E st p { cmd := 130, data := cliData arg } =
      (dbgData st (cliData arg) ++ [.read (strterm (cliData arg))], answer { cmd := 130, data := cliData arg } n) := by
    unfold apiRequest
    rw [if_neg (by simp)]
    simp only [gatedCmd]
    rw [if_neg (by simp)]
    simp only [show ¬ (130 : Int) = 1 by decide, show ¬ (130 : Int) = 8 by decide, if_false]
    rw [cliData_eq h.short, strterm_padded h.short, h1]
    rfl
  rw [key]
  refine ⟨?_, by rw [actsIn_append, actsIn_dbg]; rfl, by rw [killsIn_append, killsIn_dbg]; rfl⟩
  unfold AllKnown
  rw [← h2]
  unfold answer
  by_cases hn : n = 0
  · rw [if_neg (by simpa using hn)]; simp [cliRc, hn]
  · rw [if_pos hn]; simp [cliRc, hn]

/-- The request itself. -/
theorem jobs_send (E : ApiEnv) (st : ApiSt) (p : Int) (a : SvcAct) {arg : CStr} (h : GoodArg arg)
    (hr : isReserved st.runlevel = false) (hk : AllKnown E.list arg) :
    cliRc (apiRequest E st p { cmd := cmdOf a, data := cliData arg }).2 = 0 ∧
    ∃ is, AskedFor E.list [arg] is ∧
      actsIn (apiRequest E st p { cmd := cmdOf a, data := cliData arg }).1 = is.map fun i => (a, i) := by
  obtain ⟨calls, h1, h2⟩ := C26_each_once_partial E.list arg (368 - arg.length) h.nul h.words
  have e0 : doJobs E a (strterm (cliData arg)) = some ([.read (cliData arg)] ++ calls.flatten.filterMap (·.map (Call.act a)),
      calls.flatten.count none) := by
    rw [cliData_eq h.short, strterm_padded h.short]
    unfold doJobs
    rw [h2, callAll_acts, Nat.zero_add]
  rw [apiRequest_jobs E st p { cmd := cmdOf a, data := cliData arg } a rfl rfl hr, e0]
  have hn : calls.flatten.count none = 0 := by
    rw [List.count_eq_zero]
    intro hn
    obtain ⟨ys, hy, ho⟩ := List.mem_flatten.mp hn
    obtain ⟨tok, ht, hh⟩ := forall₂_of_mem_right h1 ys hy
    by_cases hcol : ':' ∈ tok
    · obtain ⟨o, rfl, h4, _⟩ := hh.2 hcol
      obtain ⟨e, he, hden⟩ := hk tok ht
      exact h4 (List.mem_singleton.mp ho).symm e he hden
    · obtain ⟨is, rfl, _⟩ := hh.1 hcol
      obtain ⟨i, _, h⟩ := List.mem_map.mp ho
      cases h
  refine ⟨by simp only [answerJobs, answer, hn]; rfl, calls.flatten.filterMap id, ⟨calls, by simpa using h1, rfl⟩, ?_⟩
  simp only [answerJobs]
  rw [actsIn_append, actsIn_append, actsIn_dbg, actsIn_acts]
  rfl

/-- One argument that means some service with each word. -/
theorem one_known (E : ApiEnv) (st : ApiSt) (p : Int) (noerr : Bool) (a : SvcAct) {arg : CStr} (h : GoodArg arg)
    (hr : isReserved st.runlevel = false) (hk : AllKnown E.list arg) :
    ∃ cs is, cliOne E st p noerr a (some arg) = (cs, .rc 0) ∧ AskedFor E.list [arg] is ∧
      actsIn cs = is.map fun i => (a, i) := by
  obtain ⟨q1, q2, _⟩ := query_send E st p h
  obtain ⟨j1, is, j2, j3⟩ := jobs_send E st p a h hr hk
  refine ⟨(apiRequest E st p { cmd := 130, data := cliData arg }).1 ++
    (apiRequest E st p { cmd := cmdOf a, data := cliData arg }).1, is, ?_, j2, by rw [actsIn_append, q2, j3]; rfl⟩
  have key : cliStartStop E st p noerr (cmdOf a) (some arg) =
      ((apiRequest E st p { cmd := 130, data := cliData arg }).1 ++
        (apiRequest E st p { cmd := cmdOf a, data := cliData arg }).1, .rc 0) := by
    unfold cliStartStop
    dsimp only
    rw [if_neg h.ne, if_neg (by simpa using q1.mpr hk), j1]
  cases a with
  | start => exact key
  | stop => exact key
  | reload =>
    unfold cliOne
    dsimp only
    rw [if_neg (by simpa using h.ne)]
    exact key
  | restart =>
    unfold cliOne
    dsimp only
    have : cliStartStop E st p noerr 13 (some arg) = cliStartStop E st p noerr (cmdOf .restart) (some arg) := rfl
    rw [this, key]
    rfl

/-- One argument with a word that means none. -/
theorem one_unknown (E : ApiEnv) (st : ApiSt) (p : Int) (noerr : Bool) (a : SvcAct) {arg : CStr} (h : GoodArg arg)
    (hk : ¬ AllKnown E.list arg) :
    ∃ cs, cliOne E st p noerr a (some arg) = (cs, .exit (if noerr then 0 else 69)) ∧ actsIn cs = [] := by
  obtain ⟨q1, q2, _⟩ := query_send E st p h
  refine ⟨(apiRequest E st p { cmd := 130, data := cliData arg }).1, ?_, q2⟩
  have key : ∀ cmd, cliStartStop E st p noerr cmd (some arg) =
      ((apiRequest E st p { cmd := 130, data := cliData arg }).1, .exit (if noerr then 0 else 69)) := by
    intro cmd
    unfold cliStartStop
    dsimp only
    rw [if_neg h.ne, if_pos (by rw [ne_eq, q1]; exact hk)]
  cases a with
  | start => exact key 10
  | stop => exact key 11
  | reload =>
    unfold cliOne
    dsimp only
    rw [if_neg (by simpa using h.ne)]
    exact key 12
  | restart =>
    unfold cliOne
    dsimp only
    rw [key]

/-- The loop over the arguments. -/
theorem loop_jobs (E : ApiEnv) (st : ApiSt) (p : Int) (noerr : Bool) (a : SvcAct) (hr : isReserved st.runlevel = false)
    (post : List CStr) (hpost : ∀ bad post', post = bad :: post' → GoodArg bad ∧ ¬ AllKnown E.list bad) :
    ∀ pre : List CStr, (∀ arg ∈ pre, GoodArg arg ∧ AllKnown E.list arg) →
    ∃ is, AskedFor E.list pre is ∧
      actsIn (cliLoop (fun x => cliOne E st p noerr a (some x)) 0 (pre ++ post)).1 = is.map (fun i => (a, i)) ∧
      (cliLoop (fun x => cliOne E st p noerr a (some x)) 0 (pre ++ post)).2 =
        if post = [] ∨ noerr = true then 0 else 69
  | [], _ => by
    refine ⟨[], askedFor_nil _, ?_⟩
    rw [List.nil_append]
    cases post with
    | nil => exact ⟨rfl, by simp [cliLoop]⟩
    | cons bad post' =>
      obtain ⟨hb, hk⟩ := hpost bad post' rfl
      obtain ⟨cs, e, hcs⟩ := one_unknown E st p noerr a hb hk
      simp only [cliLoop, e]
      exact ⟨hcs, by cases noerr <;> simp⟩
  | arg :: pre, hpre => by
    obtain ⟨hg, hk⟩ := hpre arg List.mem_cons_self
    obtain ⟨cs, is, e, h1, h2⟩ := one_known E st p noerr a hg hr hk
    obtain ⟨js, h3, h4, h5⟩ := loop_jobs E st p noerr a hr post hpost pre fun x hx => hpre x (List.mem_cons_of_mem _ hx)
    refine ⟨is ++ js, askedFor_cons h1 h3, ?_, ?_⟩
    · rw [List.cons_append, cliLoop, e]
      dsimp only
      rw [Nat.or_zero, actsIn_append, h2, h4, List.map_append]
    · rw [List.cons_append, cliLoop, e]
      dsimp only
      rw [Nat.or_zero, h5]

/-! ## Theorems -/

/-- `initctl start`, `stop`, `restart` and `reload` with arguments tell the services that the arguments mean to do so,
    in the order of the arguments and each with the command given and no other, up to the first argument with a word
    that means no service; if there is such an argument the exit status is 69, or 0 with `-n`, and otherwise 0.
    Asked of it: the arguments are of the documented form, and the system is neither starting nor going down. -/
theorem C75_partial (E : ApiEnv) (st : ApiSt) (p : Int) (noerr : Bool) (a : SvcAct) (pre post : List CStr)
    (hne : pre ++ post ≠ []) (hg : ∀ arg ∈ pre ++ post, GoodArg arg)
    (hr : st.runlevel ≠ 0 ∧ st.runlevel ≠ 6 ∧ st.runlevel ≠ 10)
    (hpre : ∀ arg ∈ pre, AllKnown E.list arg) (hpost : ∀ bad ∈ post.head?, ¬ AllKnown E.list bad) :
    (∃ is, AskedFor E.list pre is ∧ actsIn (cliJobs E st p noerr a (pre ++ post)).1 = is.map fun i => (a, i)) ∧
    (cliJobs E st p noerr a (pre ++ post)).2 = if post = [] ∨ noerr = true then 0 else 69 := by
  have hres : isReserved st.runlevel = false := by simp [isReserved, hr]
  have key : cliJobs E st p noerr a (pre ++ post) = cliLoop (fun x => cliOne E st p noerr a (some x)) 0 (pre ++ post) := by
    unfold cliJobs cliArgs
    split
    · rename_i h; exact absurd h hne
    · rfl
  obtain ⟨is, h1, h2, h3⟩ := loop_jobs E st p noerr a hres post
    (fun bad post' e => ⟨hg bad (by rw [e]; simp), hpost bad (by rw [e]; simp)⟩) pre
    fun arg h => ⟨hg arg (List.mem_append_left _ h), hpre arg h⟩
  rw [key]
  exact ⟨⟨is, h1, h2⟩, h3⟩

/-- Without `-n` the exit status is 0 exactly if each word of the arguments means some service. -/
theorem C75_exit_partial (E : ApiEnv) (st : ApiSt) (p : Int) (a : SvcAct) (args : List CStr)
    (hne : args ≠ []) (hg : ∀ arg ∈ args, GoodArg arg)
    (hr : st.runlevel ≠ 0 ∧ st.runlevel ≠ 6 ∧ st.runlevel ≠ 10) :
    (cliJobs E st p false a args).2 = 0 ↔ ∀ arg ∈ args, AllKnown E.list arg := by
  have hsplit : ∀ l : List CStr, ∃ pre post, l = pre ++ post ∧ (∀ arg ∈ pre, AllKnown E.list arg) ∧
      ∀ bad ∈ post.head?, ¬ AllKnown E.list bad := by
    intro l
    induction l with
    | nil => exact ⟨[], [], rfl, by simp, by simp⟩
    | cons x l ih =>
      obtain ⟨pre, post, rfl, h1, h2⟩ := ih
      by_cases hx : AllKnown E.list x
      · exact ⟨x :: pre, post, rfl, by simpa using ⟨hx, h1⟩, h2⟩
      · exact ⟨[], x :: (pre ++ post), rfl, by simp, by simpa using hx⟩
  obtain ⟨pre, post, rfl, h1, h2⟩ := hsplit args
  rw [(C75_partial E st p false a pre post hne hg hr h1 h2).2]
  cases post with
  | nil => simpa using h1
  | cons bad post' =>
    simp only [reduceCtorEq, Bool.false_eq_true, or_self, if_false, false_iff]
    exact fun h => h2 bad rfl (h bad (by simp))

/-- While the system is starting or going down none of these commands does anything, and without `-n` none of them
    exits with 0. -/
theorem C75_reserved (E : ApiEnv) (st : ApiSt) (p : Int) (noerr : Bool) (a : SvcAct) (args : List CStr)
    (hg : ∀ arg ∈ args, GoodArg arg) (hr : st.runlevel = 0 ∨ st.runlevel = 6 ∨ st.runlevel = 10) :
    actsIn (cliJobs E st p noerr a args).1 = [] ∧ Call.smReload ∉ (cliJobs E st p noerr a args).1 ∧
    (noerr = false → (cliJobs E st p noerr a args).2 ≠ 0) := by
  have hres : isReserved st.runlevel = true := by simpa [isReserved] using hr
  have hgate : ∀ (cmd : Int) (d : List Char), gatedCmd cmd = true →
      apiRequest E st p { cmd := cmd, data := d } = ([.read (strterm d)], .closed) := by
    intro cmd d hc
    unfold apiRequest
    rw [if_neg (by simp), hres, if_pos (by simpa using hc)]
  have hq : ∀ arg, GoodArg arg → Call.smReload ∉ (apiRequest E st p { cmd := 130, data := cliData arg }).1 := by
    intro arg h hm
    obtain ⟨n, h1, _⟩ := C26_query_partial E.list arg (368 - arg.length) h.nul h.words
    unfold apiRequest at hm
    rw [if_neg (by simp)] at hm
    simp only [gatedCmd] at hm
    rw [if_neg (by simp)] at hm
    simp only [show ¬ (130 : Int) = 1 by decide, show ¬ (130 : Int) = 8 by decide, if_false] at hm
    rw [cliData_eq h.short, strterm_padded h.short, h1] at hm
    rcases List.mem_append.mp hm with hm | hm
    · cases (dbgData_read hm).2
    · cases List.mem_singleton.mp hm
  -- one argument
  have one : ∀ arg, GoodArg arg → ∃ cs en, cliOne E st p noerr a (some arg) = (cs, en) ∧ actsIn cs = [] ∧
      Call.smReload ∉ cs ∧ (en = .rc 255 ∨ ∃ n, en = .exit n ∧ (noerr = false → n ≠ 0)) := by
    intro arg h
    have key : ∀ cmd, gatedCmd cmd = true → ∃ cs en, cliStartStop E st p noerr cmd (some arg) = (cs, en) ∧
        actsIn cs = [] ∧ Call.smReload ∉ cs ∧ (en = .rc 255 ∨ ∃ n, en = .exit n ∧ (noerr = false → n ≠ 0)) := by
      intro cmd hc
      unfold cliStartStop
      dsimp only
      rw [if_neg h.ne]
      split
      · exact ⟨_, _, rfl, (query_send E st p h).2.1, hq arg h, .inr ⟨_, rfl, fun e => by rw [e]; decide⟩⟩
      · rw [hgate cmd _ hc]
        refine ⟨_, _, rfl, by rw [actsIn_append, (query_send E st p h).2.1]; rfl, ?_, .inl rfl⟩
        intro hm
        rcases List.mem_append.mp hm with hm | hm
        · exact hq arg h hm
        · cases List.mem_singleton.mp hm
    cases a with
    | start => exact key 10 rfl
    | stop => exact key 11 rfl
    | reload =>
      unfold cliOne
      dsimp only
      rw [if_neg (by simpa using h.ne)]
      exact key 12 rfl
    | restart =>
      unfold cliOne
      dsimp only
      obtain ⟨cs, en, e, h1, h2, h3⟩ := key 13 rfl
      rw [e]
      rcases h3 with rfl | ⟨n, rfl, h3⟩
      · exact ⟨_, _, rfl, h1, h2, .inr ⟨_, rfl, fun e => by rw [e]; decide⟩⟩
      · exact ⟨_, _, rfl, h1, h2, .inr ⟨_, rfl, h3⟩⟩
  have loop : ∀ (args : List CStr) (rc : Nat), (∀ arg ∈ args, GoodArg arg) →
      actsIn (cliLoop (fun x => cliOne E st p noerr a (some x)) rc args).1 = [] ∧
      Call.smReload ∉ (cliLoop (fun x => cliOne E st p noerr a (some x)) rc args).1 ∧
      (noerr = false → (args ≠ [] ∨ rc ≠ 0) → (cliLoop (fun x => cliOne E st p noerr a (some x)) rc args).2 ≠ 0) := by
    intro args
    induction args with
    | nil => intro rc _; exact ⟨rfl, by simp [cliLoop], fun _ h => by rcases h with h | h; exact absurd rfl h; exact h⟩
    | cons x args ih =>
      intro rc hg
      obtain ⟨cs, en, e, h1, h2, h3⟩ := one x (hg x List.mem_cons_self)
      rw [cliLoop, e]
      rcases h3 with rfl | ⟨n, rfl, h3⟩
      · obtain ⟨i1, i2, i3⟩ := ih (rc ||| 255) fun y hy => hg y (List.mem_cons_of_mem _ hy)
        dsimp only
        refine ⟨by rw [actsIn_append, h1, i1]; rfl, ?_, fun hn _ => i3 hn (.inr ?_)⟩
        · intro hm
          rcases List.mem_append.mp hm with hm | hm
          · exact h2 hm
          · exact i2 hm
        · intro h0
          have := Nat.right_le_or (n := rc) (m := 255)
          omega
      · exact ⟨h1, h2, fun hn _ => h3 hn⟩
  unfold cliJobs cliArgs
  split
  · have none_ : ∃ cs en, cliOne E st p noerr a none = (cs, en) ∧ actsIn cs = [] ∧ Call.smReload ∉ cs ∧
        (en = .rc 255 ∨ en = .exit 2) := by
      cases a with
      | start => exact ⟨_, _, rfl, rfl, by simp, .inr rfl⟩
      | stop => exact ⟨_, _, rfl, rfl, by simp, .inr rfl⟩
      | restart => exact ⟨_, _, rfl, rfl, by simp, .inr rfl⟩
      | reload =>
        have e : cliOne E st p noerr .reload none =
          ((apiRequest E st p { cmd := 9 }).1, .rc (cliRc (apiRequest E st p { cmd := 9 }).2)) := rfl
        rw [e, hgate 9 _ rfl]
        exact ⟨_, _, rfl, rfl, (fun hm => by cases List.mem_singleton.mp hm), .inl rfl⟩
    obtain ⟨cs, en, e, h1, h2, rfl | rfl⟩ := none_
    · rw [e]; exact ⟨h1, h2, fun _ => (by decide : (255 : Nat) ≠ 0)⟩
    · rw [e]; exact ⟨h1, h2, fun _ => (by decide : (2 : Nat) ≠ 0)⟩
  · rename_i hne
    obtain ⟨l1, l2, l3⟩ := loop args 0 hg
    exact ⟨l1, l2, fun hn => l3 hn (.inl fun h => hne (by rw [h]))⟩

/-- Without an argument, or with an empty one, `start`, `stop` and `restart` do nothing and exit with 2; `reload` has
    the configuration reloaded, and exits with 0. -/
theorem C75_noarg (E : ApiEnv) (st : ApiSt) (p : Int) (noerr : Bool) (a : SvcAct) (args : List CStr)
    (hargs : args = [] ∨ args = [[]]) (hr : st.runlevel ≠ 0 ∧ st.runlevel ≠ 6 ∧ st.runlevel ≠ 10) :
    (a ≠ .reload → cliJobs E st p noerr a args = ([], 2)) ∧
    (a = .reload → cliJobs E st p noerr a args = ([.smReload], 0)) := by
  have hres : isReserved st.runlevel = false := by simp [isReserved, hr]
  have h9 : apiRequest E st p { cmd := 9 } = ([.smReload], .ack 0 0) := by
    unfold apiRequest
    rw [if_neg (by simp), hres, Bool.and_false, if_neg (by decide)]
    rfl
  constructor
  · intro ha
    rcases hargs with rfl | rfl <;> cases a <;> first | rfl | exact absurd rfl ha
  · rintro rfl
    have e : ∀ arg, arg.getD [] = [] → cliOne E st p noerr .reload arg = ([.smReload], .rc 0) := by
      intro arg he
      unfold cliOne
      dsimp only
      rw [if_pos he, h9]
      rfl
    rcases hargs with rfl | rfl
    · unfold cliJobs cliArgs
      dsimp only
      rw [e none rfl]
    · unfold cliJobs cliArgs
      simp only [cliLoop]
      rw [e (some []) rfl]
      rfl

/-! ## Signals -/

theorem callAll_kills (E : ApiEnv) (sig : Int) : ∀ (l : List (Option Nat)) (s : List Call) (n : Nat),
    killsIn (callAll (fun (s : List Call) o => match o with
      | none => (s, 1)
      | some i => if !E.running i then (s, 1) else (s ++ [.kill i sig], if E.killFails i then 1 else 0)) (s, n) l).1 =
      killsIn s ++ ((l.filterMap id).filter fun i => E.running i).map (fun i => (i, sig)) ∧
    ((callAll (fun (s : List Call) o => match o with
      | none => (s, 1)
      | some i => if !E.running i then (s, 1) else (s ++ [.kill i sig], if E.killFails i then 1 else 0)) (s, n) l).2 = 0 ↔
      n = 0 ∧ none ∉ l ∧ ∀ i, some i ∈ l → E.running i = true ∧ E.killFails i = false)
  | [], s, n => by simp [callAll]
  | none :: l, s, n => by
    have ih := callAll_kills E sig l s (n + 1)
    rw [callAll]
    refine ⟨by simpa using ih.1, ih.2.trans ?_⟩
    simp
  | some i :: l, s, n => by
    rw [callAll]
    dsimp only
    by_cases hr : E.running i = true
    · simp only [hr, Bool.not_true, Bool.false_eq_true, if_false]
      have ih := callAll_kills E sig l (s ++ [.kill i sig]) (n + if E.killFails i then 1 else 0)
      refine ⟨?_, ih.2.trans ?_⟩
      · rw [ih.1, killsIn_append, List.append_assoc]
        simp [killsIn, hr]
      · by_cases hk : E.killFails i = true
        · simp only [hk, if_true, List.mem_cons, reduceCtorEq, false_or, Option.some.injEq]
          constructor
          · rintro ⟨h, _⟩; simp at h
          · rintro ⟨_, _, h⟩; have := (h i (.inl rfl)).2; rw [hk] at this; cases this
        · have hk : E.killFails i = false := by simpa using hk
          simp only [hk, Bool.false_eq_true, if_false, Nat.add_zero, List.mem_cons, reduceCtorEq, false_or, Option.some.injEq]
          constructor
          · rintro ⟨h1, h2, h3⟩
            refine ⟨h1, h2, fun j hj => ?_⟩
            rcases hj with rfl | hj
            · exact ⟨hr, hk⟩
            · exact h3 j hj
          · rintro ⟨h1, h2, h3⟩
            exact ⟨h1, h2, fun j hj => h3 j (.inr hj)⟩
    · have hr' : E.running i = false := by simpa using hr
      simp only [hr', Bool.not_false, if_true]
      have ih := callAll_kills E sig l s (n + 1)
      refine ⟨by simpa [hr'] using ih.1, ih.2.trans ?_⟩
      simp only [Nat.add_eq_zero_iff, Nat.one_ne_zero, and_false, false_and, List.mem_cons, reduceCtorEq, false_or,
        Option.some.injEq, false_iff, not_and]
      intro _ _ h
      have := (h i (.inl rfl)).1
      rw [hr'] at this
      cases this

/-- `initctl signal ARG SIG` sends the signal to the services that the argument means and that run, in order, and to no
    other; it exits with 0 exactly if each word of the argument means some service, `SIG` is a signal, and all these
    services run and could be signalled (or if a word means none, and `-n` is given).  This holds in every runlevel. -/
theorem C75_signal_partial (E : ApiEnv) (st : ApiSt) (p : Int) (noerr : Bool) (signo : CStr → Option Int) (arg sig : CStr)
    (hg : GoodArg arg) :
    (∀ n, AllKnown E.list arg → signo sig = some n → sig2str n ≠ [] →
      ∃ is, AskedFor E.list [arg] is ∧
        killsIn (cliSignal E st p noerr signo [arg, sig]).1 = (is.filter fun i => E.running i).map (fun i => (i, n)) ∧
        ((cliSignal E st p noerr signo [arg, sig]).2 = 0 ↔ ∀ i ∈ is, E.running i = true ∧ E.killFails i = false)) ∧
    (¬ AllKnown E.list arg ∨ (∀ n, signo sig = some n → sig2str n = []) →
      killsIn (cliSignal E st p noerr signo [arg, sig]).1 = [] ∧
      ((cliSignal E st p noerr signo [arg, sig]).2 = 0 ↔ ¬ AllKnown E.list arg ∧ noerr = true)) := by
  obtain ⟨q1, _, q3⟩ := query_send E st p hg
  have hs : ∀ n, apiRequest E st p { cmd := 133, runlevel := n, data := cliData arg } =
      (dbgData st (cliData arg) ++ (answerJobs { cmd := 133, runlevel := n, data := cliData arg }
        (doSignal E (strterm (cliData arg)) n)).1,
       (answerJobs { cmd := 133, runlevel := n, data := cliData arg } (doSignal E (strterm (cliData arg)) n)).2) := by
    intro n
    unfold apiRequest
    rw [if_neg (by simp)]
    simp only [gatedCmd]
    rw [if_neg (by simp)]
    rfl
  constructor
  · intro n hk hn hsig
    obtain ⟨calls, h1, h2⟩ := C26_each_once_partial E.list arg (368 - arg.length) hg.nul hg.words
    have hno : none ∉ calls.flatten := by
      intro hno
      obtain ⟨ys, hy, ho⟩ := List.mem_flatten.mp hno
      obtain ⟨tok, ht, hh⟩ := forall₂_of_mem_right h1 ys hy
      by_cases hcol : ':' ∈ tok
      · obtain ⟨o, rfl, h4, _⟩ := hh.2 hcol
        obtain ⟨e, he, hden⟩ := hk tok ht
        exact h4 (List.mem_singleton.mp ho).symm e he hden
      · obtain ⟨is, rfl, _⟩ := hh.1 hcol
        obtain ⟨i, _, h⟩ := List.mem_map.mp ho
        cases h
    refine ⟨calls.flatten.filterMap id, ⟨calls, by simpa using h1, rfl⟩, ?_⟩
    have hcs := callAll_kills E n calls.flatten [.read (strterm (cliData arg))] 0
    have hds : doSignal E (strterm (cliData arg)) n = some (callAll (fun (s : List Call) o => match o with
      | none => (s, 1)
      | some i => if !E.running i then (s, 1) else (s ++ [.kill i n], if E.killFails i then 1 else 0))
        ([.read (strterm (cliData arg))], 0) calls.flatten) := by
      unfold doSignal
      rw [if_neg hsig, ← h2]
      congr 1
      rw [cliData_eq hg.short, strterm_padded hg.short]
    have key : cliSignal E st p noerr signo [arg, sig] =
        ((apiRequest E st p { cmd := 130, data := cliData arg }).1 ++
          (apiRequest E st p { cmd := 133, runlevel := n, data := cliData arg }).1,
         cliRc (apiRequest E st p { cmd := 133, runlevel := n, data := cliData arg }).2) := by
      unfold cliSignal
      dsimp only
      rw [if_neg (by simpa using q1.mpr hk), hn]
    rw [key]
    dsimp only
    rw [killsIn_append, q3, List.nil_append, hs n, hds]
    generalize callAll _ _ calls.flatten = r at hcs
    obtain ⟨cs, k⟩ := r
    simp only [answerJobs] at hcs ⊢
    rw [killsIn_append, killsIn_dbg, List.nil_append, hcs.1]
    refine ⟨by simp [killsIn], ?_⟩
    have : cliRc (answer { cmd := 133, runlevel := n, data := cliData arg } k) = 0 ↔ k = 0 := by
      unfold answer
      by_cases h : k = 0
      · rw [if_neg (by simpa using h)]; simp [cliRc, h]
      · rw [if_pos h]; simp [cliRc, h]
    rw [this, hcs.2]
    constructor
    · rintro ⟨_, _, h⟩ i hi
      refine h i ?_
      obtain ⟨o, ho, e⟩ := List.mem_filterMap.mp hi
      cases o with
      | none => cases e
      | some j => cases e; exact ho
    · intro h
      exact ⟨trivial, hno, fun i hi => h i (List.mem_filterMap.mpr ⟨some i, hi, rfl⟩)⟩
  · intro h
    unfold cliSignal
    dsimp only
    by_cases hk : AllKnown E.list arg
    · rw [if_neg (by simpa using q1.mpr hk)]
      have h := h.resolve_left (fun h => h hk)
      cases hsg : signo sig with
      | none => exact ⟨q3, by simp [hk]⟩
      | some n =>
        have hz := h n hsg
        have hds : doSignal E (strterm (cliData arg)) n = some ([], 1) := by
          unfold doSignal
          rw [if_pos hz]
        dsimp only
        rw [hs n, hds]
        refine ⟨by rw [killsIn_append, q3]; simp only [answerJobs]; rw [killsIn_append, killsIn_dbg]; rfl, ?_⟩
        simp [answerJobs, answer, cliRc, hk]
    · rw [if_pos (by rw [ne_eq, q1]; exact hk)]
      exact ⟨q3, by cases noerr <;> simp [hk]⟩

/-! ## Status -/

theorem sorted_ext : ∀ {a b : List Nat}, a.Pairwise (· < ·) → b.Pairwise (· < ·) → (∀ i, i ∈ a ↔ i ∈ b) → a = b
  | [], [], _, _, _ => rfl
  | [], y :: _, _, _, h => by have := (h y).mpr List.mem_cons_self; cases this
  | x :: _, [], _, _, h => by have := (h x).mp List.mem_cons_self; cases this
  | x :: a, y :: b, ha, hb, h => by
    rw [List.pairwise_cons] at ha hb
    have hxy : x = y := by
      rcases List.mem_cons.mp ((h x).mp List.mem_cons_self) with e | h1
      · exact e
      · rcases List.mem_cons.mp ((h y).mpr List.mem_cons_self) with e | h2
        · exact e.symm
        · have := hb.1 x h1; have := ha.1 y h2; omega
    subst hxy
    rw [sorted_ext ha.2 hb.2 fun i => ⟨fun hi => ?_, fun hi => ?_⟩]
    · rcases List.mem_cons.mp ((h i).mp (List.mem_cons_of_mem _ hi)) with rfl | h1
      · have := ha.1 i hi; omega
      · exact h1
    · rcases List.mem_cons.mp ((h i).mpr (List.mem_cons_of_mem _ hi)) with rfl | h1
      · have := hb.1 i hi; omega
      · exact h1

theorem sentIn_find (E : ApiEnv) (st : ApiSt) (p : Int) {arg : CStr} (h1 : '\x00' ∉ arg) (h2 : arg.length < 368) :
    sentIn (apiRequest E st p { cmd := 131, data := cliData arg }).1 = firstOf (jobAct E.list arg) := by
  have key : apiRequest E st p { cmd := 131, data := cliData arg } =
      (dbgData st (cliData arg) ++ [.read (strterm (cliData arg)), .send (doFind E (strterm (cliData arg)))], .svc) := by
    unfold apiRequest
    rw [if_neg (by simp)]
    simp only [gatedCmd]
    rw [if_neg (by simp)]
    rfl
  rw [key, cliData_eq h2, strterm_padded h2, doFind_eq E h1 (by omega)]
  unfold dbgData
  split <;> rfl

theorem find_first (l : List Ent) {arg : CStr} (hp : ProperTok arg) {is : List Nat} (hm : Meant l arg is) :
    firstOf (jobAct l arg) = is.head? := by
  have hfirst : ∃ q : Ent → Bool, firstOf (jobAct l arg) = l.findIdx? q ∧ ∀ e, q e = true ↔ Denotes e arg := by
    rcases jobAct_ok l arg hp with ⟨_, q, h1, h2⟩ | ⟨_, q, h1, h2⟩
    · exact ⟨q, by rw [h1]; exact positions_head .., h2⟩
    · exact ⟨q, by rw [h1]; rfl, h2⟩
  obtain ⟨q, h1, h2⟩ := hfirst
  rw [h1, ← positions_head]
  congr 1
  refine sorted_ext (positions_sorted q l) hm.1 fun i => ?_
  rw [mem_positions, hm.2]
  exact exists_congr fun e => and_congr_right fun _ => h2 e

theorem compare_denotes {e : Ent} {arg : CStr} (h1 : e.name.length < 64) (h2 : e.id.length < 65) (h3 : ':' ∉ e.name)
    (hd : ∀ c ∈ arg.head?, isDigit c = false) (hl : arg.getLast? ≠ some ':') : svcCompare e arg = true ↔ Denotes e arg := by
  unfold svcCompare
  rw [svcIdent_short h1 h2]
  simp only [decide_eq_true_eq, List.contains_iff_mem]
  have nojob : ∀ s, Decimal s e.job → arg ≠ s ∧ arg ≠ s ++ ':' :: e.id := by
    intro s hs
    obtain ⟨c, t, rfl, hc⟩ := hs.head
    constructor <;> rintro rfl <;> (have := hd c rfl; rw [hc] at this; cases this)
  have hcut : (if e.id = [] then e.name else e.name ++ ':' :: e.id).takeWhile (fun c => decide (c ≠ ':')) = e.name := by
    split
    · exact (cutAt_none h3).1
    · exact (cutAt_mem h3 _).1
  by_cases hc : ':' ∈ arg
  · rw [if_pos hc]
    constructor
    · intro h
      split at h
      · rw [← h] at hc; exact absurd hc h3
      · rw [← h]
        refine .nameId h3 ?_
        intro c hc'
        cases hn : e.name with
        | nil => rw [hn] at hc'; cases hc'
        | cons d t => rw [hn] at hc' h; exact hd c (by rw [← h]; exact hc')
    · intro h
      cases h with
      | name => exact absurd hc h3
      | nameId =>
        rw [if_neg]
        intro h0
        rw [h0] at hl
        simp at hl
      | job h => exact absurd rfl (nojob _ h).1
      | jobId h => exact absurd rfl (nojob _ h).2
  · rw [if_neg hc, hcut]
    constructor
    · intro h
      rw [← h]
      refine .name h3 ?_
      intro c hc'
      exact hd c (by rw [← h]; exact hc')
    · intro h
      cases h with
      | name => rfl
      | nameId => simp at hc
      | job h => exact absurd rfl (nojob _ h).1
      | jobId h => exact absurd rfl (nojob _ h).2

/-- The names and ids of registered services: no colon in a name, and neither cut short (see C25). -/
def PlainNames (l : List Ent) : Prop := ∀ e ∈ l, e.name.length < 64 ∧ e.id.length < 65 ∧ ':' ∉ e.name

/-- `initctl status NAME`, with or without an id.  If the argument means no service, nothing is shown and the exit
    status is 69, or 0 with `-n`.  If it means one, that one is shown and the exit status is 0; with `-q` nothing is shown
    and the exit status tells whether the service runs, and of a run or task, whether it was started.  If it means several,
    exactly these are listed, and the exit status is 0, with `-q` too. -/
theorem C75_status_partial (E : ApiEnv) (st : ApiSt) (p : Int) (svc : Nat → CliSvc) (noerr quiet : Bool) (arg : CStr)
    (is : List Nat) (hl : PlainNames E.list) (h1 : '\x00' ∉ arg) (h2 : arg.length < 368) (hp : ProperTok arg)
    (hd : ∀ c ∈ arg.head?, isDigit c = false) (hc : arg.getLast? ≠ some ':') (hm : Meant E.list arg is) :
    (is = [] → cliStatusArg E st p svc noerr quiet arg = (.nothing, .exit (if noerr then 0 else 69))) ∧
    (∀ i, is = [i] → quiet = false → cliStatusArg E st p svc noerr quiet arg = (.detail i, .rc 0)) ∧
    (∀ i, is = [i] → quiet = true → ∃ n, cliStatusArg E st p svc noerr quiet arg = (.nothing, .rc n) ∧
      (n = 0 ↔ if (svc i).runtask then (svc i).started = true else (svc i).running = true)) ∧
    (2 ≤ is.length → cliStatusArg E st p svc noerr quiet arg = (.table is, .rc 0)) := by
  have hpos : positions (fun e => svcCompare e arg) E.list = is := by
    refine sorted_ext (positions_sorted _ _) hm.1 fun i => ?_
    rw [mem_positions, hm.2]
    refine exists_congr fun e => and_congr_right fun he => ?_
    obtain ⟨a, b, c⟩ := hl e (List.mem_of_getElem? he)
    exact compare_denotes a b c hd hc
  unfold cliStatusArg
  rw [hpos, sentIn_find E st p h1 h2, find_first E.list hp hm]
  refine ⟨?_, ?_, ?_, ?_⟩
  · rintro rfl
    rfl
  · rintro i rfl hq
    rw [hq]
    rfl
  · rintro i rfl hq
    rw [hq]
    simp only [List.length_singleton, Nat.lt_irrefl, if_false, List.head?_cons, if_true]
    by_cases hr : (svc i).runtask = true
    · simp only [hr, if_true]
      exact ⟨_, rfl, by cases (svc i).started <;> decide⟩
    · simp only [hr]
      exact ⟨_, rfl, by cases (svc i).running <;> simp⟩
  · intro h
    rw [if_pos (by omega)]

/-- `initctl status JOB`: if no service has that number as its name, the first service of the job is shown; if there is
    none, nothing is shown, and the exit status is 69, or 0 with `-n`. -/
theorem C75_status_job_partial (E : ApiEnv) (st : ApiSt) (p : Int) (svc : Nat → CliSvc) (noerr : Bool) (arg : CStr) (v : Nat)
    (is : List Nat) (hl : PlainNames E.list) (h2 : arg.length < 368) (hv : v ≤ 2147483647) (hdec : Decimal arg v)
    (hn : ∀ e ∈ E.list, e.name ≠ arg) (hm : is.Pairwise (· < ·) ∧ ∀ i, i ∈ is ↔ ∃ e, E.list[i]? = some e ∧ e.job = v) :
    cliStatusArg E st p svc noerr false arg =
      match is with
      | [] => (.nothing, .exit (if noerr then 0 else 69))
      | i :: _ => (.detail i, .rc 0) := by
  have hdig := hdec.digits.1
  have hnc : ':' ∉ arg := fun h => by have := hdig _ h; revert this; decide
  have hnul : '\x00' ∉ arg := fun h => by have := hdig _ h; revert this; decide
  have hpos : positions (fun e => svcCompare e arg) E.list = [] := by
    rw [List.eq_nil_iff_forall_not_mem]
    intro i hi
    obtain ⟨e, he, hc⟩ := (mem_positions _ _ _).mp hi
    have hmem := List.mem_of_getElem? he
    obtain ⟨a, b, c⟩ := hl e hmem
    unfold svcCompare at hc
    rw [svcIdent_short a b] at hc
    simp only [decide_eq_true_eq, List.contains_iff_mem] at hc
    rw [if_neg hnc] at hc
    refine hn e hmem (Eq.trans ?_ hc)
    split
    · exact (cutAt_none c).1.symm
    · exact (cutAt_mem c _).1.symm
  have hmeant : Meant E.list arg is := by
    refine ⟨hm.1, fun i => ?_⟩
    rw [hm.2]
    refine exists_congr fun e => and_congr_right fun he => ⟨fun h => .job (h ▸ hdec), fun h => ?_⟩
    have hne := hn e (List.mem_of_getElem? he)
    cases h with
    | name => exact absurd rfl hne
    | nameId => simp at hnc
    | job h => exact (h.digits.2).symm.trans hdec.digits.2
    | jobId h => simp at hnc
  unfold cliStatusArg
  rw [hpos, sentIn_find E st p hnul h2, find_first E.list ⟨arg, hnc, .inl rfl, .inl ⟨v, hv, hdec⟩⟩ hmeant]
  cases is <;> rfl

/-- `initctl ident` prints every identity; `initctl ident NAME` prints exactly the identities of the services with that
    name, in whatever case it is written.  Asked of it: none of the services has a name that is only the beginning of
    `NAME`. -/
theorem C75_ident_partial (l : List Ent) (hl : PlainNames l) :
    cliIdent l none = List.range l.length ∧
    ∀ arg : CStr, arg ≠ [] → (∀ e ∈ l, e.name.length < arg.length → lower (arg.take e.name.length) ≠ lower e.name) →
      ∀ i, i ∈ cliIdent l (some arg) ↔ ∃ e, l[i]? = some e ∧ lower e.name = lower arg := by
  constructor
  · unfold cliIdent positions
    refine List.filter_eq_self.mpr fun i hi => ?_
    rw [List.mem_range] at hi
    rw [List.getElem?_eq_getElem hi]
    rfl
  · intro arg hne hpre i
    unfold cliIdent
    rw [mem_positions]
    refine exists_congr fun e => and_congr_right fun he => ?_
    have hmem := List.mem_of_getElem? he
    obtain ⟨a, b, c⟩ := hl e hmem
    have hcut : (svcIdent e).takeWhile (fun c => decide (c ≠ ':')) = e.name := by
      rw [svcIdent_short a b]
      split
      · exact (cutAt_none c).1
      · exact (cutAt_mem c _).1
    simp only [Option.getD_some, hne, decide_false, Bool.false_or, hcut, caseEq, decide_eq_true_eq]
    have len : ∀ s : CStr, (lower s).length = s.length := fun s => List.length_map ..
    constructor
    · intro h
      by_cases hlt : e.name.length < arg.length
      · exact absurd h.symm (hpre e hmem hlt)
      · rw [List.take_of_length_le (by omega)] at h; exact h
    · intro h
      have : e.name.length = arg.length := by rw [← len e.name, h, len]
      rw [List.take_of_length_le (by omega)]; exact h

/-! ## Where the promise does not hold, and examples -/

theorem good_ssh : GoodArg "ssh".toList :=
  ⟨by decide, by decide, by decide, by
    have : tokens isSpace "ssh".toList = ["ssh".toList] := by decide +kernel
    rw [this]
    intro tok h
    rw [List.mem_singleton.mp h]
    exact ⟨"ssh".toList, by decide, .inl rfl, .inr ⟨by simp [isDigit], by decide, 's', by decide, by decide⟩⟩⟩

theorem good_nosuch : GoodArg "nosuch".toList :=
  ⟨by decide, by decide, by decide, by
    have : tokens isSpace "nosuch".toList = ["nosuch".toList] := by decide +kernel
    rw [this]
    intro tok h
    rw [List.mem_singleton.mp h]
    exact ⟨"nosuch".toList, by decide, .inl rfl, .inr ⟨by simp [isDigit], by decide, 's', by decide, by decide⟩⟩⟩

/-- Two instances of `ssh`, `dns`, and `3proxy`. -/
def cliEnv : ApiEnv :=
  { list := sampleReg ++ [⟨"3proxy".toList, [], [], 4, false, []⟩, ⟨"sshd".toList, [], [], 3, false, []⟩]
    running := fun i => i = 0, killFails := fun _ => false, suspendFails := false, byPid := fun _ => none
    byCond := fun _ => none, iter := none }

def cliDown (_ : Nat) : CliSvc := ⟨false, false, false⟩

/-- With `-n` an argument that means no service ends the program with exit status 0 before the arguments after it are
    seen to: here no service is started, though `ssh` is known. -/
theorem C75_stops_early (a : SvcAct) :
    (cliJobs cliEnv { runlevel := 2 } 1 true a ["nosuch".toList, "ssh".toList]).2 = 0 ∧
    actsIn (cliJobs cliEnv { runlevel := 2 } 1 true a ["nosuch".toList, "ssh".toList]).1 = [] ∧
    (cliJobs cliEnv { runlevel := 2 } 1 true a ["ssh".toList, "nosuch".toList]).2 = 0 ∧
    actsIn (cliJobs cliEnv { runlevel := 2 } 1 true a ["ssh".toList, "nosuch".toList]).1 = [(a, 0), (a, 1)] := by
  cases a <;> decide +kernel

/-- `initctl -q status ssh` says that all is well though no instance of `ssh` runs; `initctl status 3proxy` shows
    `sshd`, whose job number is 3; `initctl ident sshd` prints `ssh:1` and `ssh:2` too, and `initctl ident ssh:2` prints
    `ssh:1`. -/
theorem C75_misleading :
    cliStatusArg cliEnv { runlevel := 2 } 1 cliDown false true "ssh".toList = (.table [0, 1], .rc 0) ∧
    cliStatusArg cliEnv { runlevel := 2 } 1 cliDown false false "3proxy".toList = (.detail 4, .rc 0) ∧
    cliIdent cliEnv.list (some "sshd".toList) = [0, 1, 4] ∧
    cliIdent cliEnv.list (some "ssh:2".toList) = [0, 1] := by decide +kernel

theorem C75_full_false : ¬ C75_full := by
  intro h
  have h1 := (h.1 cliEnv { runlevel := 2 } 1 true .start ["nosuch".toList, "ssh".toList] (by simp)
    (by intro arg ha; simp only [List.mem_cons, List.not_mem_nil, or_false] at ha
        rcases ha with rfl | rfl
        · exact good_nosuch
        · exact good_ssh) rfl).1 0 _ "ssh".toList "ssh".toList (by simp) (by decide +kernel) rfl
    (.name (by decide) (by simp [isDigit]))
  rw [(C75_stops_early .start).2.1] at h1
  cases h1

theorem known_ssh : AllKnown cliEnv.list "ssh".toList := by
  have : tokens isSpace "ssh".toList = ["ssh".toList] := by decide +kernel
  intro tok ht
  rw [this] at ht
  rw [List.mem_singleton.mp ht]
  exact ⟨⟨"ssh".toList, "1".toList, [], 1, false, []⟩, by decide, .name (by decide) (by simp [isDigit])⟩

example : actsIn (cliJobs cliEnv { runlevel := 2 } 1 false .restart ["ssh".toList, "dns".toList, "ssh:2".toList]).1 =
    [(.restart, 0), (.restart, 1), (.restart, 2), (.restart, 1)] := by decide +kernel

example : (cliJobs cliEnv { runlevel := 2 } 1 false .stop ["ssh".toList]).2 = 0 :=
  (C75_exit_partial cliEnv { runlevel := 2 } 1 .stop ["ssh".toList] (by simp)
    (fun arg h => by rw [List.mem_singleton.mp h]; exact good_ssh) (by decide)).mpr
    fun arg h => by rw [List.mem_singleton.mp h]; exact known_ssh

example : cliJobs cliEnv { runlevel := 6 } 1 false .reload [] = ([.read (List.replicate 368 '\x00')], 255) := by decide +kernel

example : killsIn (cliSignal cliEnv { runlevel := 6 } 1 false (fun _ => some 15) ["ssh".toList, "TERM".toList]).1 = [(0, 15)] ∧
    (cliSignal cliEnv { runlevel := 6 } 1 false (fun _ => some 15) ["ssh".toList, "TERM".toList]).2 = 255 := by decide +kernel

example : cliStatusArg cliEnv { runlevel := 2 } 1 (fun _ => ⟨true, true, false⟩) false true "dns".toList = (.nothing, .rc 0) := by
  decide +kernel

example : PlainNames cliEnv.list ∧ Meant cliEnv.list "ssh".toList [0, 1] := by
  refine ⟨by unfold PlainNames; decide, by decide, fun i => ?_⟩
  have : ∀ e ∈ cliEnv.list, Denotes e "ssh".toList ↔ e.name = "ssh".toList := by
    intro e he
    obtain ⟨a, b, c⟩ := (by decide : ∀ e ∈ cliEnv.list, e.name.length < 64 ∧ e.id.length < 65 ∧ ':' ∉ e.name) e he
    rw [← compare_denotes a b c (by simp [isDigit]) (by decide)]
    revert e
    decide +kernel
  constructor
  · intro h
    rcases List.mem_cons.mp h with rfl | h
    · exact ⟨_, rfl, .name (by decide) (by simp [isDigit])⟩
    · rw [List.mem_singleton.mp h]
      exact ⟨_, rfl, .name (by decide) (by simp [isDigit])⟩
  · rintro ⟨e, he, hd⟩
    have := (this e (List.mem_of_getElem? he)).mp hd
    have hi : i < 5 := by
      rcases Nat.lt_or_ge i 5 with h | h
      · exact h
      · rw [List.getElem?_eq_none (by simpa [cliEnv, sampleReg] using h)] at he; cases he
    match i, hi with
    | 0, _ => decide
    | 1, _ => decide
    | 2, _ => cases he; revert this; decide
    | 3, _ => cases he; revert this; decide
    | 4, _ => cases he; revert this; decide

end Verif
