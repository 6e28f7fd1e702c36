import Verif.Postscript
import Verif.Props.Util
import Verif.Props.Notify

/-!
# C104: a post script is run as written and told how its service ended
-/

namespace Verif

/-! ## Specification -/

/-- How a process ended: with an exit status, or by a signal, with or without a core file -/
inductive PtEnd
  | exited (code : Nat)
  | killed (sig : Nat) (core : Bool)
  deriving DecidableEq, Repr

/-- The status that wait(2) gives for it, and what there is -/
def PtEnd.word : PtEnd → Nat
  | .exited c => c * 256
  | .killed s core => s + (if core then 128 else 0)

def PtEnd.Real : PtEnd → Prop
  | .exited c => c < 256
  | .killed s _ => 1 ≤ s ∧ s ≤ 64

/-- How it ended, in words: which of the two, and the number or the name of the signal -/
def PtEnd.code : PtEnd → CStr
  | .exited _ => "exited".toList
  | .killed _ _ => "signal".toList

def PtEnd.Says (t : CStr) : PtEnd → Prop
  | .exited c => t = Nat.toDigits 10 c
  | .killed n _ => ((n : Int), t) ∈ linuxSignals

/-- The script is told the truth of its service, as in doc/config/service-opts.md:113-126 -/
structure PtTells (s : PtSvc) (e : PtEnd) (env : PtEnv) : Prop where
  name : env "SERVICE_NAME".toList = some s.name
  ident : env "SERVICE_IDENT".toList = some s.ident
  id : env "SERVICE_ID".toList = if s.id = [] then none else some s.id
  kind : env "SERVICE_SCRIPT_TYPE".toList = some "post".toList
  code : env "EXIT_CODE".toList = some (if s.crashing then "crashed".toList else e.code)
  status : ∃ t, env "EXIT_STATUS".toList = some t ∧ e.Says t

/-- The variables that Finit sets -/
def ptNames : List CStr :=
  ["SERVICE_TYPE", "SERVICE_NAME", "SERVICE_ID", "SERVICE_IDENT", "SERVICE_SCRIPT_TYPE", "SERVICE_CONF_DIR", "EXIT_CODE",
   "EXIT_STATUS"].map String.toList

/-- One command, that starts a program -/
structure PtSimple (c : CStr) : Prop where
  any : c ≠ []
  one : ';' ∉ c
  start : c.head? ≠ some ' '
  dot : ¬ ". ".toList <+: c
  exec : ¬ "exec ".toList <+: c

/-- A script of these commands -/
def ptJoin : List CStr → CStr
  | [] => []
  | [c] => c
  | c :: r => c ++ "; ".toList ++ ptJoin r

/-- What is always so: the lengths that `parse_script()` and `parse_env()` allow, src/service.c:1367-1372 and 1472-1477 -/
structure PtOk (s : PtSvc) (cmds : List CStr) : Prop where
  env : s.env.length < 256 ∧ ';' ∉ s.env
  script : (ptJoin cmds).length < 256
  any : cmds ≠ []
  simple : ∀ c ∈ cmds, PtSimple c

/-- C104 as stated: all commands of a post script are run, in their order, and are told how the process of the service ended,
    whatever the environment file says and whatever the environment of Finit has.  It is false. -/
def C104_full : Prop :=
  ∀ (fexist : CStr → Bool) (source : CStr → PtEnv → PtEnv) (s : PtSvc) (cmds : List CStr) (env : PtEnv) (acts more : List PtAct) (e : PtEnd),
    PtOk s cmds → e.Real → (∀ a ∈ more, ∀ st, a ≠ .main st) →
    let fin := ptRun (acts ++ .main e.word :: more) s
    (ptRunPost fexist source fin (ptJoin cmds) env).map Prod.fst = cmds ∧
      ∀ p ∈ ptRunPost fexist source fin (ptJoin cmds) env, PtTells fin e p.2

/-! ## Lemmas -/

theorem ptSet_same (k : String) (v : CStr) (env : PtEnv) : ptSet k v env k.toList = some v := if_pos rfl

theorem ptSet_other {k : String} {v : CStr} {env : PtEnv} {n : CStr} (h : n ≠ k.toList) : ptSet k v env n = env n := if_neg h

theorem ptSplit_append (a b : CStr) (h : ';' ∉ a) : ∀ acc, ptSplit acc (a ++ ';' :: b) = (acc.reverse ++ a) :: ptSplit [] b := by
  induction a with
  | nil => intro acc; simp [ptSplit]
  | cons c r ih =>
    intro acc
    have hc : c ≠ ';' := fun e => h (by simp [e])
    have hr : ';' ∉ r := fun e => h (by simp [e])
    have : ptSplit acc ((c :: r) ++ ';' :: b) = ptSplit (c :: acc) (r ++ ';' :: b) := by
      show ptSplit acc (c :: (r ++ ';' :: b)) = _
      rw [ptSplit]
      exact fun e => hc e
    rw [this, ih hr]
    simp

theorem ptSplit_none (a : CStr) (h : ';' ∉ a) : ∀ acc, ptSplit acc a = [acc.reverse ++ a] := by
  induction a with
  | nil => intro acc; simp [ptSplit]
  | cons c r ih =>
    intro acc
    have hc : c ≠ ';' := fun e => h (by simp [e])
    have hr : ';' ∉ r := fun e => h (by simp [e])
    rw [ptSplit]
    · rw [ih hr]; simp
    · exact fun e => hc e

theorem ptTrim_simple {c : CStr} (h : PtSimple c) : ptTrim c = c ∧ ptTrim (' ' :: c) = c := by
  have h1 : ptTrim c = c := by
    cases c with
    | nil => rfl
    | cons a r =>
      have : a ≠ ' ' := fun e => h.start (by simp [e])
      have hb : (a == ' ') = false := by simpa using this
      unfold ptTrim
      rw [List.dropWhile_cons, if_neg (by rw [hb]; decide)]
  refine ⟨h1, ?_⟩
  have : ptTrim (' ' :: c) = ptTrim c := by simp [ptTrim, List.dropWhile]
  rw [this, h1]

theorem ptShell_simple {c : CStr} (h : PtSimple c) {d : CStr} (hd : ptTrim d = c) (source : CStr → PtEnv → PtEnv) (r : List CStr) (env : PtEnv) :
    ptShell source (d :: r) env = (c, env) :: ptShell source r env := by
  rw [ptShell, hd]
  split
  · exact absurd rfl h.any
  · rename_i f
    exact absurd ⟨f, rfl⟩ h.dot
  · rename_i p
    exact absurd ⟨p, rfl⟩ h.exec
  · rfl

/-- The commands of a script, each after a blank or not -/
theorem ptShell_join (source : CStr → PtEnv → PtEnv) (env : PtEnv) : ∀ (cmds : List CStr) (pre : CStr), (pre = [] ∨ pre = [' ']) → cmds ≠ [] →
    (∀ c ∈ cmds, PtSimple c) → ptShell source (ptSplit [] (pre ++ ptJoin cmds)) env = cmds.map (fun c => (c, env)) := by
  intro cmds
  induction cmds with
  | nil => exact fun _ _ h => absurd rfl h
  | cons c r ih =>
    intro pre hpre _ hs
    have hc := hs c (List.mem_cons_self ..)
    have hpc : ';' ∉ pre ++ c := by
      intro hm
      rcases List.mem_append.mp hm with hm | hm
      · rcases hpre with rfl | rfl
        · cases hm
        · simp at hm
      · exact hc.one hm
    have htr : ptTrim (pre ++ c) = c := by
      rcases hpre with rfl | rfl
      · exact (ptTrim_simple hc).1
      · exact (ptTrim_simple hc).2
    cases r with
    | nil =>
      show ptShell source (ptSplit [] (pre ++ c)) env = _
      rw [ptSplit_none _ hpc]
      show ptShell source [pre ++ c] env = _
      rw [ptShell_simple hc htr]
      rfl
    | cons d r =>
      have : pre ++ ptJoin (c :: d :: r) = (pre ++ c) ++ ';' :: ([' '] ++ ptJoin (d :: r)) := by
        show pre ++ (c ++ [';', ' '] ++ ptJoin (d :: r)) = _
        simp
      rw [this, ptSplit_append _ _ hpc]
      show ptShell source ((pre ++ c) :: ptSplit [] ([' '] ++ ptJoin (d :: r))) env = _
      rw [ptShell_simple hc htr, ih [' '] (Or.inr rfl) (by simp) (fun x hx => hs x (List.mem_cons_of_mem _ hx))]
      rfl

/-- The file that is read before -/
def ptFile (fexist : CStr → Bool) (s : PtSvc) : Option CStr := (ptGetenv s).filter fexist

theorem ptGetenv_le {s : PtSvc} {f : CStr} (h : ptGetenv s = some f) : f.length ≤ s.env.length ∧ (';' ∉ s.env → ';' ∉ f) := by
  unfold ptGetenv at h
  split at h
  · cases h
  · rename_i r e
    cases h
    rw [e]
    exact ⟨by simp, fun hn hm => hn (by simp [hm])⟩
  · rename_i e
    cases h
    exact ⟨Nat.le_refl _, id⟩

theorem ptText_plain {fexist : CStr → Bool} {s : PtSvc} {script : CStr} (hf : ptFile fexist s = none) (hl : script.length < 256) :
    ptText fexist s script = script := by
  have hs : strlcpy 1024 script = script := by
    unfold strlcpy
    exact List.take_of_length_le (by omega)
  unfold ptText
  split
  · rename_i f e
    have : fexist f = false := by
      unfold ptFile at hf
      rw [e] at hf
      cases hx : fexist f
      · rfl
      · rw [Option.filter_some_pos hx] at hf; cases hf
    rw [if_neg (by rw [this]; decide), hs]
  · exact hs

theorem ptText_file {fexist : CStr → Bool} {s : PtSvc} {script f : CStr} (hf : ptFile fexist s = some f) (hl : script.length < 256)
    (he : s.env.length < 256) : ptText fexist s script = ". ".toList ++ f ++ "; exec ".toList ++ script := by
  obtain ⟨h1, h2⟩ := Option.filter_eq_some_iff.mp hf
  have := (ptGetenv_le h1).1
  unfold ptText
  rw [h1]
  try dsimp only
  rw [if_pos h2]
  unfold strlcpy
  apply List.take_of_length_le
  have h3 : (". ".toList).length = 2 := rfl
  have h4 : ("; exec ".toList).length = 7 := rfl
  rw [List.length_append, List.length_append, List.length_append, h3, h4]
  omega

/-- With a file only the first command is run, and with what the file says -/
theorem ptShell_file {source : CStr → PtEnv → PtEnv} {env : PtEnv} {f c : CStr} {r : List CStr} (hf : ';' ∉ f) (hc : PtSimple c) :
    ptShell source (ptSplit [] (". ".toList ++ f ++ "; exec ".toList ++ ptJoin (c :: r))) env = [(c, source f env)] := by
  have h0 : ';' ∉ ". ".toList ++ f := by
    intro hm
    rcases List.mem_append.mp hm with hm | hm
    · revert hm; decide
    · exact hf hm
  have h1 : ". ".toList ++ f ++ "; exec ".toList ++ ptJoin (c :: r) = (". ".toList ++ f) ++ ';' :: (" exec ".toList ++ ptJoin (c :: r)) := by
    show _ ++ (';' :: " exec ".toList) ++ _ = _
    simp
  rw [h1, ptSplit_append _ _ h0]
  show ptShell source ((". ".toList ++ f) :: _) env = _
  rw [ptShell]
  have h2 : ptTrim (". ".toList ++ f) = '.' :: ' ' :: f := rfl
  rw [h2]
  try dsimp only
  have h3 : ';' ∉ " exec ".toList ++ c := by
    intro hm
    rcases List.mem_append.mp hm with hm | hm
    · revert hm; decide
    · exact hc.one hm
  have h4 : ptTrim (" exec ".toList ++ c) = 'e' :: 'x' :: 'e' :: 'c' :: ' ' :: c := rfl
  cases r with
  | nil =>
    show ptShell source (ptSplit [] (" exec ".toList ++ c)) _ = _
    rw [ptSplit_none _ h3]
    show ptShell source [" exec ".toList ++ c] _ = _
    rw [ptShell, h4]
    rfl
  | cons d r =>
    have h5 : " exec ".toList ++ ptJoin (c :: d :: r) = (" exec ".toList ++ c) ++ ';' :: ([' '] ++ ptJoin (d :: r)) := by
      show _ ++ (c ++ [';', ' '] ++ ptJoin (d :: r)) = _
      simp
    rw [h5, ptSplit_append _ _ h3]
    show ptShell source ((" exec ".toList ++ c) :: _) _ = _
    rw [ptShell, h4]
    rfl

theorem ptRun_keeps (acts : List PtAct) : ∀ s : PtSvc, (ptRun acts s).env = s.env ∧ (ptRun acts s).name = s.name ∧ (ptRun acts s).id = s.id ∧
    (ptRun acts s).ident = s.ident ∧ (ptRun acts s).crashing = s.crashing := by
  induction acts with
  | nil => exact fun _ => ⟨rfl, rfl, rfl, rfl, rfl⟩
  | cons a r ih =>
    intro s
    have := ih (ptKeep a s)
    cases a <;> exact this

theorem ptRun_scripts (acts : List PtAct) (h : ∀ a ∈ acts, ∃ st, a = .script st) : ∀ s : PtSvc, ptRun acts s = s := by
  induction acts with
  | nil => exact fun _ => rfl
  | cons a r ih =>
    intro s
    obtain ⟨st, rfl⟩ := h a (List.mem_cons_self ..)
    exact ih (fun b hb => h b (List.mem_cons_of_mem _ hb)) s

theorem ptRun_status (acts more : List PtAct) (w : Nat) (h : ∀ a ∈ more, ∃ st, a = .script st) (s : PtSvc) :
    (ptRun (acts ++ .main w :: more) s).status = w := by
  have : ptRun (acts ++ .main w :: more) s = ptRun more (ptKeep (.main w) (ptRun acts s)) := by
    unfold ptRun
    rw [List.foldl_append]
    rfl
  rw [this, ptRun_scripts more h]
  rfl

theorem ptSig_name {n : Nat} (h1 : 1 ≤ n) (h2 : n ≤ 31) : ((n : Int), sig2str n) ∈ linuxSignals := by
  have : ∀ k : Fin 31, ((((k : Nat) + 1 : Nat) : Int), sig2str (((k : Nat) + 1 : Nat) : Int)) ∈ linuxSignals := by decide +kernel
  have h := this ⟨n - 1, by omega⟩
  have e : n - 1 + 1 = n := by omega
  simp only [e] at h
  exact h

/-- What is set for a post script -/
theorem ptPost_tells {s : PtSvc} {e : PtEnd} {env : PtEnv} (hw : s.status = e.word) (he : e.Real) (h31 : ∀ n core, e = .killed n core → n ≤ 31)
    (hid : s.id = [] → env "SERVICE_ID".toList = none) : PtTells s e (ptPost s (ptCommon s "post" env)) := by
  have other : ∀ n : CStr, n ≠ "EXIT_CODE".toList → n ≠ "EXIT_STATUS".toList → ∀ env : PtEnv, ptPost s env n = env n := by
    intro n h1 h2 env
    unfold ptPost
    try dsimp only
    split
    · rw [ptSet_other h1]
      split
      · rw [ptSet_other h2, ptSet_other h1]
      · split
        · rw [ptSet_other h2, ptSet_other h1]
        · rfl
    · split
      · rw [ptSet_other h2, ptSet_other h1]
      · split
        · rw [ptSet_other h2, ptSet_other h1]
        · rfl
  refine ⟨?_, ?_, ?_, ?_, ?_, ?_⟩
  · rw [other _ (by decide) (by decide)]
    unfold ptCommon
    try dsimp only
    rw [ptSet_other (by decide), ptSet_other (by decide), ptSet_other (by decide)]
    split
    · rw [ptSet_other (by decide), ptSet_same]
    · rw [ptSet_same]
  · rw [other _ (by decide) (by decide)]
    unfold ptCommon
    try dsimp only
    rw [ptSet_other (by decide), ptSet_other (by decide), ptSet_same]
  · rw [other _ (by decide) (by decide)]
    unfold ptCommon
    try dsimp only
    rw [ptSet_other (by decide), ptSet_other (by decide), ptSet_other (by decide)]
    by_cases h : s.id = []
    · rw [if_neg (by simp [h]), if_pos h, ptSet_other (by decide), ptSet_other (by decide)]
      exact hid h
    · rw [if_pos h, if_neg h, ptSet_same]
  · rw [other _ (by decide) (by decide)]
    unfold ptCommon
    try dsimp only
    rw [ptSet_other (by decide), ptSet_same]
  · unfold ptPost
    try dsimp only
    cases s.crashing with
    | true =>
      rw [if_pos rfl, ptSet_same]
      rfl
    | false =>
      rw [if_neg (by decide), hw]
      cases e with
      | exited c =>
        have : ptExited (PtEnd.exited c).word = true := by
          show decide (c * 256 % 128 = 0) = true
          simp; omega
        rw [if_pos this, ptSet_other (by decide), ptSet_same]
        rfl
      | killed n core =>
        have hn := h31 n core rfl
        have hr : 1 ≤ n := he.1
        have hm : (PtEnd.killed n core).word % 128 = n := by
          show (n + if core = true then 128 else 0) % 128 = n
          cases core <;> simp <;> omega
        have h1 : ptExited (PtEnd.killed n core).word = false := by
          unfold ptExited; rw [hm]; simp; omega
        have h2 : ptSignaled (PtEnd.killed n core).word = true := by
          unfold ptSignaled; rw [hm]; simp; omega
        rw [if_neg (by rw [h1]; decide), if_pos h2, ptSet_other (by decide), ptSet_same]
        rfl
  · have hcr : ∀ env : PtEnv, (if s.crashing then ptSet "EXIT_CODE" "crashed".toList env else env) "EXIT_STATUS".toList =
        env "EXIT_STATUS".toList := by
      intro env
      split
      · exact ptSet_other (by decide)
      · rfl
    unfold ptPost
    try dsimp only
    rw [hcr, hw]
    cases e with
    | exited c =>
      have hc : c < 256 := he
      have : ptExited (PtEnd.exited c).word = true := by
        show decide (c * 256 % 128 = 0) = true
        simp; omega
      rw [if_pos this, ptSet_same]
      refine ⟨_, rfl, ?_⟩
      have h1 : ptExitStatus (PtEnd.exited c).word % 256 = c := by
        show c * 256 / 256 % 256 % 256 = c
        omega
      rw [h1]
      show List.take 3 _ = _
      exact List.take_of_length_le (toDigits_length 3 c (by omega) (by omega))
    | killed n core =>
      have hn := h31 n core rfl
      have hr : 1 ≤ n := he.1
      have hm : (PtEnd.killed n core).word % 128 = n := by
        show (n + if core = true then 128 else 0) % 128 = n
        cases core <;> simp <;> omega
      have h1 : ptExited (PtEnd.killed n core).word = false := by
        unfold ptExited; rw [hm]; simp; omega
      have h2 : ptSignaled (PtEnd.killed n core).word = true := by
        unfold ptSignaled; rw [hm]; simp; omega
      rw [if_neg (by rw [h1]; decide), if_pos h2, ptSet_same]
      refine ⟨_, rfl, ?_⟩
      show ((n : Int), sig2str (ptTermSig _)) ∈ linuxSignals
      unfold ptTermSig
      rw [hm]
      exact ptSig_name hr hn

theorem PtTells.of_eq {s : PtSvc} {e : PtEnd} {a b : PtEnv} (h : PtTells s e a) (hb : ∀ v ∈ ptNames, b v = a v) : PtTells s e b := by
  refine ⟨?_, ?_, ?_, ?_, ?_, ?_⟩
  · rw [hb _ (by decide)]; exact h.name
  · rw [hb _ (by decide)]; exact h.ident
  · rw [hb _ (by decide)]; exact h.id
  · rw [hb _ (by decide)]; exact h.kind
  · rw [hb _ (by decide)]; exact h.code
  · rw [hb _ (by decide)]; exact h.status

/-! ## Theorems -/

/-- Missing from the full statement: a script of several commands of a service with an environment file; a file that sets a variable
    that Finit sets; real-time signals; an environment of Finit that has `SERVICE_ID`; and a pre script that ended last. -/
theorem C104_told_partial (fexist : CStr → Bool) (source : CStr → PtEnv → PtEnv) (s : PtSvc) (cmds : List CStr) (env : PtEnv)
    (acts more : List PtAct) (e : PtEnd) (hok : PtOk s cmds) (he : e.Real) (hmore : ∀ a ∈ more, ∃ st, a = .script st)
    (h31 : ∀ n core, e = .killed n core → n ≤ 31) (hid : s.id = [] → env "SERVICE_ID".toList = none)
    (hfile : ∀ f, ptFile fexist s = some f → cmds.length = 1 ∧ ∀ env v, v ∈ ptNames → source f env v = env v) :
    let fin := ptRun (acts ++ .main e.word :: more) s
    (ptRunPost fexist source fin (ptJoin cmds) env).map Prod.fst = cmds ∧
      ∀ p ∈ ptRunPost fexist source fin (ptJoin cmds) env, PtTells fin e p.2 := by
  intro fin
  have hst : fin.status = e.word := ptRun_status acts more e.word hmore s
  obtain ⟨k1, k2, k3, k4, k5⟩ := ptRun_keeps (acts ++ .main e.word :: more) s
  have k1 : fin.env = s.env := k1
  have k3 : fin.id = s.id := k3
  have ht := ptPost_tells (env := env) hst he h31 (fun h => hid (k3 ▸ h))
  have hfe : ptFile fexist fin = ptFile fexist s := by unfold ptFile ptGetenv; rw [k1]
  unfold ptRunPost
  cases hf : ptFile fexist s with
  | none =>
    rw [ptText_plain (hfe.trans hf) hok.script]
    have := ptShell_join source (ptPost fin (ptCommon fin "post" env)) cmds [] (Or.inl rfl) hok.any hok.simple
    rw [List.nil_append] at this
    rw [this]
    refine ⟨by rw [List.map_map]; exact List.map_id'' (fun _ => rfl) _, fun p hp => ?_⟩
    obtain ⟨c, _, rfl⟩ := List.mem_map.mp hp
    exact ht
  | some f =>
    obtain ⟨h1, h2⟩ := hfile f hf
    have hn : ';' ∉ f := (ptGetenv_le (Option.filter_eq_some_iff.mp hf).1).2 hok.env.2
    rw [ptText_file (hfe.trans hf) hok.script (by rw [k1]; exact hok.env.1)]
    match cmds, hok, h1 with
    | [c], hok, _ =>
      rw [ptShell_file hn (hok.simple c (by simp))]
      refine ⟨rfl, fun p hp => ?_⟩
      rw [List.mem_singleton] at hp
      subst hp
      exact ht.of_eq (fun v hv => h2 _ v hv)

/-- All other variables are those of Finit and of the file -/
theorem C104_environment (fexist : CStr → Bool) (source : CStr → PtEnv → PtEnv) (s : PtSvc) (cmds : List CStr) (env : PtEnv)
    (hok : PtOk s cmds) : ∀ p ∈ ptRunPost fexist source s (ptJoin cmds) env, ∃ env0 : PtEnv, (∀ v, v ∉ ptNames → env0 v = env v) ∧
      p.2 = match ptFile fexist s with
        | none => env0
        | some f => source f env0 := by
  have hother : ∀ v, v ∉ ptNames → ptPost s (ptCommon s "post" env) v = env v := by
    intro v hv
    have hne : ∀ k : String, k.toList ∈ ptNames → v ≠ k.toList := fun k hk e => hv (e ▸ hk)
    have h1 := hne "EXIT_CODE" (by decide)
    have h2 := hne "EXIT_STATUS" (by decide)
    have hc : ptCommon s "post" env v = env v := by
      unfold ptCommon
      try dsimp only
      rw [ptSet_other (hne _ (by decide)), ptSet_other (hne _ (by decide)), ptSet_other (hne _ (by decide))]
      split
      · rw [ptSet_other (hne _ (by decide)), ptSet_other (hne _ (by decide)), ptSet_other (hne _ (by decide))]
      · rw [ptSet_other (hne _ (by decide)), ptSet_other (hne _ (by decide))]
    unfold ptPost
    try dsimp only
    split
    · rw [ptSet_other h1]
      split
      · rw [ptSet_other h2, ptSet_other h1, hc]
      · split
        · rw [ptSet_other h2, ptSet_other h1, hc]
        · exact hc
    · split
      · rw [ptSet_other h2, ptSet_other h1, hc]
      · split
        · rw [ptSet_other h2, ptSet_other h1, hc]
        · exact hc
  intro p hp
  unfold ptRunPost at hp
  cases hf : ptFile fexist s with
  | none =>
    rw [ptText_plain hf hok.script] at hp
    have := ptShell_join source (ptPost s (ptCommon s "post" env)) cmds [] (Or.inl rfl) hok.any hok.simple
    rw [List.nil_append] at this
    rw [this] at hp
    obtain ⟨c, _, rfl⟩ := List.mem_map.mp hp
    exact ⟨_, hother, rfl⟩
  | some f =>
    have hn : ';' ∉ f := (ptGetenv_le (Option.filter_eq_some_iff.mp hf).1).2 hok.env.2
    rw [ptText_file hf hok.script hok.env.1] at hp
    match cmds, hok, hp with
    | [], hok, _ => exact absurd rfl hok.any
    | c :: r, hok, hp =>
      rw [ptShell_file hn (hok.simple c (by simp)), List.mem_singleton] at hp
      subst hp
      exact ⟨_, hother, rfl⟩

/-- Of a service with an environment file only the first command of a script is run -/
theorem C104_first (fexist : CStr → Bool) (source : CStr → PtEnv → PtEnv) (s : PtSvc) (c : CStr) (rest : List CStr) (env : PtEnv) (f : CStr)
    (hok : PtOk s (c :: rest)) (hf : ptFile fexist s = some f) :
    (ptRunPost fexist source s (ptJoin (c :: rest)) env).map Prod.fst = [c] := by
  have hn : ';' ∉ f := (ptGetenv_le (Option.filter_eq_some_iff.mp hf).1).2 hok.env.2
  unfold ptRunPost
  rw [ptText_file hf hok.script hok.env.1, ptShell_file hn (hok.simple c (by simp))]
  rfl

/-- A service that was ended by a real-time signal: the script is told `signal`, and no name -/
theorem C104_realtime (s : PtSvc) (n : Nat) (core : Bool) (env : PtEnv) (h : 32 ≤ n ∧ n ≤ 64) (hs : s.status = (PtEnd.killed n core).word) :
    ptPost s env "EXIT_STATUS".toList = some [] := by
  have hm : s.status % 128 = n := by
    rw [hs]
    show (n + if core = true then 128 else 0) % 128 = n
    cases core <;> simp <;> omega
  have h1 : ptExited s.status = false := by unfold ptExited; rw [hm]; simp; omega
  have h2 : ptSignaled s.status = true := by unfold ptSignaled; rw [hm]; simp; omega
  have h3 : sig2str (ptTermSig s.status) = [] := by
    unfold sig2str ptTermSig
    rw [hm, if_pos]
    have : sigTable.length = 32 := by decide +kernel
    right
    rw [this]
    omega
  unfold ptPost
  try dsimp only
  rw [h1, h2, h3]
  cases s.crashing
  · exact ptSet_same "EXIT_STATUS" [] (ptSet "EXIT_CODE" "signal".toList env)
  · exact (ptSet_other (k := "EXIT_CODE") (v := "crashed".toList) (by decide)).trans (ptSet_same "EXIT_STATUS" [] (ptSet "EXIT_CODE" "signal".toList env))

/-- A pre script that failed: the post script is told of it as if the process had ended so -/
theorem C104_pre (s : PtSvc) (acts : List PtAct) (c : Nat) (env : PtEnv) (hc : c < 256) :
    ptPost (ptRun (acts ++ [.pre (c * 256)]) s) env "EXIT_STATUS".toList = some (Nat.toDigits 10 c) := by
  have h0 : (ptRun (acts ++ [.pre (c * 256)]) s).status = c * 256 := by
    unfold ptRun
    rw [List.foldl_append]
    rfl
  have h1 : ptExited (c * 256) = true := by unfold ptExited; simp; omega
  unfold ptPost
  try dsimp only
  rw [h0, if_pos h1]
  have h2 : ptExitStatus (c * 256) % 256 = c := by unfold ptExitStatus; omega
  have h3 : strlcpy 4 (Nat.toDigits 10 c) = Nat.toDigits 10 c := List.take_of_length_le (toDigits_length 3 c (by omega) (by omega))
  rw [h2, h3]
  split
  · rw [ptSet_other (by decide), ptSet_same]
  · rw [ptSet_same]

/-! ## Demonstrations -/

def ptDemo : PtSvc := { name := "foo".toList, id := "1".toList, ident := "foo:1".toList, env := "-/etc/default/foo".toList }

theorem ptDemo_simple : PtSimple "/bin/a".toList ∧ PtSimple "/bin/b x".toList :=
  ⟨⟨by decide, by decide, by decide, by decide, by decide⟩, ⟨by decide, by decide, by decide, by decide, by decide⟩⟩

theorem ptDemo_ok : PtOk ptDemo ["/bin/a".toList, "/bin/b x".toList] :=
  ⟨⟨by decide +kernel, by decide +kernel⟩, by decide +kernel, by simp, by
    intro c hc
    simp only [List.mem_cons, List.not_mem_nil, or_false] at hc
    rcases hc with rfl | rfl
    · exact ptDemo_simple.1
    · exact ptDemo_simple.2⟩

theorem ptDemo_ok1 : PtOk ptDemo ["/bin/b x".toList] :=
  ⟨⟨by decide +kernel, by decide +kernel⟩, by decide +kernel, by simp, by
    intro c hc
    simp only [List.mem_cons, List.not_mem_nil, or_false] at hc
    subst hc
    exact ptDemo_simple.2⟩

example := C104_told_partial (fun _ => false) (fun _ env => env) ptDemo ["/bin/a".toList, "/bin/b x".toList] (fun _ => none)
  [.pre 0] [.script 256] (.killed 15 false) ptDemo_ok ⟨by decide, by decide⟩ (fun a ha => ⟨256, by simpa using ha⟩)
  (fun n core h => by cases h; decide) (fun _ => rfl) (fun f h => by revert h; unfold ptFile; cases ptGetenv ptDemo <;> simp [Option.filter])

example := C104_told_partial (fun _ => true) (fun _ env => ptSet "PORT" "80".toList env) ptDemo ["/bin/b x".toList] (fun _ => none)
  [] [] (.exited 255) ptDemo_ok1 (by decide : 255 < 256) (fun a ha => by cases ha)
  (fun n core h => by cases h) (fun _ => rfl) (fun f _ => ⟨rfl, fun env v hv => ptSet_other (by rintro rfl; revert hv; decide)⟩)

example := C104_environment (fun _ => true) (fun _ env => ptSet "PORT" "80".toList env) ptDemo ["/bin/b x".toList] (fun _ => none) ptDemo_ok1

example := C104_first (fun _ => true) (fun _ env => env) ptDemo "/bin/a".toList ["/bin/b x".toList] (fun _ => none) "/etc/default/foo".toList
  ptDemo_ok (by decide +kernel)

example := C104_realtime { ptDemo with status := 34 } 34 false (fun _ => none) (by decide) rfl

example := C104_pre ptDemo [.main 0] 3 (fun _ => none) (by decide)

theorem C104_full_false : ¬ C104_full := by
  intro h
  have := (h (fun _ => true) (fun _ env => env) ptDemo ["/bin/a".toList, "/bin/b x".toList] (fun _ => none) [] [] (.exited 0) ptDemo_ok
    (by decide : 0 < 256) (fun a ha => by cases ha)).1
  have key := C104_first (fun _ => true) (fun _ env => env) ptDemo "/bin/a".toList ["/bin/b x".toList] (fun _ => none) "/etc/default/foo".toList
    ptDemo_ok (by decide +kernel)
  exact absurd (key.symm.trans this) (by decide +kernel)

end Verif
