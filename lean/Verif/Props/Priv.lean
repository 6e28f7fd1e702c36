import Verif.Priv
import Verif.Props.LineMeaning

/-!
# C81: the user and group a service runs as
-/

namespace Verif

/-! ## Specification -/

/-- A line with options, command and arguments that is used, whatever was known of the service before -/
structure AnyLine (E : LineEnv) (find : CStr → CStr → Option Cfg) (type : LType) (file : CStr) (ws : List CStr)
    (cmd args : CStr) (s : Cfg) : Prop where
  options : ∀ w ∈ ws, IsOption w
  command : cmd ≠ [] ∧ (∀ c ∈ cmd, isBlank c = false ∧ isQuote c = false) ∧ cmd.head? ≠ some ',' ∧ settingOf cmd = none
  noDesc : splitDesc (cmd ++ ' ' :: args) = (cmd ++ ' ' :: args, none)
  noComma : ':' ∈ cmd → (args.dropWhile isBlank).head? ≠ some ','
  noOdd : ∀ w ∈ ws, begins "oncrash:rebootscript" w = false
  result : registerLine E find type file (lineText ws (cmd ++ ' ' :: args)) = .ok s

/-- The last option that begins with `@` is this. -/
def NamesUser (ws : List CStr) (t : CStr) : Prop :=
  ∃ a b, ws = a ++ ('@' :: t) :: b ∧ ∀ w ∈ b, w.head? ≠ some '@'

/-- No option begins with `@`. -/
def NamesNoUser (ws : List CStr) : Prop := ∀ w ∈ ws, w.head? ≠ some '@'

/-- The kernel lets root become anyone, and lets nobody else become someone else. -/
structure PrivKern.Posix (K : PrivKern) : Prop where
  rootUid : ∀ c n, c.uid = 0 → K.uid c n = true
  rootGid : ∀ c n, c.uid = 0 → K.gid c n = true
  otherUid : ∀ c n, c.uid ≠ 0 → K.uid c n = true → n = c.uid
  otherGid : ∀ c n, c.uid ≠ 0 → K.gid c n = true → n = c.gid

/-- The directory of a process that went home: the home directory if it may enter it, or the root directory -/
def AtHome (K : PrivKern) (home : CStr) (c : Cred) : Prop :=
  c.cwd = home ∨ (c.cwd = ['/'] ∧ ∃ d, K.dir { c with cwd := d } home = false)

/-- Full statement of C81 (false of the code, see below): a service with `@user:group` runs as this user and this group,
    or not at all, and one with `@user` runs as this user; and either has no groups of Finit's. -/
def C81_full : Prop :=
  ∀ (E : LineEnv) (find : CStr → CStr → Option Cfg) (type : LType) (file : CStr) (ws : List CStr) (cmd args : CStr)
    (s : Cfg) (A : Accounts) (K : PrivKern) (c : Cred) (u g : CStr),
    AnyLine E find type file ws cmd args s → ':' ∉ u →
    ((NamesUser ws (u ++ ':' :: g) →
        (∃ n h, A.user u = some (n, h) ∧ (serviceFork A K s.username s.group c).uid = n) ∧
        A.group g = some (serviceFork A K s.username s.group c).gid ∧
        (serviceFork A K s.username s.group c).groups = []) ∧
      (NamesUser ws u →
        (∃ n h, A.user u = some (n, h) ∧ (serviceFork A K s.username s.group c).uid = n) ∧
        (serviceFork A K s.username s.group c).groups = []))

/-! ## Proof -/

theorem settingOf_at (t : CStr) : settingOf ('@' :: t) = some .user := by
  unfold settingOf
  rw [show optionTable = ("@", .user) :: optionTable.drop 1 from rfl, List.find?_cons_of_pos]
  · rfl
  · change decide (lower (List.take 1 ('@' :: t)) = ['@']) = true
    rw [List.take_succ_cons, List.take_zero]
    decide

theorem settingOf_user {w : CStr} (h : settingOf w = some .user) : w.head? = some '@' := by
  have h1 := wordAct_cls w
  rw [h] at h1
  unfold settingOf at h
  rw [show optionTable = ("@", .user) :: optionTable.drop 1 from rfl, List.find?_cons] at h
  split at h
  · rename_i e
    exact (take_one (Or.inl rfl)).1 (of_decide_eq_true e)
  · exfalso
    rw [Option.map_eq_some_iff] at h
    obtain ⟨p, hp, e⟩ := h
    have : ∀ p ∈ optionTable.drop 1, p.2 ≠ .user := by decide
    exact this p (List.mem_of_find?_eq_some hp) e

theorem after_skip {ws : List CStr} (h : NamesNoUser ws) (v : OptVal) :
    ws.foldl (fun v w => if settingOf w = some .user then Setting.user.meaning w v else v) v = v := by
  induction ws generalizing v with
  | nil => rfl
  | cons w ws ih =>
    rw [List.foldl_cons, if_neg (fun e => h w (by simp) (settingOf_user e))]
    exact ih (fun x hx => h x (by simp [hx])) v

theorem after_user {ws : List CStr} {t : CStr} (h : NamesUser ws t) : Setting.after .user ws = .text (some t) := by
  obtain ⟨a, b, rfl, hb⟩ := h
  unfold Setting.after
  rw [List.foldl_append, List.foldl_cons, if_pos (settingOf_at t)]
  exact after_skip hb _

theorem after_none {ws : List CStr} (h : NamesNoUser ws) : Setting.after .user ws = .text none := after_skip h _

/-- User and group of a service are those of the line that was used last. -/
theorem AnyLine.names {E : LineEnv} {find : CStr → CStr → Option Cfg} {type : LType} {file : CStr} {ws : List CStr}
    {cmd args : CStr} {s : Cfg} (h : AnyLine E find type file ws cmd args s) :
    ∃ (o : Opts) (name id : CStr), Setting.after .user ws = .text o.username ∧ s.username = userOf E o ∧
      s.group = groupOf E o (lineObj type cmd name id (find name id)).group := by
  obtain ⟨h0, hw, h1, hn⟩ := h.command
  have hr := h.result
  have hu : parseLine (lineText ws (cmd ++ ' ' :: args)) ≠ .ub := by
    intro e
    unfold registerLine at hr
    rw [e] at hr
    cases hr
  obtain ⟨o, ho, hv⟩ := C48_meaning_partial ws cmd args h.options h0 hw h1 hn h.noDesc h.noComma h.noOdd hu
  unfold registerLine at hr
  rw [ho] at hr
  dsimp only at hr
  split at hr
  · obtain ⟨r, st, l, x, d, ad, nt, -, -, -, -, -, e⟩ := lineFill_eq hr
    subst e
    exact ⟨o, _, _, (hv .user).symm, rfl, rfl⟩
  · cases hr

theorem AnyLine.both {E : LineEnv} {find : CStr → CStr → Option Cfg} {type : LType} {file : CStr} {ws : List CStr}
    {cmd args : CStr} {s : Cfg} (h : AnyLine E find type file ws cmd args s) {u g : CStr}
    (hn : NamesUser ws (u ++ ':' :: g)) (hu : ':' ∉ u) : s.username = u.take 15 ∧ s.group = g.take 15 := by
  obtain ⟨o, _, _, ho, e1, e2⟩ := h.names
  rw [after_user hn] at ho
  have ho : some (u ++ ':' :: g) = o.username := OptVal.text.inj ho
  rw [e1, e2]
  unfold userOf groupOf
  rw [← ho]
  simp only
  rw [if_pos (by simp), if_pos (by simp), takeWhile_stop (ne_of_notMem hu) (by decide),
    dropWhile_stop (ne_of_notMem hu) (by decide)]
  exact ⟨rfl, rfl⟩

theorem AnyLine.one {E : LineEnv} {find : CStr → CStr → Option Cfg} {type : LType} {file : CStr} {ws : List CStr}
    {cmd args : CStr} {s : Cfg} (h : AnyLine E find type file ws cmd args s) {u : CStr}
    (hn : NamesUser ws u) (hu : ':' ∉ u) : s.username = u.take 15 ∧
      ((∀ name id, find name id = none) → s.group = []) ∧
      (∀ o, (∀ name id, find name id = some o) → s.group = o.group) := by
  obtain ⟨o, n, i, ho, e1, e2⟩ := h.names
  rw [after_user hn] at ho
  have ho : some u = o.username := OptVal.text.inj ho
  unfold userOf at e1
  unfold groupOf at e2
  rw [← ho] at e1 e2
  simp only at e1 e2
  rw [if_neg hu] at e1 e2
  refine ⟨e1, ?_, ?_⟩
  · intro hf
    rw [e2, hf n i]
    rfl
  · intro x hf
    rw [e2, hf n i]
    rfl

theorem ofInt_small {n : BitVec 32} (h : n.toNat < 2 ^ 31) : n.toInt ≥ 0 ∧ BitVec.ofInt 32 n.toInt = n := by
  refine ⟨?_, BitVec.ofInt_toInt⟩
  rw [BitVec.toInt_eq_toNat_of_lt (by omega)]
  omega

theorem toInt_large {n : BitVec 32} (h : 2 ^ 31 ≤ n.toNat) : ¬ n.toInt ≥ 0 := by
  rw [BitVec.toInt_eq_toNat_cond]
  have := n.isLt
  split <;> omega

theorem goHome_same (K : PrivKern) (home : Option CStr) (c : Cred) :
    (goHome K home c).uid = c.uid ∧ (goHome K home c).gid = c.gid ∧ (goHome K home c).groups = c.groups := by
  unfold goHome
  repeat' split
  all_goals exact ⟨rfl, rfl, rfl⟩

/-! ## Theorems -/

/-- A service with `@user:group` runs as this user and this group, whatever was said of it before, if both are known and
    their names have at most 15 characters; and it begins in the home directory of the user. -/
theorem C81_partial (E : LineEnv) (find : CStr → CStr → Option Cfg) (type : LType) (file : CStr) (ws : List CStr)
    (cmd args : CStr) (s : Cfg) (A : Accounts) (K : PrivKern) (c : Cred) (u g home : CStr) (n m : BitVec 32)
    (h : AnyLine E find type file ws cmd args s) (hn : NamesUser ws (u ++ ':' :: g)) (hu : ':' ∉ u)
    (hul : u.length ≤ 15) (hgl : g.length ≤ 15) (hA : A.user u = some (n, home)) (hG : A.group g = some m)
    (hn31 : n.toNat < 2 ^ 31) (hm31 : m.toNat < 2 ^ 31) (hK : K.Posix) (h0 : c.uid = 0)
    (hroot : ∀ x, K.dir x ['/'] = true) :
    (serviceFork A K s.username s.group c).uid = n ∧ (serviceFork A K s.username s.group c).gid = m ∧
    AtHome K home (serviceFork A K s.username s.group c) := by
  obtain ⟨e1, e2⟩ := h.both hn hu
  rw [e1, e2, List.take_of_length_le hul, List.take_of_length_le hgl]
  unfold serviceFork getUser getGroup
  rw [hA, hG]
  dsimp only
  obtain ⟨i1, i2⟩ := ofInt_small hn31
  obtain ⟨j1, j2⟩ := ofInt_small hm31
  rw [if_pos i1]
  have d1 : dropGroup K m.toInt c = { c with gid := m } := by
    unfold dropGroup
    rw [if_pos j1, j2, if_pos (hK.rootGid c m h0)]
  have d2 : dropUser K n.toInt { c with gid := m } = { c with uid := n, gid := m } := by
    unfold dropUser
    rw [i2, if_pos (hK.rootUid { c with gid := m } n h0)]
  rw [d1, d2]
  obtain ⟨g1, g2, _⟩ := goHome_same K (some home) { c with uid := n, gid := m }
  refine ⟨g1, g2, ?_⟩
  unfold goHome
  dsimp only
  by_cases hd : K.dir { c with uid := n, gid := m } home = true
  · rw [if_pos hd]; exact Or.inl rfl
  · rw [if_neg hd, if_pos (hroot _)]
    exact Or.inr ⟨rfl, c.cwd, by simpa using hd⟩

/-- Without such an option it runs as the user and group Finit runs as. -/
theorem C81_none_partial (E : LineEnv) (find : CStr → CStr → Option Cfg) (type : LType) (file : CStr) (ws : List CStr)
    (cmd args : CStr) (s : Cfg) (A : Accounts) (K : PrivKern) (c : Cred) (home : CStr)
    (h : AnyLine E find type file ws cmd args s) (hn : NamesNoUser ws)
    (hul : E.user.length ≤ 15) (hgl : E.group.length ≤ 15) (hA : A.user E.user = some (c.uid, home))
    (hG : A.group E.group = some c.gid) :
    (serviceFork A K s.username s.group c).uid = c.uid ∧ (serviceFork A K s.username s.group c).gid = c.gid ∧
    (serviceFork A K s.username s.group c).groups = c.groups := by
  obtain ⟨o, _, _, ho, e1, e2⟩ := h.names
  rw [after_none hn] at ho
  have ho : none = o.username := OptVal.text.inj ho
  unfold userOf at e1
  unfold groupOf at e2
  rw [← ho] at e1 e2
  simp only at e1 e2
  rw [e1, e2]
  unfold strlcpy
  rw [List.take_of_length_le (by omega), List.take_of_length_le (by omega)]
  unfold serviceFork getUser getGroup
  rw [hA, hG]
  dsimp only
  have d1 : dropGroup K c.gid.toInt c = c := by
    unfold dropGroup
    rw [BitVec.ofInt_toInt]
    split
    · split <;> rfl
    · rfl
  rw [d1]
  split
  · obtain ⟨g1, g2, g3⟩ := goHome_same K (some home) (dropUser K c.uid.toInt c)
    rw [g1, g2, g3]
    unfold dropUser
    rw [BitVec.ofInt_toInt]
    split <;> exact ⟨rfl, rfl, rfl⟩
  · exact ⟨rfl, rfl, rfl⟩

/-- It never runs as somebody else: its user is that of the name kept, or Finit's. -/
theorem C81_nobody_else (A : Accounts) (K : PrivKern) (name group : CStr) (c : Cred) :
    ((serviceFork A K name group c).uid = c.uid ∨
      ∃ home, A.user name = some ((serviceFork A K name group c).uid, home)) ∧
    ((serviceFork A K name group c).gid = c.gid ∨ A.group group = some (serviceFork A K name group c).gid) := by
  have hg : ∀ c, (dropGroup K (getGroup A group) c).uid = c.uid ∧
      ((dropGroup K (getGroup A group) c).gid = c.gid ∨ A.group group = some (dropGroup K (getGroup A group) c).gid) := by
    intro c
    unfold dropGroup
    split
    · split
      · refine ⟨rfl, Or.inr ?_⟩
        rename_i h _
        unfold getGroup at h ⊢
        cases e : A.group group with
        | none => rw [e] at h; exact absurd h (by decide)
        | some m => dsimp only; rw [BitVec.ofInt_toInt]
      · exact ⟨rfl, Or.inl rfl⟩
    · exact ⟨rfl, Or.inl rfl⟩
  obtain ⟨g1, g2⟩ := hg c
  unfold serviceFork
  dsimp only
  split
  · rename_i h
    obtain ⟨i1, i2, _⟩ := goHome_same K (getUser A name).2 (dropUser K (getUser A name).1 (dropGroup K (getGroup A group) c))
    rw [i1, i2]
    have hd : (dropUser K (getUser A name).1 (dropGroup K (getGroup A group) c)).gid = (dropGroup K (getGroup A group) c).gid := by
      unfold dropUser
      split <;> rfl
    rw [hd]
    refine ⟨?_, g2⟩
    unfold dropUser
    split
    · right
      unfold getUser at h ⊢
      cases e : A.user name with
      | none => rw [e] at h; exact absurd h (by decide)
      | some p =>
        refine ⟨p.2, ?_⟩
        dsimp only
        rw [BitVec.ofInt_toInt]
    · exact Or.inl g1
  · exact ⟨Or.inl g1, g2⟩

/-- A service whose user is not known runs with all of Finit's rights. -/
theorem C81_unknown (E : LineEnv) (find : CStr → CStr → Option Cfg) (type : LType) (file : CStr) (ws : List CStr)
    (cmd args : CStr) (s : Cfg) (A : Accounts) (K : PrivKern) (c : Cred) (u g : CStr)
    (h : AnyLine E find type file ws cmd args s) (hn : NamesUser ws (u ++ ':' :: g)) (hu : ':' ∉ u)
    (hA : A.user (u.take 15) = none) : (serviceFork A K s.username s.group c).uid = c.uid := by
  obtain ⟨e1, _⟩ := h.both hn hu
  rcases (C81_nobody_else A K s.username s.group c).1 with e | ⟨home, e⟩
  · exact e
  · rw [e1, hA] at e; cases e

/-- So does one whose number does not fit in 31 bits. -/
theorem C81_large (A : Accounts) (K : PrivKern) (name group home : CStr) (c : Cred) (n : BitVec 32)
    (hA : A.user name = some (n, home)) (hn : 2 ^ 31 ≤ n.toNat) : (serviceFork A K name group c).uid = c.uid := by
  unfold serviceFork getUser
  rw [hA]
  dsimp only
  rw [if_neg (toInt_large hn)]
  unfold dropGroup
  repeat' split
  all_goals rfl

/-- So does one that may not change, as where Finit has no such capability. -/
theorem C81_refused (A : Accounts) (K : PrivKern) (name group : CStr) (c : Cred) (hu : ∀ x n, K.uid x n = false)
    (hg : ∀ x n, K.gid x n = false) :
    (serviceFork A K name group c).uid = c.uid ∧ (serviceFork A K name group c).gid = c.gid := by
  have d1 : dropGroup K (getGroup A group) c = c := by
    unfold dropGroup
    repeat' split
    · rename_i h; rw [hg] at h; cases h
    · rfl
    · rfl
  have d2 : dropUser K (getUser A name).1 c = c := by
    unfold dropUser
    split
    · rename_i h; rw [hu] at h; cases h
    · rfl
  unfold serviceFork
  dsimp only
  rw [d1]
  split
  · rw [d2]
    obtain ⟨i1, i2, _⟩ := goHome_same K (getUser A name).2 c
    exact ⟨i1, i2⟩
  · exact ⟨rfl, rfl⟩

/-- A new service with `@user` only runs as this user in the group of Finit, not of the user. -/
theorem C81_group (E : LineEnv) (find : CStr → CStr → Option Cfg) (type : LType) (file : CStr) (ws : List CStr)
    (cmd args : CStr) (s : Cfg) (A : Accounts) (K : PrivKern) (c : Cred) (u : CStr)
    (h : AnyLine E find type file ws cmd args s) (hn : NamesUser ws u) (hu : ':' ∉ u)
    (hnew : ∀ name id, find name id = none) (hG : A.group [] = none) :
    (serviceFork A K s.username s.group c).gid = c.gid := by
  obtain ⟨_, e, _⟩ := h.one hn hu
  rcases (C81_nobody_else A K s.username s.group c).2 with e' | e'
  · exact e'
  · rw [e hnew, hG] at e'; cases e'

/-- One that had `@user:group` before a reload stays in this group. -/
theorem C81_stale (E : LineEnv) (find : CStr → CStr → Option Cfg) (type : LType) (file : CStr) (ws : List CStr)
    (cmd args : CStr) (old s : Cfg) (A : Accounts) (K : PrivKern) (c : Cred) (u : CStr) (m : BitVec 32)
    (h : AnyLine E find type file ws cmd args s) (hn : NamesUser ws u) (hu : ':' ∉ u)
    (hold : ∀ name id, find name id = some old) (hG : A.group old.group = some m) (hm31 : m.toNat < 2 ^ 31)
    (hK : K.Posix) (h0 : c.uid = 0) : (serviceFork A K s.username s.group c).gid = m := by
  obtain ⟨_, _, e⟩ := h.one hn hu
  rw [e old hold]
  have d1 : dropGroup K (getGroup A old.group) c = { c with gid := m } := by
    unfold dropGroup getGroup
    rw [hG]
    obtain ⟨j1, j2⟩ := ofInt_small hm31
    dsimp only
    rw [if_pos j1, j2, if_pos (hK.rootGid c m h0)]
  unfold serviceFork
  dsimp only
  rw [d1]
  split
  · rw [(goHome_same K _ _).2.1]
    unfold dropUser
    split <;> rfl
  · rfl

/-- The other groups of Finit are kept in every case. -/
theorem C81_groups (A : Accounts) (K : PrivKern) (name group : CStr) (c : Cred) :
    (serviceFork A K name group c).groups = c.groups := by
  have d1 : (dropGroup K (getGroup A group) c).groups = c.groups := by
    unfold dropGroup
    repeat' split
    all_goals rfl
  unfold serviceFork
  dsimp only
  split
  · rw [(goHome_same K _ _).2.2]
    unfold dropUser
    split <;> exact d1
  · exact d1

/-- A user as systemd has it, whose name has 16 characters -/
def longUser : Accounts :=
  { user := fun u => if u = "root".toList then some (0, "/root".toList)
      else if u = "systemd-timesync".toList then some (997, "/".toList)
      else if u = "www".toList then some (33, "/var/www".toList) else none
    group := fun g => if g = "root".toList then some 0 else if g = "www".toList then some 33 else none }

/-- A kernel that obeys root -/
def plainKern : PrivKern :=
  { uid := fun c n => c.uid == 0 || c.uid == n, gid := fun c n => c.uid == 0 || c.gid == n, dir := fun _ _ => true }

theorem plainKern_posix : plainKern.Posix := by
  constructor
  · intro c n h; simp [plainKern, h]
  · intro c n h; simp [plainKern, h]
  · intro c n h e; simp [plainKern] at e; exact (e.resolve_left h).symm
  · intro c n h e; simp [plainKern] at e; exact (e.resolve_left h).symm

/-- The rights of Finit at boot -/
def initCred : Cred := { uid := 0, gid := 0, groups := [], cwd := "/".toList }

/-- With a name of 16 characters the service runs as root, though the user is there. -/
theorem C81_long : ∃ s, AnyLine demoEnv (fun _ _ => none) .service "a.conf".toList ["@systemd-timesync:www".toList]
      "/sbin/foo".toList [] s ∧
    (longUser.user "systemd-timesync".toList).map (·.1) = some 997 ∧
    (serviceFork longUser plainKern s.username s.group initCred).uid = 0 := by
  refine ⟨_, ⟨by decide +kernel, by decide +kernel, by decide +kernel, by decide +kernel, by decide +kernel, rfl⟩,
    by decide +kernel, ?_⟩
  decide +kernel

theorem C81_full_false : ¬ C81_full := by
  intro h
  obtain ⟨s, hs, hl, hu⟩ := C81_long
  obtain ⟨⟨n, d, e, e'⟩, _⟩ := (h _ _ _ _ _ _ _ s longUser plainKern initCred "systemd-timesync".toList "www".toList hs
    (by decide +kernel)).1 ⟨[], [], by decide +kernel, by simp⟩
  rw [hu] at e'
  rw [e, ← e'] at hl
  have hl : (0 : BitVec 32) = 997 := Option.some.inj hl
  exact absurd hl (by decide)

/-- Hypotheses of `C81_partial` that can be met, for a service that was in another group before. -/
example : ∃ old s, AnyLine demoEnv (fun _ _ => none) .service "a.conf".toList ["@root:root".toList]
      "/sbin/foo".toList [] old ∧
    AnyLine demoEnv (fun _ _ => some old) .service "a.conf".toList
      ["@root:root".toList, "[2345]".toList, "@www:www".toList, "name:w".toList] "/sbin/foo".toList "-n".toList s ∧
    NamesUser ["@root:root".toList, "[2345]".toList, "@www:www".toList, "name:w".toList] ("www".toList ++ ':' :: "www".toList) ∧
    plainKern.Posix ∧ longUser.user "www".toList = some (33, "/var/www".toList) ∧ longUser.group "www".toList = some 33 ∧
    (∀ x, plainKern.dir x ['/'] = true) := by
  refine ⟨_, _, ⟨by decide +kernel, by decide +kernel, by decide +kernel, by decide +kernel, by decide +kernel, rfl⟩,
    ⟨by decide +kernel, by decide +kernel, by decide +kernel, by decide +kernel, by decide +kernel, rfl⟩,
    ⟨["@root:root".toList, "[2345]".toList], ["name:w".toList], by decide +kernel, by decide +kernel⟩,
    plainKern_posix, by decide +kernel, by decide +kernel, fun _ => rfl⟩

/-- Hypotheses of `C81_none_partial` that can be met. -/
example : ∃ s, AnyLine demoEnv (fun _ _ => none) .service "a.conf".toList ["[2345]".toList] "/sbin/foo".toList [] s ∧
    NamesNoUser ["[2345]".toList] ∧ longUser.user demoEnv.user = some (initCred.uid, "/root".toList) ∧
    longUser.group demoEnv.group = some initCred.gid := by
  refine ⟨_, ⟨by decide +kernel, by decide +kernel, by decide +kernel, by decide +kernel, by decide +kernel, rfl⟩,
    (by unfold NamesNoUser; decide +kernel), by decide +kernel, by decide +kernel⟩

/-- Hypotheses of `C81_unknown` that can be met. -/
example : ∃ s, AnyLine demoEnv (fun _ _ => none) .service "a.conf".toList ["@wwww:www".toList] "/sbin/foo".toList [] s ∧
    NamesUser ["@wwww:www".toList] ("wwww".toList ++ ':' :: "www".toList) ∧ longUser.user ("wwww".toList.take 15) = none := by
  refine ⟨_, ⟨by decide +kernel, by decide +kernel, by decide +kernel, by decide +kernel, by decide +kernel, rfl⟩,
    ⟨[], [], by decide +kernel, by simp⟩, by decide +kernel⟩

/-- Hypotheses of `C81_group` and of `C81_stale` that can be met. -/
example : ∃ old s t, AnyLine demoEnv (fun _ _ => none) .service "a.conf".toList ["@root:www".toList]
      "/sbin/foo".toList [] old ∧
    AnyLine demoEnv (fun _ _ => none) .service "a.conf".toList ["@www".toList] "/sbin/foo".toList [] s ∧
    AnyLine demoEnv (fun _ _ => some old) .service "a.conf".toList ["@www".toList] "/sbin/foo".toList [] t ∧
    NamesUser ["@www".toList] "www".toList ∧ longUser.group [] = none ∧ longUser.group old.group = some 33 ∧
    (serviceFork longUser plainKern s.username s.group initCred).gid = 0 ∧
    (serviceFork longUser plainKern t.username t.group initCred).gid = 33 := by
  refine ⟨_, _, _, ⟨by decide +kernel, by decide +kernel, by decide +kernel, by decide +kernel, by decide +kernel, rfl⟩,
    ⟨by decide +kernel, by decide +kernel, by decide +kernel, by decide +kernel, by decide +kernel, rfl⟩,
    ⟨by decide +kernel, by decide +kernel, by decide +kernel, by decide +kernel, by decide +kernel, rfl⟩,
    ⟨[], [], by decide +kernel, by simp⟩, ?_, ?_, ?_, ?_⟩ <;> decide +kernel

/-- Hypotheses of `C81_large` that can be met: the nobody of old systems is -2. -/
example : (serviceFork { user := fun _ => some (BitVec.ofInt 32 (-2), "/".toList), group := fun _ => none } plainKern
    "nobody".toList [] initCred).uid = 0 ∧ 2 ^ 31 ≤ (BitVec.ofInt 32 (-2)).toNat := by decide

end Verif
