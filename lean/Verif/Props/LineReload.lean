import Verif.Props.LineSafe

/-!
# A changed line takes effect as if it were new (C52)
-/

namespace Verif

/-! ## Specification -/

/-- Without the marks that say that something has changed. -/
def Cfg.unmarked (s : Cfg) : Cfg := { s with argsDirty := false, dirty := false }

/-- A service that is configured anew by `line` is what it would be, had it not been known before. -/
def C52_full : Prop :=
  ∀ (E : LineEnv) (type : LType) (file line0 line : CStr) (old s s' : Cfg),
    registerLine E (fun _ _ => none) type file line0 = .ok old →
    registerLine E (fun name id => if name = old.name ∧ id = old.id then some old else none) type file line = .ok s →
    registerLine E (fun _ _ => none) type file line = .ok s' →
    s.unmarked = s'.unmarked

/-- Settings that do not depend on what was known before. -/
structure SameLine (s s' : Cfg) : Prop where
  type : s.type = s'.type
  name : s.name = s'.name
  id : s.id = s'.id
  cmd : s.cmd = s'.cmd
  args : s.args = s'.args
  username : s.username = s'.username
  levels : s.levels = s'.levels
  pre : s.pre.path = s'.pre.path
  post : s.post.path = s'.post.path
  ready : s.ready.path = s'.ready.path
  cleanup : s.cleanup.path = s'.cleanup.path
  reload : s.reload = s'.reload
  stop : s.stop = s'.stop
  notify : s.notify = s'.notify
  file : s.file = s'.file
  conflict : s.conflict = s'.conflict
  ifstmt : s.ifstmt = s'.ifstmt
  manual : s.manual = s'.manual
  nowarn : s.nowarn = s'.nowarn
  respawn : s.respawn = s'.respawn
  restartMax : s.restartMax = s'.restartMax
  oncrash : s.oncrash = s'.oncrash
  cgName : s.cgName = s'.cgName

/-- A script given as a path, or with a time limit from 0 to 3600 seconds. -/
def ScriptOk (a : CStr) : Prop := ',' ∈ a → strtonum (a.takeWhile (· ≠ ',')) 0 3600 ≠ none

/-- Settings that do not depend on it if the line gives them, and gives them right. -/
structure SameGiven (o : Opts) (desc : Option CStr) (s s' : Cfg) : Prop where
  group : (∀ u, o.username = some u → ':' ∈ u) → s.group = s'.group
  sighup : s.type.daemon = true ∨ (∃ c, o.cond = some ('!' :: c)) → s.sighup = s'.sighup
  cond : (∀ c, o.cond = some c → c.length < 192) → s.cond = s'.cond
  sighalt : (∀ a, o.halt = some a → sigNum a ≠ -1) → s.sighalt = s'.sighalt
  killdelay : (∀ a, o.delay = some a → strtonum a 1 300 ≠ none) → s.killdelay = s'.killdelay
  pre : (∀ a, o.delay = some a → strtonum a 1 300 ≠ none) → ∀ a, o.pre = some a → ScriptOk a → s.pre = s'.pre
  post : (∀ a, o.delay = some a → strtonum a 1 300 ≠ none) → ∀ a, o.post = some a → ScriptOk a → s.post = s'.post
  ready : (∀ a, o.delay = some a → strtonum a 1 300 ≠ none) → ∀ a, o.ready = some a → ScriptOk a → s.ready = s'.ready
  cleanup : (∀ a, o.delay = some a → strtonum a 1 300 ≠ none) → ∀ a, o.cleanup = some a → ScriptOk a →
    s.cleanup = s'.cleanup
  desc : desc ≠ none → s.desc = s'.desc
  env : (∀ a, o.env = some a → a.length < 256) → s.env = s'.env
  task : s.type.daemon = false → s.forking = s'.forking ∧ s.restartTmo = s'.restartTmo
  pid : s.type.daemon = true → (∃ p, o.pid = some ("pid:".toList ++ p)) →
    s.pidfile = s'.pidfile ∧ s.forking = s'.forking ∧ s.restartTmo = s'.restartTmo
  cgCfg : (∃ a b, o.cgroup = some (a ++ ':' :: b) ∧ ':' ∉ a ∧ (a = [] ∨ a.head? = some '.') ∧ b.length < 128) →
    s.cgCfg = s'.cgCfg

/-! ## What a line makes of an object -/

def groupOf (E : LineEnv) (o : Opts) (old : CStr) : CStr :=
  match o.username with
  | some u => if ':' ∈ u then strlcpy 16 ((u.dropWhile (· ≠ ':')).drop 1) else old
  | none => strlcpy 16 E.group

def userOf (E : LineEnv) (o : Opts) : CStr :=
  match o.username with
  | some u => if ':' ∈ u then strlcpy 16 (u.takeWhile (· ≠ ':')) else strlcpy 16 u
  | none => strlcpy 16 E.user

theorem lineUser_eq (E : LineEnv) (o : Opts) (s : Cfg) :
    lineUser E o s = { s with username := userOf E o, group := groupOf E o s.group } := by
  unfold lineUser userOf groupOf
  cases o.username with
  | none => rfl
  | some u => dsimp only; split <;> rfl

def sighupOf (type : LType) (a : Option CStr) (old : Bool) : Bool :=
  match a with
  | none => if type.daemon then true else old
  | some a => if a.head? = some '!' then !type.daemon else if type.daemon then true else old

def onceOf (type : LType) (a : Option CStr) (old : Nat) : Nat :=
  match a with
  | none => old
  | some a => if a.head? = some '!' then (if type.daemon then old else 1) else old

def condOf (a : Option CStr) (old : CStr) : CStr :=
  match a with
  | none => []
  | some a =>
    let body := (if decide (a.head? = some '!') then a.drop 1 else a).takeWhile (· ≠ '>')
    if body.length ≥ 192 then old else List.intercalate [','] (tokens isComma body)

theorem lineCond_eq (a : Option CStr) (s : Cfg) :
    lineCond a s = { s with sighup := sighupOf s.type a s.sighup, once := onceOf s.type a s.once, cond := condOf a s.cond } := by
  unfold lineCond sighupOf onceOf condOf
  cases a with
  | none => dsimp only; split <;> rfl
  | some a =>
    dsimp only
    by_cases h1 : a.head? = some '!' <;> by_cases h2 : s.type.daemon = true <;>
      simp only [h1, h2, decide_true, decide_false, if_true, if_false, Bool.not_true, Bool.not_false]
    all_goals
      repeat' split
      all_goals first | rfl | simp_all

/-- The PID file, the flag `forking` and the restart delay. -/
def pidOf (E : LineEnv) (o : Opts) (type : LType) (name pidfile : CStr) : Res (CStr × Bool × Int) :=
  if type.daemon then
    match pidOpt o name with
    | none => .ok (pidfile, o.forking, if o.restartTmo = 0 then (if o.forking then 2000 else 1) else o.restartTmo)
    | some p =>
      let fin (f : CStr) : CStr × Bool × Int :=
        let fk := if f.head? = some '!' then true else o.forking
        (f, fk, if o.restartTmo = 0 then (if fk then 2000 else 1) else o.restartTmo)
      match pidFileParse E.runDir o.forking pidfile p with
      | .ub => .ub
      | .bad => .ok (fin pidfile)
      | .ok f => .ok (fin f)
  else .ok (pidfile, o.forking, o.restartTmo)

theorem linePid_eq {E : LineEnv} {o : Opts} {s t : Cfg} (hf : s.forking = o.forking) (hr : s.restartTmo = o.restartTmo)
    (h : linePid E o s = .ok t) : ∃ x, pidOf E o s.type s.name s.pidfile = .ok x ∧
      t = { s with pidfile := x.1, forking := x.2.1, restartTmo := x.2.2 } := by
  unfold linePid at h
  unfold pidOf
  split at h
  · rename_i hd
    rw [if_pos hd]
    unfold linePidFile at h
    cases hp : pidOpt o s.name with
    | none =>
      rw [hp] at h
      simp only at h
      injection h with h
      refine ⟨_, rfl, ?_⟩
      rw [← h, ← hf, ← hr]
      by_cases h0 : s.restartTmo = 0 <;> simp [h0]
    | some p =>
      rw [hp] at h
      simp only at h
      rw [hf] at h
      dsimp only
      cases hq : pidFileParse E.runDir o.forking s.pidfile p with
      | ub => rw [hq] at h; cases h
      | bad =>
        rw [hq] at h
        simp only at h
        injection h with h
        refine ⟨_, rfl, ?_⟩
        rw [← h, ← hf, ← hr]
        by_cases h0 : s.restartTmo = 0 <;> by_cases h1 : s.pidfile.head? = some '!' <;> simp [h0, h1]
      | ok f =>
        rw [hq] at h
        simp only at h
        injection h with h
        refine ⟨_, rfl, ?_⟩
        rw [← h, ← hf, ← hr]
        by_cases h0 : s.restartTmo = 0 <;> by_cases h1 : f.head? = some '!' <;> simp [h0, h1]
  · rename_i hd
    rw [if_neg hd]
    injection h with h
    refine ⟨_, rfl, ?_⟩
    rw [← h, ← hf, ← hr]

def cgNameOf (E : LineEnv) (o : Opts) : CStr :=
  match o.cgroup with
  | none => strlcpy 16 E.cgroup
  | some a =>
    if a.head? = some '.' then strlcpy 16 ((a.takeWhile (· ≠ ':')).drop 1)
    else if a.head? = some ':' then strlcpy 16 E.cgroup
    else strlcpy 16 (a.drop 1)

def cgCfgOf (o : Opts) (old : CStr) : CStr :=
  match o.cgroup with
  | none => old
  | some a =>
    if a.head? = some '.' then
      if ':' ∈ a then
        if ((a.dropWhile (· ≠ ':')).drop 1).length ≥ 144 then old else strlcpy 128 ((a.dropWhile (· ≠ ':')).drop 1)
      else old
    else if a.head? = some ':' then if (a.drop 1).length ≥ 144 then old else strlcpy 128 (a.drop 1)
    else old

theorem lineGroup_eq (E : LineEnv) (o : Opts) (s : Cfg) : ∃ d,
    lineGroup E o s = { s with cgName := cgNameOf E o, cgCfg := cgCfgOf o s.cgCfg, dirty := d } := by
  refine ⟨(lineGroup E o s).dirty, ?_⟩
  unfold lineGroup cgNameOf cgCfgOf
  cases o.cgroup with
  | none => rfl
  | some a =>
    dsimp only
    unfold parseCgroup
    dsimp only
    by_cases h1 : a.head? = some '.'
    · simp only [h1, if_true]
      by_cases h2 : ':' ∈ a
      · simp only [h2, if_true]
        split <;> rfl
      · simp only [h2, if_false]
    · simp only [h1, if_false]
      by_cases h2 : a.head? = some ':'
      · simp only [h2, if_true]
        split <;> rfl
      · simp only [h2, if_false]

def haltOf (o : Opts) (old : Int) : Int :=
  match o.halt with
  | some a => parseSighalt old a
  | none => 15

def killOf (o : Opts) (old : Int) : Int :=
  match o.delay with
  | some a => parseKilldelay old a
  | none => 3000

def envOf (o : Opts) (old : CStr) : CStr :=
  match o.env with
  | some a => if a.length ≥ 256 then old else a
  | none => []

def descOf (desc : Option CStr) (old : CStr) : CStr :=
  match desc with
  | some d => strlcpy 64 d
  | none => old

/-- All that a line says of an object. -/
theorem lineFill_eq {E : LineEnv} {o : Opts} {desc : Option CStr} {file cmd args : CStr} {s t : Cfg}
    (h : lineFill E o desc file cmd args s = .ok t) :
    ∃ r st l x d ad nt, optScript0 E o.reload = .ok r ∧ optScript0 E o.stop = .ok st ∧ optLog o.log s.log = .ok l ∧
      pidOf E o s.type s.name s.pidfile = .ok x ∧
      nt = (match o.notify with
        | some a => parseNotify a
        | none => E.readiness) ∧
      t = { type := s.type, name := s.name, id := s.id, cmd := s.cmd, args := newArgs cmd args, argsDirty := ad,
            username := userOf E o, group := groupOf E o s.group, levels := parseRunlevels o.runlevels,
            sighup := sighupOf s.type o.cond s.sighup, once := onceOf s.type o.cond s.once, cond := condOf o.cond s.cond,
            sighalt := haltOf o s.sighalt, killdelay := killOf o s.killdelay,
            pre := optScript E (killOf o s.killdelay) o.pre s.pre,
            post := optScript E (killOf o s.killdelay) o.post s.post,
            ready := optScript E (killOf o s.killdelay) o.ready s.ready,
            cleanup := optScript E (killOf o s.killdelay) o.cleanup s.cleanup,
            reload := r, stop := st, log := l, notify := nt, desc := descOf desc s.desc, env := envOf o s.env,
            file := strlcpy 64 file, conflict := strlcpy 64 (o.conflict.getD []),
            ifstmt := strlcpy 130 (o.ifstmt.getD []), manual := o.manual, nowarn := o.nowarn, respawn := o.respawn,
            forking := x.2.1, restartMax := o.restartMax, restartTmo := x.2.2, oncrash := o.oncrash, pidfile := x.1,
            cgName := cgNameOf E o, cgCfg := cgCfgOf o s.cgCfg, dirty := d } := by
  unfold lineFill at h
  dsimp only at h
  rw [lineUser_eq, lineCond_eq] at h
  split at h
  · cases h
  · rename_i y hy
    unfold lineMore at hy
    split at hy
    · rename_i r st l hr hs hl
      injection hy with hy
      subst hy
      split at h
      · cases h
      · rename_i z hz
        obtain ⟨x, hx, ez⟩ := linePid_eq (s := linePlain E o desc file _) rfl rfl hz
        subst ez
        split at h
        · cases h
        · injection h with h
          obtain ⟨d, hd⟩ := lineGroup_eq E o _
          rw [hd] at h
          refine ⟨r, st, l, x, d, t.argsDirty, _, hr, hs, hl, hx, rfl, ?_⟩
          rw [← h]
          rfl
    · cases hy

/-! ## Theorems -/

theorem pidFileSet_some (pre : CStr) (f : Bool) (old old' file : CStr) (n : Bool) :
    pidFileSet pre f old (some file) n = pidFileSet pre f old' (some file) n := by
  simp only [pidFileSet, Option.some_or]

theorem pidFileSet_good (pre : CStr) (f : Bool) (old file : CStr) (n : Bool) :
    pidFileSet pre f old (some file) n ≠ .bad := by
  simp only [pidFileSet, Option.some_or]
  split <;> simp

theorem pidFileParse_given (pre : CStr) (f : Bool) (old old' p : CStr) :
    pidFileParse pre f old ("pid:".toList ++ p) = pidFileParse pre f old' ("pid:".toList ++ p) ∧
    pidFileParse pre f old ("pid:".toList ++ p) ≠ .bad := by
  have hp : "pid:".toList.isPrefixOf ("pid:".toList ++ p) = true := by
    rw [List.isPrefixOf_iff_prefix]; exact List.prefix_append _ _
  have h0 : "pid:".toList ++ p ≠ [] := fun e => by cases e
  simp only [pidFileParse, if_neg h0, hp, if_true]
  constructor
  · repeat' split
    all_goals first | rfl | exact pidFileSet_some _ _ _ _ _ _
  · repeat' split
    all_goals first | exact pidFileSet_good _ _ _ _ _ | simp

theorem pidOf_given {E : LineEnv} {o : Opts} {type : LType} {name a b p : CStr} {x y : CStr × Bool × Int}
    (hd : type.daemon = true) (hp : o.pid = some ("pid:".toList ++ p)) (hx : pidOf E o type name a = .ok x)
    (hy : pidOf E o type name b = .ok y) : x = y := by
  have ho : pidOpt o name = some ("pid:".toList ++ p) := by
    unfold pidOpt; rw [hp]; rfl
  obtain ⟨h1, h2⟩ := pidFileParse_given E.runDir o.forking a b p
  simp only [pidOf, hd, if_true, ho] at hx hy
  rw [← h1] at hy
  cases hq : pidFileParse E.runDir o.forking a ("pid:".toList ++ p) with
  | bad => exact absurd hq h2
  | ub => rw [hq] at hx; cases hx
  | ok f =>
    rw [hq] at hx hy
    injection hx with hx
    injection hy with hy
    rw [← hx, ← hy]

theorem pidOf_task {E : LineEnv} {o : Opts} {type : LType} {name a : CStr} {x : CStr × Bool × Int}
    (hd : type.daemon = false) (hx : pidOf E o type name a = .ok x) : x = (a, o.forking, o.restartTmo) := by
  simp only [pidOf, hd, Bool.false_eq_true, if_false] at hx
  injection hx with hx
  exact hx.symm

theorem killOf_given {o : Opts} (h : ∀ a, o.delay = some a → strtonum a 1 300 ≠ none) (a b : Int) :
    killOf o a = killOf o b := by
  unfold killOf
  cases hd : o.delay with
  | none => rfl
  | some x =>
    simp only [parseKilldelay]
    cases hs : strtonum x 1 300 with
    | none => exact absurd hs (h x hd)
    | some n => rfl

theorem optScript_path (E : LineEnv) (k k' : Int) (a : Option CStr) (x y : Script) :
    (optScript E k a x).path = (optScript E k' a y).path := by
  unfold optScript
  cases a with
  | none => rfl
  | some a =>
    simp only [parseScript]
    split
    · split <;> rfl
    · rfl

theorem optScript_given {E : LineEnv} {k k' : Int} {o : Option CStr} {a : CStr} (hk : k = k') (ho : o = some a)
    (h : ScriptOk a) (x y : Script) : optScript E k o x = optScript E k' o y := by
  subst hk ho
  simp only [optScript, parseScript]
  split
  · rename_i hc
    cases hs : strtonum (a.takeWhile (· ≠ ',')) 0 3600 with
    | none => exact absurd hs (h hc)
    | some n => rfl
  · rfl

/-- A service that is configured anew by a line is what it would be, had it not been known before: always as far
    as the settings in `SameLine` are concerned, and for those in `SameGiven` if the line gives them. -/
theorem C52_partial (E : LineEnv) (type : LType) (file line : CStr) (o : Opts) (cmd args : CStr)
    (find find' : CStr → CStr → Option Cfg) (old s s' : Cfg) (hp : parseLine line = .ok o cmd args)
    (hf : find (parseName cmd o.name) (o.id.getD []) = some old)
    (hf' : find' (parseName cmd o.name) (o.id.getD []) = none)
    (hname : old.name = (parseName cmd o.name).take 63) (hid : old.id = (o.id.getD []).take 64)
    (h : registerLine E find type file line = .ok s) (h' : registerLine E find' type file line = .ok s') :
    SameLine s s' ∧ SameGiven o (splitDesc line).2 s s' := by
  unfold registerLine at h h'
  rw [hp] at h h'
  dsimp only at h h'
  rw [hf] at h
  rw [hf'] at h'
  split at h
  · rename_i hw
    rw [if_pos hw] at h'
    obtain ⟨r, st, l, x, d, ad, nt, hr, hst, hl, hx, hnt, e⟩ := lineFill_eq h
    obtain ⟨r', st', l', x', d', ad', nt', hr', hst', hl', hx', hnt', e'⟩ := lineFill_eq h'
    have er : r = r' := by rw [hr] at hr'; injection hr'
    have est : st = st' := by rw [hst] at hst'; injection hst'
    have ent : nt = nt' := hnt.trans hnt'.symm
    subst er est ent
    have hn : (lineObj type cmd (parseName cmd o.name) (o.id.getD []) (some old)).name =
        (lineObj type cmd (parseName cmd o.name) (o.id.getD []) none).name := hname
    have hi : (lineObj type cmd (parseName cmd o.name) (o.id.getD []) (some old)).id =
        (lineObj type cmd (parseName cmd o.name) (o.id.getD []) none).id := hid
    generalize hA : lineObj type cmd (parseName cmd o.name) (o.id.getD []) (some old) = A at *
    generalize hB : lineObj type cmd (parseName cmd o.name) (o.id.getD []) none = B at *
    have ht : A.type = B.type := by rw [← hA, ← hB]; rfl
    have hc : A.cmd = B.cmd := by rw [← hA, ← hB]; rfl
    rw [← ht, ← hn] at hx'
    subst e e'
    constructor
    · exact {
        type := ht, name := hn, id := hi, cmd := hc, args := rfl, username := rfl, levels := rfl,
        pre := optScript_path .., post := optScript_path .., ready := optScript_path ..,
        cleanup := optScript_path .., reload := rfl, stop := rfl, notify := rfl, file := rfl, conflict := rfl,
        ifstmt := rfl, manual := rfl, nowarn := rfl, respawn := rfl, restartMax := rfl, oncrash := rfl, cgName := rfl }
    · refine {
        group := ?_, sighup := ?_, cond := ?_, sighalt := ?_, killdelay := fun h => killOf_given h _ _,
        pre := fun h a ho hs => optScript_given (killOf_given h _ _) ho hs _ _,
        post := fun h a ho hs => optScript_given (killOf_given h _ _) ho hs _ _,
        ready := fun h a ho hs => optScript_given (killOf_given h _ _) ho hs _ _,
        cleanup := fun h a ho hs => optScript_given (killOf_given h _ _) ho hs _ _,
        desc := ?_, env := ?_, task := ?_, pid := ?_, cgCfg := ?_ }
      · intro hg
        dsimp only [groupOf]
        cases hu : o.username with
        | none => rfl
        | some u => simp only [if_pos (hg u hu)]
      · dsimp only [sighupOf]
        rw [← ht]
        rintro (hd | ⟨c, hc⟩)
        · simp only [hd]
          cases o.cond <;> rfl
        · rw [hc]; rfl
      · intro hl
        dsimp only [condOf]
        cases hc : o.cond with
        | none => rfl
        | some c =>
          have h0 := hl c hc
          have h1 : ((if decide (c.head? = some '!') then c.drop 1 else c).takeWhile (· ≠ '>')).length ≤ c.length := by
            refine Nat.le_trans (List.takeWhile_sublist _).length_le ?_
            split
            · rw [List.length_drop]; omega
            · exact Nat.le_refl _
          have h2 : ¬ ((if decide (c.head? = some '!') then c.drop 1 else c).takeWhile (· ≠ '>')).length ≥ 192 := by
            omega
          exact (if_neg h2).trans (if_neg h2).symm
      · intro hh
        dsimp only [haltOf]
        cases hs : o.halt with
        | none => rfl
        | some a =>
          simp only [parseSighalt]
          rw [if_neg (hh a hs), if_neg (hh a hs)]
      · intro hd
        dsimp only [descOf]
        cases hx : (splitDesc line).2 with
        | none => exact absurd hx hd
        | some d => rfl
      · intro he
        dsimp only [envOf]
        cases hx : o.env with
        | none => rfl
        | some a =>
          have := he a hx
          simp only
          rw [if_neg (by omega), if_neg (by omega)]
      · intro hd
        rw [pidOf_task hd hx, pidOf_task hd hx']
        exact ⟨rfl, rfl⟩
      · rintro hd ⟨p, hp⟩
        rw [pidOf_given hd hp hx hx']
        exact ⟨rfl, rfl, rfl⟩
      · rintro ⟨a, b, hg, hna, ha, hb⟩
        dsimp only [cgCfgOf]
        rw [hg]
        simp only
        rcases ha with rfl | ha
        · have h1 : ¬ ((([] : CStr) ++ ':' :: b).drop 1).length ≥ 144 := by simp; omega
          exact (if_neg h1).trans (if_neg h1).symm
        · have h1 : (a ++ ':' :: b).head? = some '.' := by
            cases a with
            | nil => cases ha
            | cons c a => exact ha
          have h2 : ':' ∈ a ++ ':' :: b := by simp
          have h3 : ((a ++ ':' :: b).dropWhile (fun x => decide (x ≠ ':'))).drop 1 = b := by
            rw [dropWhile_append_all _ _ _ (fun c hc => by
              rw [decide_eq_true_iff]; rintro rfl; exact hna hc)]
            rfl
          rw [if_pos h1, if_pos h2, h3, if_neg (by omega), if_pos h1, if_pos h2, if_neg (by omega)]
  · cases h

/-- The name of the PID file stays when the option is taken away. -/
theorem C52_pid : ∃ old s s',
    registerLine demoEnv (fun _ _ => none) .service "a.conf".toList "pid:!/run/foo.pid /sbin/foo".toList = .ok old ∧
    registerLine demoEnv (fun name id => if name = old.name ∧ id = old.id then some old else none) .service
      "a.conf".toList "/sbin/foo".toList = .ok s ∧
    registerLine demoEnv (fun _ _ => none) .service "a.conf".toList "/sbin/foo".toList = .ok s' ∧
    s.pidfile = "!/run/foo.pid".toList ∧ s'.pidfile = [] := by
  refine ⟨_, _, _, rfl, rfl, rfl, ?_, ?_⟩ <;> decide +kernel

/-- So does the group when the user is changed. -/
theorem C52_group : ∃ old s s',
    registerLine demoEnv (fun _ _ => none) .service "a.conf".toList "@www:admin /sbin/foo".toList = .ok old ∧
    registerLine demoEnv (fun name id => if name = old.name ∧ id = old.id then some old else none) .service
      "a.conf".toList "@nobody /sbin/foo".toList = .ok s ∧
    registerLine demoEnv (fun _ _ => none) .service "a.conf".toList "@nobody /sbin/foo".toList = .ok s' ∧
    s.group = "admin".toList ∧ s'.group = [] := by
  refine ⟨_, _, _, rfl, rfl, rfl, ?_, ?_⟩ <;> decide +kernel

theorem C52_full_false : ¬ C52_full := by
  intro h
  obtain ⟨old, s, s', h0, h1, h2, e1, e2⟩ := C52_pid
  have := congrArg Cfg.pidfile (h _ _ _ _ _ old s s' h0 h1 h2)
  change s.pidfile = s'.pidfile at this
  rw [e1, e2] at this
  exact absurd this (by decide +kernel)

/-- Hypotheses of `C52_partial` that can be met. -/
example : ∃ old s s',
    registerLine demoEnv (fun _ _ => none) .service "a.conf".toList
      "@www:admin kill:9 pre:/bin/a /sbin/foo -n -- Foo".toList = .ok old ∧
    parseName "/sbin/foo".toList none = "foo".toList ∧ old.name = "foo".toList.take 63 ∧ old.id = ([] : CStr).take 64 ∧
    registerLine demoEnv (fun _ _ => some old) .service "a.conf".toList "kill:5 /sbin/foo".toList = .ok s ∧
    registerLine demoEnv (fun _ _ => none) .service "a.conf".toList "kill:5 /sbin/foo".toList = .ok s' ∧
    old.killdelay = 9000 ∧ s.killdelay = 5000 ∧ s.group = s'.group ∧ s.pre.path = [] := by
  refine ⟨_, _, _, rfl, ?_, ?_, ?_, rfl, rfl, ?_, ?_, ?_, ?_⟩ <;> decide +kernel

end Verif
