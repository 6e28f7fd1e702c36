import Verif.Props.Line
import Verif.Props.LineArgs
import Verif.Props.LineReload
import Verif.Props.Runlevels
import Verif.Props.PidFile

/-!
# What a service line sets (C54)
-/

namespace Verif

/-! ## Specification

`v` gives the value of each option of the line (`Setting.after`, Props/Line.lean), and `fits t n` says that the text
`t` has room in a buffer of `n` bytes. -/

/-- A script that is run before or after the program, as it is given, and its time limit; `kill` is the delay that
    is used otherwise. -/
structure ScriptSays (E : LineEnv) (fits : CStr → Nat → Prop) (v : OptVal) (kill : Int) (t : Script) : Prop where
  absent : v = .text none → t.path = []
  plain : ∀ p, v = .text (some p) → ',' ∉ p → ¬ (p.head?).any isQuote = true → E.which p = true → fits p 256 →
    t = { path := p, tmo := kill }
  missing : ∀ p, v = .text (some p) → ',' ∉ p → ¬ (p.head?).any isQuote = true → E.which p = false → t.path = []
  timed : ∀ n a p, v = .text (some (a ++ ',' :: p)) → Decimal a n → n ≤ 3600 → ¬ (p.head?).any isQuote = true →
    E.which p = true → fits p 256 → t = { path := p, tmo := n * 1000 }

/-- One that has no time limit. -/
structure PathSays (E : LineEnv) (fits : CStr → Nat → Prop) (v : OptVal) (t : CStr) : Prop where
  absent : v = .text none → t = []
  plain : ∀ p, v = .text (some p) → ',' ∉ p → ¬ (p.head?).any isQuote = true → E.which p = true → fits p 256 → t = p
  missing : ∀ p, v = .text (some p) → ',' ∉ p → ¬ (p.head?).any isQuote = true → E.which p = false → t = []

/-- A text that is just kept. -/
def TextSays (fits : CStr → Nat → Prop) (n : Nat) (v : OptVal) (t : CStr) : Prop :=
  (v = .text none → t = []) ∧ ∀ a, v = .text (some a) → fits a n → t = a

/-- Conditions as they are written between `<` (or `<!`) and `>`. -/
def CondList (cs : List CStr) : Prop := ∀ c ∈ cs, c ≠ [] ∧ ',' ∉ c ∧ '>' ∉ c ∧ c.head? ≠ some '!'

/-- The service `s` is what the line says. -/
structure Says (E : LineEnv) (fits : CStr → Nat → Prop) (type : LType) (file : CStr) (v : Setting → OptVal)
    (cmd args : CStr) (s : Cfg) : Prop where
  typeIs : s.type = type
  /-- The program is there; otherwise the line is not used. -/
  present : E.which cmd = true
  cmdIs : fits cmd 256 → s.cmd = cmd
  fileIs : fits file 64 → s.file = file
  /-- The arguments, see C49. -/
  argsAre : ∀ ps t, args = renderArgs ps t → (∀ p ∈ ps, p.2.Good) → ps.length ≤ 62 → cmd.length < 256 →
    s.args = cmd :: ps.map (·.2.text)
  /-- The name is the one given, or the last part of the path. -/
  name : ∀ n, v .name = .text (some n) → fits n 64 → s.name = n
  base : v .name = .text none → ∀ dir b, cmd = dir ++ '/' :: b → dir ≠ [] → '/' ∉ b → fits b 64 → s.name = b
  bare : v .name = .text none → '/' ∉ cmd → fits cmd 64 → s.name = cmd
  id : TextSays fits 65 (v .id) s.id
  /-- Without a description its name is used. -/
  desc : s.desc = s.name
  userGroup : ∀ u g, v .user = .text (some (u ++ ':' :: g)) → ':' ∉ u → fits u 16 → fits g 16 →
    s.username = u ∧ s.group = g
  user : ∀ u, v .user = .text (some u) → ':' ∉ u → fits u 16 → s.username = u ∧ s.group = []
  noUser : v .user = .text none → fits E.user 16 → fits E.group 16 → s.username = E.user ∧ s.group = E.group
  /-- Runlevels, see C01. -/
  levels : ∀ l, v .runlevels = .text (some l) → ':' ∉ listBody l →
    ∀ n, s.levels.getLsbD n = true ↔ Allows (listBody l) n
  noLevels : v .runlevels = .text none → ∀ n, s.levels.getLsbD n = true ↔ AllowsDefault n
  /-- Conditions; `!` says that a daemon does not understand SIGHUP. -/
  cond : ∀ cs, v .cond = .text (some (List.intercalate [','] cs ++ ['>'])) → CondList cs →
    fits (List.intercalate [','] cs) 192 → s.cond = List.intercalate [','] cs ∧ s.sighup = type.daemon
  condBang : ∀ cs, v .cond = .text (some ('!' :: (List.intercalate [','] cs ++ ['>']))) → CondList cs →
    fits (List.intercalate [','] cs) 192 → s.cond = List.intercalate [','] cs ∧ s.sighup = !type.daemon
  noCond : v .cond = .text none → s.cond = [] ∧ s.sighup = type.daemon
  /-- The signal and the delay when it is stopped, see C39. -/
  halt : ∀ a n name, v .halt = .text (some a) → (n, name) ∈ linuxSignals ++ aliases → Spells a name → s.sighalt = n
  noHalt : v .halt = .text none → s.sighalt = 15
  kill : ∀ a n, v .kill = .text (some a) → Decimal a n → DelayOk n → s.killdelay = n * 1000
  noKill : v .kill = .text none → s.killdelay = 3000
  pre : ScriptSays E fits (v .pre) s.killdelay s.pre
  post : ScriptSays E fits (v .post) s.killdelay s.post
  ready : ScriptSays E fits (v .ready) s.killdelay s.ready
  cleanup : ScriptSays E fits (v .cleanup) s.killdelay s.cleanup
  reload : PathSays E fits (v .reload) s.reload
  stop : PathSays E fits (v .stop) s.stop
  notify : s.notify = match v .notify with
    | .text (some a) => if a = "systemd".toList then .systemd else if a = "s6".toList then .s6
      else if a = "pid".toList then .pid else .none
    | _ => E.readiness
  env : TextSays fits 256 (v .env) s.env
  conflict : TextSays fits 64 (v .conflict) s.conflict
  ifstmt : TextSays fits 130 (v .ifstmt) s.ifstmt
  manual : v .manual = .flag s.manual
  nowarn : v .nowarn = .flag s.nowarn
  respawn : v .respawn = .flag s.respawn
  restart : v .restart = .num s.restartMax
  oncrash : v .oncrash = .crash s.oncrash
  /-- Where a daemon has its PID file, see C37, and whether it puts itself in the background. -/
  pid : type.daemon = true → RunDir E.runDir → ∀ n, v .pid = .text (some ("pid:".toList ++ n)) → '/' ∉ n →
    n.head? ≠ some '!' → n.length ≤ 49 →
    s.pidfile = (if v .forking = .flag true then ['!'] else []) ++ E.runDir ++ '/' :: dotPid n ∧
    (s.forking = true ↔ v .forking = .flag true)
  pidBang : type.daemon = true → RunDir E.runDir → ∀ n, v .pid = .text (some ("pid:!".toList ++ n)) → '/' ∉ n →
    n.head? ≠ some '!' → n.length ≤ 49 → s.pidfile = '!' :: E.runDir ++ '/' :: dotPid n ∧ s.forking = true
  pidForking : type.daemon = true → RunDir E.runDir → v .pid = .text none → v .forking = .flag true → '/' ∉ s.name →
    s.name.head? ≠ some '!' → s.name.length ≤ 49 → s.pidfile = '!' :: E.runDir ++ '/' :: dotPid s.name ∧ s.forking = true
  noPid : v .pid = .text none → v .forking = .flag false → s.pidfile = [] ∧ s.forking = false
  /-- The delay between restarts, in milliseconds. -/
  delay : ∀ n, v .restartSec = .num n → type.daemon = true →
    s.restartTmo = if n = 0 then (if s.forking then 2000 else 1) else n
  cgroup : ∀ g, v .cgroup = .text (some ('.' :: g)) → ':' ∉ g → fits g 16 → s.cgName = g ∧ s.cgCfg = []
  cgroupCfg : ∀ g c, v .cgroup = .text (some ('.' :: g ++ ':' :: c)) → ':' ∉ g → fits g 16 → fits c 128 →
    s.cgName = g ∧ s.cgCfg = c
  cgroupOnlyCfg : ∀ c, v .cgroup = .text (some (':' :: c)) → fits E.cgroup 16 → fits c 128 →
    s.cgName = E.cgroup ∧ s.cgCfg = c
  noCgroup : v .cgroup = .text none → fits E.cgroup 16 → s.cgName = E.cgroup ∧ s.cgCfg = []

/-- A line of a service that is not known yet. -/
structure NewLine (E : LineEnv) (find : CStr → CStr → Option Cfg) (type : LType) (file : CStr) (ws : List CStr)
    (cmd args : CStr) (s : Cfg) : Prop where
  options : ∀ w ∈ ws, IsOption w
  /-- The command is a word that does not begin like an option. -/
  command : cmd ≠ [] ∧ (∀ c ∈ cmd, isBlank c = false ∧ isQuote c = false) ∧ cmd.head? ≠ some ',' ∧ settingOf cmd = none
  noDesc : splitDesc (cmd ++ ' ' :: args) = (cmd ++ ' ' :: args, none)
  noComma : ':' ∈ cmd → (args.dropWhile isBlank).head? ≠ some ','
  noOdd : ∀ w ∈ ws, begins "oncrash:rebootscript" w = false
  unknown : ∀ name id, find name id = none
  result : registerLine E find type file (lineText ws (cmd ++ ' ' :: args)) = .ok s

/-- A new service has the settings its line gives. -/
def C54_full : Prop :=
  ∀ (E : LineEnv) (find : CStr → CStr → Option Cfg) (type : LType) (file : CStr) (ws : List CStr) (cmd args : CStr)
    (s : Cfg), NewLine E find type file ws cmd args s →
    Says E (fun _ _ => True) type file (fun x => x.after ws) cmd args s

/-! ## Proof -/

/-- Texts that fit. -/
def Fits (t : CStr) (n : Nat) : Prop := t.length < n

theorem Fits.cpy {t : CStr} {n : Nat} (h : Fits t n) : strlcpy n t = t :=
  List.take_of_length_le (by have : t.length < n := h; omega)

theorem tokens_intercalate : ∀ (cs : List CStr), (∀ c ∈ cs, c ≠ [] ∧ ',' ∉ c) →
    tokens isComma (List.intercalate [','] cs) = cs
  | [], _ => rfl
  | [c], h => by
    have hc := h c List.mem_cons_self
    have e : List.intercalate [','] [c] = c := by simp [List.intercalate]
    rw [e]
    have := tokensAux_append_nosep isComma c [] [] (fun x hx => by
      rw [isComma, beq_eq_false_iff_ne]; rintro rfl; exact hc.2 hx)
    rw [List.append_nil] at this
    rw [tokens, this]
    simp [tokensAux, hc.1]
  | c :: d :: cs, h => by
    have hc := h c List.mem_cons_self
    have ih := tokens_intercalate (d :: cs) (fun x hx => h x (List.mem_cons_of_mem _ hx))
    have e : List.intercalate [','] (c :: d :: cs) = c ++ ',' :: List.intercalate [','] (d :: cs) := by
      simp [List.intercalate]
    rw [e, tokens, tokensAux_append_nosep isComma c [] _ (fun x hx => by
      rw [isComma, beq_eq_false_iff_ne]; rintro rfl; exact hc.2 hx)]
    simp only [tokensAux, show isComma ',' = true from rfl, if_true, List.append_nil]
    rw [if_neg (by simp [hc.1]), List.reverse_reverse]
    rw [tokens] at ih
    rw [ih]

theorem CondList.noGt : ∀ {cs : List CStr}, CondList cs → '>' ∉ List.intercalate [','] cs
  | [], _ => by simp [List.intercalate]
  | [c], h => by
    have e : List.intercalate [','] [c] = c := by simp [List.intercalate]
    rw [e]
    exact (h c List.mem_cons_self).2.2.1
  | c :: d :: cs, h => by
    have e : List.intercalate [','] (c :: d :: cs) = c ++ ',' :: List.intercalate [','] (d :: cs) := by
      simp [List.intercalate]
    have ih := CondList.noGt (cs := d :: cs) (fun x hx => h x (List.mem_cons_of_mem _ hx))
    rw [e, List.mem_append, List.mem_cons]
    rintro (hc | hc | hc)
    · exact (h c List.mem_cons_self).2.2.1 hc
    · exact absurd hc (by decide)
    · exact ih hc

theorem CondList.noBang {cs : List CStr} (h : CondList cs) (r : CStr) :
    (List.intercalate [','] cs ++ '>' :: r).head? ≠ some '!' := by
  cases cs with
  | nil => simp [List.intercalate]
  | cons c cs =>
    have hc := h c List.mem_cons_self
    have e : ∃ t, List.intercalate [','] (c :: cs) = c ++ t := by
      cases cs with
      | nil => exact ⟨[], by simp [List.intercalate]⟩
      | cons d cs => exact ⟨',' :: List.intercalate [','] (d :: cs), by simp [List.intercalate]⟩
    obtain ⟨t, e⟩ := e
    rw [e]
    cases c with
    | nil => exact absurd rfl hc.1
    | cons x c => exact hc.2.2.2

theorem takeWhile_stop {p : Char → Bool} : ∀ {a : CStr} {c : Char} {r : CStr}, (∀ x ∈ a, p x = true) → p c = false →
    (a ++ c :: r).takeWhile p = a
  | [], c, r, _, hc => by simp [hc]
  | x :: a, c, r, h, hc => by
    rw [List.cons_append, List.takeWhile_cons, if_pos (h x List.mem_cons_self),
      takeWhile_stop (fun y hy => h y (List.mem_cons_of_mem _ hy)) hc]

theorem dropWhile_stop {p : Char → Bool} : ∀ {a : CStr} {c : Char} {r : CStr}, (∀ x ∈ a, p x = true) → p c = false →
    (a ++ c :: r).dropWhile p = c :: r
  | [], c, r, _, hc => by simp [hc]
  | x :: _, c, r, h, hc => by
    rw [List.cons_append, List.dropWhile_cons, if_pos (h x List.mem_cons_self),
      dropWhile_stop (fun y hy => h y (List.mem_cons_of_mem _ hy)) hc]

theorem takeWhile_pass {p : Char → Bool} : ∀ {a : CStr}, (∀ x ∈ a, p x = true) → a.takeWhile p = a
  | [], _ => rfl
  | x :: _, h => by
    rw [List.takeWhile_cons, if_pos (h x List.mem_cons_self), takeWhile_pass (fun y hy => h y (List.mem_cons_of_mem _ hy))]

theorem dropWhile_pass {p : Char → Bool} : ∀ {a : CStr}, (∀ x ∈ a, p x = true) → a.dropWhile p = []
  | [], _ => rfl
  | x :: _, h => by
    rw [List.dropWhile_cons, if_pos (h x List.mem_cons_self), dropWhile_pass (fun y hy => h y (List.mem_cons_of_mem _ hy))]

theorem ne_of_notMem {a : CStr} {c : Char} (h : c ∉ a) : ∀ x ∈ a, (fun x => decide (x ≠ c)) x = true :=
  fun _ hx => decide_eq_true (fun e => h (e ▸ hx))

theorem unquoteWord_plain {p : CStr} (h : ¬ (p.head?).any isQuote = true) : unquoteWord p = some p := by
  cases p with
  | nil => rfl
  | cons q r =>
    have : ¬ isQuote q = true := h
    simp only [unquoteWord, if_neg this]

theorem scriptPath_plain {E : LineEnv} {p : CStr} (h : ¬ (p.head?).any isQuote = true) :
    (E.which p = true → Fits p 256 → scriptPath E p = p) ∧ (E.which p = false → scriptPath E p = []) := by
  unfold scriptPath
  rw [unquoteWord_plain h]
  constructor
  · intro h1 h2
    have : p.length < 256 := h2
    simp [h1, this]
  · intro h1
    simp [h1]

theorem scriptSays (E : LineEnv) (a : Option CStr) (kill : Int) (old : Script) :
    ScriptSays E Fits (.text a) kill (optScript E kill a old) := by
  refine ⟨?_, ?_, ?_, ?_⟩
  · intro h
    cases OptVal.text.inj h
    rfl
  · intro p h hc hq hw hf
    cases OptVal.text.inj h
    simp only [optScript, parseScript, if_neg hc, (scriptPath_plain hq).1 hw hf]
  · intro p h hc hq hw
    cases OptVal.text.inj h
    simp only [optScript, parseScript, if_neg hc, (scriptPath_plain hq).2 hw]
  · intro n a p h hd hn hq hw hf
    cases OptVal.text.inj h
    have ha : ',' ∉ a := by
      intro hm
      exact absurd (hd.digits.1 _ hm) (by decide)
    have hc : ',' ∈ a ++ ',' :: p := by simp
    simp only [optScript, parseScript, if_pos hc]
    rw [takeWhile_stop (ne_of_notMem ha) (by decide), dropWhile_stop (ne_of_notMem ha) (by decide), hd.strtonum,
      if_neg (by omega)]
    simp only [List.drop_one, List.tail_cons, (scriptPath_plain hq).1 hw hf]

theorem pathSays {E : LineEnv} {a : Option CStr} {r : CStr} (h : optScript0 E a = .ok r) :
    PathSays E Fits (.text a) r := by
  refine ⟨?_, ?_, ?_⟩
  · intro e
    cases OptVal.text.inj e
    injection h with h
    exact h.symm
  · intro p e hc hq hw hf
    cases OptVal.text.inj e
    simp only [optScript0, parseScript0, if_neg hc, (scriptPath_plain hq).1 hw hf] at h
    injection h with h
    exact h.symm
  · intro p e hc hq hw
    cases OptVal.text.inj e
    simp only [optScript0, parseScript0, if_neg hc, (scriptPath_plain hq).2 hw] at h
    injection h with h
    exact h.symm

theorem textSays (a : Option CStr) (n : Nat) : TextSays Fits n (.text a) (strlcpy n (a.getD [])) := by
  refine ⟨?_, ?_⟩
  · intro e
    cases OptVal.text.inj e
    exact List.take_nil
  · intro t e hf
    cases OptVal.text.inj e
    exact hf.cpy

theorem parseName_base {dir b : CStr} (hd : dir ≠ []) (hb : '/' ∉ b) (hs : ' ' ∉ dir ++ '/' :: b) :
    parseName (dir ++ '/' :: b) none = b := by
  unfold parseName
  have h1 : (dir ++ '/' :: b).takeWhile (· ≠ ' ') = dir ++ '/' :: b := takeWhile_pass (ne_of_notMem hs)
  dsimp only
  rw [h1]
  cases dir with
  | nil => exact absurd rfl hd
  | cons c dir =>
    have h2 : (((c :: dir) ++ '/' :: b).drop 1).reverse.dropWhile (· ≠ '/') = '/' :: dir.reverse := by
      have : (((c :: dir) ++ '/' :: b).drop 1).reverse = b.reverse ++ '/' :: dir.reverse := by simp
      rw [this]
      exact dropWhile_stop (ne_of_notMem (by simpa using hb)) (by decide)
    rw [h2, if_neg (by simp)]
    have : ('/' :: dir.reverse).length + 1 = ((c :: dir) ++ ['/']).length := by simp
    rw [this]
    have e : (c :: dir) ++ '/' :: b = ((c :: dir) ++ ['/']) ++ b := by simp
    rw [e, List.drop_left]

theorem parseName_bare {cmd : CStr} (hb : '/' ∉ cmd) : parseName cmd none = cmd := by
  unfold parseName
  dsimp only
  have h2 : ((cmd.takeWhile (· ≠ ' ')).drop 1).reverse.dropWhile (· ≠ '/') = [] := by
    refine dropWhile_pass (ne_of_notMem ?_)
    intro h
    exact hb ((List.takeWhile_sublist _).subset (List.mem_of_mem_drop (List.mem_reverse.1 h)))
  rw [h2]
  rfl

theorem pidOf_says {E : LineEnv} {o : Opts} {type : LType} {name : CStr} {x : CStr × Bool × Int}
    (h : pidOf E o type name [] = .ok x) :
    (type.daemon = true → RunDir E.runDir → ∀ n, o.pid = some ("pid:".toList ++ n) → '/' ∉ n → n.head? ≠ some '!' →
      n.length ≤ 49 → x.1 = (if o.forking = true then ['!'] else []) ++ E.runDir ++ '/' :: dotPid n ∧
      (x.2.1 = true ↔ o.forking = true)) ∧
    (type.daemon = true → RunDir E.runDir → ∀ n, o.pid = some ("pid:!".toList ++ n) → '/' ∉ n → n.head? ≠ some '!' →
      n.length ≤ 49 → x.1 = '!' :: E.runDir ++ '/' :: dotPid n ∧ x.2.1 = true) ∧
    (type.daemon = true → RunDir E.runDir → o.pid = none → o.forking = true → '/' ∉ name → name.head? ≠ some '!' →
      name.length ≤ 49 → x.1 = '!' :: E.runDir ++ '/' :: dotPid name ∧ x.2.1 = true) ∧
    (o.pid = none → o.forking = false → x.1 = [] ∧ x.2.1 = false) ∧
    (type.daemon = true → x.2.2 = if o.restartTmo = 0 then (if x.2.1 = true then 2000 else 1) else o.restartTmo) := by
  have run : ∀ r : CStr, RunDir E.runDir → (E.runDir ++ r).head? = some '/' := by
    rintro r (h | h) <;> rw [h] <;> rfl
  refine ⟨?_, ?_, ?_, ?_, ?_⟩
  · intro hd hr n hp h1 h2 h3
    have ho : pidOpt o name = some ("pid:".toList ++ n) := by unfold pidOpt; rw [hp]; rfl
    simp only [pidOf, hd, if_true, ho, (C37_pid_forms_partial E.runDir o.forking [] n hr h1 h2 h3).1] at h
    injection h with h
    subst h
    refine ⟨rfl, ?_⟩
    cases o.forking with
    | true => simp
    | false =>
      have := run ('/' :: dotPid n) hr
      simp only [Bool.false_eq_true, if_false, List.nil_append, this, iff_false]
      rw [if_neg (by decide)]
      decide
  · intro hd hr n hp h1 h2 h3
    have ho : pidOpt o name = some ("pid:!".toList ++ n) := by unfold pidOpt; rw [hp]; rfl
    simp only [pidOf, hd, if_true, ho, (C37_pid_forms_partial E.runDir o.forking [] n hr h1 h2 h3).2.1] at h
    injection h with h
    subst h
    refine ⟨rfl, ?_⟩
    simp
  · intro hd hr hp hf h1 h2 h3
    have ho : pidOpt o name = some ("pid:!".toList ++ name) := by unfold pidOpt; rw [hp, hf]; rfl
    simp only [pidOf, hd, if_true, ho, (C37_pid_forms_partial E.runDir o.forking [] name hr h1 h2 h3).2.1] at h
    injection h with h
    subst h
    refine ⟨rfl, ?_⟩
    simp
  · intro hp hf
    have ho : pidOpt o name = none := by unfold pidOpt; rw [hp, hf]; rfl
    simp only [pidOf, ho] at h
    split at h <;> (injection h with h; subst h; exact ⟨rfl, hf⟩)
  · intro hd
    simp only [pidOf, hd, if_true] at h
    cases hq : pidOpt o name with
    | none =>
      rw [hq] at h
      injection h with h
      subst h
      rfl
    | some p =>
      rw [hq] at h
      dsimp only at h
      cases hz : pidFileParse E.runDir o.forking [] p <;> rw [hz] at h
      all_goals first
        | (cases h; done)
        | (injection h with h; subst h; rfl)

theorem cgroup_says (E : LineEnv) (o : Opts) :
    (∀ g, o.cgroup = some ('.' :: g) → ':' ∉ g → Fits g 16 → cgNameOf E o = g ∧ cgCfgOf o [] = []) ∧
    (∀ g c, o.cgroup = some ('.' :: g ++ ':' :: c) → ':' ∉ g → Fits g 16 → Fits c 128 →
      cgNameOf E o = g ∧ cgCfgOf o [] = c) ∧
    (∀ c, o.cgroup = some (':' :: c) → Fits E.cgroup 16 → Fits c 128 → cgNameOf E o = E.cgroup ∧ cgCfgOf o [] = c) ∧
    (o.cgroup = none → Fits E.cgroup 16 → cgNameOf E o = E.cgroup ∧ cgCfgOf o [] = []) := by
  refine ⟨?_, ?_, ?_, ?_⟩
  · intro g h hg hf
    have h1 : ':' ∉ '.' :: g := by simp [hg]
    have h2 : ('.' :: g).takeWhile (fun x => decide (x ≠ ':')) = '.' :: g := takeWhile_pass (ne_of_notMem h1)
    constructor
    · unfold cgNameOf
      rw [h]
      simp only
      rw [if_pos (by simp), h2]
      exact hf.cpy
    · unfold cgCfgOf
      rw [h]
      simp only
      rw [if_pos (by simp), if_neg h1]
  · intro g c h hg hf hc
    have h1 : ':' ∉ '.' :: g := by simp [hg]
    have h2 : ('.' :: g ++ ':' :: c).takeWhile (fun x => decide (x ≠ ':')) = '.' :: g :=
      takeWhile_stop (ne_of_notMem h1) (by decide)
    have h3 : ('.' :: g ++ ':' :: c).dropWhile (fun x => decide (x ≠ ':')) = ':' :: c :=
      dropWhile_stop (ne_of_notMem h1) (by decide)
    have h4 : c.length < 128 := hc
    constructor
    · unfold cgNameOf
      rw [h]
      simp only
      rw [if_pos (by simp), h2]
      exact hf.cpy
    · unfold cgCfgOf
      rw [h]
      simp only
      rw [if_pos (by simp), if_pos (by simp), h3]
      simp only [List.drop_one, List.tail_cons]
      rw [if_neg (by omega)]
      exact hc.cpy
  · intro c h hf hc
    have h4 : c.length < 128 := hc
    constructor
    · unfold cgNameOf
      rw [h]
      simp only
      rw [if_neg (by simp), if_pos (by simp)]
      exact hf.cpy
    · unfold cgCfgOf
      rw [h]
      simp only
      rw [if_neg (by simp), if_pos (by simp)]
      simp only [List.drop_one, List.tail_cons]
      rw [if_neg (by omega)]
      exact hc.cpy
  · intro h hf
    unfold cgNameOf cgCfgOf
    rw [h]
    exact ⟨hf.cpy, rfl⟩

theorem user_says (E : LineEnv) (o : Opts) :
    (∀ u g, o.username = some (u ++ ':' :: g) → ':' ∉ u → Fits u 16 → Fits g 16 →
      userOf E o = u ∧ groupOf E o [] = g) ∧
    (∀ u, o.username = some u → ':' ∉ u → Fits u 16 → userOf E o = u ∧ groupOf E o [] = []) ∧
    (o.username = none → Fits E.user 16 → Fits E.group 16 → userOf E o = E.user ∧ groupOf E o [] = E.group) := by
  unfold userOf groupOf
  refine ⟨?_, ?_, ?_⟩
  · intro u g h hu hf hg
    rw [h]
    simp only
    rw [if_pos (by simp), if_pos (by simp), takeWhile_stop (ne_of_notMem hu) (by decide),
      dropWhile_stop (ne_of_notMem hu) (by decide)]
    exact ⟨hf.cpy, hg.cpy⟩
  · intro u h hu hf
    rw [h]
    simp only
    rw [if_neg hu, if_neg hu]
    exact ⟨hf.cpy, rfl⟩
  · intro h hf hg
    rw [h]
    exact ⟨hf.cpy, hg.cpy⟩

theorem cond_says (type : LType) (a : Option CStr) :
    (∀ cs, a = some (List.intercalate [','] cs ++ ['>']) → CondList cs → Fits (List.intercalate [','] cs) 192 →
      condOf a [] = List.intercalate [','] cs ∧ sighupOf type a false = type.daemon) ∧
    (∀ cs, a = some ('!' :: (List.intercalate [','] cs ++ ['>'])) → CondList cs → Fits (List.intercalate [','] cs) 192 →
      condOf a [] = List.intercalate [','] cs ∧ sighupOf type a false = !type.daemon) ∧
    (a = none → condOf a [] = [] ∧ sighupOf type a false = type.daemon) := by
  refine ⟨?_, ?_, ?_⟩
  · rintro cs rfl hc hf
    have h1 : List.intercalate [','] cs ++ '>' :: [] = List.intercalate [','] cs ++ ['>'] := rfl
    have h2 := hc.noBang []
    rw [h1] at h2
    have hf' : (List.intercalate [','] cs).length < 192 := hf
    constructor
    · unfold condOf
      simp only [h2, decide_false, Bool.false_eq_true, if_false]
      rw [takeWhile_stop (ne_of_notMem hc.noGt) (by decide), if_neg (by omega),
        tokens_intercalate cs (fun c h => ⟨(hc c h).1, (hc c h).2.1⟩)]
    · simp only [sighupOf, h2, if_false]
      cases type.daemon <;> rfl
  · rintro cs rfl hc hf
    have hf' : (List.intercalate [','] cs).length < 192 := hf
    constructor
    · unfold condOf
      simp only [List.head?_cons, decide_true, if_true, List.drop_one, List.tail_cons]
      rw [takeWhile_stop (ne_of_notMem hc.noGt) (by decide), if_neg (by omega),
        tokens_intercalate cs (fun c h => ⟨(hc c h).1, (hc c h).2.1⟩)]
    · simp only [sighupOf, List.head?_cons, if_true]
  · rintro rfl
    refine ⟨rfl, ?_⟩
    simp only [sighupOf]
    cases type.daemon <;> rfl

/-! ## Theorems -/

/-- A new service has the settings its line gives, as far as its texts have room. -/
theorem C54_partial (E : LineEnv) (find : CStr → CStr → Option Cfg) (type : LType) (file : CStr) (ws : List CStr)
    (cmd args : CStr) (s : Cfg) (h : NewLine E find type file ws cmd args s) :
    Says E (fun t n => t.length < n) type file (fun x => x.after ws) cmd args s := by
  obtain ⟨h0, hw, h1, hn⟩ := h.command
  have hr := h.result
  have hu : parseLine (lineText ws (cmd ++ ' ' :: args)) ≠ .ub := by
    intro e
    unfold registerLine at hr
    rw [e] at hr
    cases hr
  obtain ⟨o, ho, hv⟩ := C48_meaning_partial ws cmd args h.options h0 hw h1 hn h.noDesc h.noComma h.noOdd hu
  have hv : (fun x => Setting.after x ws) = o.val := funext (fun x => (hv x).symm)
  rw [hv]
  have hm : cmd ++ ' ' :: args ≠ "--".toList := by
    intro e
    have : ' ' ∈ "--".toList := by rw [← e]; simp
    exact absurd this (by decide)
  have hd : (splitDesc (lineText ws (cmd ++ ' ' :: args))).2 = none := by
    change (splitDesc (wordsLine ws (cmd ++ ' ' :: args))).2 = none
    rw [splitDesc_words ws _ (fun w hw => (h.options w hw).word) hm, h.noDesc]
  have hsp : ' ' ∉ cmd := fun hc => by have := (hw ' ' hc).1; exact absurd this (by decide)
  unfold registerLine at hr
  rw [ho] at hr
  dsimp only at hr
  rw [h.unknown, hd] at hr
  split at hr
  · rename_i hwh
    obtain ⟨r, st, l, x, d, ad, nt, e1, e2, e3, e4, e5, e⟩ := lineFill_eq hr
    subst e
    have hp := pidOf_says e4
    have hcg := cgroup_says E o
    have hus := user_says E o
    have hco := cond_says type o.cond
    change Says E Fits _ _ _ _ _ _
    exact {
      typeIs := rfl
      present := hwh
      cmdIs := fun hf => hf.cpy
      fileIs := fun hf => hf.cpy
      argsAre := fun ps t e hg hl hc => by
        change newArgs cmd args = _
        rw [e]
        exact C49_args_partial ps t cmd hg hl hc
      name := fun n hn hf => by
        have hn : o.name = some n := OptVal.text.inj hn
        change strlcpy 64 (parseName cmd o.name) = n
        rw [hn]
        exact hf.cpy
      base := fun hn dir b e hd hb hf => by
        have hn : o.name = none := OptVal.text.inj hn
        change strlcpy 64 (parseName cmd o.name) = b
        rw [hn, e, parseName_base hd hb (e ▸ hsp)]
        exact hf.cpy
      bare := fun hn hb hf => by
        have hn : o.name = none := OptVal.text.inj hn
        change strlcpy 64 (parseName cmd o.name) = cmd
        rw [hn, parseName_bare hb]
        exact hf.cpy
      id := textSays o.id 65
      desc := by
        change strlcpy 64 (strlcpy 64 (parseName cmd o.name)) = strlcpy 64 (parseName cmd o.name)
        unfold strlcpy
        rw [List.take_take]
        rfl
      userGroup := fun u g e => hus.1 u g (OptVal.text.inj e)
      user := fun u e => hus.2.1 u (OptVal.text.inj e)
      noUser := fun e => hus.2.2 (OptVal.text.inj e)
      levels := fun l e => by
        change _ → ∀ n, (parseRunlevels o.runlevels).getLsbD n = true ↔ _
        rw [show o.runlevels = some l from OptVal.text.inj e]
        exact fun hc n => C01_runlevel_lists_partial.1 l n hc
      noLevels := fun e => by
        change ∀ n, (parseRunlevels o.runlevels).getLsbD n = true ↔ _
        rw [show o.runlevels = none from OptVal.text.inj e]
        exact C01_runlevel_lists_partial.2
      cond := fun cs e => hco.1 cs (OptVal.text.inj e)
      condBang := fun cs e => hco.2.1 cs (OptVal.text.inj e)
      noCond := fun e => hco.2.2 (OptVal.text.inj e)
      halt := fun a n name e hm hs => by
        change haltOf o 15 = n
        unfold haltOf
        rw [show o.halt = some a from OptVal.text.inj e]
        exact (C39_sighalt 15 a).1 n name hm hs
      noHalt := fun e => by
        change haltOf o 15 = 15
        unfold haltOf
        rw [show o.halt = none from OptVal.text.inj e]
      kill := fun a n e hd hk => by
        change killOf o 3000 = _
        unfold killOf
        rw [show o.delay = some a from OptVal.text.inj e]
        exact (C39_killdelay 3000 a).1 n hd hk
      noKill := fun e => by
        change killOf o 3000 = _
        unfold killOf
        rw [show o.delay = none from OptVal.text.inj e]
      pre := scriptSays E o.pre _ _
      post := scriptSays E o.post _ _
      ready := scriptSays E o.ready _ _
      cleanup := scriptSays E o.cleanup _ _
      reload := pathSays e1
      stop := pathSays e2
      notify := by
        change nt = match OptVal.text o.notify with
          | .text (some a) => if a = "systemd".toList then .systemd else if a = "s6".toList then .s6
            else if a = "pid".toList then .pid else .none
          | _ => E.readiness
        rw [e5]
        cases o.notify <;> rfl
      env := by
        refine ⟨?_, ?_⟩
        · intro e
          change envOf o [] = []
          unfold envOf
          rw [show o.env = none from OptVal.text.inj e]
        · intro a e hf
          change envOf o [] = a
          unfold envOf
          rw [show o.env = some a from OptVal.text.inj e]
          have : a.length < 256 := hf
          simp only
          rw [if_neg (by omega)]
      conflict := textSays o.conflict 64
      ifstmt := textSays o.ifstmt 130
      manual := rfl
      nowarn := rfl
      respawn := rfl
      restart := rfl
      oncrash := rfl
      pid := fun a b n e h1 h2 h3 => by
        have := hp.1 a b n (OptVal.text.inj e) h1 h2 h3
        simpa [Opts.val] using this
      pidBang := fun a b n e => hp.2.1 a b n (OptVal.text.inj e)
      pidForking := fun a b e e' => by
        have := hp.2.2.1 a b (OptVal.text.inj e) (OptVal.flag.inj e')
        exact this
      noPid := fun e e' => hp.2.2.2.1 (OptVal.text.inj e) (OptVal.flag.inj e')
      delay := fun n e hd => by
        have := hp.2.2.2.2 hd
        rw [show o.restartTmo = n from OptVal.num.inj e] at this
        exact this
      cgroup := fun g e => hcg.1 g (OptVal.text.inj e)
      cgroupCfg := fun g c e => hcg.2.1 g c (OptVal.text.inj e)
      cgroupOnlyCfg := fun c e => hcg.2.2.1 c (OptVal.text.inj e)
      noCgroup := fun e => hcg.2.2.2 (OptVal.text.inj e) }
  · cases hr

theorem strstr_first : ∀ {a d : CStr}, ¬ "-- ".toList <:+: a →
    strstr "-- ".toList (a ++ "-- ".toList ++ d) = some (a, d)
  | [], d, _ => by simp [strstr]
  | c :: a, d, h => by
    have ih := strstr_first (a := a) (d := d) (fun ⟨p, q, e⟩ => h ⟨c :: p, q, by rw [← e]; rfl⟩)
    have hp : "-- ".toList.isPrefixOf (c :: a ++ "-- ".toList ++ d) = false := by
      cases hx : "-- ".toList.isPrefixOf (c :: a ++ "-- ".toList ++ d) with
      | false => rfl
      | true =>
        exfalso
        obtain ⟨t, ht⟩ := List.isPrefixOf_iff_prefix.1 hx
        cases a with
        | nil => simp at ht
        | cons x a =>
          cases a with
          | nil => simp at ht
          | cons y a =>
            refine h ⟨[], a, ?_⟩
            simp at ht
            obtain ⟨rfl, rfl, rfl, _⟩ := ht
            rfl
    rw [List.cons_append, List.cons_append] at hp ⊢
    unfold strstr
    rw [if_neg (by rw [hp]; decide), ih]
    rfl

/-- What follows the first `-- ` is the description. -/
theorem C54_desc (E : LineEnv) (find : CStr → CStr → Option Cfg) (type : LType) (file a d : CStr) (s : Cfg)
    (hs : registerLine E find type file (a ++ "-- ".toList ++ d) = .ok s)
    (ha : ¬ "-- ".toList <:+: a) (hd : (d.dropWhile isBlank).length < 64) :
    s.desc = d.dropWhile isBlank := by
  have h1 : splitDesc (a ++ "-- ".toList ++ d) = (a, some (d.dropWhile isBlank)) := by
    unfold splitDesc
    rw [strstr_first ha]
  unfold registerLine at hs
  split at hs
  · cases hs
  · cases hs
  · dsimp only at hs
    split at hs
    · obtain ⟨r, st, l, x, d', ad, nt, e1, e2, e3, e4, e5, e⟩ := lineFill_eq hs
      subst e
      change descOf (splitDesc (a ++ "-- ".toList ++ d)).2 _ = _
      rw [h1]
      exact Fits.cpy hd
    · cases hs

/-- The full claim is false: a long name is cut. -/
theorem C54_name : ∃ s, NewLine demoEnv (fun _ _ => none) .service "a.conf".toList
      ["name:a-name-that-is-one-byte-longer-than-what-is-kept-of-a-name-by-init".toList] "/sbin/foo".toList [] s ∧
    s.name.length = 63 ∧ "a-name-that-is-one-byte-longer-than-what-is-kept-of-a-name-by-init".length = 66 := by
  refine ⟨_, ⟨by decide +kernel, by decide +kernel, by decide +kernel, by decide +kernel, by decide +kernel,
    fun _ _ => rfl, rfl⟩, ?_, by decide +kernel⟩
  decide +kernel

theorem C54_full_false : ¬ C54_full := by
  intro h
  obtain ⟨s, hs, hl, _⟩ := C54_name
  have := (h _ _ _ _ _ _ _ s hs).name
    "a-name-that-is-one-byte-longer-than-what-is-kept-of-a-name-by-init".toList (by decide +kernel) trivial
  rw [this] at hl
  exact absurd hl (by decide +kernel)

set_option maxRecDepth 8000 in
/-- Hypotheses of `C54_partial` that can be met, with what follows from it. -/
example : ∃ s, NewLine demoEnv (fun _ _ => none) .service "a.conf".toList
      ["[2345]".toList, "<!net/eth0/up,usr/x>".toList, "@www:adm".toList, ":2".toList, "kill:20".toList,
       "halt:SIGINT".toList, "pre:5,/bin/prep".toList, "restart:3".toList, "pid:!foo".toList, "cgroup.web:cpu.max:1".toList]
      "/sbin/foo".toList "-n x".toList s ∧
    s.name = "foo".toList ∧ s.killdelay = 20000 ∧ s.sighalt = 2 ∧ s.pre = { path := "/bin/prep".toList, tmo := 5000 } ∧
    s.pidfile = "!/run/foo.pid".toList ∧ s.forking = true ∧ s.restartTmo = 2000 ∧ s.cgName = "web".toList ∧
    s.cond = "net/eth0/up,usr/x".toList ∧ s.sighup = false ∧ s.username = "www".toList := by
  refine ⟨_, ⟨by decide +kernel, by decide +kernel, by decide +kernel, by decide +kernel, by decide +kernel,
    fun _ _ => rfl, rfl⟩, ?_⟩
  decide +kernel

/-- And those of `C54_desc`. -/
example : ∃ s, registerLine demoEnv (fun _ _ => none) .task "a.conf".toList
      ("[S] /sbin/foo -n ".toList ++ "-- ".toList ++ "Set up foo -- and bar".toList) = .ok s ∧
    ¬ "-- ".toList <:+: "[S] /sbin/foo -n ".toList ∧ s.desc = "Set up foo -- and bar".toList ∧
    s.args = ["/sbin/foo".toList, "-n".toList] := by
  refine ⟨_, rfl, ?_, ?_, ?_⟩ <;> decide +kernel

end Verif
