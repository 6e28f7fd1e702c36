import Verif.Cmdout
import Verif.Props.Sulogin

/-!
# C107: what commands print, and how they end, is shown
-/

namespace Verif

/-! ## Specification -/

/-- What the command wrote to standard error as seen on the console -/
def xoSeen : List XoSay → List Char
  | [] => []
  | .err t :: r => t ++ xoSeen r
  | _ :: r => xoSeen r

/-- The marks on the console -/
def xoMarks : List XoSay → List Nat
  | [] => []
  | .mark n :: r => n :: xoMarks r
  | _ :: r => xoMarks r

/-- A text of these lines -/
def XoText (lines : List CStr) (text : List Char) : Prop :=
  text = lines.flatMap (· ++ ['\n']) ∧ ∀ l ∈ lines, '\n' ∉ l ∧ '\x00' ∉ l

/-- The claim: the lines that a command writes to standard output are logged one by one, all that it writes to standard
    error is shown on the console, and there is `[ OK ]` (0) if it succeeded and `[FAIL]` (1) if it did not. -/
def C107_full : Prop := ∀ E desc lines c, XoText lines c.out → c.ends ≠ .noFork →
  (xoRun E desc c).log = lines ∧
  xoSeen (xoRun E desc c).console = c.err ∧
  xoMarks (xoRun E desc c).console = [if c.ends = .exited 0 then 0 else 1]

/-! ## Lemmas -/

/-- Only the first 1024 bytes are copied. -/
theorem xoDump_take (s : List Char) : xoDump s = s.take 1024 := by
  cases s with
  | nil => unfold xoDump; rfl
  | cons c s =>
    unfold xoDump
    dsimp only
    split
    · rename_i h
      have : (c :: s).drop 1024 = [] := by
        apply List.drop_eq_nil_of_le
        rw [List.length_take] at h
        omega
      rw [this]
      unfold xoDump
      rw [List.append_nil]
    · rw [List.append_nil]

theorem xoStr_clean {l : List Char} (h : '\x00' ∉ l) : xoStr l = l := by
  unfold xoStr
  induction l with
  | nil => rfl
  | cons c l ih =>
    have hc : c ≠ '\x00' := fun e => h (e ▸ List.mem_cons_self ..)
    rw [List.takeWhile_cons_of_pos (by simpa using hc), ih (fun e => h (List.mem_cons_of_mem _ e))]

theorem xo_chompLine_line (l : List Char) : chompLine (l ++ ['\n']) = l := by
  unfold chompLine
  rw [List.getLast?_concat, if_pos rfl, List.dropLast_concat]

theorem xo_chompLine_clean {l : List Char} (h : '\n' ∉ l) : chompLine l = l := by
  unfold chompLine
  rw [if_neg (fun e => h (List.mem_of_getLast? e))]

/-- What fgets(3) reads and what it leaves make up the whole. -/
theorem xo_fgetsOne_whole : ∀ (k : Nat) (s : List Char), (fgetsOne k s).1 ++ (fgetsOne k s).2 = s
  | 0, _ => rfl
  | _ + 1, [] => rfl
  | k + 1, c :: s => by
    rw [fgetsOne]
    split
    · rename_i h; rw [h]; rfl
    · rw [List.cons_append, xo_fgetsOne_whole k s]

/-- A newline is read last, if at all. -/
theorem xo_fgetsOne_newline : ∀ (k : Nat) (s : List Char),
    (∃ l, (fgetsOne k s).1 = l ++ ['\n'] ∧ '\n' ∉ l) ∨ '\n' ∉ (fgetsOne k s).1
  | 0, _ => .inr (by rw [fgetsOne]; simp)
  | _ + 1, [] => .inr (by rw [fgetsOne]; simp)
  | k + 1, c :: s => by
    rw [fgetsOne]
    split
    · exact .inl ⟨[], rfl, by simp⟩
    · rename_i hc
      rcases xo_fgetsOne_newline k s with ⟨l, e, h⟩ | h
      · exact .inl ⟨c :: l, by rw [e]; rfl, by simp [h, Ne.symm hc]⟩
      · exact .inr (by simp [h, Ne.symm hc])

theorem xo_fgetsOne_room : ∀ (k : Nat) (s : List Char), (fgetsOne k s).1.length ≤ k
  | 0, _ => by rw [fgetsOne]; exact Nat.le_refl _
  | _ + 1, [] => by rw [fgetsOne]; exact Nat.zero_le _
  | k + 1, c :: s => by
    rw [fgetsOne]
    split
    · simp
    · have := xo_fgetsOne_room k s
      simp only [List.length_cons]; omega

theorem xo_fgetsAll_whole (s : List Char) : (fgetsAll s).flatten = s := by
  match s with
  | [] => unfold fgetsAll; rfl
  | c :: s =>
    have hlt : (fgetsOne 255 (c :: s)).2.length < (c :: s).length := by
      rw [show (255 : Nat) = 254 + 1 from rfl, fgetsOne]
      split
      · exact Nat.lt_succ_self _
      · exact Nat.lt_succ_of_le (fgetsOne_le 254 s)
    unfold fgetsAll
    rw [List.flatten_cons, xo_fgetsAll_whole (fgetsOne 255 (c :: s)).2, xo_fgetsOne_whole]
  termination_by s.length

theorem xo_fgetsAll_piece (s : List Char) : ∀ p ∈ fgetsAll s, ∃ t, p = (fgetsOne 255 t).1 := by
  match s with
  | [] => unfold fgetsAll; simp
  | c :: s =>
    have hlt : (fgetsOne 255 (c :: s)).2.length < (c :: s).length := by
      rw [show (255 : Nat) = 254 + 1 from rfl, fgetsOne]
      split
      · exact Nat.lt_succ_self _
      · exact Nat.lt_succ_of_le (fgetsOne_le 254 s)
    unfold fgetsAll
    intro p hp
    rcases List.mem_cons.mp hp with e | e
    · exact ⟨_, e⟩
    · exact xo_fgetsAll_piece (fgetsOne 255 (c :: s)).2 p e
  termination_by s.length

theorem xo_chomp_piece (t : List Char) : chompLine (fgetsOne 255 t).1 = (fgetsOne 255 t).1.filter (· ≠ '\n') := by
  have clean : ∀ l : List Char, '\n' ∉ l → l.filter (· ≠ '\n') = l := fun l h => by
    rw [List.filter_eq_self]
    intro x hx
    simpa using fun e : x = '\n' => h (e ▸ hx)
  rcases xo_fgetsOne_newline 255 t with ⟨l, e, h⟩ | h
  · rw [e, xo_chompLine_line, List.filter_append, clean l h]
    simp
  · rw [xo_chompLine_clean h, clean _ h]

theorem xoLog_plain (out : List Char) : xoLog [] out = (fgetsAll out).map fun l => chompLine (xoStr l) := by
  unfold xoLog; rfl

/-- What is seen, whichever way -/
theorem xoSeen_run (E : XoEnv) (desc : CStr) (c : XoCmd) (h : c.ends ≠ .noFork) :
    xoSeen (xoRun E desc c).console = if E.temp && !E.debug then c.err.take 1024 else c.err := by
  have marks : ∀ st r, xoSeen (xoMark st ++ r) = xoSeen r := fun st r => by
    unfold xoMark; split <;> rfl
  unfold xoRun
  dsimp only
  rw [if_neg h]
  split
  · show xoSeen (xoMark _ ++ _) = _
    rw [marks, xoDump_take]
    exact List.append_nil _
  · show c.err ++ xoSeen (xoMark _) = _
    have := marks (xoStatus E c.ends) []
    rw [List.append_nil] at this
    rw [this]
    exact List.append_nil _

theorem xoMarks_run (E : XoEnv) (desc : CStr) (c : XoCmd) :
    xoMarks (xoRun E desc c).console = if xoStatus E c.ends < 0 then [] else [statusRc (xoStatus E c.ends)] := by
  unfold xoRun xoMark
  dsimp only
  cases E.temp && !E.debug <;> by_cases h : xoStatus E c.ends < 0 <;> simp [xoMarks, h]

/-! ## The theorems -/

/-- Lines shorter than 255 bytes are logged one by one, standard error is shown if it is no longer than 1024 bytes, and
    a command that exits with 0 gets `[ OK ]`, one that exits otherwise does not. -/
theorem C107_partial (E : XoEnv) (desc : CStr) (lines : List CStr) (c : XoCmd) (hl : XoText lines c.out)
    (hs : ∀ l ∈ lines, l.length < 255) (he : c.err.length ≤ 1024) {n : Nat} (hn : c.ends = .exited n) (h256 : n < 256) :
    (xoRun E desc c).log = lines ∧
    xoSeen (xoRun E desc c).console = c.err ∧
    (xoMarks (xoRun E desc c).console = [0] ↔ n = 0) ∧
    (xoMarks (xoRun E desc c).console = [1] ↔ n = 1) := by
  have hf : c.ends ≠ .noFork := by rw [hn]; nofun
  have hm : n % 256 = n := Nat.mod_eq_of_lt h256
  have hst : xoStatus E c.ends = (n : Int) := by rw [hn]; show ((n % 256 : Nat) : Int) = n; rw [hm]
  refine ⟨?_, ?_, ?_, ?_⟩
  · have e : (xoRun E desc c).log = xoLog [] c.out := by unfold xoRun; dsimp only; rw [if_neg hf]
    rw [e, xoLog_plain, fgetsAll_file ⟨hl.1, fun l h => ⟨(hl.2 l h).1, hs l h⟩⟩, List.map_map]
    conv => rhs; rw [← List.map_id lines]
    refine List.map_congr_left fun l h => ?_
    show chompLine (xoStr (l ++ ['\n'])) = l
    rw [xoStr_clean (by simp [(hl.2 l h).2]), xo_chompLine_line]
  · rw [xoSeen_run E desc c hf]
    split
    · exact List.take_of_length_le he
    · rfl
  all_goals
    rw [xoMarks_run, hst, if_neg (by omega)]
    unfold statusRc
    constructor
    · intro h
      have h := (List.cons.inj h).1
      split at h <;> omega
    · intro h
      subst h
      rfl

/-- fsck(8) that had something to say -/
example : XoText ["a".toList, "b c".toList] "a\nb c\n".toList ∧ (∀ l ∈ ["a".toList, "b c".toList], l.length < 255) ∧
    xoMarks (xoRun ⟨false, true, true⟩ "Checking".toList ⟨"a\nb c\n".toList, "bad".toList, .exited 1⟩).console = [1] := by
  refine ⟨⟨by decide +kernel, by decide +kernel⟩, by decide +kernel, ?_⟩
  rw [xoMarks_run]; decide +kernel

/-- However long its lines are, nothing of a text is lost from the log but the newlines, and no entry is longer than
    255 bytes. -/
theorem C107_logged (pfx : CStr) (out : List Char) (h0 : '\x00' ∉ out) :
    (xoLog [] out).flatten = out.filter (· ≠ '\n') ∧
    (∀ l ∈ xoLog [] out, l.length ≤ 255 ∧ '\n' ∉ l) ∧
    (pfx ≠ [] → xoLog pfx out = (xoLog [] out).map fun l => pfx ++ ": ".toList ++ l) := by
  have hw := xo_fgetsAll_whole out
  have hp := xo_fgetsAll_piece out
  have clean : ∀ p ∈ fgetsAll out, xoStr p = p := fun p hm =>
    xoStr_clean fun hc => h0 (hw ▸ List.mem_flatten.mpr ⟨p, hm, hc⟩)
  have e : xoLog [] out = (fgetsAll out).map (·.filter (· ≠ '\n')) := by
    rw [xoLog_plain]
    refine List.map_congr_left fun p hm => ?_
    rw [clean p hm]
    obtain ⟨t, rfl⟩ := hp p hm
    exact xo_chomp_piece t
  refine ⟨?_, fun l hl => ?_, fun hne => ?_⟩
  · rw [e, ← List.filter_flatten, hw]
  · rw [e] at hl
    obtain ⟨p, hm, rfl⟩ := List.mem_map.mp hl
    obtain ⟨t, rfl⟩ := hp p hm
    refine ⟨Nat.le_trans (List.length_filter_le _ _) (xo_fgetsOne_room 255 t), ?_⟩
    simp
  · rw [xoLog_plain]
    unfold xoLog
    rw [List.map_map]
    refine List.map_congr_left fun p _ => ?_
    show pfx ++ (if pfx = [] then [] else ": ".toList) ++ chompLine (xoStr p) = _
    rw [if_neg hne]
    rfl

/-- A text with a line that is too long -/
example : '\x00' ∉ List.replicate 300 'x' ++ ['\n'] := by decide +kernel

/-- A line of 255 bytes or more is logged in pieces. -/
theorem C107_long (l : CStr) (hl : 255 ≤ l.length) (hn : '\n' ∉ l) (h0 : '\x00' ∉ l) (rest : List Char) :
    ∃ more, xoLog [] (l ++ '\n' :: rest) = l.take 255 :: more ∧ more ≠ [] := by
  have cut : ∀ (k : Nat) (l : List Char), k ≤ l.length → '\n' ∉ l → ∀ r, fgetsOne k (l ++ r) = (l.take k, l.drop k ++ r) := by
    intro k
    induction k with
    | zero => intro l _ _ r; rfl
    | succ k ih =>
      intro l hk hn r
      match l, hk with
      | c :: l, hk =>
        have hc : c ≠ '\n' := fun e => hn (e ▸ List.mem_cons_self ..)
        rw [List.cons_append, fgetsOne, if_neg hc, ih l (by simpa using hk) (fun e => hn (List.mem_cons_of_mem _ e)) r]
        rfl
  have hcut := cut 255 l hl hn ('\n' :: rest)
  have hne : l ++ '\n' :: rest ≠ [] := by simp
  rw [xoLog_plain]
  match hs : l ++ '\n' :: rest, hne with
  | c :: s, _ =>
    rw [hs] at hcut
    refine ⟨(fgetsAll (l.drop 255 ++ '\n' :: rest)).map fun l => chompLine (xoStr l), ?_, ?_⟩
    · conv => lhs; unfold fgetsAll
      rw [hcut, List.map_cons, xoStr_clean (fun h => h0 (List.mem_of_mem_take h)),
        xo_chompLine_clean (fun h => hn (List.mem_of_mem_take h))]
    · intro h
      have h := List.map_eq_nil_iff.mp h
      have := xo_fgetsAll_whole (l.drop 255 ++ '\n' :: rest)
      rw [h] at this
      simp at this

/-- Such a line -/
example : 255 ≤ (List.replicate 300 'x').length ∧ '\n' ∉ List.replicate 300 'x' ∧ '\x00' ∉ List.replicate 300 'x' := by
  decide +kernel

/-- Of standard error the first 1024 bytes are shown, after the mark; all of it in debug mode or without a temporary
    file, before the mark. -/
theorem C107_err (E : XoEnv) (desc : CStr) (c : XoCmd) (h : c.ends ≠ .noFork) :
    xoSeen (xoRun E desc c).console = (if E.temp && !E.debug then c.err.take 1024 else c.err) ∧
    (xoRun E desc c).console = if E.temp && !E.debug then .desc desc :: ((xoMarks (xoRun E desc c).console).map .mark ++ [.err (c.err.take 1024)])
      else .desc desc :: .err c.err :: (xoMarks (xoRun E desc c).console).map .mark := by
  refine ⟨xoSeen_run E desc c h, ?_⟩
  rw [xoMarks_run]
  unfold xoRun xoMark
  dsimp only
  rw [if_neg h, xoDump_take]
  cases E.temp && !E.debug <;> by_cases h : xoStatus E c.ends < 0 <;> simp [h]

/-- More than that is lost. -/
example : (xoSeen (xoRun ⟨false, true, true⟩ [] ⟨[], List.replicate 1025 'x', .exited 1⟩).console).length = 1024 := by
  rw [xoSeen_run _ _ _ (by nofun)]
  decide +kernel

/-- A command that was killed gets `[ OK ]` and counts as a success if the shell replaced itself by it. -/
theorem C107_killed (E : XoEnv) (hE : E.shExec = true) (desc : CStr) (c : XoCmd) (sig : Nat) (h : c.ends = .killed sig) :
    (xoRun E desc c).status = 0 ∧ xoMarks (xoRun E desc c).console = [0] := by
  have hst : xoStatus E c.ends = 0 := by rw [h]; show (if E.shExec then (0 : Int) else _) = 0; rw [if_pos hE]
  refine ⟨hst, ?_⟩
  rw [xoMarks_run, hst]; rfl

/-- fsck(8) ran out of memory -/
example : (xoRun ⟨false, true, true⟩ [] ⟨[], [], .killed 9⟩).status = 0 := by decide +kernel

/-- The mark tells 0, 1 and 2 apart; for all other statuses, and for those alone, it is the mark of something that goes on.  Without
    fork(2) there is none. -/
theorem C107_marks (E : XoEnv) (desc : CStr) (c : XoCmd) :
    (∀ n, c.ends = .exited n → n < 256 → xoMarks (xoRun E desc c).console = [min n 3]) ∧
    (c.ends = .noFork → xoMarks (xoRun E desc c).console = [] ∧ (xoRun E desc c).log = []) := by
  refine ⟨fun n hn h256 => ?_, fun h => ⟨?_, ?_⟩⟩
  · have hst : xoStatus E c.ends = (n : Int) := by
      rw [hn]; show ((n % 256 : Nat) : Int) = n; rw [Nat.mod_eq_of_lt h256]
    rw [xoMarks_run, hst, if_neg (by omega)]
    unfold statusRc
    congr 1
    split <;> omega
  · rw [xoMarks_run, h]; rfl
  · unfold xoRun
    dsimp only
    rw [if_pos h, xoLog_plain]
    unfold fgetsAll; rfl

/-- A command the shell did not find -/
example : xoMarks (xoRun ⟨false, true, true⟩ [] ⟨[], [], .exited 127⟩).console = [3] := by
  rw [xoMarks_run]; decide +kernel

/-- The claim does not hold: more than 1024 bytes on standard error. -/
theorem C107_full_false : ¬ C107_full := by
  intro h
  have := (h ⟨false, true, true⟩ [] [] ⟨[], List.replicate 1025 'x', .exited 0⟩ ⟨rfl, nofun⟩ (by nofun)).2.1
  rw [xoSeen_run _ _ _ (by nofun)] at this
  have := congrArg List.length this
  revert this
  decide +kernel

end Verif
