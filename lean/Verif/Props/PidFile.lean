import Verif.PidFile
import Verif.Props.Util

/-!
# C37, C39: PID files, `kill:` and `halt:`
-/

namespace Verif

/-! ## C37 -/

/-- The directory for PID files: `/run` or, without it, `/var/run`. -/
def RunDir (pre : CStr) : Prop := pre = "/run".toList ∨ pre = "/var/run".toList

/-- `name` with `.pid` at the end. -/
def dotPid (name : CStr) : CStr :=
  if ".pid".toList.isSuffixOf name then name else name ++ ".pid".toList

/-- C37 as stated, from the comment in src/pid.c:178-205: what `svc->pidfile` is for each documented
    form, `base` being the basename of the command.  It is false. -/
def C37_full : Prop :=
  ∀ pre forking old base name, RunDir pre → name ≠ [] → '/' ∉ name → '!' ∉ name → name.length ≤ 40 →
    pidFileParse pre forking old ("pid:".toList ++ name) =
      .ok ((if forking then ['!'] else []) ++ pre ++ '/' :: dotPid name) ∧
    pidFileParse pre forking old ("pid:!".toList ++ name) = .ok ('!' :: pre ++ '/' :: dotPid name) ∧
    pidFileParse pre forking old ("pid:!/run/".toList ++ name) = .ok ('!' :: pre ++ '/' :: dotPid name) ∧
    pidFileParse pre forking old ("pid:/tmp/".toList ++ name) =
      .ok ((if forking then ['!'] else []) ++ "/tmp/".toList ++ dotPid name) ∧
    pidFileParse pre forking [] "pid".toList =
      .ok ((if forking then ['!'] else []) ++ pre ++ '/' :: base ++ ".pid".toList)

/-- A file elsewhere is not possible, and `pid` alone is refused. -/
theorem C37_some_forms_fail : ¬ C37_full ∧
    pidFileParse "/run".toList false [] "pid:/tmp/foo".toList = .ok "/run/tmp/foo".toList ∧
    pidFileParse "/run".toList false [] "pid".toList = .bad := by
  refine ⟨?_, by decide +kernel, by decide +kernel⟩
  intro h
  have := (h "/run".toList false [] "foo".toList "foo".toList (.inl rfl) (by decide) (by decide) (by decide) (by decide)).2.2.2.2
  exact absurd this (by decide +kernel)

theorem no_sub_cons {c : Char} {s pat : CStr} (h0 : ∀ b, c :: s ≠ pat ++ b)
    (h : ∀ a b, s ≠ a ++ pat ++ b) : ∀ a b, c :: s ≠ a ++ pat ++ b := by
  intro a b e
  cases a with
  | nil => exact h0 b e
  | cons x xs =>
    simp only [List.cons_append, List.cons.injEq] at e
    exact h xs b e.2

theorem no_end_cons {c : Char} {s pat : CStr} (h0 : c :: s ≠ pat)
    (h : ∀ a, s ≠ a ++ pat) : ∀ a, c :: s ≠ a ++ pat := by
  intro a e
  cases a with
  | nil => exact h0 e
  | cons x xs =>
    simp only [List.cons_append, List.cons.injEq] at e
    exact h xs e.2

/-- A file in one of the two directories is a clean path. -/
theorem slash_free_clean {pre name : CStr} (hp : pre = "/run/".toList ∨ pre = "/var/run/".toList)
    (hn : '/' ∉ name) (h1 : name ≠ "..".toList) : deDotdot (pre ++ name) = pre ++ name := by
  have base : ∀ pat : CStr, '/' ∈ pat → ∀ a b, name ≠ a ++ pat ++ b := by
    intro pat hpat a b e
    exact hn (by rw [e]; simp [hpat])
  have slash : ∀ pat : CStr, '/' ∈ pat → ∀ b, name ≠ pat ++ b := by
    intro pat hpat b
    exact base pat hpat [] b
  have h3 : ∀ a b, '/' :: name ≠ a ++ "/./".toList ++ b :=
    no_sub_cons (fun b e => slash ['.', '/'] (by decide) b (by simpa using e)) (base _ (by decide))
  have h4 : ∀ a b, '/' :: name ≠ a ++ "/../".toList ++ b :=
    no_sub_cons (fun b e => slash ['.', '.', '/'] (by decide) b (by simpa using e)) (base _ (by decide))
  have h6 : ∀ a b, '/' :: name ≠ a ++ "//".toList ++ b :=
    no_sub_cons (fun b e => slash ['/'] (by decide) b (by simpa using e)) (base _ (by decide))
  have h5 : ∀ a, '/' :: name ≠ a ++ "/..".toList :=
    no_end_cons (fun e => h1 (by simpa using e)) (fun a e => base "/..".toList (by decide) a [] (by simpa using e))
  rcases hp with rfl | rfl
  · show deDotdot ('/' :: 'r' :: 'u' :: 'n' :: '/' :: name) = '/' :: 'r' :: 'u' :: 'n' :: '/' :: name
    apply C31_clean_path_unchanged
    · intro t e; simp at e
    · intro t e; simp at e
    · exact no_sub_cons (by simp) (no_sub_cons (by simp) (no_sub_cons (by simp) (no_sub_cons (by simp) h3)))
    · exact no_sub_cons (by simp) (no_sub_cons (by simp) (no_sub_cons (by simp) (no_sub_cons (by simp) h4)))
    · exact no_end_cons (by simp) (no_end_cons (by simp) (no_end_cons (by simp) (no_end_cons (by simp) h5)))
    · exact no_sub_cons (by simp) (no_sub_cons (by simp) (no_sub_cons (by simp) (no_sub_cons (by simp) h6)))
  · show deDotdot ('/' :: 'v' :: 'a' :: 'r' :: '/' :: 'r' :: 'u' :: 'n' :: '/' :: name) =
      '/' :: 'v' :: 'a' :: 'r' :: '/' :: 'r' :: 'u' :: 'n' :: '/' :: name
    apply C31_clean_path_unchanged
    · intro t e; simp at e
    · intro t e; simp at e
    · exact no_sub_cons (by simp) (no_sub_cons (by simp) (no_sub_cons (by simp) (no_sub_cons (by simp)
        (no_sub_cons (by simp) (no_sub_cons (by simp) (no_sub_cons (by simp) (no_sub_cons (by simp) h3)))))))
    · exact no_sub_cons (by simp) (no_sub_cons (by simp) (no_sub_cons (by simp) (no_sub_cons (by simp)
        (no_sub_cons (by simp) (no_sub_cons (by simp) (no_sub_cons (by simp) (no_sub_cons (by simp) h4)))))))
    · exact no_end_cons (by simp) (no_end_cons (by simp) (no_end_cons (by simp) (no_end_cons (by simp)
        (no_end_cons (by simp) (no_end_cons (by simp) (no_end_cons (by simp) (no_end_cons (by simp) h5)))))))
    · exact no_sub_cons (by simp) (no_sub_cons (by simp) (no_sub_cons (by simp) (no_sub_cons (by simp)
        (no_sub_cons (by simp) (no_sub_cons (by simp) (no_sub_cons (by simp) (no_sub_cons (by simp) h6)))))))

theorem strstr_run {pre name : CStr} (hp : pre = "/run/".toList ∨ pre = "/var/run/".toList) :
    ∃ a, strstr "/run/".toList (pre ++ name) = some (a, name) := by
  rcases hp with rfl | rfl
  · exact ⟨[], by simp [strstr]⟩
  · exact ⟨"/var".toList, by simp [strstr]⟩

/-- `pid_file_set` on a file in one of the two directories. -/
theorem pidFileSet_run {pre dir name : CStr} (hpre : RunDir pre) (hd : dir = "/run/".toList ∨ dir = "/var/run/".toList)
    (hn : '/' ∉ name) (h1 : name ≠ "..".toList) (hl : name.length ≤ 240) (forking : Bool) (old : CStr) :
    pidFileSet pre forking old (some (dir ++ name)) false =
      .ok ((if forking then ['!'] else []) ++ pre ++ '/' :: name) ∧
    pidFileSet pre forking old (some ('!' :: (dir ++ name))) false = .ok ('!' :: pre ++ '/' :: name) := by
  have hh : (dir ++ name).head? = some '/' := by rcases hd with rfl | rfl <;> rfl
  have hc := slash_free_clean hd hn h1
  obtain ⟨a, ha⟩ := strstr_run (name := name) hd
  have hs : name.head? ≠ some '/' := by
    intro e
    cases name with
    | nil => cases e
    | cons c cs =>
      cases e
      exact hn (List.mem_cons_self ..)
  have hlen : pre.length ≤ 8 := by rcases hpre with rfl | rfl <;> decide
  have hr : pidRunpath pre (dir ++ name) 256 = pre ++ '/' :: name := by
    simp only [pidRunpath, afterRun, ha, paste, if_neg hs]
    rw [List.take_of_length_le]
    · simp
    · simp; omega
  have ht : ∀ k, 250 ≤ k → (pre ++ '/' :: name).take k = pre ++ '/' :: name := by
    intro k hk
    rw [List.take_of_length_le]
    simp; omega
  have hne : ¬ ((dir ++ name).head? = some '!') := by rw [hh]; decide
  constructor
  · show (if (false || decide ((dir ++ name).head? = some '!') || forking) = true then
        PidRes.ok ('!' :: (pidRunpath pre (deDotdot (if (dir ++ name).head? = some '!' then (dir ++ name).drop 1 else dir ++ name)) 256).take 254)
      else PidRes.ok ((pidRunpath pre (deDotdot (if (dir ++ name).head? = some '!' then (dir ++ name).drop 1 else dir ++ name)) 256).take 255)) = _
    rw [if_neg hne, hc, hr, ht _ (by decide), ht _ (by decide), decide_eq_false hne]
    cases forking <;> rfl
  · show PidRes.ok ('!' :: (pidRunpath pre (deDotdot (dir ++ name)) 256).take 254) = _
    rw [hc, hr, ht _ (by decide)]
    rfl

/-- The longer path ends in `.pid` exactly if the name does. -/
theorem suffix_pid (dir name : CStr) :
    ".pid".toList.isSuffixOf (dir ++ '/' :: name) = ".pid".toList.isSuffixOf name := by
  rw [Bool.eq_iff_iff, List.isSuffixOf_iff_suffix, List.isSuffixOf_iff_suffix]
  constructor
  · rintro ⟨t, ht⟩
    rcases List.append_eq_append_iff.mp ht with ⟨a, e1, e2⟩ | ⟨a, e1, e2⟩
    · -- the suffix starts before the slash
      exfalso
      have : '/' ∈ ".pid".toList := by rw [e2]; simp
      exact absurd this (by decide)
    · cases a with
      | nil =>
        exfalso
        have : '/' ∈ ".pid".toList := by
          have e2 : '/' :: name = ".pid".toList := e2
          rw [← e2]; simp
        exact absurd this (by decide)
      | cons c a =>
        simp only [List.cons_append, List.cons.injEq] at e2
        exact ⟨a, e2.2.symm⟩
  · rintro ⟨t, ht⟩
    exact ⟨dir ++ '/' :: t, by rw [← ht]; simp⟩

theorem drop_suffix (s : CStr) :
    s.drop (s.length - 4) = ".pid".toList ↔ ".pid".toList.isSuffixOf s = true := by
  rw [List.isSuffixOf_iff_suffix]
  constructor
  · intro e
    exact ⟨s.take (s.length - 4), by rw [← e, List.take_append_drop]⟩
  · rintro ⟨t, ht⟩
    have : s.length - 4 = t.length := by rw [← ht]; simp
    rw [this, ← ht]; simp

/-- Missing from the full statement: a path outside the run directory, and `pid` alone.  The other
    documented forms give the documented path: in the run directory, with `.pid` at the end. -/
theorem C37_pid_forms_partial (pre : CStr) (forking : Bool) (old name : CStr) (hpre : RunDir pre)
    (hn : '/' ∉ name) (hb : name.head? ≠ some '!') (hl : name.length ≤ 49) :
    pidFileParse pre forking old ("pid:".toList ++ name) =
      .ok ((if forking then ['!'] else []) ++ pre ++ '/' :: dotPid name) ∧
    pidFileParse pre forking old ("pid:!".toList ++ name) = .ok ('!' :: pre ++ '/' :: dotPid name) ∧
    (∀ dir, dir = "/run/".toList ∨ dir = "/var/run/".toList → name ≠ "..".toList →
      pidFileParse pre forking old ("pid:".toList ++ dir ++ name) =
        .ok ((if forking then ['!'] else []) ++ pre ++ '/' :: name) ∧
      pidFileParse pre forking old ("pid:!".toList ++ dir ++ name) = .ok ('!' :: pre ++ '/' :: name)) := by
  have hd : '/' ∉ dotPid name ∧ dotPid name ≠ "..".toList ∧ (dotPid name).length ≤ 240 := by
    unfold dotPid
    split
    · rename_i hs
      refine ⟨hn, ?_, by omega⟩
      rintro rfl
      exact absurd hs (by decide)
    · refine ⟨by simp [hn], ?_, by simp; omega⟩
      intro e
      have := congrArg List.length e
      simp at this
  have hs : name.head? ≠ some '/' := by
    intro e
    cases name with
    | nil => cases e
    | cons c cs =>
      cases e
      exact hn (List.mem_cons_self ..)
  have step : ∀ not : Bool,
      pidFileParse pre forking old ("pid:".toList ++ ((if not then ['!'] else []) ++ name)) =
        pidFileSet pre forking old (some ((if not then ['!'] else []) ++ ("/var/run/".toList ++ dotPid name))) false := by
    intro not
    have h1 : ¬ ("!/".toList.isPrefixOf ((if not then ['!'] else []) ++ name) = true ∨
        ((if not then ['!'] else []) ++ name).head? = some '/') := by
      cases name with
      | nil => cases not <;> decide
      | cons c cs =>
        have h2 : c ≠ '!' := fun e => hb (by rw [e]; rfl)
        have h3 : c ≠ '/' := fun e => hs (by rw [e]; rfl)
        cases not <;> simp [List.isPrefixOf, h3, Ne.symm h2, Ne.symm h3]
    have h2 : decide (((if not then ['!'] else []) ++ name).head? = some '!') = not := by
      cases not
      · simpa using hb
      · rfl
    have h3 : (if not = true then ((if not then ['!'] else []) ++ name).drop 1 else (if not then ['!'] else []) ++ name) = name := by
      cases not <;> rfl
    unfold pidFileParse
    rw [if_neg (by simp), if_pos (by simp [List.isPrefixOf])]
    have h4 : ("pid:".toList ++ ((if not then ['!'] else []) ++ name)).drop 4 = (if not then ['!'] else []) ++ name := rfl
    extract_lets arg not' arg' full path
    have e0 : arg = (if not then ['!'] else []) ++ name := h4
    have e1 : not' = not := by
      show decide (arg.head? = some '!') = not
      rw [e0]; exact h2
    have e2 : arg' = name := by
      show (if not' = true then arg.drop 1 else arg) = name
      rw [e1, e0]; exact h3
    have e3 : full = (if not then ['!'] else []) ++ ("/var/run".toList ++ '/' :: name) := by
      show (if not' = true then ['!'] else []) ++ "/var/run/".toList ++ arg' = _
      rw [e1, e2, List.append_assoc]; rfl
    have hlen : full.length = (if not then 1 else 0) + 9 + name.length := by
      rw [e3]; cases not <;> simp <;> omega
    have hle : full.length ≤ 59 ∧ 9 ≤ full.length := by
      rw [hlen]; cases not <;> simp <;> omega
    have e4 : path = full := List.take_of_length_le (by omega)
    rw [e0, if_neg h1, if_pos (by omega), if_neg (by omega), e4]
    have hsuf : ".pid".toList.isSuffixOf full = ".pid".toList.isSuffixOf name := by
      rw [e3, ← List.append_assoc]; exact suffix_pid _ _
    by_cases hp : ".pid".toList.isSuffixOf name = true
    · rw [if_neg (by rw [ne_eq, drop_suffix, hsuf]; simpa using hp)]
      rw [dotPid, if_pos hp, e3]; rfl
    · rw [if_pos (by rw [ne_eq, drop_suffix, hsuf]; exact hp)]
      rw [dotPid, if_neg hp, strlcat, List.take_of_length_le (by simp; omega), e3]
      simp
  refine ⟨?_, ?_, ?_⟩
  · rw [show "pid:".toList ++ name = "pid:".toList ++ ((if false = true then ['!'] else []) ++ name) from rfl, step]
    exact (pidFileSet_run hpre (.inr rfl) hd.1 hd.2.1 hd.2.2 forking old).1
  · rw [show "pid:!".toList ++ name = "pid:".toList ++ ((if true = true then ['!'] else []) ++ name) from rfl, step]
    exact (pidFileSet_run hpre (.inr rfl) hd.1 hd.2.1 hd.2.2 forking old).2
  · intro dir hdir hne
    have key := pidFileSet_run hpre hdir hn hne (by omega) forking old
    rw [← key.1, ← key.2]
    rcases hdir with rfl | rfl
    · constructor <;> simp [pidFileParse, List.isPrefixOf]
    · constructor <;> simp [pidFileParse, List.isPrefixOf]

example : pidFileParse "/run".toList false [] "pid:!foo.tla".toList = .ok "!/run/foo.tla.pid".toList := by
  decide +kernel

theorem paste_confined {pre g : CStr} (hpre : RunDir pre) (hg : NoUp g) (hg' : ∀ t, g ≠ '.' :: '.' :: '/' :: t) :
    ∃ rest, paste pre g = pre ++ '/' :: rest ∧ ∀ a b, paste pre g ≠ a ++ "/../".toList ++ b := by
  have inner : ∀ a b, g ≠ a ++ "/../".toList ++ b := by
    intro a b e
    exact (hg (a ++ ['/']) b (by rw [e]; simp)).2 a rfl
  have slash : ∀ h : CStr, (∀ t, h ≠ '.' :: '.' :: '/' :: t) → (∀ a b, h ≠ a ++ "/../".toList ++ b) →
      ∀ a b, pre ++ '/' :: h ≠ a ++ "/../".toList ++ b := by
    intro h h1 h2
    have h0 : ∀ a b, '/' :: h ≠ a ++ "/../".toList ++ b :=
      no_sub_cons (fun b e => h1 b (by simpa using e)) h2
    rcases hpre with rfl | rfl
    · show ∀ a b, '/' :: 'r' :: 'u' :: 'n' :: '/' :: h ≠ _
      exact no_sub_cons (by simp) (no_sub_cons (by simp) (no_sub_cons (by simp) (no_sub_cons (by simp) h0)))
    · show ∀ a b, '/' :: 'v' :: 'a' :: 'r' :: '/' :: 'r' :: 'u' :: 'n' :: '/' :: h ≠ _
      exact no_sub_cons (by simp) (no_sub_cons (by simp) (no_sub_cons (by simp) (no_sub_cons (by simp)
        (no_sub_cons (by simp) (no_sub_cons (by simp) (no_sub_cons (by simp) (no_sub_cons (by simp) h0)))))))
  unfold paste
  by_cases hh : g.head? = some '/'
  · rw [if_pos hh]
    cases g with
    | nil => cases hh
    | cons c cs =>
      cases hh
      refine ⟨cs, by simp, ?_⟩
      have := slash cs (fun t e => inner [] t (by rw [e]; rfl)) (fun a b e => inner ('/' :: a) b (by rw [e]; rfl))
      simpa using this
  · rw [if_neg hh]
    refine ⟨g, by simp, ?_⟩
    have := slash g hg' inner
    simpa using this

/-- Whatever the argument: the file that is created, read and removed is below the run directory,
    without the marker in front and without going up again. -/
theorem C37_pid_file_confined (pre : CStr) (forking : Bool) (old arg pf : CStr) (hpre : RunDir pre)
    (h : pidFileParse pre forking old arg = .ok pf) :
    ∃ rest, pidFile pf = some (pre ++ '/' :: rest) ∧ ∀ a b, pre ++ '/' :: rest ≠ a ++ "/../".toList ++ b := by
  have run : ∀ s, ∃ rest, paste pre (afterRun (deDotdot s)) = pre ++ '/' :: rest ∧ ∀ a b, pre ++ '/' :: rest ≠ a ++ "/../".toList ++ b := by
    intro s
    have h0 := deDotdot_noUp s
    have key : ∀ g, NoUp g → (∀ t, g ≠ '.' :: '.' :: '/' :: t) →
        ∃ rest, paste pre g = pre ++ '/' :: rest ∧ ∀ a b, pre ++ '/' :: rest ≠ a ++ "/../".toList ++ b := by
      intro g h1 h2
      obtain ⟨rest, e, h3⟩ := paste_confined hpre h1 h2
      exact ⟨rest, e, by rw [← e]; exact h3⟩
    unfold afterRun
    split
    · rename_i a b hs
      have e := strstr_some hs
      apply key
      · intro p q e2
        have := h0 (a ++ "/run/".toList ++ p) q (by rw [e, e2]; simp)
        refine ⟨?_, ?_⟩
        · rintro rfl
          exact this.2 (a ++ "/run".toList) (by simp)
        · rintro r rfl
          exact this.2 (a ++ "/run/".toList ++ r) (by simp)
      · intro t e2
        exact (h0 (a ++ "/run/".toList) t (by rw [e, e2])).2 (a ++ "/run".toList) (by simp)
    · apply key _ h0
      intro t e
      exact (h0 [] t e).1 rfl
  have set : ∀ file, pidFileSet pre forking old file false = .ok pf →
      ∃ rest, pidFile pf = some (pre ++ '/' :: rest) ∧ ∀ a b, pre ++ '/' :: rest ≠ a ++ "/../".toList ++ b := by
    intro file h
    have cut : ∀ k rest, 100 ≤ k → (∀ a b, pre ++ '/' :: rest ≠ a ++ "/../".toList ++ b) →
        ∃ r, (pre ++ '/' :: rest).take k = pre ++ '/' :: r ∧ ∀ a b, pre ++ '/' :: r ≠ a ++ "/../".toList ++ b := by
      intro k rest hk hr
      have hl : pre.length ≤ 8 := by rcases hpre with rfl | rfl <;> decide
      have e : (pre ++ '/' :: rest).take k = pre ++ '/' :: rest.take (k - pre.length - 1) := by
        rw [List.take_append, List.take_of_length_le (by omega)]
        obtain ⟨m, hm⟩ : ∃ m, k - pre.length = m + 1 := ⟨k - pre.length - 1, by omega⟩
        rw [hm]; rfl
      refine ⟨_, e, ?_⟩
      intro a b e2
      have e3 := List.take_append_drop k (pre ++ '/' :: rest)
      rw [e, e2] at e3
      exact hr a (b ++ (pre ++ '/' :: rest).drop k) (e3.symm.trans (by simp))
    unfold pidFileSet at h
    split at h
    · cases h
    · rename_i f _
      extract_lets n1 f1 n2 buf at h
      obtain ⟨r0, e0, h0⟩ := run f1
      have e1 : buf = (pre ++ '/' :: r0).take 255 := by
        show (paste pre _).take (256 - 1) = _
        rw [e0]
      obtain ⟨r1, e2, h1⟩ := cut 255 r0 (by decide) h0
      have hsl : ∃ c cs, pre = c :: cs ∧ c ≠ '!' := by
        rcases hpre with rfl | rfl
        · exact ⟨'/', "run".toList, rfl, by decide⟩
        · exact ⟨'/', "var/run".toList, rfl, by decide⟩
      obtain ⟨c, cs, hc, hne⟩ := hsl
      split at h
      · obtain ⟨r2, e3, h2⟩ := cut 254 r1 (by decide) h1
        cases h
        refine ⟨r2, ?_, h2⟩
        show some (buf.take 254) = _
        rw [e1, e2, e3]
      · obtain ⟨r2, e3, h2⟩ := cut 255 r1 (by decide) h1
        cases h
        refine ⟨r2, ?_, h2⟩
        rw [e1, e2, e3, hc]
        show (if c = '!' then _ else _) = _
        rw [if_neg hne]; rfl
  unfold pidFileParse at h
  split at h
  · cases h
  · split at h
    · extract_lets arg1 not arg2 full path at h
      split at h
      · exact set _ h
      · split at h
        · split at h
          · cases h
          · split at h
            · exact set _ h
            · exact set _ h
        · exact set _ h
    · split at h
      · exact set _ h
      · cases h

example : pidFileParse "/run".toList false [] "pid:../../../etc/passwd".toList = .ok "/run/etc/passwd.pid".toList := by
  decide +kernel

/-- A long name makes the parser read beyond its buffer. -/
theorem C37_long_name_reads_beyond_buffer (pre : CStr) (forking : Bool) (old : CStr) :
    pidFileParse pre forking old ("pid:".toList ++ List.replicate 59 'x') = .ub := by
  simp [pidFileParse, List.isPrefixOf, List.replicate]

/-! ## C39 -/

/-- The documented delays, in seconds. -/
def DelayOk (n : Int) : Prop := 1 ≤ n ∧ n ≤ 300

theorem strtonum_range {s : CStr} {lo hi n : Int} (h : strtonum s lo hi = some n) : lo ≤ n ∧ n ≤ hi := by
  unfold strtonum at h
  extract_lets neg s2 m at h
  split at h
  · cases h
  · split at h
    · cases h
    · have h := Option.some.inj h
      omega

theorem Decimal.strtonum {s : CStr} {n : Nat} (h : Decimal s n) (lo hi : Int) :
    Verif.strtonum s lo hi = if (n : Int) < lo ∨ (n : Int) > hi then none else some (n : Int) := by
  obtain ⟨h1, h2⟩ := h.digits
  have hne : s ≠ [] := by cases h <;> simp
  cases s with
  | nil => exact absurd rfl hne
  | cons c cs =>
    have hd := h1 c (List.mem_cons_self ..)
    have hd' : 48 ≤ c.toNat ∧ c.toNat ≤ 57 := by simpa [isDigit] using hd
    have hsp : isSpace c = false := by simp [isSpace]; omega
    have hm : c ≠ '-' := by rintro rfl; exact absurd hd (by decide)
    have hp : c ≠ '+' := by rintro rfl; exact absurd hd (by decide)
    have e1 : (c :: cs).dropWhile isSpace = c :: cs := by simp [hsp]
    unfold Verif.strtonum
    rw [e1]
    have e2 : signOf (c :: cs) = (false, c :: cs) := by
      simp [signOf, hm, hp]
    simp only [e2]
    rw [if_neg (by
      rintro (h | h)
      · cases h
      · exact h h1), h2]
    rfl

/-- `kill:` with a delay in the documented range sets it, in milliseconds; a number outside the range
    or anything that is not a number leaves the delay alone; so it is always positive and at most five
    minutes. -/
theorem C39_killdelay (cur : Int) (s : CStr) :
    (∀ n, Decimal s n → DelayOk n → parseKilldelay cur s = n * 1000) ∧
    (∀ n, Decimal s n → ¬ DelayOk n → parseKilldelay cur s = cur) ∧
    (∀ c ∈ s, isDigit c = false → isSpace c = false → c ∉ ['-', '+'] → parseKilldelay cur s = cur) ∧
    (parseKilldelay cur s = cur ∨ ∃ n, DelayOk n ∧ parseKilldelay cur s = n * 1000) := by
  refine ⟨?_, ?_, ?_, ?_⟩
  · intro n h hn
    unfold DelayOk at hn
    simp only [parseKilldelay, h.strtonum]
    rw [if_neg (by omega)]
  · intro n h hn
    unfold DelayOk at hn
    simp only [parseKilldelay, h.strtonum]
    rw [if_pos (by omega)]
  · intro c hc h1 h2 h3
    have key : strtonum s 1 300 = none := by
      unfold strtonum
      have hc1 : c ∈ s.dropWhile isSpace := by
        have := List.takeWhile_append_dropWhile (p := isSpace) (l := s)
        rw [← this] at hc
        rcases List.mem_append.mp hc with h | h
        · have := List.all_eq_true.mp (List.all_takeWhile (p := isSpace) (l := s)) c h
          rw [h2] at this; cases this
        · exact h
      simp only [List.mem_cons, List.not_mem_nil, or_false, not_or] at h3
      have hc2 : c ∈ (signOf (s.dropWhile isSpace)).2 := by
        generalize s.dropWhile isSpace = t at hc1
        cases t with
        | nil => cases hc1
        | cons d t =>
          unfold signOf
          split
          · rename_i hd; cases hd
            rcases List.mem_cons.mp hc1 with h | h
            · exact absurd h h3.1
            · exact h
          · split
            · rename_i hd; cases hd
              rcases List.mem_cons.mp hc1 with h | h
              · exact absurd h h3.2
              · exact h
            · exact hc1
      rw [if_pos]
      right
      intro hall
      have := hall c hc2
      rw [h1] at this; cases this
    simp only [parseKilldelay, key]
  · unfold parseKilldelay
    split
    · exact .inl rfl
    · rename_i n h
      exact .inr ⟨n, strtonum_range h, rfl⟩

example : parseKilldelay 3000 "20".toList = 20000 ∧ parseKilldelay 3000 "301".toList = 3000 ∧
    parseKilldelay 3000 "2s".toList = 3000 ∧ parseKilldelay 3000 "99999999999999999999".toList = 3000 := by
  decide +kernel

/-- `halt:` with the name of a signal sets that signal, anything else leaves it alone. -/
theorem C39_sighalt (cur : Int) (s : CStr) :
    (∀ n name, (n, name) ∈ linuxSignals ++ aliases → Spells s name → parseSighalt cur s = n) ∧
    ((∀ p ∈ linuxSignals ++ aliases, ¬ Spells s p.2) → parseSighalt cur s = cur) := by
  constructor
  · intro n name hm hs
    have hn : n ≠ -1 := by
      have : ∀ p ∈ linuxSignals ++ aliases, p.1 ≠ -1 := by decide +kernel
      exact this _ hm
    have := (C32_config_name_to_number s n hn).mpr ⟨name, hm, hs⟩
    unfold parseSighalt
    rw [this, if_neg hn]
  · intro h
    unfold parseSighalt
    rw [if_pos ((C32_unknown_rejected s).2 h)]

example : parseSighalt 15 "Usr1".toList = 10 ∧ parseSighalt 15 "10".toList = 15 := by decide +kernel

end Verif
