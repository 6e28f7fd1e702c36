import Verif.Sysctl

/-!
# C96: Settings of the kernel

The directories are in the order of sysctl(8), `--system`: a file in an earlier directory replaces those of the same name in later
ones, the files that are left are taken in the order of their names wherever they are, and /etc/sysctl.conf is last.
-/

namespace Verif

/-- The directories of sysctl(8), and the one for local files of Finit -/
def sysctlDirs : List CStr :=
  ["/run/sysctl.d".toList, "/etc/sysctl.d".toList, "/usr/local/lib/sysctl.d".toList, "/usr/lib/sysctl.d".toList,
   "/lib/sysctl.d".toList, "/mnt/sysctl.d".toList]

/-- What is in a file of a directory -/
def textIn (fs : SctlFs) (d n : CStr) : List (CStr × CStr) := fs.text (d ++ '/' :: n)

/-- A file has a setting for a key -/
def SetsKey (f : List (CStr × CStr)) (k : CStr) : Prop := ∃ s ∈ f, s.1 = k

/-- The last setting a file has for a key -/
def LastSets (f : List (CStr × CStr)) (k v : CStr) : Prop :=
  ∃ pre post, f = pre ++ (k, v) :: post ∧ ¬ SetsKey post k

/-- A file that no other replaces -/
def Effective (fs : SctlFs) (d n : CStr) : Prop :=
  n ∈ fs.dir d ∧ ∀ pre post, sysctlDirs = pre ++ d :: post → ∀ d' ∈ pre, n ∉ fs.dir d'

/-- The value a key is to have -/
def SctlWanted (fs : SctlFs) (k v : CStr) : Prop :=
  LastSets (fs.text "/etc/sysctl.conf".toList) k v ∨
  ¬ SetsKey (fs.text "/etc/sysctl.conf".toList) k ∧
    ∃ d ∈ sysctlDirs, ∃ n, Effective fs d n ∧ LastSets (textIn fs d n) k v ∧
      ∀ d' ∈ sysctlDirs, ∀ n', Effective fs d' n' → SetsKey (textIn fs d' n') k → ¬ n < n'

/-- Files whose path is short and has no blank; /dev/null can be written to; the names of a directory are sorted -/
structure SctlOk (fs : SctlFs) : Prop where
  short : ∀ d ∈ sysctlDirs, ∀ n ∈ fs.dir d, (d ++ '/' :: n).length ≤ 129 ∧ ' ' ∉ n
  null : fs.writable "/dev/null".toList = true
  sorted : ∀ d ∈ sysctlDirs, (fs.dir d).Pairwise (· < ·)

/-- The claim -/
def C96_full : Prop :=
  ∀ fs, SctlOk fs → ∀ (v0 : SctlVals) (k v : CStr), SctlWanted fs k v → sctlSetup fs false v0 k = some v

/-! ## Settings in order -/

theorem sctl_not (f : List (CStr × CStr)) (k : CStr) (h : ¬ SetsKey f k) (v : SctlVals) : f.foldl sctlSet v k = v k := by
  induction f generalizing v with
  | nil => rfl
  | cons s f ih =>
    rw [List.foldl_cons, ih (fun ⟨t, ht, e⟩ => h ⟨t, List.mem_cons_of_mem _ ht, e⟩)]
    show (if k = s.1 then _ else _) = _
    rw [if_neg (fun e => h ⟨s, List.mem_cons_self .., e.symm⟩)]

theorem sctl_last (f : List (CStr × CStr)) (k x : CStr) (h : LastSets f k x) (v : SctlVals) : f.foldl sctlSet v k = some x := by
  rcases h with ⟨pre, post, e, hp⟩
  rw [e, List.foldl_append, List.foldl_cons, sctl_not post k hp]
  show (if k = k then _ else _) = _
  rw [if_pos rfl]

theorem LastSets.append {a b : List (CStr × CStr)} {k x : CStr} (h : LastSets a k x) (hb : ¬ SetsKey b k) (p : List (CStr × CStr)) :
    LastSets (p ++ (a ++ b)) k x := by
  rcases h with ⟨pre, post, e, hp⟩
  refine ⟨p ++ pre, post ++ b, by rw [e]; simp, ?_⟩
  rintro ⟨s, hs, he⟩
  rcases List.mem_append.1 hs with hs | hs
  · exact hp ⟨s, hs, he⟩
  · exact hb ⟨s, hs, he⟩

theorem LastSets.sets {a : List (CStr × CStr)} {k x : CStr} (h : LastSets a k x) : SetsKey a k := by
  rcases h with ⟨pre, post, e, _⟩
  exact ⟨(k, x), by rw [e]; simp, rfl⟩

theorem sctl_line_short (path : CStr) (h : path.length ≤ 129) : sctlLine path = sctlCmd ++ path ++ " >/dev/null".toList := by
  unfold sctlLine
  rw [List.take_of_length_le]
  have : sctlCmd.length = 19 := by decide
  have h2 : (" >/dev/null".toList).length = 11 := by decide
  simp only [List.length_append, this, h2]
  omega

theorem sctl_take_word (path rest : CStr) (h : ' ' ∉ path) :
    (path ++ ' ' :: rest).takeWhile (· ≠ ' ') = path ∧ (path ++ ' ' :: rest).dropWhile (· ≠ ' ') = ' ' :: rest := by
  induction path with
  | nil => exact ⟨rfl, rfl⟩
  | cons c p ih =>
    have hc : c ≠ ' ' := fun e => h (e ▸ List.mem_cons_self ..)
    have := ih (fun m => h (List.mem_cons_of_mem _ m))
    rw [List.cons_append, List.takeWhile_cons, List.dropWhile_cons, if_pos (by simpa using hc), if_pos (by simpa using hc)]
    exact ⟨by rw [this.1], this.2⟩

theorem sctl_take_all (path : CStr) (h : ' ' ∉ path) :
    path.takeWhile (· ≠ ' ') = path ∧ path.dropWhile (· ≠ ' ') = [] := by
  induction path with
  | nil => exact ⟨rfl, rfl⟩
  | cons c p ih =>
    have hc : c ≠ ' ' := fun e => h (e ▸ List.mem_cons_self ..)
    have := ih (fun m => h (List.mem_cons_of_mem _ m))
    rw [List.takeWhile_cons, List.dropWhile_cons, if_pos (by simpa using hc), if_pos (by simpa using hc)]
    exact ⟨by rw [this.1], this.2⟩

theorem sctl_shell_short (fs : SctlFs) (path : CStr) (h : path.length ≤ 129) (hb : ' ' ∉ path)
    (hn : fs.writable "/dev/null".toList = true) : sctlShell fs (sctlLine path) = some path := by
  have hw := sctl_take_word path ">/dev/null".toList hb
  have hd : (sctlLine path).drop sctlCmd.length = path ++ ' ' :: ">/dev/null".toList := by
    rw [sctl_line_short path h, List.append_assoc, List.drop_left]
    rfl
  unfold sctlShell
  rw [hd]
  dsimp only
  rw [hw.1, hw.2]
  show (if "/dev/null".toList = [] then none else if fs.writable "/dev/null".toList = true then some path else none) = _
  rw [if_neg (by decide), if_pos hn]

/-- All settings in the order they are made -/
def sctlAll (fs : SctlFs) : List (CStr × CStr) :=
  sysctlDirs.flatMap (fun d => (fs.dir d).flatMap (textIn fs d)) ++ fs.text "/etc/sysctl.conf".toList

theorem sctl_files (fs : SctlFs) (ps : List CStr) (h : ∀ p ∈ ps, sctlShell fs (sctlLine p) = some p) (v : SctlVals) :
    ps.foldl (sctlFile fs) v = (ps.flatMap fs.text).foldl sctlSet v := by
  induction ps generalizing v with
  | nil => rfl
  | cons p ps ih =>
    rw [List.foldl_cons, List.flatMap_cons, List.foldl_append, ih (fun q hq => h q (List.mem_cons_of_mem _ hq))]
    unfold sctlFile
    rw [h p (List.mem_cons_self ..)]

theorem sctl_noBlank (d n : CStr) (hd : d ∈ sysctlDirs) (hn : ' ' ∉ n) : ' ' ∉ d ++ '/' :: n := by
  have : ∀ d ∈ sysctlDirs, ' ' ∉ d := by decide
  simp [this d hd, hn]

theorem sctl_setup (fs : SctlFs) (h : SctlOk fs) (v : SctlVals) : sctlSetup fs false v = (sctlAll fs).foldl sctlSet v := by
  show (sctlPaths fs).foldl (sctlFile fs) v = _
  rw [sctl_files]
  · congr 1
    unfold sctlPaths sctlAll
    rw [List.flatMap_append, List.flatMap_assoc]
    congr 1
    · show List.flatMap _ sysctlDirs = _
      congr 1
      funext d
      rw [List.flatMap_map]
      rfl
    · show fs.text sctlConf ++ [] = _
      rw [List.append_nil]
      rfl
  · intro p hp
    rcases List.mem_append.1 hp with hp | hp
    · rcases List.mem_flatMap.1 hp with ⟨d, hd, hp⟩
      rcases List.mem_map.1 hp with ⟨n, hn, rfl⟩
      have := h.short d hd n hn
      exact sctl_shell_short fs _ this.1 (sctl_noBlank d n hd this.2) h.null
    · have : p = sctlConf := by simpa using hp
      subst this
      exact sctl_shell_short fs _ (by decide) (by decide) h.null

/-- What the files say, in the order they are read -/
theorem sctl_dir (fs : SctlFs) (h : SctlOk fs) (pre post : List CStr) (d : CStr) (a b : List CStr) (n k v : CStr)
    (hd : sysctlDirs = pre ++ d :: post) (hn : fs.dir d = a ++ n :: b) (hv : LastSets (textIn fs d n) k v)
    (hb : ∀ m ∈ b, ¬ SetsKey (textIn fs d m) k) (hp : ∀ e ∈ post, ∀ m ∈ fs.dir e, ¬ SetsKey (textIn fs e m) k)
    (hc : ¬ SetsKey (fs.text "/etc/sysctl.conf".toList) k) (v0 : SctlVals) : sctlSetup fs false v0 k = some v := by
  rw [sctl_setup fs h]
  refine sctl_last _ k v ?_ v0
  have : sctlAll fs = (pre.flatMap (fun d => (fs.dir d).flatMap (textIn fs d)) ++ a.flatMap (textIn fs d)) ++
      (textIn fs d n ++ (b.flatMap (textIn fs d) ++ (post.flatMap (fun d => (fs.dir d).flatMap (textIn fs d)) ++
        fs.text "/etc/sysctl.conf".toList))) := by
    unfold sctlAll
    rw [hd, List.flatMap_append, List.flatMap_cons, hn, List.flatMap_append, List.flatMap_cons]
    simp only [List.append_assoc]
  rw [this]
  refine hv.append ?_ _
  rintro ⟨s, hs, e⟩
  rcases List.mem_append.1 hs with hs | hs
  · rcases List.mem_flatMap.1 hs with ⟨m, hm, hs⟩
    exact hb m hm ⟨s, hs, e⟩
  rcases List.mem_append.1 hs with hs | hs
  · rcases List.mem_flatMap.1 hs with ⟨d', hd', hs⟩
    rcases List.mem_flatMap.1 hs with ⟨m, hm, hs⟩
    exact hp d' hd' m hm ⟨s, hs, e⟩
  · exact hc ⟨s, hs, e⟩

/-! ## The property -/

/-- Keys of /etc/sysctl.conf have its value.  The others have the value they are to have if no name is in two directories and the key
    is set in one directory.  A key that is nowhere stays as it was. -/
theorem C96_partial (fs : SctlFs) (h : SctlOk fs) (v0 : SctlVals) (k : CStr) :
    (∀ v, LastSets (fs.text "/etc/sysctl.conf".toList) k v → sctlSetup fs false v0 k = some v) ∧
    ((∀ pre d post, sysctlDirs = pre ++ d :: post → ∀ n ∈ fs.dir d, ∀ d' ∈ pre, n ∉ fs.dir d') →
      (∀ d ∈ sysctlDirs, ∀ d' ∈ sysctlDirs, ∀ n ∈ fs.dir d, ∀ n' ∈ fs.dir d', SetsKey (textIn fs d n) k →
        SetsKey (textIn fs d' n') k → d = d') →
      ∀ v, SctlWanted fs k v → sctlSetup fs false v0 k = some v) ∧
    ((∀ d ∈ sysctlDirs, ∀ n ∈ fs.dir d, ¬ SetsKey (textIn fs d n) k) → ¬ SetsKey (fs.text "/etc/sysctl.conf".toList) k →
      sctlSetup fs false v0 k = v0 k) := by
  have hconf : ∀ v, LastSets (fs.text "/etc/sysctl.conf".toList) k v → sctlSetup fs false v0 k = some v := by
    intro v hv
    rw [sctl_setup fs h]
    refine sctl_last _ k v ?_ v0
    have := hv.append (b := []) (fun ⟨s, hs, _⟩ => (nomatch hs)) (sysctlDirs.flatMap (fun d => (fs.dir d).flatMap (textIn fs d)))
    rw [List.append_nil] at this
    exact this
  refine ⟨hconf, fun htwice hone v hw => ?_, fun hno hc => ?_⟩
  · rcases hw with hw | ⟨hc, d, hd, n, heff, hv, hmax⟩
    · exact hconf v hw
    · rcases List.append_of_mem hd with ⟨pre, post, hd'⟩
      rcases List.append_of_mem heff.1 with ⟨a, b, hn⟩
      have hnd : sysctlDirs.Nodup := by decide
      have heffAll : ∀ e ∈ sysctlDirs, ∀ m ∈ fs.dir e, Effective fs e m :=
        fun e _ m hm => ⟨hm, fun p q hpq d' hd' => htwice p e q hpq m hm d' hd'⟩
      refine sctl_dir fs h pre post d a b n k v hd' hn hv ?_ ?_ hc v0
      · intro m hm hs
        have hs' := h.sorted d hd
        rw [hn, List.pairwise_append, List.pairwise_cons] at hs'
        exact hmax d hd m (heffAll d hd m (by rw [hn]; simp [hm])) hs (hs'.2.1.1 m hm)
      · intro e he m hm hs
        have heD : e ∈ sysctlDirs := by rw [hd']; simp [he]
        have : d = e := hone d hd e heD n heff.1 m hm hv.sets hs
        subst this
        rw [hd', List.nodup_append] at hnd
        exact (List.nodup_cons.1 hnd.2.1).1 he
  · rw [sctl_setup fs h]
    refine sctl_not _ k ?_ v0
    rintro ⟨s, hs, e⟩
    rcases List.mem_append.1 hs with hs | hs
    · rcases List.mem_flatMap.1 hs with ⟨d, hd, hs⟩
      rcases List.mem_flatMap.1 hs with ⟨m, hm, hs⟩
      exact hno d hd m hm ⟨s, hs, e⟩
    · exact hc ⟨s, hs, e⟩

/-- Whatever the files in the directories before say, the last directory with a setting has its way, so a file of the vendor goes over
    one of the administrator -/
theorem C96_vendor (fs : SctlFs) (h : SctlOk fs) (v0 : SctlVals) (pre post : List CStr) (d : CStr) (a b : List CStr) (n k v : CStr)
    (hd : sysctlDirs = pre ++ d :: post) (hn : fs.dir d = a ++ n :: b) (hv : LastSets (textIn fs d n) k v)
    (hb : ∀ m ∈ b, ¬ SetsKey (textIn fs d m) k) (hp : ∀ e ∈ post, ∀ m ∈ fs.dir e, ¬ SetsKey (textIn fs e m) k)
    (hc : ¬ SetsKey (fs.text "/etc/sysctl.conf".toList) k) : sctlSetup fs false v0 k = some v :=
  sctl_dir fs h pre post d a b n k v hd hn hv hb hp hc v0

/-- Two files of the same name, in /etc/sysctl.d and in /usr/lib/sysctl.d, with a value for one key each -/
def demoSctl (n k v1 v2 : CStr) : SctlFs :=
  { dir := fun d => if d = "/etc/sysctl.d".toList ∨ d = "/usr/lib/sysctl.d".toList then [n] else []
    text := fun p => if p = "/etc/sysctl.d/".toList ++ n then [(k, v1)] else if p = "/usr/lib/sysctl.d/".toList ++ n then [(k, v2)] else []
    writable := fun _ => true }

theorem demoSctl_ok (n k v1 v2 : CStr) (hn : ' ' ∉ n) (hl : n.length ≤ 100) : SctlOk (demoSctl n k v1 v2) := by
  have hlen : ∀ d ∈ sysctlDirs, d.length ≤ 23 := by decide
  refine ⟨fun d hd m hm => ?_, rfl, fun d _ => ?_⟩
  · have hm' : m ∈ (if d = "/etc/sysctl.d".toList ∨ d = "/usr/lib/sysctl.d".toList then [n] else []) := hm
    split at hm'
    · have : m = n := by simpa using hm'
      subst this
      have := hlen d hd
      refine ⟨?_, hn⟩
      rw [List.length_append, List.length_cons]
      omega
    · exact (nomatch hm')
  · show ((if d = "/etc/sysctl.d".toList ∨ d = "/usr/lib/sysctl.d".toList then [n] else []) : List CStr).Pairwise _
    split <;> simp

theorem demoSctl_text (n k v1 v2 : CStr) :
    textIn (demoSctl n k v1 v2) "/etc/sysctl.d".toList n = [(k, v1)] ∧
    textIn (demoSctl n k v1 v2) "/usr/lib/sysctl.d".toList n = [(k, v2)] ∧
    (demoSctl n k v1 v2).text "/etc/sysctl.conf".toList = [] := by
  refine ⟨?_, ?_, ?_⟩
  · unfold textIn demoSctl
    dsimp only
    rw [if_pos (by simp)]
  · unfold textIn demoSctl
    dsimp only
    rw [if_neg, if_pos (by simp)]
    intro e
    have := congrArg (List.take 2) e
    simp at this
  · unfold demoSctl
    dsimp only
    rw [if_neg, if_neg]
    · intro e
      have := congrArg (List.take 2) e
      simp at this
    · intro e
      have h1 : "/etc/sysctl.conf".toList[12]? = ("/etc/sysctl.d/".toList ++ n)[12]? := congrArg (·[12]?) e
      rw [List.getElem?_append_left (by decide)] at h1
      exact absurd h1 (by decide)

/-- In such a system the value of the vendor is set, though that of the administrator is wanted, whatever the name, the key and the
    values -/
theorem C96_override (n k v1 v2 : CStr) (hn : ' ' ∉ n) (hl : n.length ≤ 100) (v0 : SctlVals) :
    SctlWanted (demoSctl n k v1 v2) k v1 ∧ sctlSetup (demoSctl n k v1 v2) false v0 k = some v2 := by
  have ht := demoSctl_text n k v1 v2
  refine ⟨Or.inr ⟨?_, "/etc/sysctl.d".toList, by decide, n, ⟨?_, ?_⟩, ?_, ?_⟩, ?_⟩
  · rw [ht.2.2]
    rintro ⟨s, hs, _⟩
    exact (nomatch hs)
  · show n ∈ (if "/etc/sysctl.d".toList = "/etc/sysctl.d".toList ∨ "/etc/sysctl.d".toList = "/usr/lib/sysctl.d".toList then [n] else [])
    rw [if_pos (Or.inl rfl)]
    exact List.mem_cons_self ..
  · intro pre post hd d' hd' hm
    have hm' : n ∈ (if d' = "/etc/sysctl.d".toList ∨ d' = "/usr/lib/sysctl.d".toList then [n] else []) := hm
    have : d' = "/run/sysctl.d".toList := by
      cases pre with
      | nil => exact (nomatch hd')
      | cons p pre =>
        have h1 : p = "/run/sysctl.d".toList := (List.cons.inj hd).1.symm
        cases pre with
        | nil => rw [← h1]; simpa using hd'
        | cons q pre =>
          exfalso
          have h2 : sysctlDirs.drop 2 = pre ++ "/etc/sysctl.d".toList :: post := (List.cons.inj (List.cons.inj hd).2).2
          have : "/etc/sysctl.d".toList ∈ pre ++ "/etc/sysctl.d".toList :: post := by simp
          rw [← h2] at this
          exact absurd this (by decide)
    subst this
    rw [if_neg (by decide)] at hm'
    exact (nomatch hm')
  · rw [ht.1]
    exact ⟨[], [], rfl, fun ⟨s, hs, _⟩ => (nomatch hs)⟩
  · intro d' _ n' he _ hlt
    have hm' : n' ∈ (if d' = "/etc/sysctl.d".toList ∨ d' = "/usr/lib/sysctl.d".toList then [n] else []) := he.1
    split at hm'
    · have : n' = n := by simpa using hm'
      subst this
      exact absurd hlt (List.lt_irrefl _)
    · exact (nomatch hm')
  · refine sctl_dir (demoSctl n k v1 v2) (demoSctl_ok n k v1 v2 hn hl) (sysctlDirs.take 3) (sysctlDirs.drop 4) "/usr/lib/sysctl.d".toList
      [] [] n k v2 (by decide) ?_ ?_ (fun m hm => (nomatch hm)) ?_ ?_ v0
    · show (if "/usr/lib/sysctl.d".toList = "/etc/sysctl.d".toList ∨ "/usr/lib/sysctl.d".toList = "/usr/lib/sysctl.d".toList then [n] else []) = _
      rw [if_pos (Or.inr rfl)]
      rfl
    · rw [ht.2.1]
      exact ⟨[], [], rfl, fun ⟨s, hs, _⟩ => (nomatch hs)⟩
    · intro e he m hm
      have hm' : m ∈ (if e = "/etc/sysctl.d".toList ∨ e = "/usr/lib/sysctl.d".toList then [n] else []) := hm
      have hne : ∀ e ∈ sysctlDirs.drop 4, ¬ (e = "/etc/sysctl.d".toList ∨ e = "/usr/lib/sysctl.d".toList) := by decide
      rw [if_neg (hne e he)] at hm'
      exact (nomatch hm')
    · rw [ht.2.2]
      rintro ⟨s, hs, _⟩
      exact (nomatch hs)

/-- Of a path of more than 140 bytes only these are passed on, so another file or none is read -/
theorem C96_long (fs : SctlFs) (path : CStr) (hb : ' ' ∉ path) (h : 140 ≤ path.length) :
    sctlShell fs (sctlLine path) = some (path.take 140) := by
  have hc : sctlCmd.length = 19 := by decide
  have hd : (sctlLine path).drop sctlCmd.length = path.take 140 := by
    unfold sctlLine
    rw [List.append_assoc, List.take_append, hc, List.take_of_length_le (by rw [hc]; decide), show (159 : Nat) - 19 = 140 from rfl,
      List.take_append, show 140 - path.length = 0 by omega, List.take_zero, List.append_nil, ← hc, List.drop_left]
  have hw := sctl_take_all (path.take 140) (fun m => hb (List.mem_of_mem_take m))
  unfold sctlShell
  rw [hd]
  dsimp only
  rw [hw.1, hw.2]

/-- A file with a path of 138 bytes is not read at all -/
theorem C96_syntax (fs : SctlFs) (path : CStr) (hb : ' ' ∉ path) (h : path.length = 138) (v : SctlVals) : sctlFile fs v path = v := by
  have hc : sctlCmd.length = 19 := by decide
  have hd : (sctlLine path).drop sctlCmd.length = path ++ ' ' :: ['>'] := by
    unfold sctlLine
    rw [List.append_assoc, List.take_append, hc, List.take_of_length_le (by rw [hc]; decide), show (159 : Nat) - 19 = 140 from rfl,
      List.take_append, h, List.take_of_length_le (by omega), ← hc, List.drop_left]
    rfl
  have hw := sctl_take_word path ['>'] hb
  have : sctlShell fs (sctlLine path) = none := by
    unfold sctlShell
    rw [hd]
    dsimp only
    rw [hw.1, hw.2]
    rfl
  unfold sctlFile
  rw [this]

example : ' ' ∉ List.replicate 138 'a' ∧ (List.replicate 138 'a').length = 138 := by simp

/-- The claim is false -/
theorem C96_full_false : ¬ C96_full := by
  intro h
  have hw := C96_override "a.conf".toList "kernel.x".toList "1".toList "2".toList (by decide) (by decide) (fun _ => none)
  have := h _ (demoSctl_ok "a.conf".toList "kernel.x".toList "1".toList "2".toList (by decide) (by decide)) (fun _ => none) _ _ hw.1
  exact absurd (Option.some.inj (this.symm.trans hw.2)) (by decide)

/-! ## Examples -/

/-- Two files, each with a key of its own and one that is in /etc/sysctl.conf -/
def demoSctl2 : SctlFs :=
  { dir := fun d => if d = "/etc/sysctl.d".toList then ["a.conf".toList, "b.conf".toList] else
      if d = "/usr/lib/sysctl.d".toList then ["c.conf".toList] else []
    text := fun p => if p = "/etc/sysctl.d/a.conf".toList then [("x".toList, "1".toList)] else
      if p = "/etc/sysctl.d/b.conf".toList then [("x".toList, "2".toList)] else
      if p = "/usr/lib/sysctl.d/c.conf".toList then [("y".toList, "3".toList)] else
      if p = "/etc/sysctl.conf".toList then [("y".toList, "4".toList)] else []
    writable := fun _ => true }

example : (sctlSetup demoSctl2 false (fun _ => none) "x".toList, sctlSetup demoSctl2 false (fun _ => none) "y".toList) =
    (some "2".toList, some "4".toList) := by decide +kernel

example : SctlOk demoSctl2 := ⟨by decide +kernel, rfl, by decide +kernel⟩

example : ∀ d ∈ sysctlDirs, ∀ d' ∈ sysctlDirs, ∀ n ∈ demoSctl2.dir d, ∀ n' ∈ demoSctl2.dir d',
    SetsKey (textIn demoSctl2 d n) "x".toList → SetsKey (textIn demoSctl2 d' n') "x".toList → d = d' := by
  unfold SetsKey
  decide +kernel

end Verif
