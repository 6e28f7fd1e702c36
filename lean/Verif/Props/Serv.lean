import Verif.Serv
import Verif.CStrLemmas

/-!
# C60: enabling and disabling configurations

doc/initctl.md, initctl(8).  `enable` adds a link in `enabled/` to a file in `available/`, `disable` removes the link,
`create` makes a file in `available/` from what is piped in, `delete` removes it with its link.
-/

namespace Verif

/-- `/etc/finit.d` is at `R`: it and all directories above it are directories and not links. -/
structure Rcsd (e : ServEnv) (tr : STree) (R : SPath) : Prop where
  abs : e.rcsd.head? = some '/'
  parts : parts e.rcsd = R
  plain : ∀ c ∈ R, c ≠ ".".toList ∧ c ≠ "..".toList
  dirs : ∀ k, tr (R.take k) = some .dir

/-- A name as given to initctl: not hidden, and without a directory -/
def GivenName (arg : CStr) : Prop := arg ≠ [] ∧ '/' ∉ arg ∧ arg.head? ≠ some '.'

/-- The file meant by a name: `.conf` may be left out. -/
inductive FileOf : CStr → CStr → Prop
  | whole (a) : FileOf (a ++ ".conf".toList) (a ++ ".conf".toList)
  | short {a} : ¬ (".conf".toList <:+ a) → FileOf a (a ++ ".conf".toList)

/-- Where a file is taken from: `foo@bar.conf` is made from `foo@.conf`. -/
inductive SourceOf : CStr → CStr → Prop
  | plain {f} : '@' ∉ f → SourceOf f f
  | template {a} (b) : '@' ∉ a → SourceOf (a ++ '@' :: b) (a ++ "@.conf".toList)

/-- Only what is at `p` differs. -/
def OnlyAt (p : SPath) (tr tr' : STree) : Prop := ∀ q, q ≠ p → tr' q = tr q

abbrev enabledDir (R : SPath) : SPath := R ++ ["enabled".toList]
abbrev availableDir (R : SPath) : SPath := R ++ ["available".toList]

/-! ## Paths -/

theorem tokensAux_split (p : Char → Bool) {c : Char} (hc : p c = true) (b : CStr) :
    ∀ (a acc : CStr), tokensAux p acc (a ++ c :: b) = tokensAux p acc a ++ tokensAux p [] b
  | [], acc => by
    by_cases h : acc = []
    · subst h; simp [tokensAux, hc]
    · simp [tokensAux, hc, h]
  | x :: a, acc => by
    simp only [List.cons_append, tokensAux]
    split
    · split
      · exact tokensAux_split p hc b a []
      · simp [tokensAux_split p hc b a []]
    · exact tokensAux_split p hc b a (x :: acc)

theorem tokensAux_word (p : Char → Bool) : ∀ (w acc : CStr), (∀ c ∈ w, p c = false) →
    tokensAux p acc w = if acc = [] ∧ w = [] then [] else [acc.reverse ++ w]
  | [], acc, _ => by by_cases h : acc = [] <;> simp [tokensAux, h]
  | x :: w, acc, h => by
    have hx : p x = false := h x (List.mem_cons_self ..)
    simp only [tokensAux, hx]
    have := tokensAux_word p w (x :: acc) fun c hc => h c (List.mem_cons_of_mem _ hc)
    simp only [Bool.false_eq_true, if_false]
    rw [this]
    simp

theorem parts_append (a b : CStr) : parts (a ++ '/' :: b) = parts a ++ parts b :=
  tokensAux_split _ (by simp) b a []

theorem parts_word {w : CStr} (h0 : w ≠ []) (h : '/' ∉ w) : parts w = [w] := by
  unfold parts tokens
  rw [tokensAux_word _ w []]
  · simp [h0]
  · intro c hc
    simp only [decide_eq_false_iff_not]
    rintro rfl; exact h hc

theorem walk_dirs (tr : STree) (via : SPath → List CStr → Option SPath) (follow : Bool) :
    ∀ (R cwd rest : SPath), (∀ c ∈ R, c ≠ ".".toList ∧ c ≠ "..".toList) →
      (∀ k, tr (cwd ++ R.take k) = some .dir) →
      walkWith tr via follow cwd (R ++ rest) = walkWith tr via follow (cwd ++ R) rest
  | [], cwd, rest, _, _ => by simp
  | c :: R, cwd, rest, hp, hd => by
    have hc := hp c (List.mem_cons_self ..)
    have h0 : tr cwd = some .dir := by simpa using hd 0
    have h1 : tr (cwd ++ [c]) = some .dir := by simpa using hd 1
    rw [List.cons_append, walkWith, if_neg (by simp [h0]), if_neg hc.1, if_neg hc.2, h1]
    dsimp only
    rw [walk_dirs tr via follow R (cwd ++ [c]) rest (fun c hc => hp c (List.mem_cons_of_mem _ hc))
      (fun k => by simpa using hd (k + 1))]
    simp

/-- The last name of a path -/
theorem walk_last (tr : STree) (via : SPath → List CStr → Option SPath) (follow : Bool) {d : SPath} {f : CStr}
    (hd : tr d = some .dir) (hf : f ≠ ".".toList ∧ f ≠ "..".toList)
    (h : follow = false ∨ ∀ t, tr (d ++ [f]) ≠ some (.link t)) :
    walkWith tr via follow d [f] = some (d ++ [f]) := by
  rw [walkWith, if_neg (by simp [hd]), if_neg hf.1, if_neg hf.2]
  split
  · rename_i t ht
    rcases h with h | h
    · simp [h]
    · exact absurd ht (h t)
  · rw [walkWith]

/-- The last name of a path is a link. -/
theorem walk_link (tr : STree) (via : SPath → List CStr → Option SPath) {d : SPath} {f t : CStr}
    (hd : tr d = some .dir) (hf : f ≠ ".".toList ∧ f ≠ "..".toList)
    (h : tr (d ++ [f]) = some (.link t)) :
    walkWith tr via true d [f] = via (if t.head? = some '/' then [] else d) (parts t) := by
  rw [walkWith, if_neg (by simp [hd]), if_neg hf.1, if_neg hf.2, h]
  simp

theorem namei_walk (tr : STree) (follow : Bool) (n : Nat) :
    ∃ via, namei tr follow n = walkWith tr via follow := by
  cases n with
  | zero => exact ⟨_, rfl⟩
  | succ n => exact ⟨_, rfl⟩

theorem namei_succ (tr : STree) (follow : Bool) (n : Nat) :
    namei tr follow (n + 1) = walkWith tr (namei tr follow n) follow := rfl

/-- Names of files -/
theorem conf_name {f : CStr} (h : ".conf".toList <:+ f) : f ≠ ".".toList ∧ f ≠ "..".toList ∧ f ≠ [] := by
  obtain ⟨a, rfl⟩ := h
  refine ⟨?_, ?_, ?_⟩ <;> intro h <;> have := congrArg List.length h <;> simp at this

theorem hasConf_iff (s : CStr) : hasConf s = true ↔ ".conf".toList <:+ s := by
  unfold hasConf confSfx
  exact List.isSuffixOf_iff_suffix

theorem FileOf.conf {a f : CStr} (h : FileOf a f) : ".conf".toList <:+ f := by
  cases h with
  | whole a => exact ⟨a, rfl⟩
  | short _ => exact ⟨_, rfl⟩

theorem FileOf.mem {a f : CStr} (h : FileOf a f) {c : Char} (hc : c ∉ a) (hs : c ∉ ".conf".toList) : c ∉ f := by
  cases h with
  | whole a => exact hc
  | short _ => simp only [List.mem_append, not_or]; exact ⟨hc, hs⟩

theorem FileOf.head {a f : CStr} (h : FileOf a f) (ha : GivenName a) : f.head? ≠ some '.' := by
  cases h with
  | whole a => exact ha.2.2
  | short _ =>
    have := ha.2.2
    cases a with
    | nil => exact absurd rfl ha.1
    | cons x a => simpa using this

theorem withConf_eq {a f : CStr} (h : FileOf a f) : withConf a = f := by
  unfold withConf
  cases h with
  | whole a => rw [if_pos ((hasConf_iff _).2 ⟨a, rfl⟩)]
  | short hn => rw [if_neg (fun h => hn ((hasConf_iff _).1 h))]; rfl

theorem servName_eq {a f : CStr} (h : FileOf a f) (ha : GivenName a) : servName a = f := by
  unfold servName
  cases h with
  | whole a =>
    rw [if_neg]
    rintro (h | h)
    · cases a with
      | nil => exact ha.2.2 (by simp)
      | cons x a => simp only [List.cons_append, List.length_cons, List.length_append] at h; simp at h; omega
    · have := (hasConf_iff (a ++ ".conf".toList)).2 ⟨a, rfl⟩
      rw [h] at this; simp at this
  | short hn =>
    have : hasConf a = false := by
      cases h : hasConf a with
      | false => rfl
      | true => exact absurd ((hasConf_iff _).1 h) hn
    rw [if_pos (.inr this)]
    rfl

theorem templateOf_none : ∀ {s : CStr}, '@' ∉ s → templateOf s = none
  | [], _ => rfl
  | c :: s, h => by
    simp only [List.mem_cons, not_or] at h
    rw [templateOf, if_neg (Ne.symm h.1), templateOf_none h.2]
    rfl

theorem templateOf_some : ∀ {a : CStr} (b : CStr), '@' ∉ a → templateOf (a ++ '@' :: b) = some (a ++ "@.conf".toList)
  | [], b, _ => rfl
  | c :: a, b, h => by
    simp only [List.mem_cons, not_or] at h
    rw [List.cons_append, templateOf, if_neg (Ne.symm h.1), templateOf_some b h.2]
    rfl

theorem template_eq {x f g : CStr} (hx : '@' ∉ x) (h : SourceOf f g) : (templateOf (x ++ f)).getD (x ++ f) = x ++ g := by
  cases h with
  | plain hf => rw [templateOf_none (by simp [hx, hf])]; rfl
  | template b ha =>
    rw [← List.append_assoc, templateOf_some b (by simp [hx, ha])]
    simp

theorem SourceOf.conf {f g : CStr} (h : SourceOf f g) (hf : ".conf".toList <:+ f) : ".conf".toList <:+ g := by
  cases h with
  | plain _ => exact hf
  | template b _ => rename_i a _; exact ⟨a ++ ['@'], by simp⟩

theorem SourceOf.slash {f g : CStr} (h : SourceOf f g) (hf : '/' ∉ f) : '/' ∉ g := by
  cases h with
  | plain _ => exact hf
  | template b _ =>
    simp only [List.mem_append, not_or] at hf ⊢
    exact ⟨hf.1, by simp⟩

/-! ## Places below `/etc/finit.d` -/

theorem Rcsd.put {e : ServEnv} {tr : STree} {R : SPath} (h : Rcsd e tr R) {p : SPath} (n : Option SNode)
    (hp : ∀ k, p ≠ R.take k) : Rcsd e (tr.put p n) R :=
  ⟨h.abs, h.parts, h.plain, fun k => by unfold STree.put; rw [if_neg (Ne.symm (hp k))]; exact h.dirs k⟩

theorem below_ne {R : SPath} {a : CStr} {l : List CStr} (k : Nat) : R ++ a :: l ≠ R.take k := by
  intro h
  have := congrArg List.length h
  simp only [List.length_append, List.length_cons, List.length_take] at this
  omega

theorem head_slash {a b : CStr} (h : a.head? = some '/') : (a ++ b).head? = some '/' := by
  cases a with
  | nil => simp at h
  | cons c cs => simpa using h

/-- A path into a directory below -/
theorem Rcsd.into {e : ServEnv} {tr : STree} {R : SPath} (h : Rcsd e tr R) {d f x : CStr} (hd0 : d ≠ []) (hd1 : '/' ∉ d)
    (hd2 : d ≠ ".".toList ∧ d ≠ "..".toList) (hdir : tr (R ++ [d]) = some .dir) (hf : ".conf".toList <:+ f)
    (hs : '/' ∉ f) (hx : x = e.rcsd ++ '/' :: (d ++ '/' :: f)) (via) (follow : Bool) :
    x.head? = some '/' ∧ walkWith tr via follow [] (Verif.parts x) = walkWith tr via follow (R ++ [d]) [f] := by
  subst hx
  have hne := conf_name hf
  refine ⟨head_slash h.abs, ?_⟩
  rw [parts_append, parts_append, h.parts, parts_word hd0 hd1, parts_word hne.2.2 hs]
  have := walk_dirs tr via follow R [] ([d] ++ [f]) h.plain (fun k => by simpa using h.dirs k)
  rw [this]
  rw [walk_dirs tr via follow [d] ([] ++ R) [f] (by simpa using hd2) (fun k => by
    cases k with
    | zero => simpa using h.dirs R.length
    | succ k => simpa using hdir)]
  simp

theorem Rcsd.self {e : ServEnv} {tr : STree} {R : SPath} (h : Rcsd e tr R) : tr R = some .dir := by
  simpa using h.dirs R.length

theorem Rcsd.chdir {e : ServEnv} {tr : STree} {R : SPath} (h : Rcsd e tr R) (cwd : SPath) :
    chdirAt tr cwd e.rcsd = some R := by
  have hw := walk_dirs tr (namei tr true 39) true R [] [] h.plain (fun k => by simpa using h.dirs k)
  unfold chdirAt place
  rw [if_pos h.abs, h.parts, namei_succ]
  rw [List.append_nil] at hw
  rw [hw]
  simp [walkWith, h.self]

theorem enabled_name : "enabled".toList ≠ [] ∧ '/' ∉ "enabled".toList ∧ "enabled".toList ≠ ".".toList ∧
    "enabled".toList ≠ "..".toList ∧ "enabled".toList.head? ≠ some '/' := by decide

theorem available_name : "available".toList ≠ [] ∧ '/' ∉ "available".toList ∧ "available".toList ≠ ".".toList ∧
    "available".toList ≠ "..".toList := by decide

/-- A name in the directory one is in -/
theorem place_here {tr : STree} {cwd : SPath} {f : CStr} (h0 : f ≠ []) (hs : '/' ∉ f) (follow : Bool) :
    place tr follow cwd f = walkWith tr (namei tr follow 39) follow cwd [f] := by
  unfold place
  rw [if_neg, parts_word h0 hs, namei_succ]
  intro h
  cases f with
  | nil => simp at h
  | cons c f => simp at h; exact hs (by simp [h])

theorem chdir_enabled {tr : STree} {R : SPath} (h : tr R = some .dir) (he : tr (enabledDir R) = some .dir) :
    chdirAt tr R "enabled".toList = some (enabledDir R) := by
  have n := enabled_name
  unfold chdirAt
  rw [place_here n.1 n.2.1, walk_last tr _ true h ⟨n.2.2.1, n.2.2.2.1⟩ (.inr fun t ht => by rw [he] at ht; cases ht)]
  dsimp only
  rw [if_pos he]

theorem chdir_missing {tr : STree} {R : SPath} (h : tr R = some .dir) (he : tr (enabledDir R) = none) :
    chdirAt tr R "enabled".toList = none := by
  have n := enabled_name
  unfold chdirAt
  rw [place_here n.1 n.2.1, walk_last tr _ true h ⟨n.2.2.1, n.2.2.2.1⟩ (.inr fun t ht => by rw [he] at ht; cases ht)]
  dsimp only
  rw [if_neg (by rw [he]; simp)]

/-- What `enable` links to and where -/
theorem Rcsd.dst {e : ServEnv} {tr : STree} {R : SPath} (h : Rcsd e tr R) {f : CStr}
    (hdir : tr (enabledDir R) = some .dir) (hf : ".conf".toList <:+ f) (hs : '/' ∉ f) (cwd : SPath) (follow : Bool) :
    place tr follow cwd (e.rcsd ++ "/enabled/".toList ++ f) =
      walkWith tr (namei tr follow 39) follow (enabledDir R) [f] := by
  have n := enabled_name
  have := h.into n.1 n.2.1 ⟨n.2.2.1, n.2.2.2.1⟩ hdir hf hs (x := e.rcsd ++ "/enabled/".toList ++ f)
    (by rw [List.append_assoc]; rfl) (namei tr follow 39) follow
  unfold place
  rw [if_pos this.1, namei_succ, this.2]

theorem Rcsd.src {e : ServEnv} {tr : STree} {R : SPath} (h : Rcsd e tr R) {f : CStr}
    (hdir : tr (availableDir R) = some .dir) (hf : ".conf".toList <:+ f) (hs : '/' ∉ f) (cwd : SPath) (follow : Bool)
    (m : Nat) (hm : m ≠ 0) :
    namei tr follow m (if (e.rcsd ++ "/available/".toList ++ f).head? = some '/' then [] else cwd)
      (Verif.parts (e.rcsd ++ "/available/".toList ++ f)) =
      walkWith tr (namei tr follow (m - 1)) follow (availableDir R) [f] := by
  have n := available_name
  have := h.into n.1 n.2.1 ⟨n.2.2.1, n.2.2.2⟩ hdir hf hs (x := e.rcsd ++ "/available/".toList ++ f)
    (by rw [List.append_assoc]; rfl) (namei tr follow (m - 1)) follow
  obtain ⟨m, rfl⟩ : ∃ k, m = k + 1 := ⟨m - 1, by omega⟩
  rw [if_pos this.1, namei_succ]
  exact this.2

/-! ## What the commands do -/

theorem given_slash {a : CStr} (h : GivenName a) : ¬ (a = [] ∨ a.head? = some '/') := by
  rintro (h' | h')
  · exact h.1 h'
  · cases a with
    | nil => simp at h'
    | cons c a => simp at h'; exact h.2.1 (by simp [h'])

theorem put_same (tr : STree) (p : SPath) (n : Option SNode) : tr.put p n p = n := by simp [STree.put]

theorem put_other {tr : STree} {p q : SPath} (n : Option SNode) (h : q ≠ p) : tr.put p n q = tr q := by
  simp [STree.put, h]

theorem put_onlyAt (tr : STree) (p : SPath) (n : Option SNode) : OnlyAt p tr (tr.put p n) := fun _ h => put_other n h

theorem below_enabled {R : SPath} {f x : CStr} : enabledDir R ++ [f] ≠ availableDir R ++ [x] := by
  intro hx
  simp only [enabledDir, availableDir, List.append_assoc, List.append_cancel_left_eq, List.cons_append,
    List.nil_append] at hx
  exact absurd (List.cons.inj hx).1 (by decide)

theorem dir_ne {R : SPath} {a b x : CStr} : R ++ [x] ≠ R ++ [a] ++ [b] := by
  intro hx
  have := congrArg List.length hx
  simp at this

theorem Rcsd.put_enabled {e : ServEnv} {tr : STree} {R : SPath} (h : Rcsd e tr R) (a f : CStr) (n : Option SNode) :
    Rcsd e (tr.put (R ++ [a] ++ [f]) n) R :=
  h.put n (fun k => by rw [List.append_assoc]; exact below_ne k)

/-- A path by its names, in `enabled/` -/
theorem Rcsd.names {e : ServEnv} {tr : STree} {R : SPath} (h : Rcsd e tr R) (hen : tr (enabledDir R) = some .dir)
    (f : CStr) : namei tr true 40 [] (enabledDir R ++ [f]) = walkWith tr (namei tr true 39) true (enabledDir R) [f] := by
  rw [namei_succ]
  have n := enabled_name
  have := walk_dirs tr (namei tr true 39) true (enabledDir R) [] [f] (fun c hc => by
    rcases List.mem_append.1 hc with hc | hc
    · exact h.plain c hc
    · rw [List.mem_singleton] at hc; subst hc; exact ⟨n.2.2.1, n.2.2.2.1⟩) (fun k => by
      rw [List.nil_append]
      by_cases hk : k ≤ R.length
      · rw [enabledDir, List.take_append_of_le_length hk]; exact h.dirs k
      · rw [List.take_of_length_le (by simp [enabledDir]; omega)]; exact hen)
  rw [this, List.nil_append]

theorem source_place {e : ServEnv} {tr : STree} {R : SPath} {g d : CStr} (hgc : ".conf".toList <:+ g) (hgs : '/' ∉ g)
    {m : Nat} (hm : m ≠ 0) (h : Rcsd e tr R) (hav : tr (availableDir R) = some .dir)
    (hfile : tr (availableDir R ++ [g]) = some (.file d)) (cwd : SPath) :
    namei tr true m (if (e.rcsd ++ "/available/".toList ++ g).head? = some '/' then [] else cwd)
        (parts (e.rcsd ++ "/available/".toList ++ g)) = some (availableDir R ++ [g]) := by
  have hgn := conf_name hgc
  rw [h.src hav hgc hgs _ true m hm]
  exact walk_last tr _ true hav ⟨hgn.1, hgn.2.1⟩ (.inr fun t ht => by rw [hfile] at ht; cases ht)

theorem enable_eq {e : ServEnv} {tr : STree} {R : SPath} (h : Rcsd e tr R)
    (hen : tr (enabledDir R) = some .dir) (hav : tr (availableDir R) = some .dir)
    {arg f g d : CStr} (ha : GivenName arg) (hf : FileOf arg f) (hg : SourceOf f g) (hat : '@' ∉ e.rcsd)
    (hfile : tr (availableDir R ++ [g]) = some (.file d)) (hnew : tr (enabledDir R ++ [f]) = none) :
    servEnable e arg tr = (tr.put (enabledDir R ++ [f]) (some (.link (e.rcsd ++ "/available/".toList ++ g))), 0) := by
  have hfc := hf.conf
  have hfs : '/' ∉ f := hf.mem ha.2.1 (by decide)
  have hgc := hg.conf hfc
  have hgs := hg.slash hfs
  have hfn := conf_name hfc
  have hmk : (if e.icreate then mkdirAt tr R "enabled".toList else some tr) = some tr := by
    split
    · have n := enabled_name
      unfold mkdirAt
      rw [place_here n.1 n.2.1, walk_last tr _ false h.self ⟨n.2.2.1, n.2.2.2.1⟩ (.inl rfl)]
      dsimp only
      rw [if_neg (by rw [show tr (R ++ ["enabled".toList]) = some .dir from hen]; simp)]
    · rfl
  have hd : ∀ follow, place tr follow R (e.rcsd ++ "/enabled/".toList ++ f) = some (enabledDir R ++ [f]) := by
    intro follow
    rw [h.dst hen hfc hfs]
    exact walk_last tr _ follow hen ⟨hfn.1, hfn.2.1⟩ (.inr fun t ht => by rw [hnew] at ht; cases ht)
  have hstat : fexistAt tr R (e.rcsd ++ "/available/".toList ++ g) = true := by
    have := source_place hgc hgs (m := 40) (by decide) h hav hfile R
    rw [if_pos (by rw [List.append_assoc]; exact head_slash h.abs)] at this
    unfold fexistAt statAt place
    rw [if_pos (by rw [List.append_assoc]; exact head_slash h.abs), this]
    simp only [Option.bind_some, hfile, Option.isSome_some]
  have hat' : '@' ∉ e.rcsd ++ "/available/".toList := by
    simp only [List.mem_append, not_or]; exact ⟨hat, by decide⟩
  unfold servEnable
  rw [if_neg (given_slash ha), h.chdir, servName_eq hf ha]
  dsimp only
  rw [hmk]
  dsimp only
  have h1 : fexistAt tr R (e.rcsd ++ "/enabled/".toList ++ f) = false := by
    unfold fexistAt statAt
    rw [hd]
    simp only [Option.bind_some, hnew, Option.isSome_none]
  rw [h1, template_eq hat' hg, hstat]
  simp only [Bool.false_eq_true, if_false, Bool.true_eq_false]
  unfold symlinkAt
  rw [hd]
  simp only [hnew, if_true]

/-- **C60**, enabling.  If `NAME.conf` is in `available/` and not yet in `enabled/`, then `initctl enable NAME` adds the
link, changes nothing else, succeeds, and what finit reads from then on under that name is the file in `available/`; for
`foo@bar` that is the file `foo@.conf`. -/
theorem C60_enable {e : ServEnv} {tr : STree} {R : SPath} (h : Rcsd e tr R)
    (hen : tr (enabledDir R) = some .dir) (hav : tr (availableDir R) = some .dir)
    {arg f g d : CStr} (ha : GivenName arg) (hf : FileOf arg f) (hg : SourceOf f g) (hat : '@' ∉ e.rcsd)
    (hfile : tr (availableDir R ++ [g]) = some (.file d)) (hnew : tr (enabledDir R ++ [f]) = none) :
    (servEnable e arg tr).2 = 0 ∧
    (servEnable e arg tr).1 (enabledDir R ++ [f]) = some (.link (e.rcsd ++ "/available/".toList ++ g)) ∧
    OnlyAt (enabledDir R ++ [f]) tr (servEnable e arg tr).1 ∧
    confRead (servEnable e arg tr).1 (enabledDir R) f = some d := by
  rw [enable_eq h hen hav ha hf hg hat hfile hnew]
  have hfc := hf.conf
  have hfs : '/' ∉ f := hf.mem ha.2.1 (by decide)
  have hgc := hg.conf hfc
  have hgs := hg.slash hfs
  have hfn := conf_name hfc
  refine ⟨rfl, put_same .., put_onlyAt _ _ _, ?_⟩
  generalize hT : tr.put (enabledDir R ++ [f]) (some (.link (e.rcsd ++ "/available/".toList ++ g))) = T
  have hTR : Rcsd e T R := by rw [← hT]; exact h.put_enabled _ _ _
  have hTe : T (enabledDir R) = some .dir := by rw [← hT, put_other _ dir_ne]; exact hen
  have hTa : T (availableDir R) = some .dir := by rw [← hT, put_other _ dir_ne]; exact hav
  have hTf : T (availableDir R ++ [g]) = some (.file d) := by
    rw [← hT, put_other _ (Ne.symm below_enabled)]; exact hfile
  have hTl : T (enabledDir R ++ [f]) = some (.link (e.rcsd ++ "/available/".toList ++ g)) := by
    rw [← hT]; exact put_same ..
  unfold confRead
  rw [if_pos ⟨(hasConf_iff f).2 hfc, hf.head ha, hTe⟩, hTR.names hTe, walk_link T _ hTe ⟨hfn.1, hfn.2.1⟩ hTl,
    source_place hgc hgs (m := 39) (by decide) hTR hTa hTf]
  simp only [Option.bind_some, hTf]

/-- **C60**, enabling takes nothing away: whatever was there before is there afterwards. -/
theorem C60_enable_adds (e : ServEnv) (arg : CStr) (tr : STree) {p : SPath} {n : SNode} (h : tr p = some n) :
    (servEnable e arg tr).1 p = some n := by
  have hmk : ∀ {tr' : STree} {cwd}, (if e.icreate then mkdirAt tr cwd "enabled".toList else some tr) = some tr' →
      tr' p = some n := by
    intro tr' cwd hm
    split at hm
    · unfold mkdirAt at hm
      split at hm
      · rename_i q _
        split at hm
        · rename_i hq
          cases hm
          rw [put_other _ (by rintro rfl; rw [hq] at h; cases h)]
          exact h
        · cases hm; exact h
      · cases hm
    · cases hm; exact h
  unfold servEnable
  split
  · exact h
  · dsimp only
    split
    · exact h
    · split
      · exact h
      · rename_i tr' hm
        have h' := hmk hm
        split
        · exact h'
        · split
          · exact h'
          · split
            · rename_i tr'' hs
              unfold symlinkAt at hs
              split at hs
              · split at hs
                · rename_i hq
                  cases hs
                  dsimp only
                  rw [put_other _ (by rintro rfl; rw [hq] at h'; cases h')]
                  exact h'
                · cases hs
              · cases hs
            · exact h'

/-- **C60**: an `enable` that fails changes nothing, but that with `-c` the directory may have been made. -/
theorem C60_enable_failed (e : ServEnv) (arg : CStr) (tr : STree) (h : (servEnable e arg tr).2 ≠ 0) (p : SPath) :
    (servEnable e arg tr).1 p = tr p ∨
      e.icreate = true ∧ tr p = none ∧ (servEnable e arg tr).1 p = some .dir := by
  have hmk : ∀ {tr' : STree} {cwd}, (if e.icreate then mkdirAt tr cwd "enabled".toList else some tr) = some tr' →
      tr' p = tr p ∨ e.icreate = true ∧ tr p = none ∧ tr' p = some .dir := by
    intro tr' cwd hm
    split at hm
    · rename_i hi
      unfold mkdirAt at hm
      split at hm
      · rename_i q _
        split at hm
        · rename_i hq
          cases hm
          by_cases hpq : p = q
          · subst hpq; exact .inr ⟨hi, hq, put_same ..⟩
          · exact .inl (put_other _ hpq)
        · cases hm; exact .inl rfl
      · cases hm
    · cases hm; exact .inl rfl
  revert h
  unfold servEnable
  split
  · simp
  · dsimp only
    split
    · simp
    · split
      · simp
      · rename_i tr' hm
        intro h
        have h' := hmk hm
        split
        · exact h'
        · split
          · exact h'
          · rename_i h1 h2
            rw [if_neg h1, if_neg h2] at h
            split
            · rename_i tr'' hs
              rw [hs] at h
              exact absurd rfl h
            · exact h'

/-! ## Disabling -/

theorem disable_eq {e : ServEnv} {tr : STree} {R : SPath} (h : Rcsd e tr R) (hen : tr (enabledDir R) = some .dir)
    {arg f : CStr} (ha : GivenName arg) (hf : FileOf arg f) :
    servDisable e arg tr =
      if fexistAt tr (enabledDir R) f = false then (tr, (if e.noerr then 0 else 6 : Int))
      else match tr (enabledDir R ++ [f]) with
        | none => (tr, 1)
        | some .dir => if e.empty (enabledDir R ++ [f]) then (tr.put (enabledDir R ++ [f]) none, 0) else (tr, 1)
        | some _ => (tr.put (enabledDir R ++ [f]) none, 0) := by
  have hfn := conf_name hf.conf
  unfold servDisable doDisable
  rw [if_neg (given_slash ha), h.chdir]
  dsimp only
  rw [chdir_enabled h.self hen, withConf_eq hf]
  simp only [Option.getD_some, true_and]
  split
  · rfl
  · unfold removeAt
    rw [place_here hfn.2.2 (hf.mem ha.2.1 (by decide)), walk_last tr _ false hen ⟨hfn.1, hfn.2.1⟩ (.inl rfl)]
    dsimp only
    cases tr (enabledDir R ++ [f]) with
    | none => rfl
    | some n => cases n with
      | dir => dsimp only; cases e.empty (enabledDir R ++ [f]) <;> rfl
      | file _ => rfl
      | link _ => rfl

theorem exist_of_read {e : ServEnv} {tr : STree} {R : SPath} (h : Rcsd e tr R) (hen : tr (enabledDir R) = some .dir)
    {f d : CStr} (h0 : f ≠ []) (hs : '/' ∉ f) (hr : confRead tr (enabledDir R) f = some d) :
    fexistAt tr (enabledDir R) f = true := by
  unfold confRead at hr
  split at hr
  · rw [h.names hen] at hr
    unfold fexistAt statAt
    rw [place_here h0 hs]
    split at hr
    · rename_i hx; rw [hx]; rfl
    · cases hr
  · cases hr

/-- After the entry is gone nothing is read. -/
theorem read_gone {e : ServEnv} {tr : STree} {R : SPath} (h : Rcsd e tr R) (hen : tr (enabledDir R) = some .dir)
    {f : CStr} (hf : ".conf".toList <:+ f) : confRead (tr.put (enabledDir R ++ [f]) none) (enabledDir R) f = none := by
  have hfn := conf_name hf
  generalize hT : tr.put (enabledDir R ++ [f]) none = T
  have hTR : Rcsd e T R := by rw [← hT]; exact h.put_enabled _ _ _
  have hTe : T (enabledDir R) = some .dir := by rw [← hT, put_other _ dir_ne]; exact hen
  have hTl : T (enabledDir R ++ [f]) = none := by rw [← hT]; exact put_same ..
  unfold confRead
  split
  · rw [hTR.names hTe, walk_last T _ true hTe ⟨hfn.1, hfn.2.1⟩ (.inr fun t ht => by rw [hTl] at ht; cases ht),
      Option.bind_some, hTl]
  · rfl

/-- **C60**, disabling.  If finit reads `enabled/NAME.conf` and that is a link, then `initctl disable NAME` removes the
link and nothing else, succeeds, and finit no longer reads it.  Missing: a link that leads nowhere, see `C60_stale`, and
that only links are removed, see `C60_regular`. -/
theorem C60_disable_partial {e : ServEnv} {tr : STree} {R : SPath} (h : Rcsd e tr R)
    (hen : tr (enabledDir R) = some .dir) {arg f t d : CStr} (ha : GivenName arg) (hf : FileOf arg f)
    (hl : tr (enabledDir R ++ [f]) = some (.link t)) (hr : confRead tr (enabledDir R) f = some d) :
    (servDisable e arg tr).2 = 0 ∧ (servDisable e arg tr).1 (enabledDir R ++ [f]) = none ∧
    OnlyAt (enabledDir R ++ [f]) tr (servDisable e arg tr).1 ∧
    confRead (servDisable e arg tr).1 (enabledDir R) f = none := by
  have hfn := conf_name hf.conf
  rw [disable_eq h hen ha hf, if_neg (by rw [exist_of_read h hen hfn.2.2 (hf.mem ha.2.1 (by decide)) hr]; simp), hl]
  exact ⟨rfl, put_same .., put_onlyAt _ _ _, read_gone h hen hf.conf⟩

/-- **C60**: `enable` and then `disable` leaves everything as it was. -/
theorem C60_round {e : ServEnv} {tr : STree} {R : SPath} (h : Rcsd e tr R)
    (hen : tr (enabledDir R) = some .dir) (hav : tr (availableDir R) = some .dir)
    {arg f g d : CStr} (ha : GivenName arg) (hf : FileOf arg f) (hg : SourceOf f g) (hat : '@' ∉ e.rcsd)
    (hfile : tr (availableDir R ++ [g]) = some (.file d)) (hnew : tr (enabledDir R ++ [f]) = none) :
    servDisable e arg (servEnable e arg tr).1 = (tr, 0) := by
  have hE := C60_enable h hen hav ha hf hg hat hfile hnew
  rw [enable_eq h hen hav ha hf hg hat hfile hnew] at hE ⊢
  dsimp only at hE ⊢
  generalize hT : tr.put (enabledDir R ++ [f]) (some (.link (e.rcsd ++ "/available/".toList ++ g))) = T at hE ⊢
  have hfn := conf_name hf.conf
  have hTR : Rcsd e T R := by rw [← hT]; exact h.put_enabled _ _ _
  have hTe : T (enabledDir R) = some .dir := by rw [← hT, put_other _ dir_ne]; exact hen
  rw [disable_eq hTR hTe ha hf,
    if_neg (by rw [exist_of_read hTR hTe hfn.2.2 (hf.mem ha.2.1 (by decide)) hE.2.2.2]; simp), hE.2.1]
  dsimp only
  congr 1
  funext q
  by_cases hq : q = enabledDir R ++ [f]
  · subst hq; rw [put_same, hnew]
  · rw [put_other _ hq]; exact hE.2.2.1 q hq

/-- **C60**: given a name, `disable` changes nothing but the entry of that name in `enabled/`, if there is such a
directory. -/
theorem C60_disable_only {e : ServEnv} {tr : STree} {R : SPath} (h : Rcsd e tr R)
    (hen : tr (enabledDir R) = some .dir) {arg f : CStr} (ha : GivenName arg) (hf : FileOf arg f) :
    OnlyAt (enabledDir R ++ [f]) tr (servDisable e arg tr).1 := by
  rw [disable_eq h hen ha hf]
  have hs : OnlyAt (enabledDir R ++ [f]) tr tr := fun _ _ => rfl
  split
  · exact hs
  · split
    · exact hs
    · split
      · exact put_onlyAt _ _ _
      · exact hs
    · exact put_onlyAt _ _ _

/-- **C60**: a `disable` that fails changes nothing. -/
theorem C60_disable_failed (e : ServEnv) (arg : CStr) (tr : STree) (h : (servDisable e arg tr).2 ≠ 0) :
    (servDisable e arg tr).1 = tr := by
  revert h
  unfold servDisable doDisable
  split
  · simp
  · dsimp only
    split
    · simp
    · split
      · simp
      · split
        · intro h; exact absurd rfl h
        · simp

/-- What the code does not do: a link that leads nowhere, because its file in `available/` was removed, can neither be
disabled nor enabled. -/
theorem C60_stale {e : ServEnv} {tr : STree} {R : SPath} (h : Rcsd e tr R)
    (hen : tr (enabledDir R) = some .dir) (hne : e.noerr = false) {arg f t : CStr} (ha : GivenName arg) (hf : FileOf arg f)
    (hl : tr (enabledDir R ++ [f]) = some (.link t)) (hs : statAt tr (enabledDir R) f = none) :
    servDisable e arg tr = (tr, 6) ∧ (servEnable e arg tr).2 ≠ 0 := by
  have hfn := conf_name hf.conf
  have hfs : '/' ∉ f := hf.mem ha.2.1 (by decide)
  constructor
  · rw [disable_eq h hen ha hf, if_pos (by unfold fexistAt; rw [hs]; rfl), hne]
    rfl
  · have hmk : (if e.icreate then mkdirAt tr R "enabled".toList else some tr) = some tr := by
      split
      · have n := enabled_name
        unfold mkdirAt
        rw [place_here n.1 n.2.1, walk_last tr _ false h.self ⟨n.2.2.1, n.2.2.2.1⟩ (.inl rfl)]
        dsimp only
        rw [if_neg (by rw [show tr (R ++ ["enabled".toList]) = some .dir from hen]; simp)]
      · rfl
    unfold servEnable
    rw [if_neg (given_slash ha), h.chdir, servName_eq hf ha]
    dsimp only
    rw [hmk]
    dsimp only
    split
    · simp [hne]
    · split
      · simp
      · have : ∀ s, symlinkAt tr R s (e.rcsd ++ "/enabled/".toList ++ f) = none := by
          intro s
          unfold symlinkAt
          rw [h.dst hen hf.conf hfs, walk_last tr _ false hen ⟨hfn.1, hfn.2.1⟩ (.inl rfl)]
          dsimp only
          rw [if_neg (by rw [hl]; simp)]
        rw [this]
        simp

/-- What the code does not do: what is in `enabled/` need not be a link to be removed; a file there is lost. -/
theorem C60_regular {e : ServEnv} {tr : STree} {R : SPath} (h : Rcsd e tr R)
    (hen : tr (enabledDir R) = some .dir) {arg f d : CStr} (ha : GivenName arg) (hf : FileOf arg f)
    (hl : tr (enabledDir R ++ [f]) = some (.file d)) :
    (servDisable e arg tr).2 = 0 ∧ (servDisable e arg tr).1 (enabledDir R ++ [f]) = none := by
  have hfn := conf_name hf.conf
  rw [disable_eq h hen ha hf, if_neg, hl]
  · exact ⟨rfl, put_same ..⟩
  · unfold fexistAt statAt
    rw [place_here hfn.2.2 (hf.mem ha.2.1 (by decide)),
      walk_last tr _ true hen ⟨hfn.1, hfn.2.1⟩ (.inr fun t ht => by rw [hl] at ht; cases ht),
      Option.bind_some, hl]
    simp

/-- What the code does not do: without `enabled/`, `disable` removes the file `NAME.conf` in `/etc/finit.d` itself. -/
theorem C60_static {e : ServEnv} {tr : STree} {R : SPath} (h : Rcsd e tr R)
    (hen : tr (enabledDir R) = none) {arg f d : CStr} (ha : GivenName arg) (hf : FileOf arg f)
    (hl : tr (R ++ [f]) = some (.file d)) :
    (servDisable e arg tr).2 = 0 ∧ (servDisable e arg tr).1 (R ++ [f]) = none := by
  have hfn := conf_name hf.conf
  have hp : ∀ follow, place tr follow R f = some (R ++ [f]) := by
    intro follow
    rw [place_here hfn.2.2 (hf.mem ha.2.1 (by decide))]
    exact walk_last tr _ follow h.self ⟨hfn.1, hfn.2.1⟩ (.inr fun t ht => by rw [hl] at ht; cases ht)
  unfold servDisable doDisable
  rw [if_neg (given_slash ha), h.chdir]
  dsimp only
  rw [chdir_missing h.self hen, withConf_eq hf]
  simp only [Option.getD_none, true_and]
  rw [if_neg (by unfold fexistAt statAt; rw [hp]; simp [hl])]
  unfold removeAt
  rw [hp]
  simp only [hl]
  exact ⟨trivial, put_same ..⟩

/-- What the code does not do: a name with a directory leads out of `enabled/`. -/
theorem C60_outside {e : ServEnv} {tr : STree} {R : SPath} (h : Rcsd e tr R)
    (hen : tr (enabledDir R) = some .dir) (hav : tr (availableDir R) = some .dir) {f d : CStr}
    (hf : ".conf".toList <:+ f) (hs : '/' ∉ f) (hl : tr (availableDir R ++ [f]) = some (.file d)) :
    (servDisable e ("../available/".toList ++ f) tr).2 = 0 ∧
    (servDisable e ("../available/".toList ++ f) tr).1 (availableDir R ++ [f]) = none := by
  have hfn := conf_name hf
  have n := available_name
  have hp : ∀ follow, place tr follow (enabledDir R) ("../available/".toList ++ f) = some (availableDir R ++ [f]) := by
    intro follow
    have e1 : "../available/".toList ++ f = "..".toList ++ '/' :: ("available".toList ++ '/' :: f) := rfl
    unfold place
    rw [if_neg (by simp), e1, parts_append, parts_append, parts_word (by decide) (by decide),
      parts_word n.1 n.2.1, parts_word hfn.2.2 hs, namei_succ, List.singleton_append, walkWith, if_neg (by simp [hen]),
      if_neg (by decide), if_pos rfl]
    have : (enabledDir R).dropLast = R := by simp [enabledDir]
    rw [this, walk_dirs tr _ follow ["available".toList] R [f] (by simp) (fun k => by
      cases k with
      | zero => rw [List.take_zero, List.append_nil]; exact h.self
      | succ k => rw [List.take_of_length_le (by simp)]; exact hav)]
    exact walk_last tr _ follow hav ⟨hfn.1, hfn.2.1⟩ (.inr fun t ht => by rw [hl] at ht; cases ht)
  unfold servDisable doDisable
  rw [if_neg (by rintro (h | h) <;> simp at h), h.chdir]
  dsimp only
  rw [chdir_enabled h.self hen]
  have hw : withConf ("../available/".toList ++ f) = "../available/".toList ++ f := by
    unfold withConf
    rw [if_pos ((hasConf_iff _).2 (hf.trans (List.suffix_append _ _)))]
  rw [hw]
  simp only [Option.getD_some, true_and]
  rw [if_neg (by unfold fexistAt statAt; rw [hp, Option.bind_some, hl]; simp)]
  unfold removeAt
  rw [hp]
  dsimp only
  rw [hl]
  exact ⟨rfl, put_same ..⟩

/-! ## Making and deleting -/

/-- The directory's name leaves room for the file's. -/
def Room (e : ServEnv) (f : CStr) : Prop :=
  e.rcsd.getLast? ≠ some '/' ∧ (e.rcsd ++ "/available/".toList ++ f).length < 256

theorem pasteIn_eq {e : ServEnv} {f : CStr} (h : Room e f) :
    pasteIn e.rcsd "available/".toList = e.rcsd ++ "/available/".toList := by
  have h2 := h.2
  unfold pasteIn
  rw [if_neg h.1, if_neg (by decide), List.take_of_length_le]
  · rw [List.append_assoc]; rfl
  · simp only [List.length_append] at h2 ⊢
    have e1 : "/available/".toList.length = 11 := rfl
    have e2 : "available/".toList.length = 10 := rfl
    have e3 : ['/'].length = 1 := rfl
    rw [e1] at h2; rw [e2, e3]
    omega

theorem Rcsd.isdir {e : ServEnv} {tr : STree} {R : SPath} (h : Rcsd e tr R) (cwd : SPath) :
    fisdirAt tr cwd e.rcsd = true := by
  have := h.chdir cwd
  unfold chdirAt at this
  unfold fisdirAt statAt
  cases hp : place tr true cwd e.rcsd with
  | none => rw [hp] at this; cases this
  | some p =>
    rw [hp] at this
    dsimp only at this
    split at this
    · rename_i hd; simp [hd]
    · cases this

theorem Rcsd.isavail {e : ServEnv} {tr : STree} {R : SPath} (h : Rcsd e tr R) (hav : tr (availableDir R) = some .dir)
    (cwd : SPath) : fisdirAt tr cwd (e.rcsd ++ "/available/".toList) = true := by
  have n := available_name
  have e1 : e.rcsd ++ "/available/".toList = e.rcsd ++ '/' :: ("available".toList ++ '/' :: []) := rfl
  unfold fisdirAt statAt place
  rw [if_pos (head_slash h.abs), e1, parts_append, parts_append, h.parts, parts_word n.1 n.2.1, namei_succ]
  have hr := walk_dirs tr (namei tr true 39) true R [] (["available".toList] ++ Verif.parts []) h.plain
    (fun k => by simpa using h.dirs k)
  rw [hr]
  have hr2 := walk_dirs tr (namei tr true 39) true ["available".toList] ([] ++ R) (Verif.parts [])
    (by simp) (fun k => by
      cases k with
      | zero => rw [List.take_zero, List.append_nil]; exact h.self
      | succ k => rw [List.take_of_length_le (by simp)]; exact hav)
  rw [hr2]
  have : Verif.parts [] = [] := rfl
  rw [this, walkWith, Option.bind_some, List.nil_append]
  exact decide_eq_true hav

theorem suffixIn_eq {y x a f : CStr} (h : FileOf a f) (hx : x = y ++ ['/'])
    (hl : (x ++ f).length < 256) : suffixIn ((x ++ a).take 255) = some (x ++ f) := by
  have hal : (x ++ a).length ≤ (x ++ f).length := by
    cases h with
    | whole a => exact Nat.le_refl _
    | short _ => simp
  rw [List.take_of_length_le (by omega)]
  unfold suffixIn
  cases h with
  | whole a => rw [if_pos ((hasConf_iff _).2 ⟨x ++ a, by simp⟩)]
  | short hn =>
    rw [if_neg, if_neg]
    · simp [confSfx]
    · have : ".conf".toList.length = 5 := rfl
      simp only [List.length_append, this] at hl ⊢
      omega
    · intro hc
      have hc := (hasConf_iff _).1 hc
      have h1 : a <:+ x ++ a := List.suffix_append _ _
      by_cases hlen : 5 ≤ a.length
      · exact hn (List.suffix_of_suffix_length_le hc h1 hlen)
      · have h2 : '/' :: a <:+ x ++ a := ⟨y, by simp [hx]⟩
        have h3 := List.suffix_of_suffix_length_le h2 hc (by
          have : ".conf".toList.length = 5 := rfl
          rw [this, List.length_cons]; omega)
        exact absurd (h3.mem (List.mem_cons_self ..)) (by decide)

theorem conf_eq {e : ServEnv} {tr : STree} {R : SPath} (h : Rcsd e tr R) (hav : tr (availableDir R) = some .dir)
    {arg f : CStr} (ha : GivenName arg) (hf : FileOf arg f) (hfin : f ≠ "finit.conf".toList) (hroom : Room e f)
    (creat : Bool) (hx : creat = true ∨ ∃ d, tr (availableDir R ++ [f]) = some (.file d)) :
    servConf e e.cwd arg creat tr = (tr, some (e.rcsd ++ "/available/".toList ++ f)) := by
  have hfn := conf_name hf.conf
  have hfs : '/' ∉ f := hf.mem ha.2.1 (by decide)
  have h1 : ¬ (arg = [] ∨ arg = "finit".toList ∨ arg = "finit.conf".toList) := by
    rintro (h | h | h)
    · exact ha.1 h
    · exact hfin (by rw [← withConf_eq hf, h]; decide)
    · exact hfin (by rw [← withConf_eq hf, h]; decide)
  unfold servConf
  rw [if_neg h1, h.isdir, if_neg (by simp), pasteIn_eq hroom]
  dsimp only
  rw [h.isavail hav, if_pos rfl]
  dsimp only
  rw [if_pos rfl, suffixIn_eq (y := e.rcsd ++ "/available".toList) hf (by rw [List.append_assoc]; rfl) hroom.2]
  dsimp only
  rw [if_neg]
  rintro ⟨hc, hn⟩
  rcases hx with hx | ⟨d, hd⟩
  · rw [hx] at hc; cases hc
  · have := source_place hf.conf hfs (m := 40) (by decide) h hav hd e.cwd
    unfold fexistAt statAt place at hn
    rw [this, Option.bind_some, hd] at hn
    cases hn

/-- The place of a file in `available/`, however the path is used -/
theorem Rcsd.avail {e : ServEnv} {tr : STree} {R : SPath} (h : Rcsd e tr R) (hav : tr (availableDir R) = some .dir)
    {f : CStr} (hf : ".conf".toList <:+ f) (hs : '/' ∉ f) (cwd : SPath) (follow : Bool)
    (hl : ∀ t, tr (availableDir R ++ [f]) ≠ some (.link t)) :
    place tr follow cwd (e.rcsd ++ "/available/".toList ++ f) = some (availableDir R ++ [f]) := by
  have hfn := conf_name hf
  unfold place
  rw [h.src hav hf hs cwd follow 40 (by decide)]
  exact walk_last tr _ follow hav ⟨hfn.1, hfn.2.1⟩ (.inr hl)

/-- **C60**, making.  If `available/NAME.conf` is not there, `initctl create NAME` makes it with what is piped in, changes
nothing else and succeeds.  Missing: names too long for the buffer, and systems without `available/`, see
`C60_create_static`. -/
theorem C60_create_partial {e : ServEnv} {tr : STree} {R : SPath} (h : Rcsd e tr R)
    (hav : tr (availableDir R) = some .dir) {arg f : CStr} (data : CStr) (ha : GivenName arg) (hf : FileOf arg f)
    (hfin : f ≠ "finit.conf".toList) (hroom : Room e f)
    (hnew : tr (availableDir R ++ [f]) = none ∨ e.icreate = true ∧ ∃ d, tr (availableDir R ++ [f]) = some (.file d)) :
    (servCreat e arg data tr).2 = 0 ∧
    (servCreat e arg data tr).1 (availableDir R ++ [f]) = some (.file data) ∧
    OnlyAt (availableDir R ++ [f]) tr (servCreat e arg data tr).1 := by
  have hfs : '/' ∉ f := hf.mem ha.2.1 (by decide)
  have hp := fun follow => h.avail hav hf.conf hfs e.cwd follow (fun t ht => by
    rcases hnew with hnew | ⟨_, d, hd⟩
    · rw [hnew] at ht; cases ht
    · rw [hd] at ht; cases ht)
  have key : servCreat e arg data tr = (tr.put (availableDir R ++ [f]) (some (.file data)), 0) := by
    unfold servCreat
    rw [if_neg ha.1, conf_eq h hav ha hf hfin hroom true (.inl rfl)]
    dsimp only
    rw [if_neg]
    · unfold writeAt
      rw [hp]
      dsimp only
      rcases hnew with hnew | ⟨_, d, hd⟩
      · rw [hnew]
      · rw [hd]
    · rintro ⟨hi, hx⟩
      rcases hnew with hnew | ⟨hc, _⟩
      · unfold fexistAt statAt at hx
        rw [hp, Option.bind_some, hnew] at hx
        cases hx
      · rw [hc] at hi; cases hi
  rw [key]
  exact ⟨rfl, put_same .., put_onlyAt _ _ _⟩

/-- **C60**: without `-c` a file that is there is left as it is. -/
theorem C60_create_keeps {e : ServEnv} {tr : STree} {R : SPath} (h : Rcsd e tr R)
    (hav : tr (availableDir R) = some .dir) {arg f d : CStr} (data : CStr) (ha : GivenName arg) (hf : FileOf arg f)
    (hfin : f ≠ "finit.conf".toList) (hroom : Room e f) (hi : e.icreate = false)
    (hold : tr (availableDir R ++ [f]) = some (.file d)) : (servCreat e arg data tr).1 = tr := by
  have hfs : '/' ∉ f := hf.mem ha.2.1 (by decide)
  have hp := fun follow => h.avail hav hf.conf hfs e.cwd follow (fun t ht => by rw [hold] at ht; cases ht)
  unfold servCreat
  rw [if_neg ha.1, conf_eq h hav ha hf hfin hroom true (.inl rfl)]
  dsimp only
  rw [if_pos]
  refine ⟨hi, ?_⟩
  unfold fexistAt statAt
  rw [hp, Option.bind_some, hold]
  rfl

/-- **C60**, the example of initctl(8): `create` with a text from a pipe and `enable` make finit read that text. -/
theorem C60_example {e : ServEnv} {tr : STree} {R : SPath} (h : Rcsd e tr R)
    (hen : tr (enabledDir R) = some .dir) (hav : tr (availableDir R) = some .dir) {arg f : CStr} (data : CStr)
    (ha : GivenName arg) (hf : FileOf arg f) (hat : '@' ∉ e.rcsd) (haf : '@' ∉ f)
    (hfin : f ≠ "finit.conf".toList) (hroom : Room e f)
    (hnew : tr (availableDir R ++ [f]) = none) (hnew' : tr (enabledDir R ++ [f]) = none) :
    confRead (servEnable e arg (servCreat e arg data tr).1).1 (enabledDir R) f = some data := by
  have hc := C60_create_partial h hav data ha hf hfin hroom (.inl hnew)
  generalize (servCreat e arg data tr).1 = T at hc
  have hT : Rcsd e T R := ⟨h.abs, h.parts, h.plain, fun k => by
    rw [hc.2.2 _ (Ne.symm (by rw [List.append_assoc]; exact below_ne k))]; exact h.dirs k⟩
  exact (C60_enable hT (by rw [hc.2.2 _ dir_ne]; exact hen) (by rw [hc.2.2 _ dir_ne]; exact hav) ha hf (.plain haf) hat
    hc.2.1 (by rw [hc.2.2 _ below_enabled]; exact hnew')).2.2.2

/-- What the code does not do: without `available/`, `create` makes that directory and yet puts the file beside it, where
it is read at once and cannot be enabled. -/
theorem C60_create_static : ∃ (e : ServEnv) (tr : STree),
    (servCreat e "foo".toList "task foo".toList tr).2 = 0 ∧
    (servCreat e "foo".toList "task foo".toList tr).1 ["etc".toList, "finit.d".toList, "available".toList] = some .dir ∧
    confRead (servCreat e "foo".toList "task foo".toList tr).1 ["etc".toList, "finit.d".toList] "foo.conf".toList =
      some "task foo".toList ∧
    (servEnable e "foo".toList (servCreat e "foo".toList "task foo".toList tr).1).2 = 72 := by
  refine ⟨{ rcsd := "/etc/finit.d".toList, conf := "/etc/finit.conf".toList },
    fun p => if p ∈ [[], ["etc".toList], ["etc".toList, "finit.d".toList]] then some .dir else none, ?_⟩
  decide +kernel

/-- **C60**, deleting.  If `available/NAME.conf` is there, `initctl delete NAME` removes it and the link of that name,
changes nothing else and succeeds. -/
theorem C60_delete {e : ServEnv} {tr : STree} {R : SPath} (h : Rcsd e tr R)
    (hen : tr (enabledDir R) = some .dir) (hav : tr (availableDir R) = some .dir) {arg f d : CStr}
    (ha : GivenName arg) (hf : FileOf arg f) (hfin : f ≠ "finit.conf".toList) (hroom : Room e f)
    (hfile : tr (availableDir R ++ [f]) = some (.file d)) (hlink : tr (enabledDir R ++ [f]) ≠ some .dir) :
    (servDelete e arg tr).2 = 0 ∧ (servDelete e arg tr).1 (availableDir R ++ [f]) = none ∧
    (servDelete e arg tr).1 (enabledDir R ++ [f]) = none ∧
    ∀ q, q ≠ availableDir R ++ [f] → q ≠ enabledDir R ++ [f] → (servDelete e arg tr).1 q = tr q := by
  have hfs : '/' ∉ f := hf.mem ha.2.1 (by decide)
  have hfn := conf_name hf.conf
  have hdis : ∃ rc, doDisable e arg false tr = (tr.put (enabledDir R ++ [f]) none, rc, false) := by
    unfold doDisable
    rw [if_neg (given_slash ha), h.chdir]
    dsimp only
    rw [chdir_enabled h.self hen, withConf_eq hf, if_neg (by simp)]
    unfold removeAt
    rw [Option.getD_some, place_here hfn.2.2 hfs, walk_last tr _ false hen ⟨hfn.1, hfn.2.1⟩ (.inl rfl)]
    dsimp only
    cases hn : tr (enabledDir R ++ [f]) with
    | none =>
      refine ⟨1, ?_⟩
      dsimp only
      congr 1
      funext q
      by_cases hq : q = enabledDir R ++ [f]
      · subst hq; rw [put_same, hn]
      · rw [put_other _ hq]
    | some n => cases n with
      | dir => exact absurd hn hlink
      | file _ => exact ⟨0, rfl⟩
      | link _ => exact ⟨0, rfl⟩
  obtain ⟨rc, hdis⟩ := hdis
  generalize hT : tr.put (enabledDir R ++ [f]) none = T at hdis
  have hTR : Rcsd e T R := by rw [← hT]; exact h.put_enabled _ _ _
  have hTa : T (availableDir R) = some .dir := by rw [← hT, put_other _ dir_ne]; exact hav
  have hTf : T (availableDir R ++ [f]) = some (.file d) := by
    rw [← hT, put_other _ (Ne.symm below_enabled)]; exact hfile
  have key : servDelete e arg tr = (T.put (availableDir R ++ [f]) none, 0) := by
    unfold servDelete
    rw [if_neg ha.1, conf_eq h hav ha hf hfin hroom false (.inr ⟨d, hfile⟩)]
    dsimp only
    rw [hdis]
    dsimp only
    unfold removeAt
    rw [hTR.avail hTa hf.conf hfs _ false (fun t ht => by rw [hTf] at ht; cases ht)]
    dsimp only
    rw [hTf]
  rw [key]
  refine ⟨rfl, put_same .., ?_, ?_⟩
  · dsimp only
    rw [put_other _ below_enabled, ← hT, put_same]
  · intro q h1 h2
    dsimp only
    rw [put_other _ h1, ← hT, put_other _ h2]

/-! ## Examples -/

/-- `/etc/finit.d` with two files in `available/`, one of them enabled -/
def servTree : STree := fun p =>
  let E := ["etc".toList, "finit.d".toList]
  if p ∈ [[], ["etc".toList], E, enabledDir E, availableDir E] then some .dir
  else if p = availableDir E ++ ["foo.conf".toList] then some (.file "service foo".toList)
  else if p = availableDir E ++ ["con@.conf".toList] then some (.file "tty %i".toList)
  else if p = enabledDir E ++ ["foo.conf".toList] then some (.link "/etc/finit.d/available/foo.conf".toList)
  else if p = enabledDir E ++ ["own.conf".toList] then some (.file "service own".toList)
  else none

def servDemo : ServEnv := { rcsd := "/etc/finit.d".toList, conf := "/etc/finit.conf".toList }

theorem servDemo_rcsd : Rcsd servDemo servTree ["etc".toList, "finit.d".toList] where
  abs := by decide
  parts := by decide
  plain := by decide
  dirs := fun k => by
    match k with
    | 0 => decide +kernel
    | 1 => decide +kernel
    | k + 2 => rw [List.take_of_length_le (by simp)]; decide +kernel

example : confRead (servEnable servDemo "con@1".toList servTree).1 (enabledDir ["etc".toList, "finit.d".toList])
    "con@1.conf".toList = some "tty %i".toList :=
  (C60_enable servDemo_rcsd (by decide +kernel) (by decide +kernel) (arg := "con@1".toList) (f := "con@1.conf".toList)
    (g := "con@.conf".toList) (by unfold GivenName; decide) (FileOf.short (a := "con@1".toList) (by decide))
    (SourceOf.template (a := "con".toList) "1.conf".toList (by decide)) (by decide) (by decide +kernel)
    (by decide +kernel)).2.2.2

example : servDisable servDemo "con@1".toList (servEnable servDemo "con@1".toList servTree).1 = (servTree, 0) :=
  C60_round servDemo_rcsd (by decide +kernel) (by decide +kernel) (arg := "con@1".toList) (f := "con@1.conf".toList)
    (g := "con@.conf".toList) (d := "tty %i".toList) (by unfold GivenName; decide)
    (FileOf.short (a := "con@1".toList) (by decide))
    (SourceOf.template (a := "con".toList) "1.conf".toList (by decide)) (by decide) (by decide +kernel) (by decide +kernel)

example : (servDisable servDemo "foo".toList servTree).2 = 0 :=
  (C60_disable_partial servDemo_rcsd (by decide +kernel) (arg := "foo".toList) (f := "foo.conf".toList)
    (t := "/etc/finit.d/available/foo.conf".toList) (d := "service foo".toList)
    (by unfold GivenName; decide) (FileOf.short (a := "foo".toList) (by decide)) (by decide +kernel)
    (by decide +kernel)).1

example : (servDelete servDemo "foo.conf".toList servTree).2 = 0 :=
  (C60_delete servDemo_rcsd (by decide +kernel) (by decide +kernel) (arg := "foo.conf".toList) (f := "foo.conf".toList)
    (d := "service foo".toList)
    (by unfold GivenName; decide) (FileOf.whole "foo".toList) (by decide) (by unfold Room; decide) (by decide +kernel)
    (by decide +kernel)).1

example : confRead (servEnable servDemo "bar".toList (servCreat servDemo "bar".toList "run x".toList servTree).1).1
    (enabledDir ["etc".toList, "finit.d".toList]) "bar.conf".toList = some "run x".toList :=
  C60_example servDemo_rcsd (by decide +kernel) (by decide +kernel) (arg := "bar".toList) _
    (by unfold GivenName; decide) (FileOf.short (a := "bar".toList) (by decide)) (by decide) (by decide) (by decide)
    (by unfold Room; decide) (by decide +kernel) (by decide +kernel)

/-- The full claim, that `disable` removes nothing but links, is false. -/
theorem C60_full_false : ¬ ∀ (e : ServEnv) (tr : STree) (arg : CStr) (p : SPath) (d : CStr),
    tr p = some (.file d) → (servDisable e arg tr).1 p = some (.file d) := by
  intro h
  obtain ⟨_, h2⟩ := C60_regular servDemo_rcsd (by decide +kernel) (arg := "own".toList) (f := "own.conf".toList)
    (d := "service own".toList) (by unfold GivenName; decide) (FileOf.short (a := "own".toList) (by decide))
    (by decide +kernel)
  have h1 := h servDemo servTree "own".toList _ "service own".toList
    (show servTree (enabledDir ["etc".toList, "finit.d".toList] ++ ["own.conf".toList]) = _ by decide +kernel)
  generalize (servDisable servDemo "own".toList servTree).1 = T at h1 h2
  generalize T (enabledDir ["etc".toList, "finit.d".toList] ++ ["own.conf".toList]) = x at h1 h2
  cases h1.symm.trans h2

end Verif
