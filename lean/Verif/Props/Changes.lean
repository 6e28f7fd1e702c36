import Verif.Changes

/-!
# C58: changed configuration files are noticed

doc/config/files.md: changes are tracked, and `initctl reload` restarts the services whose file, or whose environment
file, has changed since the last reload.
-/

namespace Verif

/-- Reading `p` looks at `x`: `x` is `p`, or the next link leads there -/
inductive Via (fs : Files) : CStr → CStr → Prop
  | here {p} : Via fs p p
  | next {p t x} : fs p = some (.link t) → Via fs t x → Via fs p x

/-- A file in a watched directory, whose name begins with a printable character and is not that of a template -/
structure PlainFile (ws : List CStr) (x : CStr) : Prop where
  split : ∃ dir c name, x = dir ++ '/' :: c :: name ∧ (dir ∈ ws ∨ dir ++ ['/'] ∈ ws) ∧ dir.getLast? ≠ some '/' ∧
    32 ≤ c.toNat ∧ c.toNat < 128 ∧ '/' ∉ c :: name ∧ '@' ∉ c :: name

/-- The files after some of the actions -/
def filesAfter (ws : List CStr) (fs : Files) (acts : List FAct) : Files :=
  (acts.foldl (fstep ws) { fs := fs }).fs

/-- The full claim: whenever a file is read at a reload that is not what it was at the reload before, it is said to have
    changed -/
def C58_full : Prop :=
  ∀ rcsd fs acts sizes p, (∃ dir name, p = dir ++ '/' :: name ∧ '/' ∉ name ∧
      dir ∈ [rcsd, rcsd ++ "/enabled".toList, "/lib/finit/system".toList, "/run/finit/system".toList]) →
    contents (filesAfter (watches rcsd) fs acts) p ≠ none →
    contents (filesAfter (watches rcsd) fs acts) p ≠ contents fs p →
    confChanged (atReload (watches rcsd) fs acts sizes) p = true

/-! ## Lemmas -/

private theorem realAt_mono {fs : Files} {r : CStr} : ∀ {n m : Nat} {p : CStr}, realAt fs n p = .found r → n ≤ m →
    realAt fs m p = .found r
  | n, m, p, h, hle => by
    unfold realAt at h ⊢
    cases hp : fs p with
    | none => rw [hp] at h; exact nomatch h
    | some k =>
      rw [hp] at h
      cases k with
      | file d => exact h
      | link t =>
        cases n with
        | zero => exact nomatch h
        | succ n =>
          cases m with
          | zero => omega
          | succ m => exact realAt_mono (n := n) h (by omega)

private theorem realAt_via {fs : Files} {r : CStr} : ∀ {n : Nat} {p x : CStr}, realAt fs n p = .found r → Via fs p x →
    realAt fs n x = .found r
  | _, _, _, h, .here => h
  | n, _, _, h, .next ht hv => by
    unfold realAt at h
    rw [ht] at h
    cases n with
    | zero => exact nomatch h
    | succ n => exact realAt_mono (realAt_via h hv) (by omega)

private theorem realAt_self {fs : Files} {r : CStr} : ∀ {n : Nat} {p : CStr}, realAt fs n p = .found r →
    Via fs p r ∧ ∃ d, fs r = some (.file d)
  | n, p, h => by
    unfold realAt at h
    cases hp : fs p with
    | none => rw [hp] at h; exact nomatch h
    | some k =>
      rw [hp] at h
      cases k with
      | file d =>
        obtain rfl : p = r := by injection h
        exact ⟨.here, d, hp⟩
      | link t =>
        cases n with
        | zero => exact nomatch h
        | succ n =>
          obtain ⟨hv, hd⟩ := realAt_self h
          exact ⟨.next hp hv, hd⟩

/-- What is looked at decides. -/
private theorem realAt_congr {fs fs' : Files} : ∀ {n : Nat} {p : CStr}, (∀ x, Via fs p x → fs x = fs' x) →
    realAt fs n p = realAt fs' n p
  | n, p, h => by
    unfold realAt
    rw [← h p .here]
    cases hp : fs p with
    | none => rfl
    | some k =>
      cases k with
      | file d => rfl
      | link t =>
        cases n with
        | zero => rfl
        | succ n => exact realAt_congr fun x hx => h x (.next hp hx)

private theorem via_congr {fs fs' : Files} {p x : CStr} (h : ∀ y, Via fs p y → fs y = fs' y) (hv : Via fs p x) :
    Via fs' p x := by
  induction hv with
  | here => exact .here
  | next ht _ ih => exact .next ((h _ .here) ▸ ht) (ih fun y hy => h y (.next ht hy))

private theorem via_back {fs fs' : Files} {p x : CStr} (h : ∀ y, Via fs p y → fs y = fs' y) (hv : Via fs' p x) :
    Via fs p x := by
  induction hv with
  | here => exact .here
  | next ht _ ih =>
    have ht' := (h _ .here).trans ht
    exact .next ht' (ih fun y hy => h y (.next ht' hy))

private theorem contents_congr {fs fs' : Files} {p : CStr} (h : ∀ x, Via fs p x → fs x = fs' x) :
    contents fs p = contents fs' p := by
  unfold contents realpath
  rw [← realAt_congr h]
  cases hr : realAt fs 40 p with
  | found r =>
    dsimp only
    rw [h r (realAt_self hr).1]
  | _ => rfl

private theorem rev_take {l a : CStr} (h : '/' ∉ l) :
    ((a ++ '/' :: l).reverse.takeWhile (· ≠ '/')).reverse = l ∧
    (((a ++ '/' :: l).reverse.dropWhile (· ≠ '/')).drop 1).reverse = a := by
  have e : (a ++ '/' :: l).reverse = l.reverse ++ '/' :: a.reverse := by simp
  have hp : ∀ c ∈ l.reverse, (decide (c ≠ '/')) = true := by
    intro c hc
    have : c ≠ '/' := fun e => h (by simpa [e] using hc)
    simpa using this
  rw [e, List.takeWhile_append_of_pos hp, List.dropWhile_append_of_pos hp]
  simp

private theorem event_plain {ws : List CStr} {x : CStr} (h : PlainFile ws x) :
    ∃ w c name, eventFor ws x = some ⟨some w, c :: name⟩ ∧ pastePath w (c :: name) = x ∧ 32 ≤ c.toNat ∧ c.toNat < 128 ∧
      '@' ∉ c :: name := by
  obtain ⟨dir, c, name, rfl, hd, hl, h1, h2, hs, ha⟩ := h.split
  obtain ⟨e1, e2⟩ := rev_take (a := dir) hs
  unfold eventFor
  simp only
  rw [e1, e2]
  cases hf : ws.find? (fun w => decide (w = dir) || decide (w = dir ++ ['/'])) with
  | none =>
    exfalso
    rw [List.find?_eq_none] at hf
    rcases hd with hd | hd
    · exact hf _ hd (by simp)
    · exact hf _ hd (by simp)
  | some w =>
    refine ⟨w, c, name, rfl, ?_, h1, h2, ha⟩
    have hw := List.find?_some hf
    unfold pastePath
    rcases (by simpa using hw : w = dir ∨ w = dir ++ ['/']) with rfl | rfl
    · rw [if_neg hl]
    · rw [if_pos (by simp)]
      simp

private theorem act_some {fs : Files} (hl : ∀ x, realpath fs x ≠ .loop) (dir name : CStr) (ch : List CStr) :
    ∃ ch', changeAct fs dir name ch = some ch' ∧ (∀ y ∈ ch, y ∈ ch') ∧
      ∀ c rest, name = c :: rest → 32 ≤ c.toNat → c.toNat < 128 → '@' ∉ name → ∀ r,
        realpath fs (pastePath dir name) = .found r → r ∈ ch' := by
  have key : ∀ fn, ∃ rp, notedFor fs name fn = some rp ∧ ('@' ∉ name → ∀ r, realpath fs fn = .found r → rp = r) := by
    intro fn
    unfold notedFor
    by_cases ha : '@' ∈ name
    · exact ⟨fn, by rw [if_pos ha], fun h => absurd ha h⟩
    · rw [if_neg ha]
      cases hr : realpath fs fn with
      | found q => exact ⟨q, rfl, fun _ r h => by injection h⟩
      | noent => exact ⟨fn, rfl, fun _ r h => nomatch h⟩
      | loop => exact absurd hr (hl fn)
  obtain ⟨rp, e, h⟩ := key (eventPath dir name)
  refine ⟨if rp ∈ ch then ch else rp :: ch, ?_, ?_, ?_⟩
  · unfold changeAct
    rw [e]
    rfl
  · intro y hy
    split
    · exact hy
    · exact List.mem_cons_of_mem _ hy
  · intro c rest hn h1 h2 ha r hr
    subst hn
    have : rp = r := h ha r (by simpa [eventPath, h1, h2] using hr)
    subst this
    split
    · assumption
    · simp

private theorem batch_spec {fs : Files} (hl : ∀ x, realpath fs x ≠ .loop) : ∀ (es : List InEvent) (ch : List CStr),
    (∀ y ∈ ch, y ∈ readBatch fs es ch) ∧
    ∀ w c rest r, (⟨some w, c :: rest⟩ : InEvent) ∈ es → 32 ≤ c.toNat → c.toNat < 128 → '@' ∉ c :: rest →
      realpath fs (pastePath w (c :: rest)) = .found r → r ∈ readBatch fs es ch
  | [], ch => ⟨fun _ h => h, by simp⟩
  | e :: es, ch => by
    unfold readBatch
    cases hd : e.dir with
    | none =>
      obtain ⟨h1, h2⟩ := batch_spec hl es ch
      refine ⟨h1, fun w c rest r hm => ?_⟩
      rcases List.mem_cons.1 hm with rfl | hm
      · exact nomatch hd
      · exact h2 w c rest r hm
    | some d =>
      obtain ⟨ch', e', hk, hn⟩ := act_some hl d e.name ch
      dsimp only
      rw [e']
      obtain ⟨h1, h2⟩ := batch_spec hl es ch'
      refine ⟨fun y hy => h1 y (hk y hy), fun w c rest r hm a b ha hr => ?_⟩
      rcases List.mem_cons.1 hm with rfl | hm
      · obtain rfl : w = d := by injection hd
        exact h1 r (hn c rest rfl a b ha r hr)
      · exact h2 w c rest r hm a b ha hr

/-- What holds between two reloads -/
private def Noticed (ws : List CStr) (fs0 : Files) (s : Watched) : Prop :=
  ∀ p r, realpath s.fs p = .found r → (∀ x, Via s.fs p x → PlainFile ws x) →
    r ∈ s.changes ∨ (∃ x e, Via s.fs p x ∧ eventFor ws x = some e ∧ e ∈ s.queue) ∨
    ∀ x, Via s.fs p x → s.fs x = fs0 x

private theorem noticed_read {ws : List CStr} {fs0 : Files} {s : Watched} (n : Nat)
    (hl : ∀ x, realpath s.fs x ≠ .loop) (h : Noticed ws fs0 s) : Noticed ws fs0 (readSome n s) := by
  intro p r hr hv
  obtain ⟨b1, b2⟩ := batch_spec hl (s.queue.take n) s.changes
  rcases h p r hr hv with h | ⟨x, e, hx, he, hq⟩ | h
  · exact .inl (b1 r h)
  · rw [← List.take_append_drop n s.queue, List.mem_append] at hq
    rcases hq with hq | hq
    · obtain ⟨w, c, name, e1, e2, h1, h2, ha⟩ := event_plain (hv x hx)
      rw [e1] at he
      obtain rfl : _ = e := by injection he
      refine .inl (b2 w c name r hq h1 h2 ha ?_)
      rw [e2]
      exact realAt_via hr hx
    · exact .inr (.inl ⟨x, e, hx, he, hq⟩)
  · exact .inr (.inr h)

private theorem noticed_change {ws : List CStr} {fs0 : Files} {s : Watched} (q : CStr) (n : Option FNode)
    (h : Noticed ws fs0 s) : Noticed ws fs0 (fstep ws s (.change q n)) := by
  intro p r hr hv
  by_cases hq : Via (fstep ws s (.change q n)).fs p q
  · obtain ⟨w, c, name, e1, _⟩ := event_plain (hv q hq)
    exact .inr (.inl ⟨q, _, hq, e1, by simp [fstep, e1]⟩)
  · have same : ∀ x, Via (fstep ws s (.change q n)).fs p x → (fstep ws s (.change q n)).fs x = s.fs x := by
      intro x hx
      have : x ≠ q := fun e => hq (e ▸ hx)
      simp [fstep, this]
    have old : ∀ x, Via s.fs p x → Via (fstep ws s (.change q n)).fs p x := fun x hx => via_back same hx
    have hr' : realpath s.fs p = .found r := by
      rw [← hr]
      exact (realAt_congr same).symm
    rcases h p r hr' (fun x hx => hv x (old x hx)) with h | ⟨x, e, hx, he, hm⟩ | h
    · exact .inl h
    · exact .inr (.inl ⟨x, e, old x hx, he, by simp [fstep, hm]⟩)
    · exact .inr (.inr fun x hx => (same x hx).trans (h x (via_congr same hx)))

private theorem noticed_all {ws : List CStr} {fs0 : Files} : ∀ (acts : List FAct) (s : Watched),
    (∀ a ∈ acts, ∀ p n, a ≠ .lost p n) →
    (∀ pre, pre <+: acts → ∀ x, realpath (pre.foldl (fstep ws) s).fs x ≠ .loop) → Noticed ws fs0 s →
    Noticed ws fs0 (acts.foldl (fstep ws) s)
  | [], _, _, _, h => h
  | a :: acts, s, hn, hl, h => by
    have hl' : ∀ pre, pre <+: acts → ∀ x, realpath (pre.foldl (fstep ws) (fstep ws s a)).fs x ≠ .loop := by
      intro pre hp
      exact hl (a :: pre) (List.cons_prefix_cons.2 ⟨rfl, hp⟩)
    refine noticed_all acts (fstep ws s a) (fun b hb => hn b (by simp [hb])) hl' ?_
    cases a with
    | change q n => exact noticed_change q n h
    | read n => exact noticed_read n (hl [] (List.nil_prefix)) h
    | lost q n => exact absurd rfl (hn _ (by simp) q n)

private theorem flush_spec {P : Watched → Prop} (sizes : Nat → Nat) (hP : ∀ n s, P s → P (readSome n s)) :
    ∀ (fuel : Nat) (s : Watched), s.queue.length ≤ fuel → P s →
      P (flushAll sizes fuel s) ∧ (flushAll sizes fuel s).queue = [] ∧ (flushAll sizes fuel s).fs = s.fs
  | 0, s, hf, h => ⟨h, List.length_eq_zero_iff.1 (Nat.le_zero.1 hf), rfl⟩
  | fuel + 1, s, hf, h => by
    unfold flushAll
    by_cases hq : s.queue = []
    · rw [if_pos hq]
      exact ⟨h, hq, rfl⟩
    · rw [if_neg hq]
      refine flush_spec sizes hP fuel (readSome (sizes fuel + 1) s) ?_ (hP _ _ h)
      simp only [readSome, List.length_drop]
      omega

/-! ## Theorems -/

/-- **C58.**  Whenever a file is read at a reload that is not what it was at the reload before, it is said to have
    changed: for all changes to files and links, whenever and in whatever portions the events are read.  Every file and
    link on the way must be in a watched directory, not be a template, and have a name that begins with a printable
    ASCII character; there must be no loop of links; and the queue of the kernel must not be full. -/
theorem C58_partial {ws : List CStr} {fs : Files} {acts : List FAct} (sizes : Nat → Nat) {p : CStr}
    (hq : ∀ a ∈ acts, ∀ q n, a ≠ .lost q n)
    (hl : ∀ pre, pre <+: acts → ∀ x, realpath (filesAfter ws fs pre) x ≠ .loop)
    (hv : ∀ x, Via (filesAfter ws fs acts) p x → PlainFile ws x) (ha : '@' ∉ p)
    (hr : contents (filesAfter ws fs acts) p ≠ none)
    (hc : contents (filesAfter ws fs acts) p ≠ contents fs p) :
    confChanged (atReload ws fs acts sizes) p = true := by
  have h0 : Noticed ws fs { fs := fs } := fun p r _ _ => .inr (.inr fun _ _ => rfl)
  have h1 := noticed_all acts { fs := fs } hq hl h0
  have hlast : ∀ x, realpath (filesAfter ws fs acts) x ≠ .loop := hl acts (List.prefix_refl _)
  obtain ⟨⟨h2, _⟩, h3, h4⟩ := flush_spec (P := fun s => Noticed ws fs s ∧ s.fs = filesAfter ws fs acts) sizes
    (fun n s h => ⟨noticed_read n (fun x => by rw [h.2]; exact hlast x) h.1, h.2⟩)
    (acts.foldl (fstep ws) { fs := fs }).queue.length _ (Nat.le_refl _) ⟨h1, rfl⟩
  change Noticed ws fs (atReload ws fs acts sizes) at h2
  change (atReload ws fs acts sizes).queue = [] at h3
  change (atReload ws fs acts sizes).fs = filesAfter ws fs acts at h4
  unfold confChanged
  rw [if_neg ha, h4]
  cases hp : realpath (filesAfter ws fs acts) p with
  | found r =>
    have := h2 p r (by rw [h4]; exact hp) (by rw [h4]; exact hv)
    rw [h3, h4] at this
    rcases this with h | ⟨_, _, _, _, h⟩ | h
    · simpa using h
    · exact nomatch h
    · exact absurd (contents_congr h) hc
  | noent => exact absurd (by unfold contents; rw [hp]) hr
  | loop => exact absurd hp (hlast p)

/-- A file in the directory of the administrator, or one of those for services that can be enabled, or for environment
    files, with a plain name -/
def InConfDir (rcsd x : CStr) : Prop :=
  ∃ dir ∈ [rcsd, rcsd ++ "/available".toList, rcsd ++ "/enabled".toList, "/etc/default".toList, "/etc/conf.d".toList],
    ∃ c name, x = dir ++ '/' :: c :: name ∧ 32 ≤ c.toNat ∧ c.toNat < 128 ∧ '/' ∉ c :: name ∧ '@' ∉ c :: name

/-- So changes in these directories are noticed. -/
theorem C58_dirs_partial {rcsd : CStr} {fs : Files} {acts : List FAct} (sizes : Nat → Nat) {p : CStr}
    (hd : rcsd.getLast? ≠ some '/') (hq : ∀ a ∈ acts, ∀ q n, a ≠ .lost q n)
    (hl : ∀ pre, pre <+: acts → ∀ x, realpath (filesAfter (watches rcsd) fs pre) x ≠ .loop)
    (hv : ∀ x, Via (filesAfter (watches rcsd) fs acts) p x → InConfDir rcsd x) (ha : '@' ∉ p)
    (hr : contents (filesAfter (watches rcsd) fs acts) p ≠ none)
    (hc : contents (filesAfter (watches rcsd) fs acts) p ≠ contents fs p) :
    confChanged (atReload (watches rcsd) fs acts sizes) p = true := by
  refine C58_partial sizes hq hl (fun x hx => ?_) ha hr hc
  obtain ⟨dir, hdir, c, name, e, h1, h2, h3, h4⟩ := hv x hx
  have key : (dir ∈ watches rcsd ∨ dir ++ ['/'] ∈ watches rcsd) ∧ dir.getLast? ≠ some '/' := by
    simp only [List.mem_cons, List.not_mem_nil, or_false] at hdir
    unfold watches
    rcases hdir with rfl | rfl | rfl | rfl | rfl
    · exact ⟨.inl (by simp), hd⟩
    · exact ⟨.inr (by rw [List.append_assoc]; simp), by rw [List.getLast?_append]; exact fun h => absurd (show some _ = some _ from h) (by decide)⟩
    · exact ⟨.inr (by rw [List.append_assoc]; simp), by rw [List.getLast?_append]; exact fun h => absurd (show some _ = some _ from h) (by decide)⟩
    · exact ⟨.inr (by simp), by decide⟩
    · exact ⟨.inr (by simp), by decide⟩
  exact ⟨dir, c, name, e, key.1, key.2, h1, h2, h3, h4⟩

/-- Nothing is said to have changed when nothing has. -/
theorem C58_quiet {ws : List CStr} {fs : Files} {acts : List FAct} (sizes : Nat → Nat) {p : CStr}
    (h : ∀ a ∈ acts, ∃ n, a = .read n) : confChanged (atReload ws fs acts sizes) p = false := by
  have step : ∀ n s, s.queue = [] ∧ s.changes = [] → (readSome n s).queue = [] ∧ (readSome n s).changes = [] := by
    rintro n s ⟨h1, h2⟩
    simp [readSome, h1, h2, readBatch]
  have all : ∀ (acts : List FAct) (s : Watched), (∀ a ∈ acts, ∃ n, a = .read n) → s.queue = [] ∧ s.changes = [] →
      (acts.foldl (fstep ws) s).queue = [] ∧ (acts.foldl (fstep ws) s).changes = [] := by
    intro acts
    induction acts with
    | nil => exact fun s _ h => h
    | cons a acts ih =>
      intro s ha hs
      obtain ⟨n, rfl⟩ := ha a (by simp)
      exact ih _ (fun b hb => ha b (by simp [hb])) (step n s hs)
  obtain ⟨h1, h2⟩ := all acts { fs := fs } h ⟨rfl, rfl⟩
  have h3 : (atReload ws fs acts sizes).changes = [] := by
    unfold atReload
    simp only
    rw [h1]
    exact h2
  unfold confChanged
  rw [h3]
  split
  · simp
  · split <;> simp

/-! ## Where it fails -/

private def rcsd : CStr := "/etc/finit.d".toList

private def filesOf (l : List (String × FNode)) : Files := fun p => (l.find? fun e => e.1.toList = p).map (·.2)

private def eight : Nat → Nat := fun _ => 7

/-- A changed template is not noticed for its instances. -/
theorem C58_template :
    let fs := filesOf [("/etc/finit.d/available/foo@.conf", .file "service foo %i".toList),
      ("/etc/finit.d/enabled/foo@1.conf", .link "/etc/finit.d/available/foo@.conf".toList)]
    let acts := [FAct.change "/etc/finit.d/available/foo@.conf".toList (some (.file "service @www foo %i".toList))]
    let p := "/etc/finit.d/enabled/foo@1.conf".toList
    contents (filesAfter (watches rcsd) fs acts) p ≠ none ∧
    contents (filesAfter (watches rcsd) fs acts) p ≠ contents fs p ∧
    confChanged (atReload (watches rcsd) fs acts eight) p = false := by
  decide +kernel

/-- When the file is removed that takes the place of one in /lib/finit/system, the latter is read again, but not said to
    have changed: the service keeps its settings of before. -/
theorem C58_override :
    let fs := filesOf [("/lib/finit/system/foo.conf", .file "service foo".toList),
      ("/etc/finit.d/foo.conf", .file "service @www foo".toList)]
    let acts := [FAct.change "/etc/finit.d/foo.conf".toList none]
    contents (filesAfter (watches rcsd) fs acts) "/etc/finit.d/foo.conf".toList = none ∧
    contents (filesAfter (watches rcsd) fs acts) "/lib/finit/system/foo.conf".toList = some "service foo".toList ∧
    confChanged (atReload (watches rcsd) fs acts eight) "/lib/finit/system/foo.conf".toList = false := by
  decide +kernel

/-- A file is not noticed if its name does not begin with an ASCII character (`Ã¥` are the bytes of a single letter). -/
theorem C58_name :
    let fs := filesOf [("/etc/finit.d/Ã¥.conf", .file "service foo".toList)]
    let acts := [FAct.change "/etc/finit.d/Ã¥.conf".toList (some (.file "service @www foo".toList))]
    let p := "/etc/finit.d/Ã¥.conf".toList
    contents (filesAfter (watches rcsd) fs acts) p = some "service @www foo".toList ∧
    confChanged (atReload (watches rcsd) fs acts eight) p = false := by
  decide +kernel

/-- With a link to itself, what changes next is not noticed. -/
theorem C58_loop :
    let fs := filesOf [("/etc/finit.d/foo.conf", .file "service foo".toList)]
    let acts := [FAct.change "/etc/finit.d/x".toList (some (.link "/etc/finit.d/x".toList)),
      FAct.change "/etc/finit.d/foo.conf".toList (some (.file "service @www foo".toList))]
    let p := "/etc/finit.d/foo.conf".toList
    contents (filesAfter (watches rcsd) fs acts) p = some "service @www foo".toList ∧
    confChanged (atReload (watches rcsd) fs acts eight) p = false := by
  decide +kernel

/-- Nor are changes while the queue is full: the event that says so is ignored. -/
theorem C58_lost :
    let fs := filesOf [("/etc/finit.d/foo.conf", .file "service foo".toList)]
    let acts := [FAct.lost "/etc/finit.d/foo.conf".toList (some (.file "service @www foo".toList))]
    let p := "/etc/finit.d/foo.conf".toList
    contents (filesAfter (watches rcsd) fs acts) p = some "service @www foo".toList ∧
    confChanged (atReload (watches rcsd) fs acts eight) p = false := by
  decide +kernel

/-- The full claim is false. -/
theorem C58_full_false : ¬ C58_full := by
  intro h
  obtain ⟨h1, h2, h3⟩ := C58_template
  have := h rcsd _ _ eight _ ⟨"/etc/finit.d/enabled".toList, "foo@1.conf".toList, by decide +kernel, by decide +kernel,
    by decide +kernel⟩ h1 h2
  rw [h3] at this
  exact nomatch this

/-! ## Examples -/

private def demoFiles : Files := filesOf [("/etc/finit.d/available/foo.conf", .file "service foo".toList),
  ("/etc/finit.d/enabled/foo.conf", .link "/etc/finit.d/available/foo.conf".toList)]

private def demoActs : List FAct :=
  [.change "/etc/finit.d/available/foo.conf".toList none, .read 1,
   .change "/etc/finit.d/available/foo.conf".toList (some (.file "service @www foo".toList))]

private theorem noLoop {fs : Files} (h : ∀ p t, fs p = some (.link t) → ∀ u, fs t ≠ some (.link u)) (x : CStr) :
    realpath fs x ≠ .loop := by
  unfold realpath realAt
  cases hx : fs x with
  | none => exact nofun
  | some k =>
    cases k with
    | file d => exact nofun
    | link t =>
      dsimp only
      unfold realAt
      cases ht : fs t with
      | none => exact nofun
      | some k =>
        cases k with
        | file d => exact nofun
        | link u => exact absurd ht (h x t hx u)

private theorem filesOf_cons (a : String) (k : FNode) (l : List (String × FNode)) (p : CStr) :
    filesOf ((a, k) :: l) p = if a.toList = p then some k else filesOf l p := by
  unfold filesOf
  by_cases h : a.toList = p <;> simp [h]

private theorem demo_link {p t : CStr} (h : demoFiles p = some (.link t)) :
    p = "/etc/finit.d/enabled/foo.conf".toList ∧ t = "/etc/finit.d/available/foo.conf".toList := by
  unfold demoFiles at h
  rw [filesOf_cons, filesOf_cons] at h
  split at h
  · exact nomatch h
  · split at h
    · rename_i hp
      injection h with h
      injection h with h
      exact ⟨hp.symm, h.symm⟩
    · exact nomatch h

/-- Files that differ from `demoFiles` in the file the link leads to -/
private theorem demo_noLoop {n : Option FNode} (hn : ∀ t, n ≠ some (.link t)) {fs : Files}
    (hf : ∀ p, fs p = if p = "/etc/finit.d/available/foo.conf".toList then n else demoFiles p) (x : CStr) :
    realpath fs x ≠ .loop := by
  refine noLoop (fun p t hp u hu => ?_) x
  rw [hf] at hp hu
  split at hp
  · exact hn _ hp
  · rw [(demo_link hp).2, if_pos rfl] at hu
    exact hn _ hu

/-- Hypotheses of `C58_dirs_partial` (and of `C58_partial`) that can be met: the file a link leads to is replaced. -/
example : confChanged (atReload (watches rcsd) demoFiles demoActs eight) "/etc/finit.d/enabled/foo.conf".toList = true := by
  refine C58_dirs_partial eight (by decide) (by simp [demoActs]) ?_ ?_ (by decide) (by decide +kernel) (by decide +kernel)
  · intro pre hp x
    have : pre = demoActs.take pre.length := List.prefix_iff_eq_take.1 hp
    have hlen : pre.length ≤ 3 := hp.length_le
    rw [this]
    match pre.length, hlen with
    | 0, _ =>
      refine demo_noLoop (n := some (.file "service foo".toList)) nofun (fun p => ?_) x
      by_cases h : p = "/etc/finit.d/available/foo.conf".toList
      · subst h; rfl
      · rw [if_neg h]; rfl
    | 1, _ => exact demo_noLoop (n := none) nofun (fun p => rfl) x
    | 2, _ => exact demo_noLoop (n := none) nofun (fun p => rfl) x
    | 3, _ =>
      refine demo_noLoop (n := some (.file "service @www foo".toList)) nofun (fun p => ?_) x
      by_cases h : p = "/etc/finit.d/available/foo.conf".toList
      · subst h; rfl
      · have e : filesAfter (watches rcsd) demoFiles (demoActs.take 3) p =
          if p = "/etc/finit.d/available/foo.conf".toList then some (.file "service @www foo".toList) else
          if p = "/etc/finit.d/available/foo.conf".toList then none else demoFiles p := rfl
        rw [e, if_neg h, if_neg h, if_neg h]
  · have plain : InConfDir rcsd "/etc/finit.d/enabled/foo.conf".toList ∧
        InConfDir rcsd "/etc/finit.d/available/foo.conf".toList :=
      ⟨⟨"/etc/finit.d/enabled".toList, by decide +kernel, 'f', "oo.conf".toList, by decide +kernel, by decide, by decide,
        by decide, by decide⟩,
       ⟨"/etc/finit.d/available".toList, by decide +kernel, 'f', "oo.conf".toList, by decide +kernel, by decide, by decide,
        by decide, by decide⟩⟩
    have last : ∀ x, Via (filesAfter (watches rcsd) demoFiles demoActs) "/etc/finit.d/available/foo.conf".toList x →
        x = "/etc/finit.d/available/foo.conf".toList := by
      intro x hx
      cases hx with
      | here => rfl
      | next ht _ =>
        have : filesAfter (watches rcsd) demoFiles demoActs "/etc/finit.d/available/foo.conf".toList =
          some (.file "service @www foo".toList) := by decide +kernel
        exact nomatch this.symm.trans ht
    intro x hx
    cases hx with
    | here => exact plain.1
    | next ht hv =>
      have : filesAfter (watches rcsd) demoFiles demoActs "/etc/finit.d/enabled/foo.conf".toList =
        some (.link "/etc/finit.d/available/foo.conf".toList) := by decide +kernel
      rw [this] at ht
      injection ht with ht
      injection ht with ht
      subst ht
      rw [last _ hv]
      exact plain.2

end Verif
