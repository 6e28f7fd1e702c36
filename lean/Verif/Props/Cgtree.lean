import Verif.Cgtree

/-!
# C114: initctl ps shows every process, once, in its group
-/

namespace Verif

/-! ## Specification -/

/-- The arguments of a process as the kernel gives them in /proc/PID/cmdline: each with a NUL after it; none for a kernel thread -/
def ctFile (args : List CStr) : List Char := args.flatMap (· ++ ['\x00'])

/-- A group with the arguments of its processes -/
inductive CtWorld
  | node (name : CStr) (procs : List (Int × List CStr)) (subs : List CtWorld)

def CtWorld.name : CtWorld → CStr
  | .node name _ _ => name

mutual
/-- What initctl finds -/
def CtWorld.tree : CtWorld → CtTree
  | .node name procs subs => .node name (procs.map fun p => ⟨p.1, some (ctFile p.2)⟩) (CtWorld.trees subs)
def CtWorld.trees : List CtWorld → List CtTree
  | [] => []
  | w :: ws => w.tree :: CtWorld.trees ws
end

mutual
/-- Processes have a number, and arguments without NUL. -/
def CtWorld.Good : CtWorld → Prop
  | .node _ procs subs => (∀ p ∈ procs, 0 < p.1 ∧ ∀ a ∈ p.2, '\x00' ∉ a) ∧ CtWorld.AllGood subs
def CtWorld.AllGood : List CtWorld → Prop
  | [] => True
  | w :: ws => w.Good ∧ CtWorld.AllGood ws
end

mutual
/-- What is to be shown, each with its depth: the processes that are not kernel threads, with their arguments, then the groups, each
    with what is in it -/
def CtWorld.all (depth : Nat) : CtWorld → List (Nat × CtItem)
  | .node _ procs subs =>
    ((procs.filter fun p => p.2 ≠ []).map fun p => (depth, CtItem.proc p.1 (p.2.flatMap (· ++ [' '])))) ++ CtWorld.allSubs depth subs
def CtWorld.allSubs (depth : Nat) : List CtWorld → List (Nat × CtItem)
  | [] => []
  | w :: ws => (depth, .group w.name) :: (w.all (depth + 1) ++ CtWorld.allSubs depth ws)
end

/-- The rows of initctl, without what is drawn before them -/
def ctItems (rows : List CtRow) : List (Nat × CtItem) := rows.map fun r => (r.pfx.length, r.item)

/-- The full claim of C114 -/
def C114_full : Prop := ∀ (rows : Nat) (w : CtWorld), 0 < rows → w.Good → ctItems (ctShow rows w.tree) = w.all 0

mutual
/-- There is room: the numbers of the groups on the way to each group, counted from 0, add up to less than the rows of the terminal. -/
def CtWorld.Room (rows pos : Nat) : CtWorld → Prop
  | .node _ _ subs => pos < rows ∧ CtWorld.RoomSubs rows pos 0 subs
def CtWorld.RoomSubs (rows pos i : Nat) : List CtWorld → Prop
  | [] => True
  | w :: ws => w.Room rows (pos + i) ∧ CtWorld.RoomSubs rows pos (i + 1) ws
end

/-! ## Lemmas -/

theorem ct_cmdline (args : List CStr) (h : ∀ a ∈ args, '\x00' ∉ a) :
    ctCmdline (some (ctFile args)) = if args = [] then none else some (args.flatMap (· ++ [' '])) := by
  have hm : ∀ as : List CStr, (∀ a ∈ as, '\x00' ∉ a) →
      (ctFile as).map (fun c => if c = '\x00' then ' ' else c) = as.flatMap (· ++ [' ']) := by
    intro as
    induction as with
    | nil => intro _; rfl
    | cons a as ih =>
      intro h
      have ha : a.map (fun c => if c = '\x00' then ' ' else c) = a := by
        rw [List.map_congr_left (g := id), List.map_id]
        intro c hc
        exact if_neg (fun e : c = '\x00' => h a List.mem_cons_self (e ▸ hc))
      have := ih (fun x hx => h x (List.mem_cons_of_mem _ hx))
      unfold ctFile at this ⊢
      rw [List.flatMap_cons, List.flatMap_cons, List.map_append, List.map_append, ha, this]
      rfl
  cases args with
  | nil => rfl
  | cons a as =>
    rw [if_neg (List.cons_ne_nil _ _), ← hm _ h]
    have hne : ctFile (a :: as) ≠ [] := by
      unfold ctFile
      rw [List.flatMap_cons]
      simp
    cases hf : ctFile (a :: as) with
    | nil => exact absurd hf hne
    | cons c r => rfl

theorem ct_procs (pfx : List Bool) (num : Nat) : ∀ (ps : List (Int × List CStr)) (i : Nat), (∀ p ∈ ps, 0 < p.1 ∧ ∀ a ∈ p.2, '\x00' ∉ a) →
    ctItems (ctProcs pfx num i (ps.map fun p => ⟨p.1, some (ctFile p.2)⟩)) =
      (ps.filter fun p => p.2 ≠ []).map fun p => (pfx.length, CtItem.proc p.1 (p.2.flatMap (· ++ [' '])))
  | [], _, _ => rfl
  | p :: ps, i, h => by
    obtain ⟨h1, h2⟩ := h p List.mem_cons_self
    have ih := fun i => ct_procs pfx num ps i (fun x hx => h x (List.mem_cons_of_mem _ hx))
    rw [List.map_cons, ctProcs, if_neg (by dsimp only; omega)]
    dsimp only
    rw [ct_cmdline _ h2]
    by_cases hp : p.2 = []
    · rw [if_pos hp, List.filter_cons, if_neg (by simpa using hp)]
      exact ih i
    · rw [if_neg hp, List.filter_cons, if_pos (by simpa using hp), List.map_cons, ← ih (i + 1)]
      rfl

theorem ctItems_append (a b : List CtRow) : ctItems (a ++ b) = ctItems a ++ ctItems b := List.map_append

theorem ct_name (w : CtWorld) : w.tree.name = w.name := by
  cases w; rw [CtWorld.tree]; rfl

theorem ct_length : ∀ ws : List CtWorld, (CtWorld.trees ws).length = ws.length
  | [] => by rw [CtWorld.trees]; rfl
  | w :: ws => by rw [CtWorld.trees, List.length_cons, List.length_cons, ct_length ws]

mutual
theorem ct_all (rows : Nat) : ∀ (w : CtWorld) (pfx : List Bool) (pos : Nat), w.Good → w.Room rows pos →
    ctItems (ctTree rows pfx pos w.tree) = w.all pfx.length
  | .node name procs subs, pfx, pos, hg, hr => by
    rw [CtWorld.Good] at hg
    rw [CtWorld.Room] at hr
    rw [CtWorld.tree, ctTree, if_neg (by omega), ctItems_append, ct_procs _ _ _ _ hg.1, CtWorld.all,
      ct_allSubs rows subs pfx pos _ 0 hg.2 hr.2]
theorem ct_allSubs (rows : Nat) : ∀ (ws : List CtWorld) (pfx : List Bool) (pos n i : Nat), CtWorld.AllGood ws → CtWorld.RoomSubs rows pos i ws →
    ctItems (ctSubs rows pfx pos n i (CtWorld.trees ws)) = CtWorld.allSubs pfx.length ws
  | [], pfx, pos, n, i, _, _ => by rw [CtWorld.trees, ctSubs, CtWorld.allSubs]; rfl
  | w :: ws, pfx, pos, n, i, hg, hr => by
    rw [CtWorld.AllGood] at hg
    rw [CtWorld.RoomSubs] at hr
    have h1 := ct_all rows w (pfx ++ [decide (i + 1 ≠ n)]) (pos + i) hg.1 hr.1
    have h2 := ct_allSubs rows ws pfx pos n (i + 1) hg.2 hr.2
    rw [List.length_append] at h1
    rw [CtWorld.trees, ctSubs, CtWorld.allSubs]
    show (_, _) :: ctItems _ = _
    rw [ctItems_append, h1, h2]
    dsimp only
    rw [ct_name]
    rfl
end

mutual
theorem ct_sound (rows : Nat) : ∀ (w : CtWorld) (pfx : List Bool) (pos : Nat), w.Good →
    (ctItems (ctTree rows pfx pos w.tree)).Sublist (w.all pfx.length)
  | .node name procs subs, pfx, pos, hg => by
    rw [CtWorld.Good] at hg
    rw [CtWorld.tree, ctTree, CtWorld.all]
    split
    · exact List.nil_sublist _
    · rw [ctItems_append, ct_procs _ _ _ _ hg.1]
      exact List.Sublist.append (List.Sublist.refl _) (ct_soundSubs rows subs pfx pos _ 0 hg.2)
theorem ct_soundSubs (rows : Nat) : ∀ (ws : List CtWorld) (pfx : List Bool) (pos n i : Nat), CtWorld.AllGood ws →
    (ctItems (ctSubs rows pfx pos n i (CtWorld.trees ws))).Sublist (CtWorld.allSubs pfx.length ws)
  | [], pfx, pos, n, i, _ => by rw [CtWorld.trees, ctSubs, CtWorld.allSubs]; exact List.Sublist.refl _
  | w :: ws, pfx, pos, n, i, hg => by
    rw [CtWorld.AllGood] at hg
    have h1 := ct_sound rows w (pfx ++ [decide (i + 1 ≠ n)]) (pos + i) hg.1
    have h2 := ct_soundSubs rows ws pfx pos n (i + 1) hg.2
    rw [List.length_append] at h1
    rw [CtWorld.trees, ctSubs, CtWorld.allSubs]
    show List.Sublist ((_, _) :: ctItems _) _
    rw [ctItems_append]
    dsimp only
    rw [ct_name]
    exact List.Sublist.cons_cons _ (List.Sublist.append h1 h2)
end

/-! ## C114 -/

/-- If there is room, exactly the processes that are not kernel threads are shown, with all their arguments, each in its group, and all
    groups, in order. -/
theorem C114_partial (rows : Nat) (w : CtWorld) (hg : w.Good) (hr : w.Room rows 0) : ctItems (ctShow rows w.tree) = w.all 0 :=
  ct_all rows w [] 0 hg hr

/-- Nothing is shown that is not there, nothing twice, nothing in another group or out of order, whatever the terminal. -/
theorem C114_sound (rows : Nat) (w : CtWorld) (hg : w.Good) : (ctItems (ctShow rows w.tree)).Sublist (w.all 0) :=
  ct_sound rows w [] 0 hg

theorem ct_hidden_subs (rows : Nat) (pfx : List Bool) (n : Nat) : ∀ (ts : List CtTree) (i : Nat), rows ≤ i →
    (ctItems (ctSubs rows pfx 0 n i ts)) = ts.map fun t => (pfx.length, CtItem.group t.name)
  | [], _, _ => by rw [ctSubs]; rfl
  | .node nm ps ss :: ts, i, h => by
    rw [ctSubs, ctTree, if_pos (by omega), List.nil_append]
    show (_, _) :: ctItems _ = _
    rw [ct_hidden_subs rows pfx n ts (i + 1) (by omega)]
    rfl

/-- Of the groups beyond the rows of the terminal only the names are shown, and none of their processes. -/
theorem C114_hidden (rows : Nat) (name : CStr) (procs : List CtProc) (a b : List CtTree) (h : a.length = rows) (h0 : 0 < rows) :
    ∃ before, ctItems (ctShow rows (.node name procs (a ++ b))) =
      before ++ b.map fun t => (0, CtItem.group t.name) := by
  unfold ctShow
  rw [ctTree, if_neg (by omega), ctItems_append]
  have hsplit : ∀ (a : List CtTree) (i n : Nat), rows ≤ i + a.length → ∃ before, ctItems (ctSubs rows [] 0 n i (a ++ b)) =
      before ++ b.map fun t => (0, CtItem.group t.name) := by
    intro a
    induction a with
    | nil => exact fun i n hi => ⟨[], ct_hidden_subs rows [] n b i hi⟩
    | cons t a ih =>
      intro i n hi
      obtain ⟨before, hb⟩ := ih (i + 1) n (by rw [List.length_cons] at hi; omega)
      rw [List.cons_append, ctSubs]
      refine ⟨(0, .group t.name) :: (ctItems (ctTree rows ([] ++ [decide (i + 1 ≠ n)]) (0 + i) t) ++ before), ?_⟩
      · show (_, _) :: ctItems _ = _
        rw [ctItems_append, hb, List.cons_append, List.append_assoc]
        rfl
  obtain ⟨before, hb⟩ := hsplit a 0 _ (by omega)
  exact ⟨_ ++ before, by rw [hb, List.append_assoc]⟩

/-- How the rows of the processes are drawn: as the last one if and only if as many have been shown as there are lines in cgroup.procs.
    In a group without groups in it, none is drawn as the last if one of them is a kernel thread. -/
theorem C114_ends (rows pos : Nat) (name : CStr) (pfx : List Bool) (ps : List CtProc) (k : Nat) (r : CtRow)
    (h : (ctTree rows pfx pos (.node name ps []))[k]? = some r) : r.last = decide (k + 1 = ps.length) ∧ r.pfx = pfx := by
  rw [ctTree, ctSubs, List.append_nil] at h
  split at h
  · cases h
  rename_i hpos
  have main : ∀ (ps : List CtProc) (num i k : Nat), (ctProcs pfx num i ps)[k]? = some r →
      r.last = decide (i + k + 1 = num) ∧ r.pfx = pfx := by
    intro ps
    induction ps with
    | nil => intro num i k h; cases h
    | cons p ps ih =>
      intro num i k h
      rw [ctProcs] at h
      split at h
      · exact ih _ _ _ h
      · split at h
        · exact ih _ _ _ h
        · cases k with
          | zero => cases h; exact ⟨rfl, rfl⟩
          | succ k =>
            have := ih num (i + 1) k h
            rw [show i + (k + 1) + 1 = i + 1 + k + 1 by omega]
            exact this
  have := main ps ps.length 0 k h
  rw [Nat.zero_add] at this
  exact this

theorem ct_procs_pfx (pfx : List Bool) (num : Nat) : ∀ (ps : List CtProc) (i : Nat), ∀ r ∈ ctProcs pfx num i ps,
    r.pfx = pfx ∧ ∃ pid cmd, r.item = .proc pid cmd
  | [], _, r, h => nomatch h
  | p :: ps, i, r, h => by
    rw [ctProcs] at h
    split at h
    · exact ct_procs_pfx pfx num ps i r h
    · split at h
      · exact ct_procs_pfx pfx num ps i r h
      · rcases List.mem_cons.mp h with e | h
        · rw [e]; exact ⟨rfl, _, _, rfl⟩
        · exact ct_procs_pfx pfx num ps (i + 1) r h

mutual
theorem ct_pfx (rows : Nat) : ∀ (t : CtTree) (pfx : List Bool) (pos : Nat), ∀ r ∈ ctTree rows pfx pos t, pfx <+: r.pfx
  | .node _ procs subs, pfx, pos, r, h => by
    rw [ctTree] at h
    split at h
    · cases h
    · rcases List.mem_append.mp h with h | h
      · rw [(ct_procs_pfx _ _ _ _ r h).1]
        exact List.prefix_refl _
      · exact ct_pfxSubs rows subs pfx pos _ 0 r h
theorem ct_pfxSubs (rows : Nat) : ∀ (ts : List CtTree) (pfx : List Bool) (pos n i : Nat), ∀ r ∈ ctSubs rows pfx pos n i ts, pfx <+: r.pfx
  | [], _, _, _, _, r, h => by rw [ctSubs] at h; cases h
  | t :: ts, pfx, pos, n, i, r, h => by
    rw [ctSubs] at h
    rcases List.mem_cons.mp h with e | h
    · rw [e]; exact List.prefix_refl _
    · rcases List.mem_append.mp h with h | h
      · exact List.IsPrefix.trans (List.prefix_append _ _) (ct_pfx rows t _ _ r h)
      · exact ct_pfxSubs rows ts pfx pos n (i + 1) r h
end

/-- How the groups are drawn: each is followed by what is in it, and it is drawn as the last one if and only if it is.  The line beside what
    is in it goes on if and only if another group follows. -/
theorem C114_lines (rows pos : Nat) (name : CStr) (pfx : List Bool) (procs : List CtProc) (subs : List CtTree) (h : pos < rows) :
    ∃ (own : List CtRow) (blocks : List (List CtRow)), ctTree rows pfx pos (.node name procs subs) = own ++ blocks.flatten ∧
      (∀ r ∈ own, r.pfx = pfx ∧ ∃ pid cmd, r.item = .proc pid cmd) ∧ blocks.length = subs.length ∧
      ∀ k b, blocks[k]? = some b → ∃ t body, subs[k]? = some t ∧
        b = ⟨pfx, decide (k + 1 = subs.length), .group t.name⟩ :: body ∧
        ∀ r ∈ body, (pfx ++ [decide (k + 1 ≠ subs.length)]) <+: r.pfx := by
  have main : ∀ (ts : List CtTree) (n i : Nat), ∃ blocks : List (List CtRow), ctSubs rows pfx pos n i ts = blocks.flatten ∧
      blocks.length = ts.length ∧ ∀ k b, blocks[k]? = some b → ∃ t body, ts[k]? = some t ∧
        b = ⟨pfx, decide (i + k + 1 = n), .group t.name⟩ :: body ∧
        ∀ r ∈ body, (pfx ++ [decide (i + k + 1 ≠ n)]) <+: r.pfx := by
    intro ts
    induction ts with
    | nil => exact fun n i => ⟨[], by rw [ctSubs]; rfl, rfl, fun k b hk => by cases hk⟩
    | cons t ts ih =>
      intro n i
      obtain ⟨bs, h1, h2, h3⟩ := ih n (i + 1)
      refine ⟨(⟨pfx, decide (i + 1 = n), .group t.name⟩ :: ctTree rows (pfx ++ [decide (i + 1 ≠ n)]) (pos + i) t) :: bs, ?_, ?_, ?_⟩
      · rw [ctSubs, h1]; rfl
      · rw [List.length_cons, List.length_cons, h2]
      · intro k b hk
        cases k with
        | zero =>
          cases hk
          exact ⟨t, _, rfl, rfl, fun r hr => ct_pfx rows t _ _ r hr⟩
        | succ k =>
          have := h3 k b hk
          rw [show i + 1 + k + 1 = i + (k + 1) + 1 by omega] at this
          exact this
  obtain ⟨bs, h1, h2, h3⟩ := main subs subs.length 0
  refine ⟨ctProcs pfx procs.length 0 procs, bs, ?_, ct_procs_pfx _ _ _ _, h2, fun k b hk => ?_⟩
  · rw [ctTree, if_neg (by omega), h1]
  · have := h3 k b hk
    rw [Nat.zero_add] at this
    exact this

example := C114_lines 24 0 "system".toList [] [⟨1, some ['x']⟩] [.node "a".toList [⟨5, some ['y']⟩] [], .node "b".toList [] []] (by decide)

/-- A process that ends while the tree is shown, after cgroup.procs has been read, keeps its row, with no command. -/
theorem C114_gone (rows : Nat) (name : CStr) (a b : List CtProc) (pid : Int) (subs : List CtTree) (h : 0 < pid) (hr : 0 < rows) :
    (0, CtItem.proc pid []) ∈ ctItems (ctShow rows (.node name (a ++ ⟨pid, none⟩ :: b) subs)) := by
  unfold ctShow
  rw [ctTree, if_neg (by omega), ctItems_append]
  refine List.mem_append.mpr (.inl ?_)
  have main : ∀ (a : List CtProc) (num i : Nat), (0, CtItem.proc pid []) ∈ ctItems (ctProcs [] num i (a ++ ⟨pid, none⟩ :: b)) := by
    intro a
    induction a with
    | nil =>
      intro num i
      rw [List.nil_append, ctProcs, if_neg (by dsimp only; omega)]
      exact List.mem_cons_self
    | cons p a ih =>
      intro num i
      rw [List.cons_append, ctProcs]
      split
      · exact ih _ _
      · split
        · exact ih _ _
        · exact List.mem_cons_of_mem _ (ih _ _)
  exact main a _ _

example : (0, CtItem.proc 12 []) ∈ ctItems (ctShow 24 (.node "system".toList [⟨7, some "sh\x00".toList⟩, ⟨12, none⟩] [])) :=
  C114_gone 24 _ [⟨7, some "sh\x00".toList⟩] [] 12 [] (by decide) (by decide)

/-- A group `g` with a process of a shell -/
def ctDaemon (pid : Int) : CtWorld := .node "g".toList [(pid, ["sh".toList, "-x".toList])] []

/-- 25 services -/
def ctMany : CtWorld := .node "system".toList [] (List.replicate 25 (ctDaemon 7))

theorem ctMany_good : ctMany.Good := by
  unfold ctMany
  rw [CtWorld.Good]
  refine ⟨fun p hp => (nomatch hp), ?_⟩
  have : ∀ n, CtWorld.AllGood (List.replicate n (ctDaemon 7)) := by
    intro n
    induction n with
    | zero => rw [List.replicate_zero, CtWorld.AllGood]; trivial
    | succ n ih =>
      rw [List.replicate_succ, CtWorld.AllGood]
      refine ⟨?_, ih⟩
      unfold ctDaemon
      rw [CtWorld.Good, CtWorld.AllGood]
      exact ⟨by decide, trivial⟩
  exact this 25

/-- The full claim is false: on a terminal of 24 rows the processes of the 25th service are not shown, also if the output goes to a file. -/
theorem C114_full_false : ¬ C114_full := by
  intro h
  have := congrArg List.length (h 24 ctMany (by decide) ctMany_good)
  revert this
  decide +kernel

/-! ## Examples -/

/-- A service with a kernel thread between two processes, and a group in its group -/
def ctDemo : CtWorld := .node "system".toList []
  [.node "getty".toList [(1, ["getty".toList]), (2, []), (3, ["login".toList, "--".toList])] [], ctDaemon 4]

theorem ctDemo_good : ctDemo.Good := by
  unfold ctDemo ctDaemon
  simp only [CtWorld.Good, CtWorld.AllGood]
  exact ⟨by decide, ⟨by decide, trivial⟩, ⟨by decide, trivial⟩, trivial⟩

theorem ctDemo_room : ctDemo.Room 24 0 := by
  unfold ctDemo ctDaemon
  simp only [CtWorld.Room, CtWorld.RoomSubs]
  decide

example : ctItems (ctShow 24 ctDemo.tree) =
    [(0, .group "getty".toList), (1, .proc 1 "getty ".toList), (1, .proc 3 "login -- ".toList), (0, .group "g".toList),
     (1, .proc 4 "sh -x ".toList)] := by
  rw [C114_partial 24 ctDemo ctDemo_good ctDemo_room]
  decide +kernel

example : (ctItems (ctShow 1 ctDemo.tree)).Sublist (ctDemo.all 0) := C114_sound 1 ctDemo ctDemo_good

example : ∃ before, ctItems (ctShow 1 (.node [] [] ([.node "a".toList [] []] ++ [.node "b".toList [⟨5, some ['x']⟩] []]))) =
    before ++ [(0, CtItem.group "b".toList)] := C114_hidden 1 [] [] [.node "a".toList [] []] [.node "b".toList [⟨5, some ['x']⟩] []] rfl (by decide)

example : (ctTree 24 [] 0 (.node "g".toList [⟨1, some ['x']⟩, ⟨2, some ['y']⟩] []))[1]?.map CtRow.last = some true := by
  rcases h : (ctTree 24 [] 0 (.node "g".toList [⟨1, some ['x']⟩, ⟨2, some ['y']⟩] []))[1]? with _ | r
  · rw [ctTree, ctSubs] at h
    revert h; decide
  · rw [Option.map_some, (C114_ends 24 0 _ [] [⟨1, some ['x']⟩, ⟨2, some ['y']⟩] 1 r h).1]; rfl

end Verif
