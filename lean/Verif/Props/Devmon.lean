import Verif.Devmon

/-!
# Device conditions (C36)
-/

namespace Verif

/-! ## Specification -/

/-- How many references to the condition are left after a history: each registration takes one, each removal gives
    one back. -/
def devRefs (c : CStr) : List DevOp → Nat
  | [] => 0
  | op :: ops => -- the history is given with the latest step first
    if op = .add c then devRefs c ops + 1 else if op = .del c then devRefs c ops - 1 else devRefs c ops

/-- A path under /dev is watched exactly while its condition is referenced. -/
def C36_full : Prop :=
  ∀ (ops : List DevOp) (c : CStr), c.take 4 = "dev/".toList →
    (devWatched (devRun ops) c = true ↔ 0 < devRefs c ops.reverse)

/-! ## Proof -/

theorem devWatched_iff (l : List DevNode) (c : CStr) : devWatched l c = true ↔ ∃ n ∈ l, n.name = c := by
  unfold devWatched findNode
  rw [List.findIdx?_isSome, List.any_eq_true]
  exact exists_congr fun n => and_congr_right fun _ => by simp

theorem mem_map_modify {f : DevNode → DevNode} (h : ∀ n, (f n).name = n.name) (l : List DevNode) (i : Nat) :
    (l.modify i f).map DevNode.name = l.map DevNode.name := by
  induction l generalizing i with
  | nil => cases i <;> rfl
  | cons a l ih => cases i <;> simp [List.modify_succ_cons, h, ih]

theorem watched_names (l : List DevNode) (c : CStr) : devWatched l c = true ↔ c ∈ l.map DevNode.name := by
  rw [devWatched_iff, List.mem_map]

theorem devmonAdd_names (l : List DevNode) (c d : CStr) :
    d ∈ (devmonAdd l c).map DevNode.name ↔ d ∈ l.map DevNode.name ∨ (d = c ∧ c.take 4 = "dev/".toList) := by
  unfold devmonAdd
  split
  · rename_i h; exact ⟨.inl, fun h' => h'.elim id fun h' => absurd h'.2 h⟩
  · rename_i h
    have h : c.take 4 = "dev/".toList := Classical.not_not.mp h
    cases hf : findNode l c with
    | some i =>
      dsimp only
      rw [mem_map_modify (by intro n; rfl)]
      refine ⟨.inl, fun h' => h'.elim id fun h' => ?_⟩
      obtain ⟨hlt, h2, _⟩ := List.findIdx?_eq_some_iff_getElem.mp hf
      rw [h'.1, ← of_decide_eq_true h2]
      exact List.mem_map_of_mem (List.getElem_mem hlt)
    | none =>
      dsimp only
      simp [h]

/-- While a condition is referenced its path is watched.  Left out of the theorem is `dev/` itself, which names no
    device; it is the only one for which removal has any effect. -/
theorem C36_watched_partial (ops : List DevOp) (c : CStr) (hc : c.take 4 = "dev/".toList) (hne : c ≠ "dev/".toList)
    (h : 0 < devRefs c ops.reverse) : devWatched (devRun ops) c = true := by
  suffices ∀ rev : List DevOp, 0 < devRefs c rev → c ∈ (devRun rev.reverse).map DevNode.name by
    have := this ops.reverse h
    rw [List.reverse_reverse] at this
    exact (watched_names _ _).mpr this
  intro rev
  induction rev with
  | nil => intro h; exact absurd h (by simp [devRefs])
  | cons op rev ih =>
    intro h
    have e : devRun (op :: rev).reverse = devStep (devRun rev.reverse) op := by
      simp [devRun, List.foldl_append]
    rw [e]
    unfold devRefs at h
    cases op with
    | add d =>
      refine (devmonAdd_names _ d c).mpr ?_
      by_cases hd : d = c
      · exact .inr ⟨hd.symm, hd ▸ hc⟩
      · rw [if_neg (by simpa using hd), if_neg (by simp)] at h
        exact .inl (ih h)
    | del d =>
      show c ∈ (devmonDel _ d).map DevNode.name
      have hpos : 0 < devRefs c rev := by
        rw [if_neg (by simp)] at h
        split at h <;> omega
      have hin := ih hpos
      unfold devmonDel
      split
      · exact hin
      · rename_i hd
        have hd : d = "dev/".toList := Classical.not_not.mp hd
        cases hf : findNode (devRun rev.reverse) d with
        | none => exact hin
        | some i =>
          obtain ⟨hlt, h2, _⟩ := List.findIdx?_eq_some_iff_getElem.mp hf
          have h2 := of_decide_eq_true h2
          obtain ⟨n, hn, hnc⟩ := List.mem_map.mp hin
          dsimp only [dropNode]
          rw [List.getElem?_eq_getElem hlt]
          dsimp only
          split
          · -- the node of `c` is another one
            rw [List.mem_map]
            refine ⟨n, ?_, hnc⟩
            obtain ⟨j, hj, hjn⟩ := List.mem_iff_getElem.mp hn
            refine List.mem_eraseIdx_iff_getElem.mpr ⟨j, hj, ?_, hjn⟩
            rintro rfl
            rw [hjn, hnc, hd] at h2
            exact hne h2
          · rw [mem_map_modify (by intro n; rfl)]
            exact hin

example : devRefs "dev/ttyUSB0".toList [.del "dev/x".toList, .add "dev/ttyUSB0".toList] = 1 := by decide +kernel

/-- How many references a list of nodes holds to a condition. -/
def devCount (l : List DevNode) (c : CStr) : Nat := ((l.filter fun n => n.name = c).map DevNode.refcnt).sum

theorem devCount_modify (l : List DevNode) (i : Nat) (c : CStr) (f : DevNode → DevNode) (hn : ∀ n, (f n).name = n.name)
    (h : ∀ n, l[i]? = some n → n.name ≠ c) : devCount (l.modify i f) c = devCount l c := by
  induction l generalizing i with
  | nil => cases i <;> rfl
  | cons a l ih =>
    cases i with
    | zero =>
      have := h a rfl
      simp [devCount, hn, this]
    | succ i =>
      have := ih i (fun n hi => h n (by simpa using hi))
      simp only [devCount] at this ⊢
      rw [List.modify_succ_cons, List.filter_cons, List.filter_cons]
      split <;> simp [this]

theorem devCount_bump (l : List DevNode) (i : Nat) (c : CStr) (hi : findNode l c = some i) :
    devCount (l.modify i fun n => { n with refcnt := n.refcnt + 1 }) c = devCount l c + 1 := by
  obtain ⟨hlt, h3, h4⟩ := List.findIdx?_eq_some_iff_getElem.mp hi
  have h2 : l[i].name = c := of_decide_eq_true h3
  clear hi h3 h4
  induction l generalizing i with
  | nil => simp at hlt
  | cons a l ih =>
    cases i with
    | zero =>
      have : a.name = c := h2
      simp only [devCount, List.modify_zero_cons, List.filter_cons, this, decide_true, if_true, List.map_cons,
        List.sum_cons]
      omega
    | succ i =>
      have := ih i (by simpa using hlt) (by simpa using h2)
      simp only [devCount] at this ⊢
      rw [List.modify_succ_cons, List.filter_cons, List.filter_cons]
      split
      · simp only [List.map_cons, List.sum_cons, this]; omega
      · exact this

/-- The count kept for a device is the number of times its condition was named: every registration takes a
    reference, none is ever given back. -/
theorem C36_count (ops : List DevOp) (c : CStr) (hc : c.take 4 = "dev/".toList) (hne : c ≠ "dev/".toList) :
    devCount (devRun ops) c = ops.count (.add c) := by
  suffices ∀ rev : List DevOp, devCount (devRun rev.reverse) c = rev.count (.add c) by
    have := this ops.reverse
    rw [List.reverse_reverse, List.count_reverse] at this
    exact this
  intro rev
  induction rev with
  | nil => rfl
  | cons op rev ih =>
    have e : devRun (op :: rev).reverse = devStep (devRun rev.reverse) op := by
      simp [devRun, List.foldl_append]
    rw [e]
    generalize devRun rev.reverse = l at ih
    cases op with
    | add d =>
      show devCount (devmonAdd l d) c = _
      unfold devmonAdd
      by_cases hd : d = c
      · subst hd
        rw [if_neg (by simpa using hc), List.count_cons_self, ← ih]
        cases hf : findNode l d with
        | some i => exact devCount_bump l i d hf
        | none => simp [devCount]
      · rw [List.count_cons_of_ne (by simpa using hd), ← ih]
        split
        · rfl
        · cases hf : findNode l d with
          | some i =>
            refine devCount_modify l i c _ (by intro n; rfl) ?_
            obtain ⟨hlt, h2, _⟩ := List.findIdx?_eq_some_iff_getElem.mp hf
            intro n hn
            rw [List.getElem?_eq_getElem hlt] at hn
            injection hn with hn
            rw [← hn, of_decide_eq_true h2]; exact hd
          | none => simp [devCount, hd]
    | del d =>
      show devCount (devmonDel l d) c = _
      rw [List.count_cons_of_ne (by simp), ← ih]
      unfold devmonDel
      split
      · rfl
      · rename_i hd
        have hd : d = "dev/".toList := Classical.not_not.mp hd
        cases hf : findNode l d with
        | none => rfl
        | some i =>
          obtain ⟨hlt, h2, _⟩ := List.findIdx?_eq_some_iff_getElem.mp hf
          have h2 : l[i].name = d := of_decide_eq_true h2
          have hnc : ∀ n, l[i]? = some n → n.name ≠ c := by
            intro n hn
            rw [List.getElem?_eq_getElem hlt] at hn
            injection hn with hn
            rw [← hn, h2, hd]; exact fun h => hne h.symm
          dsimp only [dropNode]
          rw [List.getElem?_eq_getElem hlt]
          dsimp only
          split
          · have : ∀ (l : List DevNode) (i : Nat), (∀ n, l[i]? = some n → n.name ≠ c) →
                devCount (l.eraseIdx i) c = devCount l c := by
              intro l
              induction l with
              | nil => intro i _; rfl
              | cons a l ih =>
                intro i h
                cases i with
                | zero => simp [devCount, h a rfl]
                | succ i =>
                  have := ih i (fun n hi => h n (by simpa using hi))
                  simp only [devCount] at this ⊢
                  rw [List.eraseIdx_cons_succ, List.filter_cons, List.filter_cons]
                  split <;> simp [this]
            exact this l i hnc
          · exact devCount_modify l i c _ (by intro n; rfl) hnc

example : devCount (devRun [.add "dev/sda".toList, .add "dev/sdb".toList, .add "dev/sda".toList,
    .del "dev/sda".toList]) "dev/sda".toList = 2 := by decide +kernel

/-- A path whose condition nobody ever named is not watched. -/
theorem C36_never_named (ops : List DevOp) (c : CStr) (h : DevOp.add c ∉ ops) : devWatched (devRun ops) c = false := by
  suffices ∀ rev : List DevOp, DevOp.add c ∉ rev → c ∉ (devRun rev.reverse).map DevNode.name by
    have := this ops.reverse (by simpa using h)
    rw [List.reverse_reverse] at this
    rw [Bool.eq_false_iff]
    exact fun hw => this ((watched_names _ _).mp hw)
  intro rev
  induction rev with
  | nil => intro _; simp [devRun]
  | cons op rev ih =>
    intro h
    have e : devRun (op :: rev).reverse = devStep (devRun rev.reverse) op := by
      simp [devRun, List.foldl_append]
    have ih := ih fun h' => h (List.mem_cons_of_mem _ h')
    rw [e]
    cases op with
    | add d =>
      intro h'
      rcases (devmonAdd_names _ d c).mp h' with h' | h'
      · exact ih h'
      · exact h (by rw [h'.1]; exact List.mem_cons_self)
    | del d =>
      show c ∉ (devmonDel _ d).map DevNode.name
      unfold devmonDel
      split
      · exact ih
      · cases hf : findNode (devRun rev.reverse) d with
        | none => exact ih
        | some i =>
          dsimp only [dropNode]
          split
          · exact ih
          · split
            · intro h'
              obtain ⟨n, hn, hnc⟩ := List.mem_map.mp h'
              exact ih (List.mem_map.mpr ⟨n, List.mem_of_mem_eraseIdx hn, hnc⟩)
            · rw [mem_map_modify (by intro n; rfl)]; exact ih

/-- A path is never dropped again: once named, its condition stays watched whatever is removed. -/
theorem C36_never_dropped (ops : List DevOp) (c : CStr) (hc : c.take 4 = "dev/".toList) (hne : c ≠ "dev/".toList)
    (h : DevOp.add c ∈ ops) (cs : List CStr) : devWatched (devRun (ops ++ cs.map DevOp.del)) c = true := by
  have key : ∀ (l : List DevNode) (d : CStr), c ∈ l.map DevNode.name → c ∈ (devmonDel l d).map DevNode.name := by
    intro l d hin
    unfold devmonDel
    split
    · exact hin
    · rename_i hd
      have hd : d = "dev/".toList := Classical.not_not.mp hd
      cases hf : findNode l d with
      | none => exact hin
      | some i =>
        obtain ⟨hlt, h2, _⟩ := List.findIdx?_eq_some_iff_getElem.mp hf
        have h2 := of_decide_eq_true h2
        obtain ⟨n, hn, hnc⟩ := List.mem_map.mp hin
        dsimp only [dropNode]
        rw [List.getElem?_eq_getElem hlt]
        dsimp only
        split
        · rw [List.mem_map]
          refine ⟨n, ?_, hnc⟩
          obtain ⟨j, hj, hjn⟩ := List.mem_iff_getElem.mp hn
          refine List.mem_eraseIdx_iff_getElem.mpr ⟨j, hj, ?_, hjn⟩
          rintro rfl
          rw [hjn, hnc, hd] at h2
          exact hne h2
        · rw [mem_map_modify (by intro n; rfl)]
          exact hin
  have step : ∀ (l : List DevNode) (op : DevOp), c ∈ l.map DevNode.name → c ∈ (devStep l op).map DevNode.name := by
    intro l op hin
    cases op with
    | add d => exact (devmonAdd_names l d c).mpr (.inl hin)
    | del d => exact key l d hin
  have fold : ∀ (ops : List DevOp) (l : List DevNode), c ∈ l.map DevNode.name →
      c ∈ (ops.foldl devStep l).map DevNode.name := by
    intro ops
    induction ops with
    | nil => intro l h; exact h
    | cons op ops ih => intro l h; exact ih _ (step l op h)
  refine (watched_names _ _).mpr ?_
  obtain ⟨a, b, rfl⟩ := List.append_of_mem h
  unfold devRun
  rw [List.append_assoc, List.foldl_append, List.cons_append, List.foldl_cons]
  exact fold _ _ ((devmonAdd_names _ c c).mpr (.inr ⟨rfl, hc⟩))

/-- So the second half of the promise does not hold. -/
theorem C36_not_dropped : ¬ C36_full := by
  intro H
  have := (H [.add "dev/sda".toList, .del "dev/sda".toList] "dev/sda".toList (by decide)).mp (by decide +kernel)
  revert this; decide +kernel

end Verif
