import Verif.Umount

/-!
# C67: file systems are unmounted at shutdown
-/

namespace Verif

/-! ## Specification -/

/-- What has to stay mounted, if `keep` says what must not, or cannot, be unmounted: that, and whatever it is mounted on
    (or hides).  In the list, what was mounted later comes later. -/
def stays (keep : Mount → Bool) : List Mount → List Mount
  | [] => []
  | m :: later => if keep m || (stays keep later).any (inWay m) then m :: stays keep later else stays keep later

/-- The directories the system needs till the end. -/
def neededDirs : List CStr :=
  ["/", "/sys", "/proc", "/run", "/var/run", "/dev", "/dev/pts", "/dev/shm", "/dev/vcs", "/.dev", "/dev/.static/dev"].map
    String.toList

/-- What is mounted there, or below /proc, /sys or /run, is not to be unmounted. -/
def needed (d : CStr) : Bool :=
  neededDirs.contains d || ["/proc/", "/sys/", "/run/"].any fun p => decide (d.take p.toList.length = p.toList)

/-- Those that must not, or cannot, be unmounted. -/
def mustStay (m : Mount) : Bool := needed m.dir || m.held

/-- Nothing is mounted for static device nodes, and all mount points are absolute paths. -/
def NoStaticDev (ms : List Mount) : Prop :=
  ∀ m ∈ ms, m.dir ≠ "/dev/.static/dev".toList ∧ m.dir ≠ "dev/.static/dev".toList

/-- Each tmpfs is also called so, and no other file system is; a tmpfs and something else are not mounted at the same place. -/
def PlainTmpfs (ms : List Mount) : Prop :=
  (∀ m ∈ ms, (m.fsname = "tmpfs".toList ↔ m.tmpfs = true)) ∧ ∀ a ∈ ms, ∀ b ∈ ms, a.dir = b.dir → a.tmpfs = b.tmpfs

/-- The full claim of C67: all is unmounted that can be; each tmpfs before swap is turned off, if that is possible then;
    and the last mounted first. -/
def C67_full : Prop := ∀ ms : List Mount, ms.Nodup →
  (unmountAll ms).2.2 = stays mustStay ms ∧
  (∀ m ∈ (unmountAll ms).2.1, m.tmpfs = true → m ∈ stays (fun x => mustStay x || !x.tmpfs) ms) ∧
  (unmountRegular ms).1.Sublist ms.reverse

/-! ## Lemmas -/

theorem umount_split {d : CStr} : ∀ {ms : List Mount} {m : Mount} {r : List Mount}, umount d ms = some (m, r) →
    ∃ a b, ms = a ++ m :: b ∧ r = a ++ b ∧ m.dir = d ∧ m.held = false ∧ ∀ x ∈ b, inWay m x = false := by
  intro ms
  induction ms with
  | nil => intro m r h; cases h
  | cons x ms ih =>
    intro m r h
    unfold umount at h
    split at h
    · rw [Option.map_eq_some_iff] at h
      obtain ⟨⟨m', r'⟩, h1, h2⟩ := h
      cases h2
      obtain ⟨a, b, e1, e2, h⟩ := ih h1
      exact ⟨x :: a, b, by rw [e1]; rfl, by dsimp only at e2 ⊢; rw [e2]; rfl, h⟩
    · split at h
      · rename_i hc
        cases h
        refine ⟨[], ms, rfl, rfl, hc.1, hc.2.1, fun y hy => ?_⟩
        have := List.all_eq_true.mp hc.2.2 y hy
        simpa using this
      · cases h

theorem atOrBelow_refl (d : CStr) : atOrBelow d d = true := by
  unfold atOrBelow; simp

theorem inWay_same {a b : Mount} (h : a.dir = b.dir) : inWay a b = true := by
  unfold inWay; rw [h, atOrBelow_refl]; rfl

/-- What nothing is in the way of can be unmounted. -/
theorem umount_ok {m : Mount} {b : List Mount} (h1 : m.held = false) (h2 : ∀ x ∈ b, inWay m x = false) :
    ∀ a : List Mount, umount m.dir (a ++ m :: b) = some (m, a ++ b) := by
  intro a
  induction a with
  | nil =>
    show umount m.dir (m :: b) = _
    unfold umount
    have hn : ¬ b.any (fun x => decide (x.dir = m.dir)) = true := by
      intro h
      obtain ⟨x, hx, he⟩ := List.any_eq_true.mp h
      have := h2 x hx
      rw [inWay_same (of_decide_eq_true he).symm] at this
      cases this
    rw [if_neg hn, if_pos]
    · rfl
    · exact ⟨rfl, h1, List.all_eq_true.mpr fun x hx => by rw [h2 x hx]; rfl⟩
  | cons y a ih =>
    show umount m.dir (y :: (a ++ m :: b)) = _
    unfold umount
    rw [if_pos, ih]
    · rfl
    · exact List.any_eq_true.mpr ⟨m, List.mem_append_right _ List.mem_cons_self, decide_eq_true rfl⟩

theorem stays_sub (keep : Mount → Bool) : ∀ (ms : List Mount), ∀ m ∈ stays keep ms, m ∈ ms := by
  intro ms
  induction ms with
  | nil => intro m h; cases h
  | cons x ms ih =>
    intro m h
    unfold stays at h
    split at h
    · rcases List.mem_cons.mp h with rfl | h
      · exact List.mem_cons_self
      · exact List.mem_cons_of_mem _ (ih m h)
    · exact List.mem_cons_of_mem _ (ih m h)

/-- What is unmounted was none of those that stay. -/
theorem stays_remove {keep : Mount → Bool} {m : Mount} {b : List Mount} (hk : keep m = false)
    (hb : ∀ x ∈ b, inWay m x = false) : ∀ a : List Mount, stays keep (a ++ m :: b) = stays keep (a ++ b) := by
  intro a
  induction a with
  | nil =>
    show stays keep (m :: b) = stays keep b
    have : (stays keep b).any (inWay m) = false := by
      rw [List.any_eq_false]
      intro x hx
      rw [hb x (stays_sub keep b x hx)]
      decide
    rw [stays, hk, this]
    rfl
  | cons y a ih =>
    show stays keep (y :: (a ++ m :: b)) = stays keep (y :: (a ++ b))
    rw [stays, stays, ih]

theorem umountPass_some {want : Mount → Bool} {ms : List Mount} {r : Mount × List Mount} : ∀ {todo : List Mount},
    umountPass want ms todo = some r → ∃ m ∈ todo, isProtected m.dir = false ∧ want m = true ∧ umount m.dir ms = some r := by
  intro todo
  induction todo with
  | nil => intro h; cases h
  | cons m todo ih =>
    intro h
    unfold umountPass at h
    split at h
    · rename_i hc
      split at h
      · rename_i r' hu
        cases h
        exact ⟨m, List.mem_cons_self, hc.1, hc.2, hu⟩
      · obtain ⟨x, hx, h⟩ := ih h
        exact ⟨x, List.mem_cons_of_mem _ hx, h⟩
    · obtain ⟨x, hx, h⟩ := ih h
      exact ⟨x, List.mem_cons_of_mem _ hx, h⟩

theorem umountPass_none {want : Mount → Bool} {ms : List Mount} : ∀ {todo : List Mount},
    umountPass want ms todo = none → ∀ m ∈ todo, isProtected m.dir = false → want m = true → umount m.dir ms = none := by
  intro todo
  induction todo with
  | nil => intro _ m h; cases h
  | cons x todo ih =>
    intro h m hm hp hw
    unfold umountPass at h
    split at h
    · split at h
      · cases h
      · rename_i hu
        rcases List.mem_cons.mp hm with rfl | hm
        · exact hu
        · exact ih h m hm hp hw
    · rename_i hc
      rcases List.mem_cons.mp hm with rfl | hm
      · exact absurd ⟨hp, hw⟩ hc
      · exact ih h m hm hp hw

/-- What one step of the loop does. -/
theorem umountPass_step {want : Mount → Bool} {ms : List Mount} {m : Mount} {r : List Mount}
    (h : umountPass want ms ms = some (m, r)) : ∃ a b, ms = a ++ m :: b ∧ r = a ++ b ∧ m.held = false ∧
      isProtected m.dir = false ∧ (∀ x ∈ b, inWay m x = false) ∧ ∃ y ∈ ms, y.dir = m.dir ∧ want y = true := by
  obtain ⟨y, hy, hp, hw, hu⟩ := umountPass_some h
  obtain ⟨a, b, e1, e2, hd, hh, hb⟩ := umount_split hu
  exact ⟨a, b, e1, e2, hh, by rw [hd]; exact hp, hb, y, hy, hd.symm, hw⟩

/-- What nothing is to be done about. -/
theorem stays_self {keep : Mount → Bool} {ms : List Mount}
    (h : ∀ m ∈ ms, keep m = false → umount m.dir ms = none) (hk : ∀ m ∈ ms, keep m = false → m.held = false) :
    ∀ (b a : List Mount), ms = a ++ b → stays keep b = b := by
  intro b
  induction b with
  | nil => intro a _; rfl
  | cons m b ih =>
    intro a e
    have hb := ih (a ++ [m]) (by rw [e, List.append_assoc]; rfl)
    have hm : m ∈ ms := by rw [e]; exact List.mem_append_right _ List.mem_cons_self
    rw [stays, hb]
    cases hkm : keep m with
    | true => rfl
    | false =>
      cases ha : b.any (inWay m) with
      | true => rfl
      | false =>
        exfalso
        have hx : ∀ x ∈ b, inWay m x = false := by
          intro x hx
          have := List.any_eq_false.mp ha x hx
          simpa using this
        have h1 := h m hm hkm
        rw [e, umount_ok (hk m hm hkm) hx a] at h1
        cases h1

/-- Those that must stay stay in spite of anything the loop does. -/
theorem umountLoop_keeps {want keep : Mount → Bool} : ∀ (n : Nat) (ms : List Mount),
    (∀ y ∈ ms, ∀ m ∈ ms, y.dir = m.dir → want y = true → isProtected m.dir = false → m.held = false → keep m = false) →
    stays keep (umountLoop want n ms).2 = stays keep ms := by
  intro n
  induction n with
  | zero => intro ms _; rfl
  | succ n ih =>
    intro ms hS
    unfold umountLoop
    split
    · rfl
    · rename_i m r h
      obtain ⟨a, b, e1, e2, hh, hp, hb, y, hy, hd, hw⟩ := umountPass_step h
      have hm : m ∈ ms := by rw [e1]; exact List.mem_append_right _ List.mem_cons_self
      show stays keep (umountLoop want n r).2 = _
      have hr : ∀ x ∈ r, x ∈ ms := by
        intro x hx
        rw [e2] at hx; rw [e1]
        rcases List.mem_append.mp hx with h | h
        · exact List.mem_append_left _ h
        · exact List.mem_append_right _ (List.mem_cons_of_mem _ h)
      rw [ih r (fun a ha b hb => hS a (hr a ha) b (hr b hb)), e1, e2, stays_remove (hS y hy m hm hd hw hp hh) hb a]

/-- The loop leaves nothing that can be unmounted. -/
theorem umountLoop_end {want : Mount → Bool} : ∀ (n : Nat) (ms : List Mount), ms.length ≤ n →
    umountPass want (umountLoop want n ms).2 (umountLoop want n ms).2 = none := by
  intro n
  induction n with
  | zero =>
    intro ms h
    have : ms = [] := List.length_eq_zero_iff.mp (Nat.le_zero.mp h)
    subst this
    rfl
  | succ n ih =>
    intro ms hl
    unfold umountLoop
    split
    · rename_i h; exact h
    · rename_i m r h
      obtain ⟨a, b, e1, e2, -⟩ := umountPass_step h
      refine ih r ?_
      rw [e1] at hl
      rw [e2]
      simp only [List.length_append, List.length_cons] at hl ⊢
      omega

theorem umountLoop_perm {want : Mount → Bool} : ∀ (n : Nat) (ms : List Mount),
    ((umountLoop want n ms).1 ++ (umountLoop want n ms).2).Perm ms ∧ (umountLoop want n ms).2.Sublist ms := by
  intro n
  induction n with
  | zero => intro ms; exact ⟨List.Perm.refl _, List.Sublist.refl _⟩
  | succ n ih =>
    intro ms
    unfold umountLoop
    split
    · exact ⟨List.Perm.refl _, List.Sublist.refl _⟩
    · rename_i m r h
      obtain ⟨a, b, e1, e2, -⟩ := umountPass_step h
      obtain ⟨h1, h2⟩ := ih r
      constructor
      · show (m :: ((umountLoop want n r).1 ++ (umountLoop want n r).2)).Perm ms
        refine (List.Perm.cons m h1).trans ?_
        rw [e1, e2]
        exact List.perm_middle.symm
      · refine List.Sublist.trans (show (umountLoop want n r).2.Sublist r from h2) ?_
        rw [e1, e2]
        exact List.Sublist.append (List.Sublist.refl _) (List.sublist_cons_self _ _)

/-- What the loop leaves: what stays, if `keep` is what it never unmounts. -/
theorem umountLoop_left {want : Mount → Bool} {n : Nat} {ms : List Mount} (hl : ms.length ≤ n)
    (hS : ∀ a ∈ ms, ∀ b ∈ ms, a.dir = b.dir → want a = want b) :
    (umountLoop want n ms).2 = stays (fun m => isProtected m.dir || m.held || !want m) ms := by
  have h1 := umountLoop_keeps (want := want) (keep := fun m => isProtected m.dir || m.held || !want m) n ms
    (fun y hy m hm hd hw hp hh => by rw [hp, hh, ← hS y hy m hm hd, hw]; rfl)
  rw [← h1]
  symm
  refine stays_self (ms := (umountLoop want n ms).2) ?_ ?_ _ [] rfl
  · intro m hm hk
    simp only [Bool.or_eq_false_iff, Bool.not_eq_false'] at hk
    exact umountPass_none (umountLoop_end n ms hl) m hm hk.1.1 hk.2
  · intro m _ hk
    simp only [Bool.or_eq_false_iff] at hk
    exact hk.1.2

theorem after_of_sublist {m x : Mount} {a b : List Mount} (hn : (a ++ m :: b).Nodup)
    (h : [m, x].Sublist (a ++ m :: b)) : x ∈ b := by
  induction a with
  | nil =>
    cases h with
    | cons _ h =>
      have : m ∈ b := h.subset List.mem_cons_self
      exact absurd this (List.nodup_cons.mp hn).1
    | cons_cons _ h => exact List.singleton_sublist.mp h
  | cons y a ih =>
    have hn' := List.nodup_cons.mp hn
    cases h with
    | cons _ h => exact ih hn'.2 h
    | cons_cons _ h => exact absurd (List.mem_append_right a List.mem_cons_self) hn'.1

/-- What was mounted later and is in the way goes first. -/
theorem umountLoop_order {want : Mount → Bool} : ∀ (n : Nat) (ms : List Mount), ms.Nodup → ∀ (p q : List Mount) (m x : Mount),
    (umountLoop want n ms).1 = p ++ m :: q → [m, x].Sublist ms → inWay m x = true → x ∈ p := by
  intro n
  induction n with
  | zero => intro ms _ p q m x h; simp [umountLoop] at h
  | succ n ih =>
    intro ms hn p q m x h hs hw
    unfold umountLoop at h
    split at h
    · simp at h
    · rename_i y r hp
      obtain ⟨a, b, e1, e2, -, -, hb, -⟩ := umountPass_step hp
      replace h : y :: (umountLoop want n r).1 = p ++ m :: q := h
      cases p with
      | nil =>
        cases h
        have := hb x (after_of_sublist (e1 ▸ hn) (e1 ▸ hs))
        rw [hw] at this; cases this
      | cons z p =>
        injection h with h1 h2
        subst h1
        by_cases hx : x = y
        · subst hx; exact List.mem_cons_self
        · have hmr : m ∈ r := by
            refine (umountLoop_perm (want := want) n r).1.subset (List.mem_append_left _ ?_)
            rw [h2]; exact List.mem_append_right _ List.mem_cons_self
          have hny : y ∉ a ++ b := by
            rw [e1] at hn
            exact (List.nodup_cons.mp (List.perm_middle.nodup_iff.mp hn)).1
          have hmy : m ≠ y := by
            intro e; subst e; exact hny (e2 ▸ hmr)
          have hsr : [m, x].Sublist r := by
            have := hs.filter (fun z => decide (z ≠ y))
            rw [e1] at this
            have hf : ∀ l : List Mount, y ∉ l → l.filter (fun z => decide (z ≠ y)) = l := by
              intro l hl
              refine List.filter_eq_self.mpr fun z hz => decide_eq_true fun e => hl (e ▸ hz)
            have hr : (a ++ y :: b).filter (fun z => decide (z ≠ y)) = r := by
              rw [List.filter_append, List.filter_cons, if_neg (by simp),
                hf a (fun h => hny (List.mem_append_left _ h)), hf b (fun h => hny (List.mem_append_right _ h)), e2]
            have hl : [m, x].filter (fun z => decide (z ≠ y)) = [m, x] :=
              hf _ fun h => by
                rcases List.mem_cons.mp h with e | h
                · exact hmy e.symm
                · exact hx (List.mem_singleton.mp h).symm
            rw [hr, hl] at this
            exact this
          have hnr : r.Nodup := by
            rw [e1] at hn
            rw [e2]
            exact (List.nodup_cons.mp (List.perm_middle.nodup_iff.mp hn)).2
          exact List.mem_cons_of_mem _ (ih r hnr p q m x h2 hsr hw)

/-- What the program takes for needed is needed, but for the typing error. -/
theorem isProtected_eq {d : CStr} (h1 : d ≠ "/dev/.static/dev".toList) (h2 : d ≠ "dev/.static/dev".toList) :
    isProtected d = needed d := by
  have hp : ∀ p : CStr, p.isPrefixOf d = decide (d.take p.length = p) := by
    intro p
    rw [Bool.eq_iff_iff, List.isPrefixOf_iff_prefix, decide_eq_true_iff, List.prefix_iff_eq_take]
    exact eq_comm
  have hl : decide (d ∈ protectedMnts) = neededDirs.contains d := by
    rw [Bool.eq_iff_iff, decide_eq_true_iff, List.contains_iff_mem]
    unfold protectedMnts neededDirs
    simp only [List.map_cons, List.map_nil, List.mem_cons, List.not_mem_nil, or_false]
    constructor
    · rintro (h | h | h | h | h | h | h | h | h | h | h) <;> simp [h]
      exact absurd h h2
    · rintro (h | h | h | h | h | h | h | h | h | h | h) <;> simp [h]
      exact absurd h h1
  unfold isProtected needed
  rw [hl, hp, hp, hp]
  simp only [List.any_cons, List.any_nil, Bool.or_false, Bool.or_assoc]

theorem stays_congr {k₁ k₂ : Mount → Bool} : ∀ {ms : List Mount}, (∀ m ∈ ms, k₁ m = k₂ m) → stays k₁ ms = stays k₂ ms := by
  intro ms
  induction ms with
  | nil => intro _; rfl
  | cons m ms ih =>
    intro h
    rw [stays, stays, ih fun x hx => h x (List.mem_cons_of_mem _ hx), h m List.mem_cons_self]

theorem pair_sublist {l ms : List Mount} (h : l.Sublist ms) {m x : Mount} : ms.Nodup → m ∈ l → x ∈ l →
    [m, x].Sublist ms → [m, x].Sublist l := by
  induction h with
  | slnil => intro _ hm; cases hm
  | cons y h ih =>
    intro hn hm hx hs
    have hn' := List.nodup_cons.mp hn
    cases hs with
    | cons _ hs => exact ih hn'.2 hm hx hs
    | cons_cons _ hs => exact absurd (h.subset hm) hn'.1
  | cons_cons y h ih =>
    intro hn hm hx hs
    have hn' := List.nodup_cons.mp hn
    cases hs with
    | cons _ hs =>
      have h1 : m ≠ y := fun e => hn'.1 (e ▸ hs.subset List.mem_cons_self)
      have h2 : x ≠ y := fun e => hn'.1 (e ▸ hs.subset (List.mem_cons_of_mem _ List.mem_cons_self))
      exact (ih hn'.2 ((List.mem_cons.mp hm).resolve_left h1) ((List.mem_cons.mp hx).resolve_left h2) hs).cons y
    | cons_cons _ hs =>
      have h2 : x ≠ m := fun e => hn'.1 (e ▸ hs.subset List.mem_cons_self)
      exact List.Sublist.cons_cons _ (List.singleton_sublist.mpr ((List.mem_cons.mp hx).resolve_left h2))

/-! ## C67 -/

/-- The file systems that are left are those that must stay, and those they are mounted on. -/
theorem C67_left_partial {ms : List Mount} (hs : NoStaticDev ms) : (unmountAll ms).2.2 = stays mustStay ms := by
  show (unmountRegular (unmountTmpfs ms).2).2 = _
  have h1 := umountLoop_left (want := fun _ => true) (n := (unmountTmpfs ms).2.length) (ms := (unmountTmpfs ms).2)
    (Nat.le_refl _) (fun _ _ _ _ _ => rfl)
  unfold unmountRegular
  rw [h1]
  have h2 := umountLoop_keeps (want := fun m => decide (m.fsname = "tmpfs".toList))
    (keep := fun m => isProtected m.dir || m.held || !true) ms.length ms
    (fun y _ m _ _ _ hp hh => by rw [hp, hh]; rfl)
  refine h2.trans (stays_congr fun m hm => ?_)
  rw [isProtected_eq (hs m hm).1 (hs m hm).2]
  show (needed m.dir || m.held || false) = _
  rw [Bool.or_false]
  rfl

/-- Nothing is unmounted twice, and all that was mounted is unmounted or left. -/
theorem C67_once (ms : List Mount) : ((unmountAll ms).1 ++ ((unmountAll ms).2.1 ++ (unmountAll ms).2.2)).Perm ms := by
  have h1 := (umountLoop_perm (want := fun m => decide (m.fsname = "tmpfs".toList)) ms.length ms).1
  have h2 := (umountLoop_perm (want := fun _ => true) (unmountTmpfs ms).2.length (unmountTmpfs ms).2).1
  exact (List.Perm.append_left _ h2).trans h1

/-- Whatever was mounted on a file system, or over it, is unmounted before it is. -/
theorem C67_order {ms : List Mount} (hn : ms.Nodup) {p q : List Mount} {m x : Mount}
    (h : (unmountAll ms).1 ++ (unmountAll ms).2.1 = p ++ m :: q) (hs : [m, x].Sublist ms) (hw : inWay m x = true) :
    x ∈ p := by
  have hp := (umountLoop_perm (want := fun m => decide (m.fsname = "tmpfs".toList)) ms.length ms)
  have hsub : ∀ z ∈ (unmountAll ms).2.1, z ∈ (unmountTmpfs ms).2 := fun z hz =>
    (umountLoop_perm (want := fun _ => true) (unmountTmpfs ms).2.length (unmountTmpfs ms).2).1.subset
      (List.mem_append_left _ hz)
  have late : ∀ as : List Mount, (unmountAll ms).2.1 = as ++ m :: q → x ∈ (unmountAll ms).1 ++ as := by
    intro as h2
    rcases List.mem_append.mp (hp.1.symm.subset (hs.subset (List.mem_cons_of_mem _ List.mem_cons_self))) with hx | hx
    · exact List.mem_append_left _ hx
    · have hm : m ∈ (unmountTmpfs ms).2 := hsub m (by rw [h2]; exact List.mem_append_right _ List.mem_cons_self)
      exact List.mem_append_right _ (umountLoop_order _ _ (hn.sublist hp.2) as q m x h2 (pair_sublist hp.2 hn hm hx hs) hw)
  rcases List.append_eq_append_iff.mp h with ⟨as, h1, h2⟩ | ⟨bs, h1, h2⟩
  · rw [h1]; exact late as h2
  · cases bs with
    | nil =>
      have := late [] h2.symm
      rw [h1] at this
      simpa using this
    | cons z bs =>
      injection h2 with h3 h4
      subst h3
      exact umountLoop_order _ _ hn p bs m x h1 hs hw

/-- A tmpfs that can be unmounted without unmounting anything else is unmounted before swap is turned off. -/
theorem C67_tmpfs_partial {ms : List Mount} (hs : NoStaticDev ms) (ht : PlainTmpfs ms) :
    (unmountTmpfs ms).2 = stays (fun m => mustStay m || !m.tmpfs) ms := by
  have hf : ∀ m ∈ ms, decide (m.fsname = "tmpfs".toList) = m.tmpfs := by
    intro m hm
    rw [Bool.eq_iff_iff, decide_eq_true_iff]
    exact ht.1 m hm
  have h1 := umountLoop_left (want := fun m => decide (m.fsname = "tmpfs".toList)) (n := ms.length) (ms := ms)
    (Nat.le_refl _) (fun a ha b hb h => by rw [hf a ha, hf b hb]; exact ht.2 a ha b hb h)
  refine h1.trans (stays_congr fun m hm => ?_)
  rw [isProtected_eq (hs m hm).1 (hs m hm).2, hf m hm]
  rfl

/-- A system with a file system on /home, another one on a directory in it, and one on /var/log with an open file. -/
def someMounts : List Mount :=
  [⟨1, "/dev/sda1".toList, "/".toList, false, false⟩, ⟨2, "proc".toList, "/proc".toList, false, false⟩,
   ⟨3, "tmpfs".toList, "/run".toList, true, false⟩, ⟨4, "tmpfs".toList, "/tmp".toList, true, false⟩,
   ⟨5, "/dev/sda2".toList, "/home".toList, false, false⟩, ⟨6, "/dev/sda3".toList, "/home/joe/mail".toList, false, false⟩,
   ⟨7, "/dev/sda4".toList, "/var".toList, false, false⟩, ⟨8, "/dev/sda5".toList, "/var/log".toList, false, true⟩]

set_option maxRecDepth 8000 in
example : NoStaticDev someMounts ∧ PlainTmpfs someMounts ∧ someMounts.Nodup ∧
    ((unmountAll someMounts).1.map (·.id) = [4] ∧ (unmountAll someMounts).2.1.map (·.id) = [6, 5] ∧
      (unmountAll someMounts).2.2.map (·.id) = [1, 2, 3, 7, 8]) := by
  unfold NoStaticDev PlainTmpfs; decide +kernel

/-- The file systems are not unmounted in reverse order. -/
theorem C67_reverse_false : ¬ ∀ ms : List Mount, ms.Nodup → (unmountRegular ms).1.Sublist ms.reverse := by
  intro h
  have := h [⟨1, "a".toList, "/a".toList, false, false⟩, ⟨2, "b".toList, "/b".toList, false, false⟩] (by decide)
  revert this
  decide +kernel

/-- A tmpfs with any other name is unmounted after swap is turned off: what is in it and in swap has to fit in memory. -/
theorem C67_tmpfs_false : ¬ ∀ ms : List Mount, ms.Nodup → NoStaticDev ms →
    ∀ m ∈ (unmountAll ms).2.1, m.tmpfs = true → m ∈ stays (fun x => mustStay x || !x.tmpfs) ms := by
  intro h
  have := h [⟨1, "none".toList, "/tmp".toList, true, false⟩] (by decide) (by unfold NoStaticDev; decide)
    ⟨1, "none".toList, "/tmp".toList, true, false⟩ (by decide +kernel) rfl
  revert this
  decide +kernel

/-- The directory of static device nodes is not left mounted. -/
theorem C67_static_false : ¬ ∀ ms : List Mount, ms.Nodup → (unmountAll ms).2.2 = stays mustStay ms := by
  intro h
  have := h [⟨1, "dev".toList, "/dev/.static/dev".toList, false, false⟩] (by decide)
  revert this
  decide +kernel

theorem C67_full_false : ¬ C67_full := fun h => C67_static_false fun ms hn => (h ms hn).1

end Verif
