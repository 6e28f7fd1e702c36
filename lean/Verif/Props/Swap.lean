import Verif.Swap

/-!
# C118: swap areas are used from bootstrap to shutdown
-/

namespace Verif

/-! ## Specification -/

/-- The device `d` is a swap area that fstab(5) lists. -/
def SwListed (E : SwEnv) (es : List BfsEnt) (d : Nat) : Prop := ∃ e ∈ es, e.type = "swap".toList ∧ E.dev e.fsname = some d

/-- The same, and fstab(5) does not say `noauto`. -/
def SwWanted (E : SwEnv) (es : List BfsEnt) (d : Nat) : Prop :=
  ∃ e ∈ es, e.type = "swap".toList ∧ bfsHasOpt e.opts "noauto".toList = false ∧ E.dev e.fsname = some d

/-- The full claim of C118: with the programs, and a kernel that does as told, exactly the swap areas of fstab(5) without `noauto` are used
    after bootstrap, and no area of fstab(5) after shutdown. -/
def C118_full : Prop := ∀ (E : SwEnv) (es : List BfsEnt), E.haveOn = true → E.haveOff = true → (∀ d, E.okOn d = true ∧ E.okOff d = true) →
  (∀ d, d ∈ swBoot E es [] ↔ SwWanted E es d) ∧ ∀ used d, d ∈ swHalt E es used ↔ d ∈ used ∧ ¬ SwListed E es d

/-- All names of swap areas are words without a character that has a meaning for the shell, and short enough. -/
def SwNames (es : List BfsEnt) : Prop := ∀ e ∈ es, e.type = "swap".toList → e.fsname ≠ [] ∧ e.fsname.length ≤ 247 ∧ e.fsname.all swPlain = true

/-! ## Lemmas -/

theorem sw_blank : swPlain ' ' = false := by decide

theorem swSplit_word : ∀ (s acc : CStr), s.all swPlain = true → swSplit acc s = if acc ++ s = [] then [] else [acc ++ s]
  | [], acc, _ => by rw [swSplit, List.append_nil]
  | c :: r, acc, h => by
    rw [List.all_cons, Bool.and_eq_true] at h
    have hc : c ≠ ' ' := fun e => by rw [e, sw_blank] at h; cases h.1
    rw [swSplit, if_neg hc, swSplit_word r (acc ++ [c]) h.2, List.append_assoc]
    rfl

theorem swSplit_two : ∀ (p acc s : CStr), p.all swPlain = true → acc ++ p ≠ [] → swSplit acc (p ++ ' ' :: s) = (acc ++ p) :: swSplit [] s
  | [], acc, s, _, hn => by
    rw [List.append_nil] at hn
    rw [List.nil_append, swSplit, if_pos rfl, if_neg hn, List.append_nil]
  | c :: r, acc, s, h, _ => by
    rw [List.all_cons, Bool.and_eq_true] at h
    have hc : c ≠ ' ' := fun e => by rw [e, sw_blank] at h; cases h.1
    rw [List.cons_append, swSplit, if_neg hc, swSplit_two r (acc ++ [c]) s h.2 (by simp), List.append_assoc]
    rfl

theorem sw_allow {s : CStr} (h : s.all swPlain = true) : s.all (fun c => swPlain c || c = ' ') = true := by
  rw [List.all_eq_true] at h ⊢
  intro c hc
  rw [h c hc]
  rfl

theorem swRun_args (E : SwEnv) (on : Bool) (p : CStr) (n : CStr) (used : List Nat) (hp : p.all swPlain = true) (hp0 : p ≠ [])
    (hn : n.all (fun c => swPlain c || c = ' ') = true) : swRun E on (p ++ ' ' :: n) used = (swSplit [] n).foldl (swArg E on) used := by
  unfold swRun
  rw [List.all_append, sw_allow hp, List.all_cons, hn, if_pos (by decide), swSplit_two p [] n hp (by simpa using hp0)]

theorem swRun_name (E : SwEnv) (on : Bool) (p n : CStr) (used : List Nat) (hp : p.all swPlain = true) (hp0 : p ≠ [])
    (hn : n.all swPlain = true) (hn0 : n ≠ []) : swRun E on (p ++ ' ' :: n) used = swArg E on used n := by
  rw [swRun_args E on p n used hp hp0 (sw_allow hn), swSplit_word n [] hn, List.nil_append, if_neg hn0]
  rfl

theorem sw_on (E : SwEnv) : ∀ (es : List BfsEnt) (used : List Nat) (d : Nat), SwNames es →
    (d ∈ es.foldl (fun u e => if e.type ≠ "swap".toList then u else swRun E true (("swapon ".toList ++ e.fsname).take 255) u) used ↔
      d ∈ used ∨ (E.okOn d = true ∧ SwListed E es d))
  | [], used, d, _ => by
    rw [List.foldl_nil]
    exact ⟨.inl, fun h => h.elim id (fun x => by obtain ⟨_, e, he, _⟩ := x; cases he)⟩
  | e :: es, used, d, h => by
    have ih := fun u => sw_on E es u d (fun x hx => h x (List.mem_cons_of_mem _ hx))
    rw [List.foldl_cons, ih]
    by_cases ht : e.type = "swap".toList
    · obtain ⟨h0, hl, hp⟩ := h e List.mem_cons_self ht
      have hcmd : ("swapon ".toList ++ e.fsname).take 255 = "swapon".toList ++ ' ' :: e.fsname :=
        List.take_of_length_le (by rw [List.length_append]; have : "swapon ".toList.length = 7 := by decide
                                   omega)
      rw [if_neg (fun x => x ht), hcmd, swRun_name E true _ _ _ (by decide) (by decide) hp h0]
      have harg : d ∈ swArg E true used e.fsname ↔ d ∈ used ∨ (E.okOn d = true ∧ E.dev e.fsname = some d) := by
        unfold swArg
        cases hd : E.dev e.fsname with
        | none => simp
        | some x =>
          dsimp only
          rw [if_pos rfl]
          by_cases hx : (E.okOn x && !used.contains x) = true
          · rw [if_pos hx, List.mem_append, List.mem_singleton]
            rw [Bool.and_eq_true] at hx
            constructor
            · rintro (h | h)
              · exact .inl h
              · exact .inr ⟨h ▸ hx.1, by rw [h]⟩
            · rintro (h | ⟨_, h⟩)
              · exact .inl h
              · cases h; exact .inr rfl
          · rw [if_neg hx]
            refine ⟨.inl, fun h => h.elim id ?_⟩
            rintro ⟨h1, h2⟩
            cases h2
            rw [h1, Bool.true_and] at hx
            simpa using hx
      rw [harg]
      constructor
      · rintro ((h | ⟨h1, h2⟩) | ⟨h1, x, hx, h2⟩)
        · exact .inl h
        · exact .inr ⟨h1, e, List.mem_cons_self, ht, h2⟩
        · exact .inr ⟨h1, x, List.mem_cons_of_mem _ hx, h2⟩
      · rintro (h | ⟨h1, x, hx, h2, h3⟩)
        · exact .inl (.inl h)
        · rcases List.mem_cons.mp hx with e1 | hx
          · exact .inl (.inr ⟨h1, e1 ▸ h3⟩)
          · exact .inr ⟨h1, x, hx, h2, h3⟩
    · rw [if_pos ht]
      constructor
      · rintro (h | ⟨h1, x, hx, h2⟩)
        · exact .inl h
        · exact .inr ⟨h1, x, List.mem_cons_of_mem _ hx, h2⟩
      · rintro (h | ⟨h1, x, hx, h2, h3⟩)
        · exact .inl h
        · rcases List.mem_cons.mp hx with e1 | hx
          · exact absurd (e1 ▸ h2) ht
          · exact .inr ⟨h1, x, hx, h2, h3⟩

theorem sw_off (E : SwEnv) : ∀ (es : List BfsEnt) (used : List Nat) (d : Nat), SwNames es →
    (d ∈ es.foldl (fun u e => if e.type ≠ "swap".toList then u else swRun E false (("swapoff ".toList ++ e.fsname).take 255) u) used ↔
      d ∈ used ∧ ¬ (E.okOff d = true ∧ SwListed E es d))
  | [], used, d, _ => by
    rw [List.foldl_nil]
    exact ⟨fun h => ⟨h, fun x => by obtain ⟨_, e, he, _⟩ := x; cases he⟩, And.left⟩
  | e :: es, used, d, h => by
    have ih := fun u => sw_off E es u d (fun x hx => h x (List.mem_cons_of_mem _ hx))
    rw [List.foldl_cons, ih]
    by_cases ht : e.type = "swap".toList
    · obtain ⟨h0, hl, hp⟩ := h e List.mem_cons_self ht
      have hcmd : ("swapoff ".toList ++ e.fsname).take 255 = "swapoff".toList ++ ' ' :: e.fsname :=
        List.take_of_length_le (by rw [List.length_append]; have : "swapoff ".toList.length = 8 := by decide
                                   omega)
      rw [if_neg (fun x => x ht), hcmd, swRun_name E false _ _ _ (by decide) (by decide) hp h0]
      have harg : d ∈ swArg E false used e.fsname ↔ d ∈ used ∧ ¬ (E.okOff d = true ∧ E.dev e.fsname = some d) := by
        unfold swArg
        cases hd : E.dev e.fsname with
        | none => simp
        | some x =>
          dsimp only
          rw [if_neg (by decide)]
          by_cases hx : E.okOff x = true
          · rw [if_pos hx, List.mem_filter]
            constructor
            · rintro ⟨h1, h2⟩
              exact ⟨h1, fun y => by cases y.2; simp at h2⟩
            · rintro ⟨h1, h2⟩
              refine ⟨h1, ?_⟩
              have : d ≠ x := fun e => h2 ⟨e ▸ hx, by rw [e]⟩
              simpa using this
          · rw [if_neg hx]
            exact ⟨fun h => ⟨h, fun y => by cases y.2; exact hx y.1⟩, And.left⟩
      rw [harg]
      constructor
      · rintro ⟨⟨h1, h2⟩, h3⟩
        refine ⟨h1, fun y => ?_⟩
        obtain ⟨y1, x, hx, y2, y3⟩ := y
        rcases List.mem_cons.mp hx with e1 | hx
        · exact h2 ⟨y1, e1 ▸ y3⟩
        · exact h3 ⟨y1, x, hx, y2, y3⟩
      · rintro ⟨h1, h2⟩
        exact ⟨⟨h1, fun y => h2 ⟨y.1, e, List.mem_cons_self, ht, y.2⟩⟩, fun y => by
          obtain ⟨y1, x, hx, y2⟩ := y
          exact h2 ⟨y1, x, List.mem_cons_of_mem _ hx, y2⟩⟩
    · rw [if_pos ht]
      constructor
      · rintro ⟨h1, h2⟩
        refine ⟨h1, fun y => ?_⟩
        obtain ⟨y1, x, hx, y2, y3⟩ := y
        rcases List.mem_cons.mp hx with e1 | hx
        · exact ht (e1 ▸ y2)
        · exact h2 ⟨y1, x, hx, y2, y3⟩
      · rintro ⟨h1, h2⟩
        exact ⟨h1, fun y => by
          obtain ⟨y1, x, hx, y2⟩ := y
          exact h2 ⟨y1, x, List.mem_cons_of_mem _ hx, y2⟩⟩

/-! ## C118 -/

/-- What is used after bootstrap: what was before, and all areas of fstab(5) the kernel takes, `noauto` or not. -/
theorem C118_boot (E : SwEnv) (es : List BfsEnt) (used : List Nat) (d : Nat) (hn : SwNames es) :
    d ∈ swBoot E es used ↔ d ∈ used ∨ (E.haveOn = true ∧ E.okOn d = true ∧ SwListed E es d) := by
  unfold swBoot
  split
  · rename_i h
    rw [sw_on E es used d hn]
    exact or_congr_right ⟨fun x => ⟨h, x⟩, And.right⟩
  · rename_i h
    exact ⟨.inl, fun x => x.elim id (fun y => absurd y.1 h)⟩

/-- What is used after shutdown: only what fstab(5) does not list, or the kernel does not let go. -/
theorem C118_halt (E : SwEnv) (es : List BfsEnt) (used : List Nat) (d : Nat) (hn : SwNames es) :
    d ∈ swHalt E es used ↔ d ∈ used ∧ ¬ (E.haveOff = true ∧ E.okOff d = true ∧ SwListed E es d) := by
  unfold swHalt
  split
  · rename_i h
    rw [sw_off E es used d hn]
    exact and_congr_right' (not_congr ⟨fun x => ⟨h, x⟩, And.right⟩)
  · rename_i h
    exact ⟨fun x => ⟨x, fun y => h y.1⟩, And.left⟩

/-- The claim, if no swap area has the option `noauto` and all names are words that are short enough. -/
theorem C118_partial (E : SwEnv) (es : List BfsEnt) (h1 : E.haveOn = true) (h2 : E.haveOff = true)
    (ho : ∀ d, E.okOn d = true ∧ E.okOff d = true) (hn : SwNames es)
    (ha : ∀ e ∈ es, e.type = "swap".toList → bfsHasOpt e.opts "noauto".toList = false) :
    (∀ d, d ∈ swBoot E es [] ↔ SwWanted E es d) ∧ ∀ used d, d ∈ swHalt E es used ↔ d ∈ used ∧ ¬ SwListed E es d := by
  refine ⟨fun d => ?_, fun used d => ?_⟩
  · rw [C118_boot E es [] d hn]
    constructor
    · rintro (h | ⟨_, _, e, he, ht, hd⟩)
      · cases h
      · exact ⟨e, he, ht, ha e he ht, hd⟩
    · rintro ⟨e, he, ht, _, hd⟩
      exact .inr ⟨h1, (ho d).1, e, he, ht, hd⟩
  · rw [C118_halt E es used d hn]
    exact and_congr_right' (not_congr ⟨fun x => x.2.2, fun x => ⟨h2, (ho d).2, x⟩⟩)

/-- A name with a blank in it, which fstab(5) has as `\040`, is taken for two names, at bootstrap and at shutdown. -/
theorem C118_blank (E : SwEnv) (e : BfsEnt) (a b : CStr) (used : List Nat) (ht : e.type = "swap".toList) (hf : e.fsname = a ++ ' ' :: b)
    (ha : a.all swPlain = true ∧ a ≠ []) (hb : b.all swPlain = true ∧ b ≠ []) (hl : e.fsname.length ≤ 247)
    (h1 : E.haveOn = true) (h2 : E.haveOff = true) :
    swBoot E [e] used = swArg E true (swArg E true used a) b ∧ swHalt E [e] used = swArg E false (swArg E false used a) b := by
  have hs : swSplit [] e.fsname = [a, b] := by
    rw [hf, swSplit_two a [] b ha.1 (by simpa using ha.2), swSplit_word b [] hb.1, List.nil_append, List.nil_append, if_neg hb.2]
  have hall : e.fsname.all (fun c => swPlain c || c = ' ') = true := by
    rw [hf, List.all_append, sw_allow ha.1, List.all_cons, sw_allow hb.1]
    decide
  have hon : ("swapon ".toList ++ e.fsname).take 255 = "swapon".toList ++ ' ' :: e.fsname :=
    List.take_of_length_le (by rw [List.length_append]; have : "swapon ".toList.length = 7 := by decide
                               omega)
  have hoff : ("swapoff ".toList ++ e.fsname).take 255 = "swapoff".toList ++ ' ' :: e.fsname :=
    List.take_of_length_le (by rw [List.length_append]; have : "swapoff ".toList.length = 8 := by decide
                               omega)
  unfold swBoot swHalt
  rw [if_pos h1, if_pos h2, List.foldl_cons, List.foldl_nil, List.foldl_cons, List.foldl_nil, if_neg (fun x => x ht), if_neg (fun x => x ht),
    hon, hoff, swRun_args E true _ _ _ (by decide) (by decide) hall, swRun_args E false _ _ _ (by decide) (by decide) hall, hs]
  exact ⟨rfl, rfl⟩

/-- A name of 248 characters is whole for swapon, and cut for swapoff. -/
theorem C118_cut (E : SwEnv) (e : BfsEnt) (used : List Nat) (ht : e.type = "swap".toList) (hl : e.fsname.length = 248)
    (hp : e.fsname.all swPlain = true) (h1 : E.haveOn = true) (h2 : E.haveOff = true) :
    swBoot E [e] used = swArg E true used e.fsname ∧ swHalt E [e] used = swArg E false used (e.fsname.take 247) := by
  have hon : ("swapon ".toList ++ e.fsname).take 255 = "swapon".toList ++ ' ' :: e.fsname :=
    List.take_of_length_le (by rw [List.length_append]; have : "swapon ".toList.length = 7 := by decide
                               omega)
  have hoff : ("swapoff ".toList ++ e.fsname).take 255 = "swapoff".toList ++ ' ' :: e.fsname.take 247 := by
    rw [List.take_append, List.take_of_length_le (by decide)]
    rfl
  have h0 : e.fsname ≠ [] := fun x => by rw [x] at hl; cases hl
  have ht0 : e.fsname.take 247 ≠ [] := fun x => by
    have := congrArg List.length x
    rw [List.length_take, hl] at this
    cases this
  have hpt : (e.fsname.take 247).all swPlain = true := by
    rw [List.all_eq_true] at hp ⊢
    exact fun c hc => hp c (List.mem_of_mem_take hc)
  unfold swBoot swHalt
  rw [if_pos h1, if_pos h2, List.foldl_cons, List.foldl_nil, List.foldl_cons, List.foldl_nil, if_neg (fun x => x ht), if_neg (fun x => x ht),
    hon, hoff, swRun_name E true _ _ _ (by decide) (by decide) hp h0, swRun_name E false _ _ _ (by decide) (by decide) hpt ht0]
  exact ⟨rfl, rfl⟩

/-- A system with two devices -/
def swDemo : SwEnv where
  dev n := if n = "/dev/sda2".toList then some 2 else if n = "LABEL=swap".toList then some 3 else none
  haveOn := true
  haveOff := true
  okOn _ := true
  okOff _ := true
  wild _ u := u

/-- An area that is not to be used at bootstrap -/
def swNoauto : BfsEnt := ⟨"/dev/sda2".toList, "none".toList, "swap".toList, "noauto".toList, 0⟩

theorem C118_full_false : ¬ C118_full := by
  intro h
  obtain ⟨e, he, _, hno, _⟩ := ((h swDemo [swNoauto] rfl rfl (fun _ => ⟨rfl, rfl⟩)).1 2).mp (by decide +kernel)
  rw [List.mem_singleton] at he
  rw [he] at hno
  revert hno
  decide +kernel

/-! ## Examples -/

/-- A table with a root file system and two swap areas -/
def swTab : List BfsEnt :=
  [⟨"/dev/sda1".toList, "/".toList, "ext4".toList, "defaults".toList, 1⟩, ⟨"/dev/sda2".toList, "none".toList, "swap".toList, "sw".toList, 0⟩,
   ⟨"LABEL=swap".toList, "none".toList, "swap".toList, "defaults".toList, 0⟩]

theorem swTab_names : SwNames swTab := by unfold SwNames swTab; decide +kernel

example : 3 ∈ swBoot swDemo swTab [] ∧ 2 ∈ swBoot swDemo swTab [] := by
  have h := (C118_partial swDemo swTab rfl rfl (fun _ => ⟨rfl, rfl⟩) swTab_names (by unfold swTab; decide +kernel)).1
  exact ⟨(h 3).mpr ⟨_, .tail _ (.tail _ (.head _)), by decide +kernel, by decide +kernel, by decide +kernel⟩,
    (h 2).mpr ⟨_, .tail _ (.head _), by decide +kernel, by decide +kernel, by decide +kernel⟩⟩

example : swHalt swDemo swTab [2, 3, 7] = [7] := by decide +kernel

example : swBoot swDemo [⟨"/dev/sda2 LABEL=swap".toList, "none".toList, "swap".toList, "sw".toList, 0⟩] [] =
    swArg swDemo true (swArg swDemo true [] "/dev/sda2".toList) "LABEL=swap".toList :=
  (C118_blank swDemo ⟨"/dev/sda2 LABEL=swap".toList, "none".toList, "swap".toList, "sw".toList, 0⟩ "/dev/sda2".toList "LABEL=swap".toList [] rfl rfl
    (by decide) (by decide) (by decide) rfl rfl).1

example : swHalt swDemo [⟨'/' :: List.replicate 247 'x', "none".toList, "swap".toList, "sw".toList, 0⟩] [2] =
    swArg swDemo false [2] (('/' :: List.replicate 247 'x').take 247) :=
  (C118_cut swDemo ⟨'/' :: List.replicate 247 'x', "none".toList, "swap".toList, "sw".toList, 0⟩ [2] rfl rfl (by decide +kernel) rfl rfl).2

end Verif
