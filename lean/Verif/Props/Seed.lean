import Verif.Seed

/-!
# C84: the random seed
-/

namespace Verif

/-! ## Specification -/

/-- No seed is given to the kernel twice. -/
def OnceEach (s : SeedSt) : Prop := (s.given.map (·.1.num)).Nodup

/-- What is on the disk when the system is installed: perhaps a seed, and nothing given yet -/
def Installed (s : SeedSt) : Prop := s.given = [] ∧ ∀ f, s.file = some f → f.num < s.next

/-- Full statement of C84 (false of the code, see below): no seed is given to the kernel twice, and none that could be guessed
    counts for anything. -/
def C84_full : Prop :=
  ∀ (s : SeedSt) (es : List SeedEv), Installed s →
    OnceEach (es.foldl seedStep s) ∧
    ∀ x ∈ (es.foldl seedStep s).given, x.1.src = .guess → x ∈ s.given ∨ s.file = some x.1 ∨ x.2 = 0

/-- Between two boots the system has saved a seed. -/
def SavedBetween (es : List SeedEv) : Prop :=
  ∀ a b c h h', es = a ++ SeedEv.boot h :: (b ++ SeedEv.boot h' :: c) → ∃ n, SeedEv.save (some n) ∈ b

/-! ## Proof -/

/-- The numbers of all seeds given, and of the one in the file, were used; `used` says whether the one in the file was given. -/
structure SeedOk (s : SeedSt) (used : Bool) : Prop where
  once : OnceEach s
  below : ∀ x ∈ s.given, x.1.num < s.next
  file : ∀ f, s.file = some f → f.num < s.next
  fresh : used = false → ∀ f, s.file = some f → ∀ x ∈ s.given, x.1.num ≠ f.num

theorem SeedOk.weaken {s : SeedSt} (h : SeedOk s false) (b : Bool) : SeedOk s b := ⟨h.once, h.below, h.file, fun _ => h.fresh rfl⟩

theorem SeedOk.make {s : SeedSt} (h : SeedOk s false) (hw : Option Nat) : SeedOk (seedMake hw s) false := by
  unfold seedMake
  split
  · have key : ∀ f : Seed, f.num = s.next → SeedOk { s with file := some f, next := s.next + 1 } false := by
      intro f hf
      refine ⟨h.once, fun x hx => Nat.lt_succ_of_lt (h.below x hx), ?_, ?_⟩
      · intro g hg
        injection hg with hg
        subst hg
        change f.num < s.next + 1
        omega
      · intro _ g hg x hx
        injection hg with hg
        subst hg
        have := h.below x hx
        omega
    apply key
    split
    · split <;> rfl
    · rfl
  · exact h

theorem SeedOk.give {s : SeedSt} (h : SeedOk s false) : SeedOk (seedGive s) true := by
  unfold seedGive
  split
  · exact h.weaken true
  · rename_i f hf
    split
    · exact h.weaken true
    · refine ⟨?_, ?_, h.file, fun e => by cases e⟩
      · unfold OnceEach
        rw [List.map_append, List.nodup_append]
        refine ⟨h.once, by simp, ?_⟩
        intro a ha b hb e
        obtain ⟨x, hx, rfl⟩ := List.mem_map.1 ha
        rw [List.map_cons, List.map_nil, List.mem_singleton] at hb
        exact h.fresh rfl f hf x hx (e.trans hb)
      · intro x hx
        rcases List.mem_append.1 hx with hx | hx
        · exact h.below x hx
        · rw [List.mem_singleton] at hx
          rw [hx]
          exact h.file f hf

theorem SeedOk.save {s : SeedSt} {u : Bool} (h : SeedOk s u) (n : Nat) : SeedOk (seedStep s (.save (some n))) false := by
  refine ⟨h.once, fun x hx => Nat.lt_succ_of_lt (h.below x hx), ?_, ?_⟩
  · intro f hf
    injection hf with hf
    subst hf
    change s.next < s.next + 1
    omega
  · intro _ f hf x hx
    injection hf with hf
    subst hf
    have := h.below x hx
    change x.1.num ≠ s.next
    omega

theorem seed_run : ∀ (es : List SeedEv) (s : SeedSt) (u : Bool), SeedOk s u → SavedBetween es →
    (u = true → ∀ b h c, es = b ++ SeedEv.boot h :: c → ∃ n, SeedEv.save (some n) ∈ b) → OnceEach (es.foldl seedStep s) := by
  intro es
  induction es with
  | nil => intro s u h _ _; exact h.once
  | cons e es ih =>
    intro s u h hs hu
    have hs' : SavedBetween es := fun a b c x y he => hs (e :: a) b c x y (by rw [he]; rfl)
    rw [List.foldl_cons]
    have stay : seedStep s e = s → (∀ n, e ≠ .save (some n)) → (∀ h, e ≠ .boot h) →
        OnceEach (es.foldl seedStep (seedStep s e)) := by
      intro he hn _
      rw [he]
      refine ih s u h hs' (fun hut b x c hb => ?_)
      obtain ⟨n, hm⟩ := hu hut (e :: b) x c (by rw [hb]; rfl)
      rcases List.mem_cons.1 hm with hm | hm
      · exact absurd hm.symm (hn n)
      · exact ⟨n, hm⟩
    cases e with
    | boot hw =>
      have hf : u = false := by
        cases u with
        | false => rfl
        | true => obtain ⟨n, hm⟩ := hu rfl [] hw es rfl; simp at hm
      subst hf
      exact ih _ true (h.make hw).give hs' (fun _ b x c hb => hs [] b c hw x (by rw [hb]; rfl))
    | save n =>
      cases n with
      | none => exact stay rfl (fun _ => by simp) (fun _ => by simp)
      | some n => exact ih _ false (h.save n) hs' (fun e => by cases e)
    | crash => exact stay rfl (fun _ => by simp) (fun _ => by simp)

/-! ## Theorems -/

/-- If the system saves a seed between any two boots, no seed is given to the kernel twice. -/
theorem C84_partial (s : SeedSt) (es : List SeedEv) (h : Installed s) (hs : SavedBetween es) : OnceEach (es.foldl seedStep s) := by
  refine seed_run es s false ⟨?_, ?_, h.2, ?_⟩ hs (fun e => by cases e)
  · unfold OnceEach; rw [h.1]; exact List.nodup_nil
  · rw [h.1]; simp
  · rw [h.1]; simp

/-- No more is given than eight bits for each byte of at most 32 KiB, and there is always something to give at a boot. -/
theorem C84_bits (s : SeedSt) (hw : Option Nat) : ∃ x, (seedStep s (.boot hw)).given = s.given ++ [x] ∧ 0 < x.2 ∧
    x.2 ≤ 8 * x.1.len ∧ x.2 ≤ 8 * 32768 := by
  have hm : ∃ f, (seedMake hw s).file = some f ∧ 0 < f.len ∧ (seedMake hw s).given = s.given := by
    unfold seedMake
    split
    · dsimp only
      refine ⟨_, rfl, ?_, rfl⟩
      split
      · split
        · exact Nat.zero_lt_succ 511
        · dsimp only; omega
      · exact Nat.zero_lt_succ 511
    · rename_i hn
      cases hf : s.file with
      | none => rw [hf] at hn; exact absurd rfl hn
      | some f =>
        rw [hf] at hn
        simp only [Option.all_some, decide_eq_true_eq] at hn
        exact ⟨f, rfl, by omega, rfl⟩
  obtain ⟨f, hf, hl, hg⟩ := hm
  refine ⟨(f, min f.len 32768 * 8), ?_, ?_, ?_, ?_⟩
  · unfold seedStep seedGive
    dsimp only
    rw [hf]
    dsimp only
    rw [if_neg (by omega), hg]
  · dsimp only; omega
  · dsimp only; omega
  · dsimp only; omega

/-- After a power loss the same seed is given again and counts again. -/
theorem C84_twice (s : SeedSt) (f : Seed) (hf : s.file = some f) (hl : 512 ≤ f.len) (hw hw' : Option Nat) :
    ([SeedEv.boot hw, .crash, .boot hw'].foldl seedStep s).given =
      s.given ++ [(f, min f.len 32768 * 8), (f, min f.len 32768 * 8)] := by
  have hm : ∀ hw t, t.file = some f → seedStep t (.boot hw) = { t with given := t.given ++ [(f, min f.len 32768 * 8)] } := by
    intro hw t ht
    unfold seedStep seedMake
    dsimp only
    rw [ht]
    simp only [Option.all_some, decide_eq_true_eq]
    rw [if_neg (by omega)]
    unfold seedGive
    rw [ht]
    dsimp only
    rw [if_neg (by omega)]
  simp only [List.foldl_cons, List.foldl_nil]
  rw [hm hw s hf]
  change (seedStep { s with given := _ } (.boot hw')).given = _
  rw [hm hw' { s with given := s.given ++ [(f, min f.len 32768 * 8)] } hf]
  simp

/-- A seed made of the time of day is said to be worth 4096 bits. -/
theorem C84_guess (s : SeedSt) (hf : s.file = none) :
    (seedStep s (.boot none)).given = s.given ++ [({ num := s.next, src := .guess, len := 512 }, 4096)] := by
  unfold seedStep seedMake
  dsimp only
  rw [hf]
  rfl

theorem C84_full_false : ¬ C84_full := by
  intro h
  have := (h { file := some { num := 0, src := .kernel, len := 32768 }, next := 1, given := [] } [.boot none, .crash, .boot none]
    ⟨rfl, by intro f hf; cases hf; decide⟩).1
  exact absurd this (by unfold OnceEach; decide)

/-- Hypotheses of `C84_partial` that can be met. -/
example : Installed { file := none, next := 0, given := [] } ∧ SavedBetween [.boot none, .save (some 32768), .crash, .boot (some 3)] ∧
    ([SeedEv.boot none, .save (some 32768), .crash, .boot (some 3)].foldl seedStep { file := none, next := 0, given := [] }).given =
      [({ num := 0, src := .guess, len := 512 }, 4096), ({ num := 1, src := .kernel, len := 32768 }, 262144)] := by
  refine ⟨⟨rfl, fun f hf => by cases hf⟩, ?_, by decide⟩
  intro a b c h h' e
  refine ⟨32768, ?_⟩
  rcases a with _ | ⟨x, _ | ⟨y, _ | ⟨z, _ | ⟨w, a⟩⟩⟩⟩ <;> simp at e
  rcases b with _ | ⟨x, b⟩ <;> simp at e
  simp [e.2.1]

/-- Hypotheses of `C84_twice` that can be met. -/
example : ∃ s : SeedSt, s.file = some { num := 0, src := .kernel, len := 32768 } ∧ 512 ≤ 32768 :=
  ⟨{ file := some { num := 0, src := .kernel, len := 32768 }, next := 1, given := [] }, rfl, by decide⟩

end Verif
