import Verif.Down

/-!
# C69: the system goes down the way it was told to
-/

namespace Verif

/-! ## Specification -/

/-- What users ask for: that the system goes down, or a runlevel -/
inductive Want
  | down (op : ShutOp)
  | level (l : Nat)
  deriving DecidableEq, Repr

/-- How the system is to go down, if so.  Runlevel 0 is for powering off, 6 for rebooting. -/
def Want.op : Want → Option ShutOp
  | .down op => some op
  | .level l => if l = 0 then some .off else if l = 6 then some .reboot else none

/-- What a program asks for -/
def DownCmd.want : DownCmd → Option Want
  | .reboot => some (.down .reboot)
  | .halt => some (.down .halt)
  | .poweroff => some (.down .off)
  | .suspend => none

/-- What is asked for with an event.  Nobody is listened to while the system is going down, and while it is coming up only
    requests for another runlevel are taken. -/
def asked (s : DownState) : DownEv → Option Want
  | .command c _ _ _ _ => if s.level = 0 ∨ s.level = 6 ∨ s.level = 10 then none else c.want
  | .level c _ =>
    if s.level = 0 ∨ s.level = 6 then none
    else if c ∈ ['s', 'S'] then some (.level 1)
    else if '0' ≤ c ∧ c ≤ '9' then some (.level (c.toNat - '0'.toNat)) else none
  | _ => none

/-- The last thing asked for -/
def lastWant (s : DownState) : List DownEv → Option Want
  | [] => none
  | e :: es => match lastWant (downEv s e) es with
    | some w => some w
    | none => asked s e

/-- Runlevels that can be configured -/
def UserLevel (l : Nat) : Prop := 1 ≤ l ∧ l ≤ 9 ∧ l ≠ 6

/-- The full claim of C69: the kernel is told what was last asked for, and nothing unless something was asked for. -/
def C69_full : Prop := ∀ cfg cmd, UserLevel cfg → (cmd = 0 ∨ UserLevel cmd) → ∀ evs op,
  (evs.foldl downEv (downBoot cfg cmd)).overflow = false ∧
  ((evs.foldl downEv (downBoot cfg cmd)).told = some op → ∃ w, lastWant (downBoot cfg cmd) evs = some w ∧ w.op = some op)

/-- No timeouts are given, and `halt` is not called while a reload or a change of runlevel is under way. -/
def Calm (s : DownState) : List DownEv → Prop
  | [] => True
  | e :: es => (∀ c t r st r', e = .command c t r st r' → t ≤ 0 ∧
      (c = .halt → s.phase = .run ∨ reservedLevel s.level = true)) ∧ Calm (downEv s e) es

/-! ## Lemmas -/

/-- Where the loop stops -/
def Resting (s : DownState) : Prop :=
  s.phase ≠ .change ∧ (s.phase = .run → s.newlevel = none) ∧ (s.phase = .boot → s.newlevel = none)

/-- What always holds, `w` being how the system is to go down -/
structure DownInv (s : DownState) (w : Option ShutOp) : Prop where
  off : s.phase = .off → ∃ op, s.told = some op ∧ w = some op
  on : s.phase ≠ .off → s.told = none
  bound : s.phase ≠ .off → (s.level = 0 ∨ s.level = 6 ∨ s.newlevel = some 0 ∨ s.newlevel = some 6) → w = some s.halt
  change : s.phase = .change → s.newlevel ≠ none
  boot : s.phase = .boot → s.level = 10 ∧ (s.cfglevel = 0 ∨ s.cfglevel = 6 → w = some s.halt)
  going : s.level = 0 ∨ s.level = 6 → s.newlevel = none ∧ (s.phase = .changeWait ∨ s.phase = .off)
  up : s.level = 10 → s.phase = .boot ∨ ((s.phase = .run ∨ s.phase = .change) ∧ s.newlevel ≠ none)
  digit : ∀ n, s.newlevel = some n → n ≤ 9
  cfg : s.cfglevel ≤ 9
  cmd : s.cmdlevel = 0 ∨ UserLevel s.cmdlevel
  timer : s.timer = false
  overflow : s.overflow = false
  gone : s.phase = .off → s.level = 0 ∨ s.level = 6

theorem DownInv.turn {s : DownState} {w : Option ShutOp} (h : DownInv s w) (ready : Bool) :
    DownInv (downTurn ready s).1 w := by
  obtain ⟨ph, lv, cf, cm, nl, rl, ha, ti, ov, to⟩ := s
  obtain ⟨h1, h2, h3, h4, h5, h6, h7, h8, h9, h10, h11, h12, h13⟩ := h
  dsimp only at h1 h2 h3 h4 h5 h6 h7 h8 h9 h10 h11 h12 h13
  subst h11 h12
  unfold downTurn
  cases ph with
  | boot =>
    dsimp only
    have h5' := h5 rfl
    split
    · exact ⟨h1, h2, h3, h4, h5, h6, h7, h8, h9, h10, rfl, rfl, h13⟩
    · rename_i hn
      refine ⟨nofun, fun _ => h2 nofun, fun _ => h3 nofun, nofun, nofun, fun h => ?_, fun _ => .inr ⟨.inl rfl, hn⟩, h8, h9, h10,
        rfl, rfl, nofun⟩
      dsimp only at h
      omega
  | run =>
    dsimp only
    have h6' : ¬ (lv = 0 ∨ lv = 6) := fun h => by rcases (h6 h).2 with h | h <;> cases h
    split
    · rename_i n
      split
      · rename_i hl
        have hl' : lv = n := hl
        refine ⟨nofun, fun _ => h2 nofun, fun _ h => ?_, nofun, nofun, fun h => absurd h h6', fun h => ?_, nofun, h9, h10,
          rfl, rfl, nofun⟩
        · rcases h with h | h | h | h
          · exact absurd (.inl h) h6'
          · exact absurd (.inr h) h6'
          · cases h
          · cases h
        · have := h8 n rfl
          have h' : lv = 10 := h
          omega
      · refine ⟨nofun, fun _ => h2 nofun, fun _ => h3 nofun, fun _ => nofun, nofun, fun h => absurd h h6', fun _ => ?_, h8, h9, h10,
          rfl, rfl, nofun⟩
        exact .inr ⟨.inr rfl, nofun⟩
    · have h7' : lv ≠ 10 := fun h => by
        rcases h7 h with h | h
        · cases h
        · exact h.2 rfl
      split
      · exact ⟨nofun, fun _ => h2 nofun, fun _ => h3 nofun, nofun, nofun, fun h => absurd h h6', fun h => absurd h h7', nofun, h9,
          h10, rfl, rfl, nofun⟩
      · exact ⟨nofun, fun _ => h2 nofun, fun _ => h3 nofun, nofun, nofun, fun h => absurd h h6', fun h => absurd h h7', nofun, h9,
          h10, rfl, rfl, nofun⟩
  | change =>
    dsimp only
    cases nl with
    | none => exact absurd rfl (h4 rfl)
    | some n =>
      have h8' := h8 n rfl
      refine ⟨nofun, fun _ => h2 nofun, fun _ h => ?_, nofun, nofun, fun _ => ⟨rfl, .inl rfl⟩, fun h => ?_, nofun, h9, h10, rfl, rfl, nofun⟩
      · refine h3 nofun ?_
        rcases h with h | h | h | h
        · exact .inr (.inr (.inl (congrArg some h)))
        · exact .inr (.inr (.inr (congrArg some h)))
        · cases h
        · cases h
      · have h' : n = 10 := h
        omega
  | changeWait =>
    dsimp only
    split
    · split
      · rename_i hl
        exact ⟨fun _ => ⟨ha, rfl, h3 nofun (by rcases hl with h | h; exact .inl h; exact .inr (.inl h))⟩, fun h => absurd rfl h,
          fun h => absurd rfl h, nofun, nofun, fun h => ⟨(h6 h).1, .inr rfl⟩, (fun h => by
            rcases h7 h with h | h
            · cases h
            · rcases h.1 with h | h <;> cases h), h8, h9, h10, rfl, rfl, fun _ => hl⟩
      · rename_i hl
        refine ⟨nofun, fun _ => h2 nofun, fun _ => h3 nofun, nofun, nofun, fun h => absurd h hl, fun h => ?_, h8, h9, h10, rfl, rfl, nofun⟩
        rcases h7 h with h | h
        · cases h
        · rcases h.1 with h | h <;> cases h
    · exact ⟨h1, h2, h3, h4, h5, h6, h7, h8, h9, h10, rfl, rfl, h13⟩
  | reloadWait =>
    dsimp only
    split
    · refine ⟨nofun, fun _ => h2 nofun, fun _ => h3 nofun, nofun, nofun, fun h => ?_, fun h => ?_, h8, h9, h10, rfl, rfl, nofun⟩
      · rcases (h6 h).2 with h | h <;> cases h
      · rcases h7 h with h | h
        · cases h
        · rcases h.1 with h | h <;> cases h
    · exact ⟨h1, h2, h3, h4, h5, h6, h7, h8, h9, h10, rfl, rfl, h13⟩
  | off => exact ⟨h1, h2, h3, h4, h5, h6, h7, h8, h9, h10, rfl, rfl, h13⟩

/-- A number that gets smaller with each turn -/
def downRank (s : DownState) : Nat :=
  (if s.newlevel.isSome then 5 else 0) + (if s.reload then 3 else 0) +
    match s.phase with
    | .boot => 3 | .run => 2 | .change => 1 | .changeWait => 3 | .reloadWait => 3 | .off => 0

theorem downRank_le (s : DownState) : downRank s < 12 := by
  unfold downRank
  cases s.newlevel.isSome <;> cases s.reload <;> cases s.phase <;> simp

theorem downTurn_rank {ready : Bool} {s : DownState} (h : (downTurn ready s).2 = true) (hc : s.phase = .change → s.newlevel ≠ none) :
    downRank (downTurn ready s).1 < downRank s := by
  obtain ⟨ph, lv, cf, cm, nl, rl, ha, ti, ov, to⟩ := s
  unfold downTurn at h ⊢
  unfold downRank
  dsimp only at hc
  cases ph <;> cases nl <;> cases rl <;> cases ready <;> simp at h hc ⊢ <;> (try split at h) <;> simp_all

theorem downTurn_rest {ready : Bool} {s : DownState} (h : (downTurn ready s).2 = false) : Resting (downTurn ready s).1 := by
  obtain ⟨ph, lv, cf, cm, nl, rl, ha, ti, ov, to⟩ := s
  unfold downTurn at h ⊢
  unfold Resting
  cases ph <;> cases nl <;> cases rl <;> cases ready <;> simp at h ⊢ <;> (try split at h) <;> simp_all [tellKernel]

theorem DownInv.loop {w : Option ShutOp} {ready : Bool} : ∀ (n : Nat) {s : DownState}, DownInv s w →
    DownInv (downLoop ready n s) w ∧ (downRank s < n → Resting (downLoop ready n s)) := by
  intro n
  induction n with
  | zero => intro s h; exact ⟨h, fun h => nomatch h⟩
  | succ n ih =>
    intro s h
    unfold downLoop
    split
    · rename_i ht
      have := ih (h.turn ready)
      refine ⟨this.1, fun hr => this.2 ?_⟩
      have := downTurn_rank ht h.change
      omega
    · rename_i ht
      exact ⟨h.turn ready, fun _ => downTurn_rest (Bool.eq_false_iff.mpr ht)⟩

theorem DownInv.step {s : DownState} {w : Option ShutOp} (h : DownInv s w) (ready : Bool) :
    DownInv (downStep ready s) w ∧ Resting (downStep ready s) :=
  ⟨(h.loop 12).1, (h.loop 12).2 (downRank_le s)⟩

/-- More turns would change nothing. -/
theorem downLoop_enough {s : DownState} {w : Option ShutOp} (h : DownInv s w) (ready : Bool) (n : Nat) :
    downLoop ready (12 + n) s = downStep ready s := by
  have key : ∀ (k : Nat) {s : DownState}, DownInv s w → downRank s < k → ∀ n, downLoop ready (k + n) s = downLoop ready k s := by
    intro k
    induction k with
    | zero => intro s _ h; cases h
    | succ k ih =>
      intro s h hr n
      rw [Nat.succ_add]
      unfold downLoop
      split
      · rename_i ht
        have := downTurn_rank ht h.change
        exact ih (h.turn ready) (by omega) n
      · rfl
  exact key 12 h (downRank_le s) n

/-- Another runlevel is wanted. -/
theorem DownInv.setLevel {s : DownState} {w w' : Option ShutOp} (h : DownInv s w) (hp : s.phase ≠ .off)
    (hl : s.level ≠ 0 ∧ s.level ≠ 6) {l : Nat} (h9 : l ≤ 9) (hw : l = 0 ∨ l = 6 → w' = some s.halt)
    (hb : s.phase = .boot → w' = w) : DownInv { s with newlevel := some l } w' := by
  refine ⟨fun h => absurd h hp, h.on, fun _ hx => ?_, fun _ => nofun, fun hx => ⟨(h.boot hx).1, fun hc => ?_⟩, fun hx => ?_, fun hx => ?_,
    fun n hn => ?_, h.cfg, h.cmd, h.timer, h.overflow, fun h => absurd h hp⟩
  · dsimp only at hx
    rcases hx with hx | hx | hx | hx
    · exact absurd hx hl.1
    · exact absurd hx hl.2
    · exact hw (.inl (Option.some.inj hx))
    · exact hw (.inr (Option.some.inj hx))
  · rw [hb hx]; exact (h.boot hx).2 hc
  · rcases hx with hx | hx
    · exact absurd hx hl.1
    · exact absurd hx hl.2
  · rcases h.up hx with hx | hx
    · exact .inl hx
    · exact .inr ⟨hx.1, nofun⟩
  · cases hn; exact h9

/-- What was wanted does not matter when the system runs and goes on running. -/
theorem DownInv.forget {s : DownState} {w w' : Option ShutOp} (h : DownInv s w) (hp : s.phase ≠ .off)
    (hl : reservedLevel s.level = false) {op : ShutOp} {l : Nat} (h9 : l ≤ 9) (hw : l = 0 ∨ l = 6 → w' = some op) :
    DownInv { s with halt := op, newlevel := some l } w' := by
  have hl' : s.level ≠ 0 ∧ s.level ≠ 6 ∧ s.level ≠ 10 := by
    unfold reservedLevel at hl
    have := of_decide_eq_false hl
    omega
  refine ⟨fun h => absurd h hp, h.on, fun _ hx => ?_, fun _ => nofun, fun hx => absurd (h.boot hx).1 hl'.2.2, fun hx => ?_,
    fun hx => absurd hx hl'.2.2, fun n hn => ?_, h.cfg, h.cmd, h.timer, h.overflow, fun h => absurd h hp⟩
  · dsimp only at hx
    rcases hx with hx | hx | hx | hx
    · exact absurd hx hl'.1
    · exact absurd hx hl'.2.1
    · exact hw (.inl (Option.some.inj hx))
    · exact hw (.inr (Option.some.inj hx))
  · rcases hx with hx | hx
    · exact absurd hx hl'.1
    · exact absurd hx hl'.2.1
  · cases hn; exact h9

/-- While the system comes up or goes down the runlevel does not change by itself. -/
theorem DownInv.stepLevel {s : DownState} {w : Option ShutOp} (h : DownInv s w) (hr : Resting s) (ready : Bool)
    (hl : reservedLevel s.level = true) : (downStep ready s).level = s.level := by
  have hl' := of_decide_eq_true hl
  by_cases h10 : s.level = 10
  · have hb : s.phase = .boot := by
      rcases h.up h10 with hb | ⟨hb | hb, hn⟩
      · exact hb
      · exact absurd (hr.2.1 hb) hn
      · exact absurd hb hr.1
    have hn := hr.2.2 hb
    unfold downStep downLoop downTurn
    rw [hb, hn]
    rfl
  · have hl2 : s.level = 0 ∨ s.level = 6 := by omega
    obtain ⟨-, hp⟩ := h.going hl2
    unfold downStep downLoop downTurn
    rcases hp with hp | hp
    · rw [hp]
      cases ready with
      | false => rfl
      | true => dsimp only; rw [if_pos rfl, if_pos hl2]; rfl
    · rw [hp]; rfl

theorem DownInv.steps {w : Option ShutOp} : ∀ (rs : List Bool) {s : DownState}, DownInv s w → Resting s →
    DownInv (rs.foldl (fun s r => downStep r s) s) w ∧ Resting (rs.foldl (fun s r => downStep r s) s) ∧
    (reservedLevel s.level = true → (rs.foldl (fun s r => downStep r s) s).level = s.level) := by
  intro rs
  induction rs with
  | nil => intro s h hr; exact ⟨h, hr, fun _ => rfl⟩
  | cons r rs ih =>
    intro s h hr
    obtain ⟨h1, h2, h3⟩ := ih (h.step r).1 (h.step r).2
    refine ⟨h1, h2, fun hl => ?_⟩
    have := h.stepLevel hr r hl
    rw [List.foldl_cons, h3 (by rw [this]; exact hl), this]

theorem run_zero {s : DownState} (hp : s.phase = .run) (hl : s.level ≠ 0) (op : ShutOp) (r : Bool) :
    (downStep r { s with halt := op, newlevel := some 0 }).level = 0 := by
  obtain ⟨ph, lv, cf, cm, nl, rl, ha, ti, ov, to⟩ := s
  dsimp only at hp hl
  subst hp
  cases r <;> simp [downStep, downLoop, downTurn, hl, tellKernel]

theorem DownInv.reserved_phase {s : DownState} {w : Option ShutOp} (h : DownInv s w) (hl : reservedLevel s.level = false) :
    s.phase ≠ .boot := fun hb => by
  rw [(h.boot hb).1] at hl
  cases hl

/-- How it is to go down after an event -/
def wantedAfter (s : DownState) (e : DownEv) (w : Option ShutOp) : Option ShutOp :=
  match asked s e with
  | some x => x.op
  | none => w

theorem DownInv.signal {s : DownState} {op : ShutOp} (h : DownInv s (some op)) (hr : Resting s) {c : DownCmd} (r : Bool)
    (hc : c = .reboot ∧ op = .reboot ∨ c = .poweroff ∧ op = .off) :
    DownInv (downSignal r c s) (some op) ∧ Resting (downSignal r c s) := by
  unfold downSignal
  split
  · exact ⟨h, hr⟩
  · rename_i hl
    have hl' := Bool.eq_false_iff.mpr hl
    have hp : s.phase ≠ .off := fun hp => by
      rcases h.gone hp with e | e <;> rw [e] at hl' <;> cases hl'
    rcases hc with ⟨rfl, rfl⟩ | ⟨rfl, rfl⟩
    · exact (h.forget hp hl' (op := .reboot) (l := 6) (by decide) (fun _ => rfl)).step r
    · exact (h.forget hp hl' (op := .off) (l := 0) (by decide) (fun _ => rfl)).step r

theorem downSignal_reserved {s : DownState} (h : reservedLevel s.level = true) (r : Bool) (c : DownCmd) :
    downSignal r c s = s := by
  unfold downSignal; rw [if_pos h]

theorem downSignal_suspend (s : DownState) (r : Bool) : downSignal r .suspend s = s := by
  unfold downSignal; split <;> rfl

theorem DownInv.command {s : DownState} {w : Option ShutOp} (h : DownInv s w) (hr : Resting s) (hp : s.phase ≠ .off)
    {c : DownCmd} {t : Int} {r r' : Bool} {st : List Bool} (ht : t ≤ 0)
    (hh : c = .halt → s.phase = .run ∨ reservedLevel s.level = true) :
    DownInv (downEv s (.command c t r st r')) (wantedAfter s (.command c t r st r') w) ∧
      Resting (downEv s (.command c t r st r')) := by
  unfold downEv wantedAfter asked
  rw [if_neg hp]
  dsimp only
  cases hl : reservedLevel s.level with
  | true =>
    have hl' := of_decide_eq_true hl
    rw [if_pos hl']
    unfold downApi
    rw [hl, if_pos rfl]
    obtain ⟨h1, h2, h3⟩ := h.steps st hr
    rw [downSignal_reserved (by rw [h3 hl]; exact hl)]
    exact ⟨h1, h2⟩
  | false =>
    have hl' := of_decide_eq_false hl
    rw [if_neg hl']
    unfold downApi
    rw [hl, if_neg (by decide)]
    have ht' : ¬ t > 0 := by omega
    dsimp only
    cases c with
    | suspend =>
      rw [if_neg ht']
      obtain ⟨h1, h2, -⟩ := h.steps st hr
      show DownInv (downSignal r' .suspend (st.foldl (fun s r => downStep r s) s)) w ∧
        Resting (downSignal r' .suspend (st.foldl (fun s r => downStep r s) s))
      rw [downSignal_suspend]
      exact ⟨h1, h2⟩
    | reboot =>
      rw [if_neg ht']
      have h1 := (h.forget hp hl (op := .reboot) (l := 6) (w' := some .reboot) (by decide) (fun _ => rfl)).step r
      obtain ⟨h1, h2, -⟩ := h1.1.steps st h1.2
      exact h1.signal h2 r' (.inl ⟨rfl, rfl⟩)
    | poweroff =>
      rw [if_neg ht']
      have h1 := (h.forget hp hl (op := .off) (l := 0) (w' := some .off) (by decide) (fun _ => rfl)).step r
      obtain ⟨h1, h2, -⟩ := h1.1.steps st h1.2
      exact h1.signal h2 r' (.inr ⟨rfl, rfl⟩)
    | halt =>
      rw [if_neg ht']
      have h1 := (h.forget hp hl (op := .halt) (l := 0) (w' := some .halt) (by decide) (fun _ => rfl)).step r
      obtain ⟨h2, h3, h4⟩ := h1.1.steps st h1.2
      have hrun : s.phase = .run := (hh rfl).resolve_right (by rw [hl]; decide)
      have h0 := run_zero hrun (by omega) .halt r
      have hres : reservedLevel (downStep r { s with halt := .halt, newlevel := some 0 }).level = true := by rw [h0]; rfl
      have := downSignal_reserved (s := st.foldl (fun s r => downStep r s) (downStep r { s with halt := .halt, newlevel := some 0 }))
        (by rw [h4 hres]; exact hres) r' .halt
      show DownInv (downSignal r' .halt (st.foldl (fun s r => downStep r s) (downStep r { s with halt := .halt, newlevel := some 0 }))) _ ∧
        Resting (downSignal r' .halt (st.foldl (fun s r => downStep r s) (downStep r { s with halt := .halt, newlevel := some 0 })))
      rw [this]
      exact ⟨h2, h3⟩

theorem digit_iff (c : Char) : isDigit c = true ↔ '0' ≤ c ∧ c ≤ '9' := by
  unfold isDigit
  rw [decide_eq_true_iff]
  exact Iff.rfl

/-- What a request for a runlevel does when it is taken -/
theorem DownInv.take {s : DownState} {w : Option ShutOp} (h : DownInv s w) (hr : Resting s) (hp : s.phase ≠ .off)
    (hl : ¬ (s.level = 0 ∨ s.level = 6)) {l : Nat} (h9 : l ≤ 9) (r : Bool) {s' : DownState}
    (hs : s' = { s with halt := if l = 6 then .reboot else if l = 0 then .off else s.halt }) :
    DownInv (if s'.level = 10 then { s' with cfglevel := l } else downRunlevel r l s') (Want.level l).op ∧
      Resting (if s'.level = 10 then { s' with cfglevel := l } else downRunlevel r l s') := by
  have hw : l = 0 ∨ l = 6 → (Want.level l).op = some (if l = 6 then .reboot else if l = 0 then .off else s.halt) := by
    rintro (e | e) <;> subst e <;> rfl
  subst hs
  dsimp only
  split
  · rename_i h10
    have hb : s.phase = .boot := by
      rcases h.up h10 with hb | ⟨hb | hb, hn⟩
      · exact hb
      · exact absurd (hr.2.1 hb) hn
      · exact absurd hb hr.1
    have hn := hr.2.2 hb
    refine ⟨⟨fun h => absurd h hp, h.on, fun _ hx => ?_, (fun hx => nomatch hb.symm.trans hx), fun _ => ⟨h10, hw⟩, fun hx => absurd hx hl,
      fun _ => .inl hb, h.digit, h9, h.cmd, h.timer, h.overflow, fun h => absurd h hp⟩, hr⟩
    dsimp only at hx
    rcases hx with hx | hx | hx | hx
    · exact absurd (.inl hx) hl
    · exact absurd (.inr hx) hl
    · rw [hn] at hx; cases hx
    · rw [hn] at hx; cases hx
  · rename_i h10
    exact (h.forget hp (decide_eq_false (by omega)) h9 hw).step r

theorem DownInv.level {s : DownState} {w : Option ShutOp} (h : DownInv s w) (hr : Resting s) (hp : s.phase ≠ .off)
    (c : Char) (r : Bool) : DownInv (downEv s (.level c r)) (wantedAfter s (.level c r) w) ∧ Resting (downEv s (.level c r)) := by
  have hif : ∀ l : Nat, (let s1 := if l = 0 then { s with halt := .off } else s
      if l = 6 then { s1 with halt := .reboot } else s1) =
      { s with halt := if l = 6 then .reboot else if l = 0 then .off else s.halt } := by
    intro l
    dsimp only
    by_cases h6 : l = 6
    · subst h6; rfl
    · rw [if_neg h6, if_neg h6]
      split <;> rfl
  unfold downEv wantedAfter asked
  rw [if_neg hp]
  dsimp only
  unfold downLevel
  by_cases hl : s.level = 0 ∨ s.level = 6
  · rw [if_pos hl, if_pos]
    · exact ⟨h, hr⟩
    · refine ⟨decide_eq_true (by omega), by omega⟩
  · rw [if_neg hl, if_neg]
    · by_cases hs : c ∈ ['s', 'S']
      · have hs' : c = 's' ∨ c = 'S' := by simpa using hs
        rw [if_pos hs]
        dsimp only
        rw [if_pos hs', if_pos (by decide)]
        exact h.take hr hp hl (l := 1) (by decide) r rfl
      · have hs' : ¬ (c = 's' ∨ c = 'S') := by simpa using hs
        rw [if_neg hs]
        dsimp only
        rw [if_neg hs']
        by_cases hd : isDigit c = true
        · rw [if_pos hd, if_pos ((digit_iff c).mp hd)]
          have h9 : c.toNat - 48 ≤ 9 := by
            have := of_decide_eq_true hd
            omega
          exact h.take hr hp hl h9 r (hif _)
        · rw [if_neg hd, if_neg (fun h => hd ((digit_iff c).mpr h))]
          exact ⟨h, hr⟩
    · rintro ⟨h1, h2⟩
      have := of_decide_eq_true h1
      omega

theorem DownInv.event {s : DownState} {w : Option ShutOp} (h : DownInv s w) (hr : Resting s) {e : DownEv}
    (hc : ∀ c t r st r', e = .command c t r st r' → t ≤ 0 ∧ (c = .halt → s.phase = .run ∨ reservedLevel s.level = true)) :
    DownInv (downEv s e) (wantedAfter s e w) ∧ Resting (downEv s e) := by
  by_cases hp : s.phase = .off
  · have hg := h.gone hp
    have he : downEv s e = s := by unfold downEv; rw [if_pos hp]
    have hw : wantedAfter s e w = w := by
      unfold wantedAfter asked
      cases e with
      | command c t r st r' => dsimp only; rw [if_pos (by omega)]
      | level c r => dsimp only; rw [if_pos hg]
      | _ => rfl
    rw [he, hw]
    exact ⟨h, hr⟩
  · cases e with
    | command c t r st r' =>
      obtain ⟨ht, hh⟩ := hc c t r st r' rfl
      exact h.command hr hp ht hh
    | level c r => exact h.level hr hp c r
    | reload r =>
      unfold downEv wantedAfter asked
      rw [if_neg hp]
      dsimp only
      split
      · exact ⟨h, hr⟩
      · have : DownInv { s with reload := true } w :=
          ⟨h.off, h.on, h.bound, h.change, h.boot, h.going, h.up, h.digit, h.cfg, h.cmd, h.timer, h.overflow, h.gone⟩
        exact this.step r
    | step r =>
      unfold downEv wantedAfter asked
      rw [if_neg hp]
      exact h.step r
    | booted r =>
      unfold downEv wantedAfter asked
      rw [if_neg hp]
      dsimp only
      split
      · rename_i hb
        have h10 := (h.boot hb).1
        have hcm := h.cmd
        have hcf := h.cfg
        refine (h.setLevel (w' := w) hp (by omega) ?_ ?_ (fun _ => rfl)).step r
        · split
          · rcases hcm with h | h
            · omega
            · exact h.2.1
          · exact hcf
        · intro hx
          split at hx
          · rename_i hne
            rcases hcm with h | h
            · exact absurd h hne
            · unfold UserLevel at h; omega
          · exact (h.boot hb).2 hx
      · exact ⟨h, hr⟩
    | tick =>
      unfold downEv wantedAfter asked
      rw [if_neg hp]
      dsimp only
      rw [h.timer]
      exact ⟨h, hr⟩

theorem downBoot_inv {cfg cmd : Nat} (h1 : UserLevel cfg) (h2 : cmd = 0 ∨ UserLevel cmd) (w : Option ShutOp) :
    DownInv (downBoot cfg cmd) w ∧ Resting (downBoot cfg cmd) := by
  unfold UserLevel at h1
  refine ⟨⟨nofun, fun _ => rfl, fun _ h => ?_, nofun, fun _ => ⟨rfl, fun h => ?_⟩, fun h => ?_, fun _ => .inl rfl, nofun, h1.2.1, h2, rfl,
    rfl, nofun⟩, nofun, nofun, fun _ => rfl⟩
  · unfold downBoot at h; simp at h
  · unfold downBoot at h; dsimp only at h; omega
  · unfold downBoot at h; simp at h

theorem DownInv.run : ∀ (evs : List DownEv) {s : DownState} {w : Option Want}, DownInv s (w.bind Want.op) → Resting s → Calm s evs →
    DownInv (evs.foldl downEv s) (((lastWant s evs).or w).bind Want.op) ∧ Resting (evs.foldl downEv s) := by
  intro evs
  induction evs with
  | nil => intro s w h hr _; exact ⟨h, hr⟩
  | cons e es ih =>
    intro s w h hr hc
    obtain ⟨h1, h2⟩ := h.event hr hc.1
    have hw : wantedAfter s e (w.bind Want.op) = (((asked s e).or w).bind Want.op) := by
      unfold wantedAfter
      cases asked s e <;> rfl
    rw [hw] at h1
    have := ih h1 h2 hc.2
    have hl : (lastWant s (e :: es)).or w = (lastWant (downEv s e) es).or ((asked s e).or w) := by
      rw [lastWant]
      cases lastWant (downEv s e) es <;> rfl
    rw [hl]
    exact this

/-! ## C69 -/

/-- What the kernel is told is what was last asked for. -/
theorem C69_partial {cfg cmd : Nat} (h1 : UserLevel cfg) (h2 : cmd = 0 ∨ UserLevel cmd) {evs : List DownEv}
    (hc : Calm (downBoot cfg cmd) evs) : (evs.foldl downEv (downBoot cfg cmd)).overflow = false ∧
    ∀ op, (evs.foldl downEv (downBoot cfg cmd)).told = some op →
      ∃ w, lastWant (downBoot cfg cmd) evs = some w ∧ w.op = some op := by
  obtain ⟨h, -⟩ := DownInv.run evs (w := none) (downBoot_inv h1 h2 _).1 (downBoot_inv h1 h2 none).2 hc
  rw [Option.or_none] at h
  refine ⟨h.overflow, fun op ht => ?_⟩
  have hp : (evs.foldl downEv (downBoot cfg cmd)).phase = .off := by
    by_cases hp : (evs.foldl downEv (downBoot cfg cmd)).phase = .off
    · exact hp
    · rw [h.on hp] at ht; cases ht
  obtain ⟨op', e1, e2⟩ := h.off hp
  rw [ht] at e1
  cases e1
  exact Option.bind_eq_some_iff.mp e2

/-- On the way down -/
def OnWayDown (s : DownState) : Prop :=
  ((s.level = 0 ∨ s.level = 6) ∧ s.newlevel = none ∧ (s.phase = .changeWait ∨ s.phase = .off)) ∨
  ((s.newlevel = some 0 ∨ s.newlevel = some 6) ∧ ¬ (s.level = 0 ∨ s.level = 6) ∧ s.phase ≠ .off ∧ s.phase ≠ .boot)

theorem OnWayDown.turn {s : DownState} (h : OnWayDown s) (r : Bool) : OnWayDown (downTurn r s).1 := by
  obtain ⟨ph, lv, cf, cm, nl, rl, ha, ti, ov, to⟩ := s
  unfold OnWayDown at h ⊢
  unfold downTurn
  dsimp only at h ⊢
  rcases h with ⟨hl, hn, hp⟩ | ⟨hn, hl, hp, hb⟩
  · subst hn
    rcases hp with hp | hp <;> subst hp <;> dsimp only
    · cases r
      · exact .inl ⟨hl, rfl, .inl rfl⟩
      · rw [if_pos rfl, if_pos hl]
        exact .inl ⟨hl, rfl, .inr rfl⟩
    · exact .inl ⟨hl, rfl, .inr rfl⟩
  · cases ph with
    | boot => exact absurd rfl hb
    | off => exact absurd rfl hp
    | run =>
      rcases hn with hn | hn <;> subst hn <;> dsimp only <;> rw [if_neg (by omega)] <;> exact .inr ⟨by simp, hl, nofun, nofun⟩
    | change => rcases hn with hn | hn <;> subst hn <;> exact .inl ⟨by simp, rfl, .inl rfl⟩
    | changeWait =>
      cases r
      · exact .inr ⟨hn, hl, nofun, nofun⟩
      · dsimp only; rw [if_pos rfl, if_neg hl]
        exact .inr ⟨hn, hl, nofun, nofun⟩
    | reloadWait => cases r <;> exact .inr ⟨hn, hl, nofun, nofun⟩

theorem OnWayDown.loop {r : Bool} : ∀ (n : Nat) {s : DownState}, OnWayDown s → OnWayDown (downLoop r n s) := by
  intro n
  induction n with
  | zero => intro s h; exact h
  | succ n ih =>
    intro s h
    rw [downLoop]
    split
    · exact ih (h.turn r)
    · exact h.turn r

theorem OnWayDown.steps : ∀ (rs : List Bool) {s : DownState}, OnWayDown s → OnWayDown (rs.foldl (fun s r => downStep r s) s) := by
  intro rs
  induction rs with
  | nil => intro s h; exact h
  | cons r rs ih => intro s h; exact ih (h.loop 12)

/-- When all services have stopped the kernel is told. -/
theorem OnWayDown.last {s : DownState} (h : OnWayDown s) : (downStep true s).phase = .off := by
  obtain ⟨ph, lv, cf, cm, nl, rl, ha, ti, ov, to⟩ := s
  unfold OnWayDown at h
  dsimp only at h
  rcases h with ⟨hl, hn, hp⟩ | ⟨hn, hl, hp, hb⟩
  · subst hn
    rcases hp with hp | hp <;> subst hp <;> rcases hl with hl | hl <;> subst hl <;> simp [downStep, downLoop, downTurn, tellKernel]
  · have h0 : lv ≠ 0 := by omega
    have h6 : lv ≠ 6 := by omega
    rcases hn with hn | hn <;> subst hn <;> cases ph <;>
      first
      | exact absurd rfl hb
      | exact absurd rfl hp
      | simp [downStep, downLoop, downTurn, tellKernel, h0, h6]

theorem onWayDown_set {s : DownState} (hp : s.phase ≠ .off) (hb : s.phase ≠ .boot) (hl : ¬ (s.level = 0 ∨ s.level = 6)) {l : Nat}
    (h : l = 0 ∨ l = 6) (op : ShutOp) (r : Bool) : OnWayDown (downRunlevel r l { s with halt := op }) := by
  refine OnWayDown.loop 12 (.inr ⟨?_, hl, hp, hb⟩)
  rcases h with h | h <;> subst h <;> simp

theorem OnWayDown.signal {s : DownState} (h : OnWayDown s) (r : Bool) (c : DownCmd) : OnWayDown (downSignal r c s) := by
  unfold downSignal
  split
  · exact h
  · rename_i hl
    have hl' : ¬ (s.level = 0 ∨ s.level = 6) := by
      intro hx; apply hl; exact decide_eq_true (by omega)
    rcases h with ⟨hx, -⟩ | ⟨hn, -, hp, hb⟩
    · exact absurd hx hl'
    · cases c with
      | reboot => exact onWayDown_set hp hb hl' (.inr rfl) _ r
      | halt => exact onWayDown_set hp hb hl' (.inl rfl) _ r
      | poweroff => exact onWayDown_set hp hb hl' (.inl rfl) _ r
      | suspend => exact .inr ⟨hn, hl', hp, hb⟩

theorem onWayDown_asked {s : DownState} {o : Option ShutOp} (h : DownInv s o) (h10 : s.level ≠ 10) {e : DownEv} {w : Want} {op : ShutOp}
    (ha : asked s e = some w) (hw : w.op = some op)
    (ht : ∀ c t r st r', e = .command c t r st r' → t ≤ 0) : OnWayDown (downEv s e) := by
  have hb : s.phase ≠ .boot := fun hb => h10 (h.boot hb).1
  have hl : ¬ (s.level = 0 ∨ s.level = 6) := by
    intro hl
    unfold asked at ha
    cases e with
    | command c t r st r' => dsimp only at ha; rw [if_pos (by omega)] at ha; cases ha
    | level c r => dsimp only at ha; rw [if_pos hl] at ha; cases ha
    | _ => cases ha
  have hp : s.phase ≠ .off := fun hp => hl (h.gone hp)
  have hres : reservedLevel s.level = false := decide_eq_false (by omega)
  have hwl : ∀ l, w = .level l → l = 0 ∨ l = 6 := by
    intro l e; subst e
    unfold Want.op at hw
    dsimp only at hw
    split at hw
    · omega
    · split at hw
      · omega
      · cases hw
  unfold asked at ha
  unfold downEv
  rw [if_neg hp]
  cases e with
  | command c t r st r' =>
    dsimp only at ha ⊢
    have ht' := ht c t r st r' rfl
    refine OnWayDown.signal (OnWayDown.steps st ?_) r' c
    unfold downApi
    rw [hres, if_neg (by decide)]
    dsimp only
    rw [if_neg (by omega)]
    cases c with
    | reboot => exact onWayDown_set hp hb hl (.inr rfl) _ r
    | halt => exact onWayDown_set hp hb hl (.inl rfl) _ r
    | poweroff => exact onWayDown_set hp hb hl (.inl rfl) _ r
    | suspend => rw [if_neg (by omega)] at ha; cases ha
  | level c r =>
    dsimp only at ha ⊢
    rw [if_neg hl] at ha
    unfold downLevel
    rw [if_neg (by rw [hres]; exact fun h => nomatch h.1)]
    split at ha
    · injection ha with ha
      have := hwl 1 ha.symm
      omega
    · rename_i hs
      have hs' : ¬ (c = 's' ∨ c = 'S') := by simpa using hs
      split at ha
      · rename_i hd
        injection ha with ha
        have h06 := hwl _ ha.symm
        dsimp only
        rw [if_neg hs', if_pos ((digit_iff c).mpr hd)]
        have e0 : '0'.toNat = 48 := rfl
        rw [e0] at h06
        generalize c.toNat - 48 = l at h06 ⊢
        rcases h06 with h | h <;> subst h
        · show OnWayDown (if s.level = 10 then { s with halt := .off, cfglevel := 0 } else downRunlevel r 0 { s with halt := .off })
          rw [if_neg h10]
          exact onWayDown_set hp hb hl (.inl rfl) _ r
        · show OnWayDown (if s.level = 10 then { s with halt := .reboot, cfglevel := 6 } else downRunlevel r 6 { s with halt := .reboot })
          rw [if_neg h10]
          exact onWayDown_set hp hb hl (.inr rfl) _ r
      · cases ha
  | _ => cases ha

/-- Once asked for, as soon as all services have stopped the system goes down, and the way asked for. -/
theorem C69_goes_partial {cfg cmd : Nat} (h1 : UserLevel cfg) (h2 : cmd = 0 ∨ UserLevel cmd) {evs : List DownEv} {e : DownEv}
    (hc : Calm (downBoot cfg cmd) (evs ++ [e])) {w : Want} {op : ShutOp}
    (ha : asked (evs.foldl downEv (downBoot cfg cmd)) e = some w) (hw : w.op = some op)
    (h10 : (evs.foldl downEv (downBoot cfg cmd)).level ≠ 10) (rs : List Bool) :
    ((evs ++ e :: rs.map DownEv.step ++ [DownEv.step true]).foldl downEv (downBoot cfg cmd)).told = some op := by
  have hcut : ∀ (l : List DownEv) (s : DownState), Calm s (l ++ [e]) → Calm s l ∧ Calm (l.foldl downEv s) [e] := by
    intro l
    induction l with
    | nil => intro s h; exact ⟨trivial, h⟩
    | cons x xs ih => intro s h; exact ⟨⟨h.1, (ih _ h.2).1⟩, (ih _ h.2).2⟩
  obtain ⟨hc1, hc2⟩ := hcut _ _ hc
  obtain ⟨h, hr⟩ := DownInv.run evs (w := none) (downBoot_inv h1 h2 _).1 (downBoot_inv h1 h2 none).2 hc1
  have hg := onWayDown_asked h h10 ha hw (fun c t r st r' e => (hc2.1 c t r st r' e).1)
  obtain ⟨h', hr'⟩ := h.event hr hc2.1
  unfold wantedAfter at h'
  rw [ha] at h'
  dsimp only at h'
  rw [hw] at h'
  rw [List.foldl_append, List.foldl_append, List.foldl_cons, List.foldl_nil, List.foldl_cons]
  generalize downEv (evs.foldl downEv (downBoot cfg cmd)) e = s at hg h' hr'
  have hst : ∀ (s : DownState) (r : Bool), downEv s (.step r) = downStep r s := by
    intro s r
    unfold downEv
    split
    · rename_i hp
      obtain ⟨ph, lv, cf, cm, nl, rl, ha, ti, ov, to⟩ := s
      dsimp only at hp
      subst hp
      rfl
    · rfl
  have hm : (rs.map DownEv.step).foldl downEv s = rs.foldl (fun s r => downStep r s) s := by
    rw [List.foldl_map]
    simp only [hst]
  rw [hm, hst]
  obtain ⟨h2, -, -⟩ := DownInv.steps rs h' hr'
  have h3 := (h2.step true).1
  obtain ⟨o, e1, e2⟩ := h3.off (hg.steps rs).last
  cases e2
  exact e1

/-! ### The command line -/

/-- What an option says about the way down -/
def DownOpt.cmd : DownOpt → Option DownCmd
  | .halt => some .halt
  | .h | .poweroff => some .poweroff
  | .reboot => some .reboot
  | _ => none

/-- The options make sense: no help is asked for and every timeout is a number of seconds. -/
def SaneOpts (opts : List DownOpt) : Prop := ∀ o ∈ opts, o ≠ .help ∧ ∀ a, o = .timeout a → 1 ≤ atoi a

theorem downOpts_eq (su : Bool) : ∀ (opts : List DownOpt) (c : DownCmd) (f : Bool) (t : Int), SaneOpts opts →
    downOpts su c f t opts =
      if su = true ∨ f = true ∨ DownOpt.force ∈ opts then .force ((opts.filterMap DownOpt.cmd).getLast?.getD c)
      else .ask ((opts.filterMap DownOpt.cmd).getLast?.getD c)
        ((opts.filterMap fun o => match o with | .timeout a => some (atoi a) | _ => none).getLast?.getD t) := by
  intro opts
  induction opts with
  | nil =>
    intro c f t _
    rw [downOpts]
    cases su <;> cases f <;> rfl
  | cons o os ih =>
    intro c f t h
    have hs : SaneOpts os := fun x hx => h x (List.mem_cons_of_mem _ hx)
    have ho := h o List.mem_cons_self
    have hd : ∀ {α : Type} (x d : α) (l : List α), (x :: l).getLast?.getD d = l.getLast?.getD x := by
      intro α x d l
      cases l with
      | nil => rfl
      | cons y ys => simp [List.getLast?_cons]
    cases o with
    | help => exact absurd rfl ho.1
    | force =>
      rw [downOpts, ih _ _ _ hs, if_pos (.inr (.inl rfl)), if_pos (.inr (.inr List.mem_cons_self))]
      rfl
    | timeout a =>
      have h1 := ho.2 a rfl
      rw [downOpts, if_neg (by omega), ih _ _ _ hs]
      simp [DownOpt.cmd, hd]
    | halt => rw [downOpts, ih _ _ _ hs]; simp [DownOpt.cmd, hd]
    | h => rw [downOpts, ih _ _ _ hs]; simp [DownOpt.cmd, hd]
    | poweroff => rw [downOpts, ih _ _ _ hs]; simp [DownOpt.cmd, hd]
    | reboot => rw [downOpts, ih _ _ _ hs]; simp [DownOpt.cmd, hd]

/-- The last of the options that say how decides, else the name of the program. -/
theorem C69_options {su : Bool} {name : CStr} {opts : List DownOpt} (h : SaneOpts opts) (c : DownCmd) :
    ((∃ t, rebootMain su name opts = .ask c t) ∨ rebootMain su name opts = .force c) ↔
      ((∃ pre o post, opts = pre ++ o :: post ∧ o.cmd = some c ∧ ∀ x ∈ post, x.cmd = none) ∨
        ((∀ o ∈ opts, o.cmd = none) ∧ downByName name = c)) := by
  have hlast : (opts.filterMap DownOpt.cmd).getLast?.getD (downByName name) = c ↔
      ((∃ pre o post, opts = pre ++ o :: post ∧ o.cmd = some c ∧ ∀ x ∈ post, x.cmd = none) ∨
        ((∀ o ∈ opts, o.cmd = none) ∧ downByName name = c)) := by
    generalize downByName name = d
    clear h
    induction opts generalizing d with
    | nil => simp
    | cons o os ih =>
      cases ho : o.cmd with
      | none =>
        rw [List.filterMap_cons_none ho, ih d]
        constructor
        · rintro (⟨pre, x, post, e, h1, h2⟩ | ⟨h1, h2⟩)
          · exact .inl ⟨o :: pre, x, post, by rw [e]; rfl, h1, h2⟩
          · exact .inr ⟨by simpa [ho] using h1, h2⟩
        · rintro (⟨pre, x, post, e, h1, h2⟩ | ⟨h1, h2⟩)
          · cases pre with
            | nil => injection e with e1 e2; subst e1; rw [ho] at h1; cases h1
            | cons p ps => injection e with e1 e2; exact .inl ⟨ps, x, post, e2, h1, h2⟩
          · exact .inr ⟨fun x hx => h1 x (List.mem_cons_of_mem _ hx), h2⟩
      | some y =>
        have hd : (y :: os.filterMap DownOpt.cmd).getLast?.getD d = (os.filterMap DownOpt.cmd).getLast?.getD y := by
          cases os.filterMap DownOpt.cmd with
          | nil => rfl
          | cons z zs => simp [List.getLast?_cons]
        rw [List.filterMap_cons_some ho, hd, ih y]
        constructor
        · rintro (⟨pre, x, post, e, h1, h2⟩ | ⟨h1, h2⟩)
          · exact .inl ⟨o :: pre, x, post, by rw [e]; rfl, h1, h2⟩
          · subst h2; exact .inl ⟨[], o, os, rfl, ho, h1⟩
        · rintro (⟨pre, x, post, e, h1, h2⟩ | ⟨h1, h2⟩)
          · cases pre with
            | nil =>
              injection e with e1 e2; subst e1 e2
              rw [ho] at h1; injection h1 with h1
              exact .inr ⟨h2, h1⟩
            | cons p ps => injection e with e1 e2; exact .inl ⟨ps, x, post, e2, h1, h2⟩
          · have := h1 o List.mem_cons_self
            rw [ho] at this; cases this
  rw [← hlast]
  unfold rebootMain
  rw [downOpts_eq su opts _ _ _ h]
  split <;> simp

/-- What the names of the links to the program mean, src/Makefile.am:103 -/
def downNames : List (CStr × DownCmd) :=
  [("reboot".toList, .reboot), ("shutdown".toList, .poweroff), ("halt".toList, .halt), ("poweroff".toList, .poweroff),
   ("suspend".toList, .suspend)]

/-- Without options that say how, the name does. -/
theorem C69_names {su : Bool} {name : CStr} {c : DownCmd} (hn : (name, c) ∈ downNames) {opts : List DownOpt} (h : SaneOpts opts)
    (ho : ∀ o ∈ opts, o.cmd = none) : (∃ t, rebootMain su name opts = .ask c t) ∨ rebootMain su name opts = .force c := by
  refine (C69_options h c).mpr (.inr ⟨ho, ?_⟩)
  have : ∀ x ∈ downNames, downByName x.1 = x.2 := by decide
  exact this _ hn

example : (∃ t, rebootMain false "shutdown".toList [.timeout "60".toList] = .ask .poweroff t) ∨
    rebootMain false "shutdown".toList [.timeout "60".toList] = .force .poweroff :=
  C69_names (by decide) (by unfold SaneOpts; simp; decide) (by decide)

/-- The kernel is told at once with `-f` or in the shell of sulogin(8) only. -/
theorem C69_force {su : Bool} {name : CStr} {opts : List DownOpt} (h : SaneOpts opts) :
    (∃ c, rebootMain su name opts = .force c) ↔ su = true ∨ DownOpt.force ∈ opts := by
  unfold rebootMain
  rw [downOpts_eq su opts _ _ _ h]
  split
  · rename_i hx
    simp only [Bool.false_eq_true, false_or] at hx
    simp [hx]
  · rename_i hx
    simp only [Bool.false_eq_true, false_or] at hx
    simp [hx]

/-! ### Where the claim fails -/

/-- `halt` called while a reload waits for services to stop: the system powers off. -/
theorem C69_halt_powers_off : let evs : List DownEv := [.booted true, .reload false, .command .halt 0 false [] false, .step true]
    lastWant (downBoot 2 0) evs = some (.down .halt) ∧ (evs.foldl downEv (downBoot 2 0)).told = some .off := by
  decide +kernel

/-- `suspend -t 60`: the system halts after a minute, though nobody asked for that. -/
theorem C69_suspend_halts : let evs : List DownEv := [.booted true, .command .suspend 60 true [] true, .tick]
    lastWant (downBoot 2 0) evs = none ∧ (evs.foldl downEv (downBoot 2 0)).told = some .halt := by
  decide +kernel

/-- `reboot -t 60` waits for a reload to end, and is taken back by asking for runlevel 3: the system is rebooted after a
    minute nevertheless. -/
theorem C69_taken_back : let evs : List DownEv := [.booted true, .reload false, .command .reboot 60 false [] false, .level '3' false, .step true, .tick]
    lastWant (downBoot 2 0) evs = some (.level 3) ∧ (evs.foldl downEv (downBoot 2 0)).level = 3 ∧
      (evs.foldl downEv (downBoot 2 0)).told = some .reboot := by
  decide +kernel

/-- Any timeout of more than 2147483 seconds overflows an int. -/
theorem C69_overflow {s : DownState} (hl : reservedLevel s.level = false) {t : Int} (ht : 2147483 < t) (r : Bool) :
    (downApi r .suspend t s).overflow = true := by
  unfold downApi
  rw [hl, if_neg (by decide)]
  dsimp only
  rw [if_pos (by omega)]
  simp [ht]

/-- Asking for power off while the system comes up is in vain if the kernel command line has a runlevel. -/
theorem C69_ignored : let evs : List DownEv := [.level '0' true, .booted true, .step true]
    lastWant (downBoot 2 3) evs = some (.level 0) ∧ (evs.foldl downEv (downBoot 2 3)).level = 3 ∧
      (evs.foldl downEv (downBoot 2 3)).told = none := by
  decide +kernel

theorem C69_full_false : ¬ C69_full := fun h => by
  have h1 : UserLevel 2 := ⟨by decide, by decide, by decide⟩
  obtain ⟨-, hw⟩ := h 2 0 h1 (.inl rfl) [.booted true, .command .suspend 60 true [] true, .tick] .halt
  obtain ⟨w, e, -⟩ := hw C69_suspend_halts.2
  rw [C69_suspend_halts.1] at e
  cases e

/-! ### Examples -/

example : Calm (downBoot 2 3) [.booted true, .reload false, .command .reboot 0 false [false] false, .level '4' false, .step true,
    .command .halt 0 false [false, false] false, .step true] := by
  refine ⟨nofun, nofun, ?_, nofun, nofun, ?_, nofun, trivial⟩
  · intro c t r st r' e; cases e; exact ⟨by decide, nofun⟩
  · intro c t r st r' e; cases e; exact ⟨by decide, fun _ => .inl (by decide +kernel)⟩

example : ([.booted true, .reload false, .command .reboot 0 false [false] false, .level '4' false, .step true,
    .command .halt 0 false [false, false] false, .step true].foldl downEv (downBoot 2 3)).told = some .halt := by decide +kernel

example : SaneOpts [.h, .timeout "10".toList, .reboot] := by
  intro o ho
  simp only [List.mem_cons, List.not_mem_nil, or_false] at ho
  rcases ho with h | h | h <;> subst h
  · exact ⟨nofun, nofun⟩
  · exact ⟨nofun, fun a e => by cases e; decide +kernel⟩
  · exact ⟨nofun, nofun⟩

example : rebootMain false "halt".toList [.h, .timeout "10".toList, .reboot] = .ask .reboot 10 := by decide +kernel

end Verif
