import Verif.Netlevel
import Verif.Props.Down

/-!
# C106: the network is up in the runlevels that have it
-/

namespace Verif

/-! ## Specification -/

/-- The network is up: it was last brought up. -/
def rnUp (calls : List (Bool × Nat)) : Bool :=
  match calls.getLast? with
  | some x => x.1
  | none => false

/-- Runlevels without a network: S, 1, 6 and 0 -/
def RnWithout (l : Nat) : Prop := l = 10 ∨ l = 1 ∨ l = 6 ∨ l = 0

/-- The claim: whenever init waits for what comes next, the network is up in all runlevels but S, 1, 6 and 0. -/
def C106_full : Prop := ∀ cfg cmd acts, UserLevel cfg → (cmd = 0 ∨ UserLevel cmd) →
  (rnRun false cfg cmd acts).down.phase ≠ .off →
  (rnUp (rnRun false cfg cmd acts).calls = true ↔ ¬ RnWithout (rnRun false cfg cmd acts).down.level)

/-! ## Turns of the state machine -/

/-- What holds in between, beginning with the runlevel `a`, and `b` being asked for -/
structure RnTurn (a : Nat) (b : Option Nat) (s : DownState) : Prop where
  way : s.phase ≠ .off → (s.level = a ∧ s.newlevel = b) ∨ (s.level = a ∧ s.newlevel = none ∧ b = some a) ∨
    (s.newlevel = none ∧ b = some s.level)
  change : s.phase = .change → s.newlevel ≠ none
  boot : s.phase = .boot → s.level = 10
  going : s.level = 0 ∨ s.level = 6 → s.phase = .changeWait ∨ s.phase = .off
  up : s.level = 10 → s.phase = .boot ∨ s.phase = .off ∨ ((s.phase = .run ∨ s.phase = .change) ∧ s.newlevel ≠ none)
  digit : ∀ n, s.newlevel = some n → n ≤ 9
  gone : s.phase = .off → s.level ≠ 10

theorem RnTurn.turn {a : Nat} {b : Option Nat} {s : DownState} (h : RnTurn a b s) (ready : Bool) :
    RnTurn a b (downTurn ready s).1 := by
  obtain ⟨ph, lv, cf, cm, nl, rl, ha, ti, ov, to⟩ := s
  obtain ⟨h1, h2, h3, h4, h5, h6, h7⟩ := h
  dsimp only at h1 h2 h3 h4 h5 h6 h7
  unfold downTurn
  cases ph with
  | boot =>
    have h3' := h3 rfl
    dsimp only
    split
    · exact ⟨h1, h2, h3, h4, h5, h6, h7⟩
    · rename_i hn
      refine ⟨fun _ => h1 nofun, nofun, nofun, fun h => ?_, fun _ => .inr (.inr ⟨.inl rfl, hn⟩), h6, nofun⟩
      dsimp only at h
      omega
  | run =>
    have h4' : ¬ (lv = 0 ∨ lv = 6) := fun h => by rcases h4 h with h | h <;> cases h
    dsimp only
    split
    · rename_i n
      split
      · rename_i hl
        have hl' : lv = n := hl
        subst hl'
        refine ⟨fun _ => ?_, nofun, nofun, fun h => absurd h h4', fun h => ?_, nofun, nofun⟩
        · rcases h1 nofun with ⟨e, e'⟩ | ⟨e, e', e''⟩ | ⟨e, e'⟩
          · exact .inr (.inl ⟨e, rfl, by rw [← e', e]⟩)
          · cases e'
          · cases e
        · have := h6 lv rfl
          have h' : lv = 10 := h
          omega
      · exact ⟨fun _ => h1 nofun, fun _ => nofun, nofun, fun h => absurd h h4', fun _ => .inr (.inr ⟨.inr rfl, nofun⟩), h6, nofun⟩
    · have h5' : lv ≠ 10 := fun h => by
        rcases h5 h with h | h | h
        · cases h
        · cases h
        · exact h.2 rfl
      split
      · exact ⟨fun _ => h1 nofun, nofun, nofun, fun h => absurd h h4', fun h => absurd h h5', nofun, nofun⟩
      · exact ⟨h1, h2, h3, h4, h5, h6, h7⟩
  | change =>
    dsimp only
    cases nl with
    | none => exact absurd rfl (h2 rfl)
    | some n =>
      refine ⟨fun _ => ?_, nofun, nofun, fun _ => .inl rfl, fun h => ?_, nofun, nofun⟩
      · rcases h1 nofun with ⟨e, e'⟩ | ⟨e, e', e''⟩ | ⟨e, e'⟩
        · exact .inr (.inr ⟨rfl, e'.symm⟩)
        · cases e'
        · cases e
      · have := h6 n rfl
        have h' : n = 10 := h
        omega
  | changeWait =>
    have h5' : lv ≠ 10 := fun h => by
      rcases h5 h with h | h | h
      · cases h
      · cases h
      · rcases h.1 with h | h <;> cases h
    dsimp only
    split
    · split
      · exact ⟨fun h => absurd rfl h, nofun, nofun, fun _ => .inr rfl, fun h => absurd h h5', h6, fun _ => h5'⟩
      · rename_i hl
        exact ⟨fun _ => h1 nofun, nofun, nofun, fun h => absurd h hl, fun h => absurd h h5', h6, nofun⟩
    · exact ⟨h1, h2, h3, h4, h5, h6, h7⟩
  | reloadWait =>
    have h5' : lv ≠ 10 := fun h => by
      rcases h5 h with h | h | h
      · cases h
      · cases h
      · rcases h.1 with h | h <;> cases h
    have h4' : ¬ (lv = 0 ∨ lv = 6) := fun h => by rcases h4 h with h | h <;> cases h
    dsimp only
    split
    · exact ⟨fun _ => h1 nofun, nofun, nofun, fun h => absurd h h4', fun h => absurd h h5', h6, nofun⟩
    · exact ⟨h1, h2, h3, h4, h5, h6, h7⟩
  | off => exact ⟨h1, h2, h3, h4, h5, h6, h7⟩

theorem RnTurn.loop {a : Nat} {b : Option Nat} : ∀ (n : Nat) {ready : List Bool} {s : DownState}, RnTurn a b s →
    RnTurn a b (rnLoop n ready s) ∧ (downRank s < n → Resting (rnLoop n ready s)) := by
  intro n
  induction n with
  | zero => intro ready s h; exact ⟨h, fun h => nomatch h⟩
  | succ n ih =>
    intro ready s h
    unfold rnLoop
    split
    · rename_i ht
      have := ih (ready := ready.tail) (h.turn (ready.headD false))
      refine ⟨this.1, fun hr => this.2 ?_⟩
      have := downTurn_rank ht h.change
      omega
    · rename_i ht
      exact ⟨h.turn _, fun _ => downTurn_rest (Bool.eq_false_iff.mpr ht)⟩

theorem RnTurn.step {a : Nat} {b : Option Nat} {s : DownState} (h : RnTurn a b s) (ready : List Bool) :
    RnTurn a b (rnSm ready s) ∧ Resting (rnSm ready s) :=
  ⟨(h.loop 12).1, (h.loop 12).2 (downRank_le s)⟩

/-- More turns would change nothing. -/
theorem rnLoop_enough {a : Nat} {b : Option Nat} {s : DownState} (h : RnTurn a b s) (ready : List Bool) (n : Nat) :
    rnLoop (12 + n) ready s = rnSm ready s := by
  have key : ∀ (k : Nat) {s : DownState} {ready : List Bool}, RnTurn a b s → downRank s < k →
      ∀ n, rnLoop (k + n) ready s = rnLoop k ready s := by
    intro k
    induction k with
    | zero => intro s _ _ h; cases h
    | succ k ih =>
      intro s ready h hr n
      rw [Nat.succ_add]
      unfold rnLoop
      split
      · rename_i ht
        have := downTurn_rank ht h.change
        exact ih (h.turn _) (by omega) n
      · rfl
  exact key 12 h (downRank_le s) n

theorem rnLoop_levels : ∀ (n : Nat) (ready : List Bool) (s : DownState),
    (rnLoop n ready s).cfglevel = s.cfglevel ∧ (rnLoop n ready s).cmdlevel = s.cmdlevel := by
  have turn : ∀ (ready : Bool) (s : DownState), (downTurn ready s).1.cfglevel = s.cfglevel ∧ (downTurn ready s).1.cmdlevel = s.cmdlevel := by
    intro ready s
    obtain ⟨ph, lv, cf, cm, nl, rl, ha, ti, ov, to⟩ := s
    unfold downTurn tellKernel
    cases ph <;> dsimp only <;> (try exact ⟨rfl, rfl⟩)
    · split <;> exact ⟨rfl, rfl⟩
    · split <;> split <;> exact ⟨rfl, rfl⟩
    · split
      · split <;> exact ⟨rfl, rfl⟩
      · exact ⟨rfl, rfl⟩
    · split <;> exact ⟨rfl, rfl⟩
  intro n
  induction n with
  | zero => intro ready s; exact ⟨rfl, rfl⟩
  | succ n ih =>
    intro ready s
    unfold rnLoop
    split
    · rw [(ih _ _).1, (ih _ _).2]; exact turn _ s
    · exact turn _ s

/-! ## What always holds -/

/-- What holds of the calls between two acts -/
structure RnInv (s : RnState) : Prop where
  base : s.down.phase ≠ .off → RnTurn s.down.level s.down.newlevel s.down ∧ Resting s.down
  early : s.down.level = 10 → s.calls = []
  up : s.down.phase ≠ .off → reservedLevel s.down.level = false → s.rescue = false → rnUp s.calls = true
  resc : s.rescue = true → s.calls = []
  cfg : s.down.cfglevel ≤ 9
  cmd : s.down.cmdlevel ≤ 9
  old : ∀ l, (true, l) ∈ s.calls → l = 1 ∨ l = 10
  low : ∀ l, (false, l) ∈ s.calls → l = 0 ∨ l = 6

theorem rnUp_append (c : List (Bool × Nat)) (b : Bool) (l : Nat) : rnUp (c ++ [(b, l)]) = b := by
  simp [rnUp]

theorem reserved_iff (l : Nat) : reservedLevel l = true ↔ l = 0 ∨ l = 6 ∨ l = 10 := by
  unfold reservedLevel; exact decide_eq_true_iff

theorem RnInv.level {s : RnState} (h : RnInv s) (hp : s.down.phase ≠ .off) (hl : ¬ (s.down.level = 0 ∨ s.down.level = 6))
    {l : Nat} (h9 : l ≤ 9) (r : List Bool) : RnInv (rnRunlevel r l s) := by
  obtain ⟨hb, hrest⟩ := h.base hp
  have t0 : RnTurn s.down.level (some l) (rnWant l s.down) := by
    refine ⟨fun _ => .inl ⟨rfl, rfl⟩, fun _ => nofun, hb.boot, fun h => absurd h hl, fun h => ?_, fun n e => ?_, fun h => absurd h hp⟩
    · rcases hb.up h with h | h | h
      · exact .inl h
      · exact .inr (.inl h)
      · exact .inr (.inr ⟨h.1, nofun⟩)
    · cases e; exact h9
  obtain ⟨t, hr⟩ := t0.step r
  have hlv := rnLoop_levels 12 r (rnWant l s.down)
  unfold rnRunlevel
  extract_lets up calls d
  have ed : d = rnSm r (rnWant l s.down) := rfl
  rw [← ed] at t hr
  have hcf : d.cfglevel ≤ 9 := by
    have : d.cfglevel = s.down.cfglevel := hlv.1
    rw [this]; exact h.cfg
  have hcm : d.cmdlevel ≤ 9 := by
    have : d.cmdlevel = s.down.cmdlevel := hlv.2
    rw [this]; exact h.cmd
  have h10 : d.level ≠ 10 := by
    intro e
    by_cases ho : d.phase = .off
    · exact t.gone ho e
    · rcases t.up e with e' | e' | e'
      · have hn := hr.2.2 e'
        rcases t.way ho with w | w | w
        · rw [hn] at w; cases w.2
        · have := Option.some.inj w.2.2; omega
        · have := Option.some.inj w.2; omega
      · exact ho e'
      · rcases e'.1 with q | q
        · exact e'.2 (hr.2.1 q)
        · exact hr.1 q
  have hbase : d.phase ≠ .off → RnTurn d.level d.newlevel d ∧ Resting d := fun _ =>
    ⟨⟨fun _ => .inl ⟨rfl, rfl⟩, t.change, t.boot, t.going, t.up, t.digit, t.gone⟩, hr⟩
  have hold : ∀ x, (true, x) ∈ calls → x = 1 ∨ x = 10 := by
    intro x hx
    by_cases hu : up = true
    · have e : calls = s.calls ++ [(true, s.down.level)] := if_pos hu
      rw [e, List.mem_append] at hx
      rcases hx with hx | hx
      · exact h.old x hx
      · have : x = s.down.level := by simpa using hx
        rw [this]
        have hu' : (!s.rescue && decide (s.down.level = 1 ∨ s.down.level = 10) && !reservedLevel l) = true := hu
        simp only [Bool.and_eq_true, decide_eq_true_eq] at hu'
        exact hu'.1.2
    · have e : calls = s.calls := if_neg hu
      rw [e] at hx; exact h.old x hx
  have hlow : ∀ x, (false, x) ∈ calls → x = 0 ∨ x = 6 := by
    intro x hx
    by_cases hu : up = true
    · have e : calls = s.calls ++ [(true, s.down.level)] := if_pos hu
      rw [e, List.mem_append] at hx
      rcases hx with hx | hx
      · exact h.low x hx
      · have := List.mem_singleton.mp hx
        cases this
    · have e : calls = s.calls := if_neg hu
      rw [e] at hx; exact h.low x hx
  have hresc : s.rescue = true → calls = [] := by
    intro e
    have hu : ¬ up = true := by
      intro hu
      have hu' : (!s.rescue && decide (s.down.level = 1 ∨ s.down.level = 10) && !reservedLevel l) = true := hu
      rw [e] at hu'; simp at hu'
    have e' : calls = s.calls := if_neg hu
    rw [e']; exact h.resc e
  split
  · rename_i ho
    exact ⟨fun h => absurd ho h, fun e => absurd e h10, fun h => absurd ho h, hresc, hcf, hcm, hold, hlow⟩
  · rename_i ho
    split
    · rename_i hd
      simp only [Bool.and_eq_true, Bool.not_eq_true'] at hd
      refine ⟨hbase, fun e => absurd e h10, fun _ e => ?_, fun e => ?_, hcf, hcm, fun x hx => ?_, fun x hx => ?_⟩
      · dsimp only at e; rw [hd.2] at e; cases e
      · dsimp only at e; rw [hd.1] at e; cases e
      · rcases List.mem_append.mp hx with hx | hx
        · exact hold x hx
        · cases List.mem_singleton.mp hx
      · rcases List.mem_append.mp hx with hx | hx
        · exact hlow x hx
        · have : x = d.level := by simpa using hx
          rw [this]
          have := (reserved_iff d.level).mp hd.2
          omega
    · rename_i hd
      refine ⟨hbase, fun e => absurd e h10, fun _ e er => ?_, hresc, hcf, hcm, hold, hlow⟩
      dsimp only at e er ⊢
      by_cases hu : up = true
      · have e' : calls = s.calls ++ [(true, s.down.level)] := if_pos hu
        rw [e', rnUp_append]
      · have e' : calls = s.calls := if_neg hu
        rw [e']
        have hu' : ¬ (!s.rescue && decide (s.down.level = 1 ∨ s.down.level = 10) && !reservedLevel l) = true := hu
        by_cases h10' : s.down.level = 10
        · exfalso
          have hl' : reservedLevel l = true := by
            cases hq : reservedLevel l with
            | true => rfl
            | false => exact absurd (by rw [er, hq, h10']; rfl) hu'
          rcases t.way ho with w | w | w
          · exact h10 (w.1.trans h10')
          · exact h10 (w.1.trans h10')
          · have := Option.some.inj w.2
            rw [← this, hl'] at e
            cases e
        · refine h.up hp ?_ er
          cases hq : reservedLevel s.down.level with
          | false => rfl
          | true =>
            have := (reserved_iff _).mp hq
            omega

theorem RnInv.stepped {s : RnState} (h : RnInv s) (hp : s.down.phase ≠ .off) {d0 : DownState}
    (hd : d0 = s.down ∨ reservedLevel s.down.level = false ∧ d0 = { s.down with reload := true }) (r : List Bool) :
    RnInv { s with down := rnSm r d0 } := by
  obtain ⟨hb, hrest⟩ := h.base hp
  have f : d0.phase = s.down.phase ∧ d0.level = s.down.level ∧ d0.newlevel = s.down.newlevel ∧
      d0.cfglevel = s.down.cfglevel ∧ d0.cmdlevel = s.down.cmdlevel := by
    rcases hd with rfl | ⟨-, rfl⟩ <;> exact ⟨rfl, rfl, rfl, rfl, rfl⟩
  obtain ⟨f1, f2, f3, f4, f5⟩ := f
  have t0 : RnTurn s.down.level s.down.newlevel d0 := by
    refine ⟨fun _ => .inl ⟨f2, f3⟩, ?_, ?_, ?_, ?_, ?_, ?_⟩
    · rw [f1, f3]; exact hb.change
    · rw [f1, f2]; exact hb.boot
    · rw [f1, f2]; exact hb.going
    · rw [f1, f2, f3]; exact hb.up
    · rw [f3]; exact hb.digit
    · rw [f1, f2]; exact hb.gone
  obtain ⟨t, hr⟩ := t0.step r
  have hlv := rnLoop_levels 12 r d0
  have hcf : (rnSm r d0).cfglevel ≤ 9 := by
    have : (rnSm r d0).cfglevel = d0.cfglevel := hlv.1
    rw [this, f4]; exact h.cfg
  have hcm : (rnSm r d0).cmdlevel ≤ 9 := by
    have : (rnSm r d0).cmdlevel = d0.cmdlevel := hlv.2
    rw [this, f5]; exact h.cmd
  have same : (rnSm r d0).phase ≠ .off → (rnSm r d0).level = 10 → s.down.level = 10 := by
    intro ho e
    rcases t.way ho with w | w | w
    · exact w.1.symm.trans e
    · exact w.1.symm.trans e
    · have := hb.digit (rnSm r d0).level w.2
      omega
  refine ⟨fun _ => ⟨⟨fun _ => .inl ⟨rfl, rfl⟩, t.change, t.boot, t.going, t.up, t.digit, t.gone⟩, hr⟩, fun e => ?_,
    fun ho e er => ?_, h.resc, hcf, hcm, h.old, h.low⟩
  · dsimp only at e ⊢
    by_cases ho : (rnSm r d0).phase = .off
    · exact absurd e (t.gone ho)
    · exact h.early (same ho e)
  · dsimp only at ho e er ⊢
    refine h.up hp ?_ er
    cases hq : reservedLevel s.down.level with
    | false => rfl
    | true =>
      exfalso
      have hd0 : d0 = s.down := hd.resolve_right (fun c => by rw [hq] at c; cases c.1)
      have hl := (reserved_iff _).mp hq
      have hsame : (rnSm r s.down).level = s.down.level := by
        by_cases h10 : s.down.level = 10
        · have hb' : s.down.phase = .boot := by
            rcases hb.up h10 with q | q | ⟨q | q, hn⟩
            · exact q
            · exact absurd q hp
            · exact absurd (hrest.2.1 q) hn
            · exact absurd q hrest.1
          have hn := hrest.2.2 hb'
          unfold rnSm rnLoop downTurn
          rw [hb', hn]; rfl
        · have hl2 : s.down.level = 0 ∨ s.down.level = 6 := by omega
          have hp' := (hb.going hl2).resolve_right hp
          unfold rnSm rnLoop downTurn
          rw [hp']
          cases r.headD false with
          | false => rfl
          | true => dsimp only; rw [if_pos rfl, if_pos hl2]; rfl
      rw [hd0, hsame, hq] at e
      cases e

theorem RnInv.act {s : RnState} (h : RnInv s) (a : RnAct) : RnInv (rnStep s a) := by
  unfold rnStep
  split
  · exact h
  · rename_i hp
    cases a with
    | ask l r =>
      dsimp only
      split
      · exact h
      · rename_i hl
        split
        · rename_i h10
          refine ⟨fun _ => ?_, h.early, h.up, h.resc, by dsimp only; omega, h.cmd, h.old, h.low⟩
          obtain ⟨b, q⟩ := h.base hp
          exact ⟨⟨b.way, b.change, b.boot, b.going, b.up, b.digit, b.gone⟩, q⟩
        · exact h.level hp hl (by omega) r
    | halt r =>
      dsimp only
      split
      · exact h
      · rename_i hl
        refine h.level hp (fun c => hl ((reserved_iff _).mpr (by omega))) (by decide) r
    | reboot r =>
      dsimp only
      split
      · exact h
      · rename_i hl
        refine h.level hp (fun c => hl ((reserved_iff _).mpr (by omega))) (by decide) r
    | reload r =>
      dsimp only
      split
      · exact h
      · rename_i hl
        exact h.stepped hp (.inr ⟨Bool.eq_false_iff.mpr hl, rfl⟩) r
    | step r => exact h.stepped hp (.inl rfl) r
    | booted r =>
      dsimp only
      split
      · rename_i hb
        have h10 := (h.base hp).1.boot hb
        refine h.level hp (by omega) ?_ r
        split
        · exact h.cmd
        · exact h.cfg
      · exact h
    | expire =>
      exact ⟨fun c => absurd rfl c, h.early, fun c => absurd rfl c, h.resc, h.cfg, h.cmd, h.old, h.low⟩

theorem RnInv.acts : ∀ (acts : List RnAct) {s : RnState}, RnInv s → RnInv (acts.foldl rnStep s) := by
  intro acts
  induction acts with
  | nil => intro s h; exact h
  | cons a acts ih => intro s h; exact ih (h.act a)

theorem userLevel_le {l : Nat} (h : UserLevel l) : l ≤ 9 := h.2.1

theorem rnRun_inv (rescue : Bool) {cfg cmd : Nat} (hc : cfg ≤ 9) (hm : cmd ≤ 9) (acts : List RnAct) :
    RnInv (rnRun rescue cfg cmd acts) := by
  refine RnInv.acts acts ⟨fun _ => ⟨⟨fun _ => .inl ⟨rfl, rfl⟩, nofun, fun _ => rfl, fun h => ?_, fun _ => .inl rfl, nofun, nofun⟩,
    nofun, fun _ => rfl, fun _ => rfl⟩, fun _ => rfl, nofun, fun _ => rfl, hc, hm, nofun, nofun⟩
  rcases h with h | h <;> cases h

theorem rnRun_rescue : ∀ (acts : List RnAct) (s : RnState), (acts.foldl rnStep s).rescue = s.rescue := by
  intro acts
  induction acts with
  | nil => intro s; rfl
  | cons a acts ih =>
    intro s
    rw [List.foldl_cons, ih]
    unfold rnStep rnRunlevel
    cases a <;> dsimp only <;> repeat' split <;> try rfl
    all_goals repeat' split <;> rfl

theorem rnRun_append (rescue : Bool) (cfg cmd : Nat) (acts more : List RnAct) :
    rnRun rescue cfg cmd (acts ++ more) = more.foldl rnStep (rnRun rescue cfg cmd acts) := by
  unfold rnRun; rw [List.foldl_append]

/-- What asks for the system to go down, and the runlevel for it -/
def RnAct.low : RnAct → Option Nat
  | .ask l _ => if l.val = 0 then some 0 else if l.val = 6 then some 6 else none
  | .halt _ => some 0
  | .reboot _ => some 6
  | _ => none

/-- Nobody asks for a runlevel, or for the system to go down. -/
def RnAct.quiet : RnAct → Prop
  | .step _ => True
  | .reload _ => True
  | .expire => True
  | _ => False

theorem rnStep_low {s : RnState} {a : RnAct} {l : Nat} (ha : a.low = some l) (hp : s.down.phase ≠ .off)
    (hl : reservedLevel s.down.level = false) : ∃ r, rnStep s a = rnRunlevel r l s ∧ (l = 0 ∨ l = 6) := by
  have hn : ¬ (s.down.level = 0 ∨ s.down.level = 6 ∨ s.down.level = 10) := fun c => by
    rw [(reserved_iff _).mpr c] at hl; cases hl
  unfold rnStep
  rw [if_neg hp]
  cases a with
  | ask k r =>
    dsimp only
    rw [if_neg (by omega), if_neg (by omega)]
    simp only [RnAct.low] at ha
    refine ⟨r, ?_⟩
    split at ha
    · rename_i e
      cases ha; rw [e]; exact ⟨rfl, .inl rfl⟩
    · split at ha
      · rename_i e
        cases ha; rw [e]; exact ⟨rfl, .inr rfl⟩
      · cases ha
  | halt r =>
    dsimp only
    cases ha
    rw [hl, if_neg (by decide)]
    exact ⟨r, rfl, .inl rfl⟩
  | reboot r =>
    dsimp only
    cases ha
    rw [hl, if_neg (by decide)]
    exact ⟨r, rfl, .inr rfl⟩
  | reload r => cases ha
  | step r => cases ha
  | booted r => cases ha
  | expire => cases ha

/-- From where nothing is under way the runlevel is changed at once. -/
theorem rnSm_run {d : DownState} (hp : d.phase = .run) {l : Nat} (hl : d.level ≠ l) (r : List Bool) (h0 : l = 0 ∨ l = 6) :
    (rnSm r (rnWant l d)).level = l ∧ (rnSm r (rnWant l d)).phase = if r[2]?.getD false then .off else .changeWait := by
  obtain ⟨ph, lv, cf, cm, nl, rl, ha, ti, ov, to⟩ := d
  dsimp only at hp hl
  subst hp
  cases hr : r[2]?.getD false <;> simp [rnSm, rnLoop, rnWant, downTurn, hl, tellKernel, hr, h0]

theorem rnLoop_run (n : Nat) {d : DownState} (hp : d.phase = .run) {l : Nat} (hn : d.newlevel = some l) (hl : d.level ≠ l)
    (r : List Bool) (h0 : l = 0 ∨ l = 6) : (rnLoop (n + 3) r d).level = l := by
  obtain ⟨ph, lv, cf, cm, nl, rl, ha, ti, ov, to⟩ := d
  dsimp only at hp hl hn
  subst hp hn
  cases hr : r[2]?.getD false <;> simp [rnLoop, downTurn, hl, tellKernel, hr, h0]

/-- Once the runlevel is 0 or 6 nothing more is done about the network. -/
theorem rnStep_stays {s : RnState} (h : RnInv s) (hl : s.down.level = 0 ∨ s.down.level = 6) (a : RnAct) :
    (rnStep s a).calls = s.calls ∧ (rnStep s a).down.level = s.down.level := by
  have hres : reservedLevel s.down.level = true := (reserved_iff _).mpr (by omega)
  unfold rnStep
  split
  · exact ⟨rfl, rfl⟩
  · rename_i hp
    obtain ⟨hb, -⟩ := h.base hp
    have hw := (hb.going hl).resolve_right hp
    cases a with
    | ask l r => dsimp only; first | exact ⟨rfl, rfl⟩ | (rw [if_pos hl]; exact ⟨rfl, rfl⟩)
    | halt r => dsimp only; first | exact ⟨rfl, rfl⟩ | (rw [if_pos hres]; exact ⟨rfl, rfl⟩)
    | reboot r => dsimp only; first | exact ⟨rfl, rfl⟩ | (rw [if_pos hres]; exact ⟨rfl, rfl⟩)
    | reload r => dsimp only; first | exact ⟨rfl, rfl⟩ | (rw [if_pos hres]; exact ⟨rfl, rfl⟩)
    | step r =>
      refine ⟨rfl, ?_⟩
      dsimp only
      unfold rnSm rnLoop downTurn
      rw [hw]
      cases r.headD false with
      | false => rfl
      | true => dsimp only; rw [if_pos rfl, if_pos hl]; rfl
    | booted r => dsimp only; first | exact ⟨rfl, rfl⟩ | (rw [if_neg (by rw [hw]; decide)]; exact ⟨rfl, rfl⟩)
    | expire => exact ⟨rfl, rfl⟩

theorem rnStays {s : RnState} (h : RnInv s) (hl : s.down.level = 0 ∨ s.down.level = 6) (acts : List RnAct) :
    (acts.foldl rnStep s).calls = s.calls ∧ (acts.foldl rnStep s).down.level = s.down.level := by
  induction acts generalizing s with
  | nil => exact ⟨rfl, rfl⟩
  | cons a acts ih =>
    obtain ⟨e1, e2⟩ := rnStep_stays h hl a
    obtain ⟨f1, f2⟩ := ih (h.act a) (by rw [e2]; exact hl)
    exact ⟨f1.trans e1, f2.trans e2⟩

theorem rnQuiet {s : RnState} (acts : List RnAct) (hq : ∀ a ∈ acts, a.quiet) : (acts.foldl rnStep s).calls = s.calls := by
  induction acts generalizing s with
  | nil => rfl
  | cons a acts ih =>
    rw [List.foldl_cons, ih (fun x hx => hq x (List.mem_cons_of_mem _ hx))]
    have := hq a (List.mem_cons_self ..)
    unfold rnStep
    split
    · rfl
    · cases a with
      | step r => rfl
      | reload r => dsimp only; split <;> rfl
      | expire => rfl
      | ask l r => exact absurd this id
      | halt r => exact absurd this id
      | reboot r => exact absurd this id
      | booted r => exact absurd this id

/-! ## The theorems -/

/-- In all runlevels but S, 1, 6 and 0 the network is up, and it is not in runlevel S, whatever was asked for and in
    whatever state services were. -/
theorem C106_partial {cfg cmd : Nat} (hc : UserLevel cfg) (hm : cmd = 0 ∨ UserLevel cmd) (acts : List RnAct)
    (hp : (rnRun false cfg cmd acts).down.phase ≠ .off) :
    (¬ RnWithout (rnRun false cfg cmd acts).down.level → rnUp (rnRun false cfg cmd acts).calls = true) ∧
    ((rnRun false cfg cmd acts).down.level = 10 → rnUp (rnRun false cfg cmd acts).calls = false) := by
  have h := rnRun_inv false (userLevel_le hc) (hm.elim (fun e => by omega) userLevel_le) acts
  refine ⟨fun hw => h.up hp ?_ ?_, fun e => ?_⟩
  · cases hq : reservedLevel (rnRun false cfg cmd acts).down.level with
    | false => rfl
    | true =>
      refine absurd ?_ hw
      have := (reserved_iff _).mp hq
      unfold RnWithout
      omega
  · exact rnRun_rescue acts _
  · rw [h.early e]; rfl

/-- It is a level that has it, and that was reached while services of another had to be waited for -/
example : (rnRun false 2 0 [.booted [], .step [true], .ask 3 [], .reload []]).down.level = 3 ∧
    rnUp (rnRun false 2 0 [.booted [], .step [true], .ask 3 [], .reload []]).calls = true := by decide

/-- In runlevel 1 the network is up, too, always. -/
theorem C106_single {cfg cmd : Nat} (hc : UserLevel cfg) (hm : cmd = 0 ∨ UserLevel cmd) (acts : List RnAct)
    (hp : (rnRun false cfg cmd acts).down.phase ≠ .off) (h1 : (rnRun false cfg cmd acts).down.level = 1) :
    rnUp (rnRun false cfg cmd acts).calls = true :=
  (rnRun_inv false (userLevel_le hc) (hm.elim (fun e => by omega) userLevel_le) acts).up hp (by rw [h1]; rfl)
    (rnRun_rescue acts _)

/-- Bootstrap into runlevel 1, and a change to it -/
example : (rnRun false 2 1 [.booted [true, true, true, true]]).down.level = 1 ∧
    (rnRun false 2 0 [.booted [], .step [true], .ask 1 []]).down.level = 1 := by decide

/-- When the system is told to go down while nothing else is under way, then the network is taken down if services have
    yet to stop, and it stays down; and nothing is done about it if none has. -/
theorem C106_down {cfg cmd : Nat} (hc : UserLevel cfg) (hm : cmd = 0 ∨ UserLevel cmd) (acts : List RnAct)
    (hp : (rnRun false cfg cmd acts).down.phase = .run) {a : RnAct} {l : Nat} (ha : a.low = some l) (more : List RnAct) :
    (rnRun false cfg cmd (acts ++ a :: more)).down.level = l ∧
    (rnUp (rnRun false cfg cmd (acts ++ a :: more)).calls = false ↔
      (rnRun false cfg cmd (acts ++ [a])).down.phase ≠ .off) := by
  have h := rnRun_inv false (userLevel_le hc) (hm.elim (fun e => by omega) userLevel_le) acts
  have hresc : (rnRun false cfg cmd acts).rescue = false := rnRun_rescue acts _
  rw [rnRun_append, rnRun_append, List.foldl_cons, List.foldl_cons, List.foldl_nil]
  generalize rnRun false cfg cmd acts = s at h hp hresc
  have hp' : s.down.phase ≠ .off := by rw [hp]; decide
  obtain ⟨hb, hrest⟩ := h.base hp'
  have hres : reservedLevel s.down.level = false := by
    cases hq : reservedLevel s.down.level with
    | false => rfl
    | true =>
      exfalso
      rcases (reserved_iff _).mp hq with e | e | e
      · rcases hb.going (.inl e) with c | c <;> rw [hp] at c <;> cases c
      · rcases hb.going (.inr e) with c | c <;> rw [hp] at c <;> cases c
      · rcases hb.up e with c | c | c
        · rw [hp] at c; cases c
        · rw [hp] at c; cases c
        · exact c.2 (hrest.2.1 hp)
  have hup := h.up hp' hres hresc
  obtain ⟨r, er, h0⟩ := rnStep_low ha hp' hres
  have hne : s.down.level ≠ l := fun e => by
    have : reservedLevel s.down.level = true := (reserved_iff _).mpr (by omega)
    rw [hres] at this; cases this
  obtain ⟨e1, e2⟩ := rnSm_run hp hne r h0
  have hl : reservedLevel l = true := (reserved_iff _).mpr (by omega)
  have hi := h.act a
  rw [er] at hi ⊢
  have key : (rnRunlevel r l s).down = rnSm r (rnWant l s.down) ∧
      (rnUp (rnRunlevel r l s).calls = false ↔ (rnRunlevel r l s).down.phase ≠ .off) := by
    unfold rnRunlevel
    extract_lets up calls d
    have hu : up = false := by
      show (!s.rescue && decide (s.down.level = 1 ∨ s.down.level = 10) && !reservedLevel l) = false
      rw [hl]; simp
    have ec : calls = s.calls := if_neg (by rw [hu]; decide)
    have el : d.level = l := e1
    split
    · rename_i ho
      refine ⟨rfl, ?_⟩
      dsimp only
      rw [ec, hup]
      exact ⟨nofun, fun c => absurd ho c⟩
    · rename_i ho
      rw [if_pos (by rw [hresc, el, hl]; rfl)]
      refine ⟨rfl, ?_⟩
      dsimp only
      rw [rnUp_append]
      exact ⟨fun _ => ho, fun _ => rfl⟩
  have hlev : (rnRunlevel r l s).down.level = l := by rw [key.1]; exact e1
  obtain ⟨f1, f2⟩ := rnStays hi (by rw [hlev]; exact h0) more
  rw [f1, f2]
  exact ⟨hlev, key.2⟩

/-- One where services are waited for and one where none is left -/
example : (rnRun false 2 0 [.booted [], .step [true]]).down.phase = .run ∧
    rnUp (rnRun false 2 0 [.booted [], .step [true], .reboot [], .step [], .ask 2 []]).calls = false ∧
    rnUp (rnRun false 2 0 [.booted [], .step [true], .reboot [true, true, true]]).calls = true := by decide

/-- When the system is told to go down while a reload or another change of runlevel is waited for, then the network is
    not taken down, ever. -/
theorem C106_pending {cfg cmd : Nat} (hc : UserLevel cfg) (hm : cmd = 0 ∨ UserLevel cmd) (acts : List RnAct)
    (hp : (rnRun false cfg cmd acts).down.phase = .changeWait ∨ (rnRun false cfg cmd acts).down.phase = .reloadWait)
    (hl : ¬ ((rnRun false cfg cmd acts).down.level = 0 ∨ (rnRun false cfg cmd acts).down.level = 6))
    {a : RnAct} {l : Nat} (ha : a = .ask ⟨0, by decide⟩ [] ∧ l = 0 ∨ a = .halt [] ∧ l = 0 ∨ a = .reboot [] ∧ l = 6)
    (more : List RnAct) (hq : ∀ x ∈ more, x.quiet) (r : List Bool) :
    rnUp (rnRun false cfg cmd (acts ++ a :: more)).calls = true ∧
    (rnRun false cfg cmd (acts ++ [a, .step (true :: r)])).down.level = l ∧
    rnUp (rnRun false cfg cmd (acts ++ a :: .step (true :: r) :: more)).calls = true := by
  have h := rnRun_inv false (userLevel_le hc) (hm.elim (fun e => by omega) userLevel_le) acts
  have hresc : (rnRun false cfg cmd acts).rescue = false := rnRun_rescue acts _
  rw [rnRun_append, rnRun_append, rnRun_append]
  show rnUp (more.foldl rnStep (rnStep (rnRun false cfg cmd acts) a)).calls = true ∧
    (rnStep (rnStep (rnRun false cfg cmd acts) a) (.step (true :: r))).down.level = l ∧
    rnUp ((.step (true :: r) :: more).foldl rnStep (rnStep (rnRun false cfg cmd acts) a)).calls = true
  rw [rnQuiet more hq, rnQuiet (.step (true :: r) :: more) (fun x hx => by
      rcases List.mem_cons.mp hx with e | e
      · rw [e]; trivial
      · exact hq x e)]
  generalize rnRun false cfg cmd acts = s at h hp hresc hl
  have hp' : s.down.phase ≠ .off := by rcases hp with e | e <;> rw [e] <;> decide
  obtain ⟨hb, hrest⟩ := h.base hp'
  have h10 : s.down.level ≠ 10 := fun e => by
    rcases hb.up e with c | c | c
    · rcases hp with e | e <;> rw [e] at c <;> cases c
    · exact hp' c
    · rcases c.1 with c | c <;> rcases hp with e | e <;> rw [e] at c <;> cases c
  have hres : reservedLevel s.down.level = false := by
    cases hq : reservedLevel s.down.level with
    | false => rfl
    | true => have := (reserved_iff _).mp hq; omega
  have hup := h.up hp' hres hresc
  have er : rnStep s a = rnRunlevel [] l s ∧ (l = 0 ∨ l = 6) := by
    unfold rnStep
    rw [if_neg hp']
    rcases ha with ⟨rfl, rfl⟩ | ⟨rfl, rfl⟩ | ⟨rfl, rfl⟩
    · dsimp only; rw [if_neg hl, if_neg h10]; exact ⟨rfl, .inl rfl⟩
    · dsimp only; rw [hres, if_neg (by decide)]; exact ⟨rfl, .inl rfl⟩
    · dsimp only; rw [hres, if_neg (by decide)]; exact ⟨rfl, .inr rfl⟩
  obtain ⟨er, h0⟩ := er
  have hlr : reservedLevel l = true := (reserved_iff _).mpr (by omega)
  have es : rnSm [] (rnWant l s.down) = rnWant l s.down := by
    unfold rnSm rnLoop downTurn rnWant
    rcases hp with e | e <;> rw [e] <;> rfl
  have key : rnRunlevel [] l s = { s with down := rnWant l s.down } := by
    unfold rnRunlevel
    rw [es, hlr]
    have e1 : (rnWant l s.down).phase = s.down.phase := rfl
    have e2 : (rnWant l s.down).level = s.down.level := rfl
    dsimp only
    rw [e1, e2, hres, if_neg hp']
    simp
  rw [er, key]
  refine ⟨hup, ?_, hup⟩
  unfold rnStep
  rw [if_neg (show (rnWant l s.down).phase ≠ .off from hp')]
  dsimp only
  have hne : s.down.level ≠ l := by omega
  have hgo : rnSm (true :: r) (rnWant l s.down) = rnLoop (8 + 3) r { rnWant l s.down with phase := .run } := by
    have ht : downTurn true (rnWant l s.down) = ({ rnWant l s.down with phase := .run }, true) := by
      unfold downTurn rnWant
      rcases hp with e | e <;> rw [e] <;> dsimp only <;> rw [if_pos rfl]
      rw [if_neg hl]
    show (if (downTurn true (rnWant l s.down)).2 then rnLoop 11 r (downTurn true (rnWant l s.down)).1
      else (downTurn true (rnWant l s.down)).1) = _
    rw [ht]; rfl
  rw [hgo]
  exact rnLoop_run (d := { rnWant l s.down with phase := .run }) (l := l) 8 rfl rfl hne r h0

/-- A reboot during a reload: the runlevel is 6, services have yet to stop, and the network is up. -/
example : (rnRun false 2 0 [.booted [], .step [true], .reload [], .reboot [], .step [true]]).down.phase = .changeWait ∧
    (rnRun false 2 0 [.booted [], .step [true], .reload [], .reboot [], .step [true]]).down.level = 6 ∧
    rnUp (rnRun false 2 0 [.booted [], .step [true], .reload [], .reboot [], .step [true]]).calls = true := by decide

/-- The network is brought up in the old runlevel, S or 1, before any service is stopped for the new one, and taken down
    in runlevels 0 and 6. -/
theorem C106_before {cfg cmd : Nat} (hc : UserLevel cfg) (hm : cmd = 0 ∨ UserLevel cmd) (rescue : Bool) (acts : List RnAct)
    (up : Bool) (l : Nat) (h : (up, l) ∈ (rnRun rescue cfg cmd acts).calls) :
    if up then l = 1 ∨ l = 10 else l = 0 ∨ l = 6 := by
  have hi := rnRun_inv rescue (userLevel_le hc) (hm.elim (fun e => by omega) userLevel_le) acts
  cases up with
  | true => exact hi.old l h
  | false => exact hi.low l h

/-- From runlevel 1 to 3, and then down -/
example : (rnRun false 1 0 [.booted [], .step [true], .ask 3 [], .step [true], .halt []]).calls =
    [(true, 10), (true, 1), (false, 0)] := by decide

/-- In rescue mode the network is left alone. -/
theorem C106_rescue {cfg cmd : Nat} (hc : UserLevel cfg) (hm : cmd = 0 ∨ UserLevel cmd) (acts : List RnAct) :
    (rnRun true cfg cmd acts).calls = [] :=
  (rnRun_inv true (userLevel_le hc) (hm.elim (fun e => by omega) userLevel_le) acts).resc (rnRun_rescue acts _)

/-- Runlevel 2 in rescue mode -/
example : (rnRun true 2 0 [.booted []]).down.level = 2 := by decide

/-- What bringing up the network means: the script of the configuration if there is one, else `ifup -a` if there are that
    and a file for it, else the loopback interface, which is therefore not brought up by Finit in the other cases; hooks are
    run in any case, last, without waiting for `ifup -a`.  To take it down there is no script; `ifdown` has the option for
    forcing that it knows, depending on `ifquery`. -/
theorem C106_means (y : RnSys) :
    (∀ c, y.script = some c → rnNetworking y true = [.script c, .hooks true]) ∧
    (y.script = none → y.ifup = true → y.interfaces = true → y.forkFails = false →
      rnNetworking y true = [.beside "ifup -a 2>&1".toList, .hooks true]) ∧
    (RnDoes.loopback true ∈ rnNetworking y true ↔ y.script = none ∧ ¬ (y.ifup = true ∧ y.interfaces = true)) ∧
    (∀ up, (rnNetworking y up).getLast? = some (.hooks up)) ∧
    (∀ c, RnDoes.script c ∉ rnNetworking y false) ∧
    (¬ (y.ifup = true ∧ y.interfaces = true) → rnNetworking y false = [.loopback false, .hooks false]) ∧
    (y.ifup = true → y.interfaces = true → y.forkFails = false → rnNetworking y false =
      [.beside (if y.ifquery then "ifdown -a --force 2>&1" else "ifdown -a -f 2>&1").toList, .hooks false]) := by
  obtain ⟨sc, iu, iq, it, ff⟩ := y
  refine ⟨fun c hc => ?_, fun h1 h2 h3 h4 => ?_, ?_, fun up => ?_, fun c => ?_, fun h => ?_, fun h2 h3 h4 => ?_⟩
  · dsimp only at hc; subst hc; rfl
  · dsimp only at h1 h2 h3 h4; subst h1 h2 h3 h4; rfl
  · unfold rnNetworking
    generalize "ifup -a 2>&1".toList = x
    cases sc <;> cases iu <;> cases it <;> cases ff <;> simp
  · unfold rnNetworking
    exact List.getLast?_concat
  · unfold rnNetworking
    generalize "ifdown -a --force 2>&1".toList = x
    generalize "ifdown -a -f 2>&1".toList = y
    cases sc <;> cases iu <;> cases it <;> cases ff <;> simp
  · dsimp only at h
    cases sc <;> cases iu <;> cases it <;> first | rfl | exact absurd ⟨rfl, rfl⟩ h
  · dsimp only at h2 h3 h4; subst h2 h3 h4
    cases sc <;> cases iq <;> rfl

/-- Each of the three -/
example : rnNetworking ⟨some "/etc/net.sh".toList, true, true, true, false⟩ true = [.script "/etc/net.sh".toList, .hooks true] ∧
    rnNetworking ⟨none, true, true, false, false⟩ true = [.loopback true, .hooks true] := by decide +kernel

/-- The claim does not hold: in runlevel 1 the network is up. -/
theorem C106_full_false : ¬ C106_full := by
  intro h
  have := (h 2 0 [.booted [], .step [true], .ask 1 []] ⟨by decide, by decide, by decide⟩ (.inl rfl) (by decide)).mp (by decide)
  exact this (.inr (.inl (by decide)))

end Verif
