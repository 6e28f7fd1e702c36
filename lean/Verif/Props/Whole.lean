import Mathlib.Data.List.Induction
import Verif.Props.Ends
import Verif.Props.Levels
import Verif.Props.Reload
import Verif.Props.Quiet

/-!
# Whole runs

What the theorems about runlevels (C21, C22, C23) and reloads (C24) say for tiered configurations.  In these
theorems nothing is said of a limit on nested calls, of exhausting it, or of re-entrant stepping: all hypotheses are
about the configuration and the events.
-/

namespace Verif.Sup

variable {E : Env}

/-- Spec: from `w`, the sequence of events leads to `v`, with every limit that is large enough. -/
def Yields (E : Env) (evs : List Ev) (w v : World) : Prop :=
  ∃ n, ∀ m, n ≤ m → evs.foldl (fun w ev => handle E m ev w) w = v

theorem Yields.unique {evs : List Ev} {w u v : World} (h : Yields E evs w u) (h' : Yields E evs w v) : u = v := by
  obtain ⟨n, hn⟩ := h
  obtain ⟨m, hm⟩ := h'
  rw [← hn (max n m) (by omega), ← hm (max n m) (by omega)]

/-- What is known of a state that a sequence of events leads to. -/
theorem Yields.good (hE : Tiered E) {evs : List Ev} {cfg cmd : Nat} {v : World}
    (h : Yields E evs (World.start cfg cmd) v) :
    Reach E v ∧ v.oof = false ∧ v.reent = false ∧ v.twice = false := by
  obtain ⟨n, u, h1, h2, h3⟩ := C63_runs_in_time_partial hE evs cfg cmd
  cases h.unique ⟨n, h3⟩
  exact ⟨h1, h2, C62_no_overlap_partial hE.layered h1⟩

/-- **C63, partial.**  Every sequence of events leads to one state. -/
theorem C63_yields_partial (hE : Tiered E) (evs : List Ev) (cfg cmd : Nat) :
    ∃ v, Yields E evs (World.start cfg cmd) v ∧ ∀ u, Yields E evs (World.start cfg cmd) u → u = v := by
  obtain ⟨n, v, _, _, h⟩ := C63_runs_in_time_partial hE evs cfg cmd
  exact ⟨v, ⟨n, h⟩, fun u hu => hu.unique ⟨n, h⟩⟩

/-- One more event. -/
theorem Yields.snoc {evs : List Ev} {ev : Ev} {w u v : World} (h : Yields E evs w u)
    (h' : Yields E (evs ++ [ev]) w v) : ∃ n, ∀ m, n ≤ m → handle E m ev u = v := by
  obtain ⟨n, hn⟩ := h
  obtain ⟨m, hm⟩ := h'
  refine ⟨max n m, fun k hk => ?_⟩
  have := hm k (by omega)
  rw [List.foldl_append, hn k (by omega)] at this
  exact this

theorem foldl_after (n : Nat) (evs : List Ev) (w : World) :
    evs.foldl (fun w ev => handle E n ev w) w = after E (evs.map (n, ·)) w := by
  unfold after
  rw [List.foldl_map]

theorem polls_map (n : Nat) (evs : List Ev) : polls (evs.map (n, ·)) = evs.countP Ev.isPoll := by
  unfold polls
  rw [List.countP_map]
  rfl

/-- **C22** (bootstrap ends), see `C22_bounded_partial`: 121 polls after the beginning of bootstrap, whatever else
    happens, the system has left runlevel S. -/
theorem C22_bounded_tiered_partial (hE : Tiered E) {cfg cmd : Nat} (h1 : cfg ≤ 9) (h2 : cmd ≤ 9) {evs : List Ev}
    (hp : 121 ≤ evs.countP Ev.isPoll) {v : World} (h : Yields E (.boot :: evs) (World.start cfg cmd) v) :
    v.runlevel ≠ 10 := by
  obtain ⟨_, g2, g3, _⟩ := h.good hE
  obtain ⟨n, hn⟩ := h
  have e := hn n (Nat.le_refl n)
  rw [List.foldl_cons, foldl_after] at e
  have e : boots E cfg cmd n (evs.map (n, ·)) = v := e
  rw [← e] at g2 g3 ⊢
  exact C22_bounded_partial cfg cmd n _ h1 h2 (by rw [polls_map]; exact hp) g3 g2

/-- **C22** (bootstrap does not end early), see `C22_not_early_partial`: runlevel S is left at a poll, and at the
    121st, or when every run and task that belongs to bootstrap has run. -/
theorem C22_not_early_tiered_partial (hE : Tiered E) {cfg cmd : Nat} (h1 : cfg ≤ 9) (h2 : cmd ≤ 9) {evs : List Ev}
    {ev : Ev} {u v : World} (hu : Yields E (.boot :: evs) (World.start cfg cmd) u)
    (hv : Yields E (.boot :: evs ++ [ev]) (World.start cfg cmd) v) (hl : u.runlevel = 10) (hl2 : v.runlevel ≠ 10) :
    ev = .bootCheck ∧ (120 ≤ evs.countP Ev.isPoll ∨ ∃ n, ∀ m, n ≤ m →
      ∀ k, BootTask (stepAll (mkRec E m) tyAny { u with bootWork := false }).toCore k →
        ((stepAll (mkRec E m) tyAny { u with bootWork := false }).svc k).once ≠ 0) := by
  obtain ⟨_, g2, g3, _⟩ := hv.good hE
  obtain ⟨n', hn'⟩ := hu.snoc hv
  obtain ⟨n, hn⟩ := hu
  have key : ∀ m, max n n' ≤ m → ev = .bootCheck ∧ (120 ≤ evs.countP Ev.isPoll ∨
      ∀ k, BootTask (stepAll (mkRec E m) tyAny { u with bootWork := false }).toCore k →
        ((stepAll (mkRec E m) tyAny { u with bootWork := false }).svc k).once ≠ 0) := by
    intro m hm
    have e := hn m (by omega)
    rw [List.foldl_cons, foldl_after] at e
    have e : boots E cfg cmd m (evs.map (m, ·)) = u := e
    have e2 := hn' m (by omega)
    rw [← e2] at g2 g3 hl2
    rw [← e] at g2 g3 hl2 hl ⊢
    have := C22_not_early_partial cfg cmd m _ h1 h2 m ev hl hl2 g3 g2
    rw [polls_map] at this
    exact this
  refine ⟨(key _ (Nat.le_refl _)).1, ?_⟩
  by_cases hc : 120 ≤ evs.countP Ev.isPoll
  · exact .inl hc
  · exact .inr ⟨_, fun m hm => (key m hm).2.resolve_left hc⟩

/-- **C23** (logins), see `C23_rule_partial`: what an event does to the file that disables logins. -/
theorem C23_rule_tiered_partial (hE : Tiered E) {cfg cmd : Nat} {evs : List Ev} {ev : Ev} {u v : World}
    (hu : Yields E evs (World.start cfg cmd) u) (hv : Yields E (evs ++ [ev]) (World.start cfg cmd) v) :
    v.nologin =
      if v.runlevel = u.runlevel then u.nologin
      else if loginsOff u.runlevel ∨ u.runlevel = 10 then false
      else if loginsOff v.runlevel ∨ v.runlevel = 10 then true
      else u.nologin := by
  obtain ⟨_, g2, g3, _⟩ := hv.good hE
  obtain ⟨g1, _⟩ := hu.good hE
  obtain ⟨n, hn⟩ := hu.snoc hv
  have e := hn n (Nat.le_refl n)
  rw [← e] at g2 g3 ⊢
  exact C23_rule_partial g1 n ev g3 g2

/-- **C23** (logins), see `C23_exactly_partial`: if none of the events leads from one of S, 0, 1 and 6 directly to
    0, 1 or 6, the file that disables logins is there exactly in runlevel 0, 1 and 6. -/
theorem C23_exactly_tiered_partial (hE : Tiered E) {cfg cmd : Nat} (h1 : cfg ≤ 9) (h2 : cmd ≤ 9) {evs : List Ev}
    {v : World} (hv : Yields E evs (World.start cfg cmd) v)
    (hs : ∀ pre ev u u', pre ++ [ev] <+: evs → Yields E pre (World.start cfg cmd) u →
      Yields E (pre ++ [ev]) (World.start cfg cmd) u' → u'.runlevel ≠ u.runlevel →
      loginsOff u.runlevel = true ∨ u.runlevel = 10 → loginsOff u'.runlevel = false) :
    v.nologin = loginsOff v.runlevel := by
  obtain ⟨_, g2, g3, _⟩ := hv.good hE
  -- one limit for all beginnings
  have lim : ∀ evs : List Ev, ∃ n, ∀ pre, pre <+: evs → ∀ m, n ≤ m →
      Yields E pre (World.start cfg cmd) (pre.foldl (fun w ev => handle E m ev w) (World.start cfg cmd)) := by
    intro evs
    induction evs using List.reverseRecOn with
    | nil =>
      refine ⟨0, fun pre hp m _ => ?_⟩
      rw [List.prefix_nil.mp hp]
      exact ⟨0, fun _ _ => rfl⟩
    | append_singleton evs ev ih =>
      obtain ⟨n, hn⟩ := ih
      obtain ⟨u, ⟨n', hu⟩, _⟩ := C63_yields_partial hE (evs ++ [ev]) cfg cmd
      refine ⟨max n n', fun pre hp m hm => ?_⟩
      rcases List.prefix_concat_iff.mp hp with rfl | hp
      · rw [hu m (by omega)]
        exact ⟨n', hu⟩
      · exact hn pre hp m (by omega)
  obtain ⟨n, hn⟩ := lim evs
  obtain ⟨n', hn'⟩ := hv
  have e := hn' (max n n') (by omega)
  generalize hM : max n n' = M at e
  have hnM : n ≤ M := by omega
  clear hM
  rw [foldl_after] at e
  rw [← e] at g2 g3 ⊢
  refine C23_exactly_partial h1 h2 _ ?_ g3 g2
  -- the runlevels on the way
  have path : ∀ (post pre : List Ev), pre ++ post = evs →
      noShortcut (levelsOf E (post.map (M, ·)) (after E (pre.map (M, ·)) (World.start cfg cmd))) = true := by
    intro post
    induction post with
    | nil => intro _ _; rfl
    | cons ev post ih =>
      intro pre hp
      have ih := ih (pre ++ [ev]) (by rw [List.append_assoc]; exact hp)
      rw [List.map_append, List.map_cons, List.map_nil, after_snoc] at ih
      rw [List.map_cons, levelsOf]
      obtain ⟨l, hl⟩ := levelsOf_cons (E := E) (post.map (M, ·))
        (handle E M ev (after E (pre.map (M, ·)) (World.start cfg cmd)))
      dsimp only at ih ⊢
      rw [hl] at ih ⊢
      unfold noShortcut
      rw [ih, Bool.and_true]
      have hq : pre ++ [ev] <+: evs := ⟨post, by rw [← hp]; simp⟩
      have y1 := hn pre (List.IsPrefix.trans ⟨[ev], rfl⟩ hq) M hnM
      have y2 := hn (pre ++ [ev]) hq M hnM
      rw [foldl_after] at y1 y2
      rw [List.map_append, List.map_cons, List.map_nil, after_snoc] at y2
      have := hs pre ev _ _ hq y1 y2
      dsimp only at this
      generalize (after E (pre.map (M, ·)) (World.start cfg cmd)).runlevel = a at this
      generalize (handle E M ev _).runlevel = b at this
      by_cases hab : a = b
      · simp [hab]
      · by_cases ha : loginsOff a = true ∨ a = 10
        · rw [this (fun h => hab h.symm) ha]; simp
        · have h3 : loginsOff a = false := by simpa using fun h => ha (.inl h)
          have h4 : (a == 10) = false := by simpa using fun h => ha (.inr h)
          simp [h3, h4]
  exact path evs [] rfl

/-- **C24** (what is gone), see `C24_removed_are_gone_partial`. -/
theorem C24_removed_are_gone_tiered_partial (hE : Tiered E) {cfg cmd : Nat} {evs : List Ev} {w : World}
    (h : Yields E evs (World.start cfg cmd) w) (hs : w.sm = .running) (hl : w.runlevel ≠ 10) (k : Key)
    (hk : k ∈ w.order) :
    (w.svc k).removed = false ∧
    ((w.svc k).protect = true ∨ ∃ t z, lastConf w.trace = some t ∧ z ∈ E.conf t ∧
      (w.svc k).type = z.type ∧ (z.type = .tty ∨ Bears w k z)) := by
  obtain ⟨g1, g2, g3, _⟩ := h.good hE
  exact C24_removed_are_gone_partial g1 g3 g2 hs hl k hk

theorem snap_oof {a : World} {c : Core} (h : SnapOf a c) : c.oof = a.oof := by
  rcases h with rfl | ⟨k, t, x, r, rfl⟩ <;> rfl

/-- No entry of the trace was made after the limit was reached. -/
theorem entry_oof {w : World} (h : Reach E w) (ho : w.oof = false) {c : Core} {e : Eff}
    {tl : List (Core × Eff)} (hx : (c, e) :: tl <:+ w.trace) (hs : ¬ Second e) : c.oof = false := by
  have key : ∀ c e tl, (c, e) :: tl <:+ w.trace → ¬ Second e → c.oof = true → w.oof = true := by
    refine Reach.inv (P := fun w => ∀ c e tl, (c, e) :: tl <:+ w.trace → ¬ Second e → c.oof = true →
      w.oof = true) ?_ ?_ h
    · intro _ _ c e tl h
      have := h.length_le
      simp [World.start] at this
    · intro lab a b _ p ih c e tl hx hs hc
      rcases p.snap.2 c e tl hx with h | h
      · exact p.oof (ih c e tl h hs hc)
      · rcases h.2 with h | h
        · exact absurd h hs
        · exact p.oof (snap_oof h.2 ▸ hc)
  cases hc : c.oof with
  | false => rfl
  | true =>
    have := key c e tl hx hs hc
    rw [ho] at this
    cases this

/-- **C21** (stop before start), see `C21_waiting_starts_after_stops_partial`: all services of the configuration are
    plain. -/
theorem C21_waiting_starts_after_stops_tiered_partial (hE : Tiered E) {cfg cmd : Nat} {evs : List Ev} {w : World}
    (h : Yields E evs (World.start cfg cmd) w) {c : Core} {k : Key} {b : SState} {tl : List (Core × Eff)}
    (hx : (c, .trans k .waiting b) :: tl <:+ w.trace) (hb : b = .setup ∨ b = .starting)
    (ht : c.sm = .rlWait ∨ c.sm = .rlClean ∨ swept tl = true) {j : Key} (hj : j ∈ c.order)
    (hf : lately (.forced j) tl = false)
    (hn : (c.svc j).levels.testBit c.runlevel = false ∨ (c.svc j).removed = true) : mainAlive j tl = [] := by
  obtain ⟨g1, g2, g3, _⟩ := h.good hE
  have hs : ¬ Second (.trans k .waiting b) := by
    rintro hs; rcases hb with rfl | rfl <;> cases hs
  obtain ⟨a, ha, _, hsn⟩ := Reach.at (P := fun w => OwnOk w) (fun cfg cmd => .start cfg cmd)
    (fun _ _ _ ho p ih => ih.prim hE.2.1 ho p) g1 hx hs
  have hodd : (c.svc j).odd = false := by
    rw [hsn.odd]
    exact ha.odd j
  exact C21_waiting_starts_after_stops_partial g1 hx hb (hE.layered.entry g1 hx hs) (entry_oof g1 g2 hx hs) ht hj
    hodd hf hn

/-! ### Examples -/

/-- A limit that is not reached was large enough. -/
theorem yields_of_run {n : Nat} {evs : List Ev} : ∀ {w : World},
    (evs.foldl (fun w ev => handle E n ev w) w).oof = false →
    Yields E evs w (evs.foldl (fun w ev => handle E n ev w) w) := by
  have mono : ∀ (evs : List Ev) (w : World), w.oof = true →
      (evs.foldl (fun w ev => handle E n ev w) w).oof = true := by
    intro evs
    induction evs with
    | nil => exact fun _ h => h
    | cons ev evs ih => exact fun w h => ih _ ((handle_lim (Nat.le_refl n) ev w).mono h)
  intro w h
  refine ⟨n, fun m hm => ?_⟩
  induction evs generalizing w with
  | nil => rfl
  | cons ev evs ih =>
    have h0 : (handle E n ev w).oof = false := by
      cases e : (handle E n ev w).oof with
      | false => rfl
      | true => rw [List.foldl_cons, mono evs _ e] at h; cases h
    rw [List.foldl_cons, List.foldl_cons, (handle_lim hm ev w).same h0]
    exact ih h

/-- The database, its web server and the fallback of C63: bootstrap, and a change to runlevel 1. -/
def wholeEvs : List Ev :=
  [.boot, .exit 117 (.exited 0), .bootCheck, .worker, .pidfile 1 127 true, .apiRunlevel 1]

/-- Not vacuous: the events lead from runlevel S to 2 and to 1, where logins are disabled, and the services that are
    not allowed there are asked to stop. -/
example : Tiered (calm backConf) ∧ Yields (calm backConf) wholeEvs (World.start 2 0) (run (calm backConf) 24 wholeEvs) ∧
    (run (calm backConf) 24 (wholeEvs.take 2)).runlevel = 10 ∧ (run (calm backConf) 24 (wholeEvs.take 3)).runlevel = 2 ∧
    (run (calm backConf) 24 wholeEvs).runlevel = 1 ∧ (run (calm backConf) 24 wholeEvs).nologin = true ∧
    ((run (calm backConf) 24 wholeEvs).svc 1).state = .stopping := by
  refine ⟨back_tiered, yields_of_run ?_, ?_⟩
  · show (run (calm backConf) 24 wholeEvs).oof = false
    decide +kernel
  · decide +kernel

set_option maxRecDepth 8000 in
/-- Not vacuous: 121 polls are enough if the check is never done. -/
example : Yields (calm backConf) (.boot :: List.replicate 121 .bootCheck) (World.start 2 0)
      (run (calm backConf) 24 (.boot :: List.replicate 121 .bootCheck)) ∧
    (run (calm backConf) 24 (.boot :: List.replicate 120 .bootCheck)).runlevel = 10 ∧
    (run (calm backConf) 24 (.boot :: List.replicate 121 .bootCheck)).runlevel = 2 := by
  refine ⟨yields_of_run ?_, ?_⟩
  · show (run (calm backConf) 24 (.boot :: List.replicate 121 .bootCheck)).oof = false
    decide +kernel
  · decide +kernel

end Verif.Sup
