import Verif.Sup.Model
import Lean.Elab.Tactic

/-!
# Supervisor model: the limit on nested calls does not matter unless it is hit

Every function of the model that can call itself takes a limit.  If the result with one limit does not
have the flag `oof`, every larger limit gives the same result.
-/

namespace Verif.Sup

open Verif (CStr CondStore)

/-- From `w` the results are `a` and, with a larger limit, `b`. -/
structure Lim (w a b : World) : Prop where
  mono : w.oof = true → a.oof = true
  same : a.oof = false → b = a

theorem Lim.pure {w a : World} (h : a.oof = w.oof) : Lim w a a := ⟨fun e => h.trans e, fun _ => rfl⟩

theorem Lim.bind {w a b : World} {F G : World → World} (h : Lim w a b) (hF : ∀ x, Lim x (F x) (G x)) :
    Lim w (F a) (G b) := by
  refine ⟨fun e => (hF a).mono (h.mono e), fun e => ?_⟩
  cases ea : a.oof with
  | true => rw [(hF a).mono ea] at e; cases e
  | false => rw [h.same ea]; exact (hF a).same e

theorem Lim.ite {c : Prop} [Decidable c] {w a b a' b' : World} (h1 : c → Lim w a b) (h2 : ¬ c → Lim w a' b') :
    Lim w (if c then a else a') (if c then b else b') := by
  split
  · exact h1 ‹_›
  · exact h2 ‹_›

/-- `Lim` for functions with a second result. -/
structure LimP (w : World) (a b : Bool × World) : Prop where
  mono : w.oof = true → a.2.oof = true
  same : a.2.oof = false → b = a

theorem LimP.pair {w a b : World} (h : Lim w a b) (x : Bool) : LimP w (x, a) (x, b) :=
  ⟨h.mono, fun e => by rw [h.same e]⟩

theorem LimP.bind {w a b : World} {F G : World → Bool × World} (h : Lim w a b) (hF : ∀ x, LimP x (F x) (G x)) :
    LimP w (F a) (G b) := by
  refine ⟨fun e => (hF a).mono (h.mono e), fun e => ?_⟩
  cases ea : a.oof with
  | true => rw [(hF a).mono ea] at e; cases e
  | false => rw [h.same ea]; exact (hF a).same e

theorem LimP.ite {c : Prop} [Decidable c] {w : World} {a b a' b' : Bool × World} (h1 : c → LimP w a b)
    (h2 : ¬ c → LimP w a' b') : LimP w (if c then a else a') (if c then b else b') := by
  split
  · exact h1 ‹_›
  · exact h2 ‹_›

open Lean Elab Tactic Meta in
/-- Follow one `let` or one call. -/
elab "lim_bind" : tactic => do
  let g ← getMainGoal
  g.withContext do
    let t ← instantiateMVars (← g.getType)
    let t := t.consumeMData
    unless t.isAppOfArity ``Lim 3 || t.isAppOfArity ``LimP 3 do throwError "not a Lim"
    let rel := t.getAppFn
    let bind := if t.isAppOf ``Lim then mkConst ``Lim.bind else mkConst ``LimP.bind
    let w := t.getArg! 0
    let a := (t.getArg! 1).consumeMData
    let b := (t.getArg! 2).consumeMData
    let world := mkConst ``World
    let go (F G x y : Expr) : TacticM Unit := do
      let m1 ← mkFreshExprSyntheticOpaqueMVar (mkApp3 (mkConst ``Lim) w x y)
      let ty ← withLocalDeclD `x world fun v => do
        mkForallFVars #[v] (mkApp3 rel v (mkApp F v).headBeta (mkApp G v).headBeta)
      let m2 ← mkFreshExprSyntheticOpaqueMVar ty
      g.assign (mkAppN bind #[w, x, y, F, G, m1, m2])
      replaceMainGoal [m1.mvarId!, m2.mvarId!]
    match a, b with
    | .letE n ty v body _, .letE _ _ v' body' _ =>
      if ty.isConstOf ``World then
        go (.lam n ty body .default) (.lam n ty body' .default) v v'
      else if v == v' then
        let t' := mkApp3 rel w (body.instantiate1 v).headBeta (body'.instantiate1 v').headBeta
        let m ← mkFreshExprSyntheticOpaqueMVar t'
        g.assign m
        replaceMainGoal [m.mvarId!]
      else throwError "let of another type"
    | .app f x, .app f' y =>
      unless t.isAppOf ``Lim do throwError "not a Lim"
      unless (← inferType x).isConstOf ``World do throwError "last argument"
      if x == w && y == w then throwError "nothing to do"
      if a.isAppOf ``ite || (← isMatcherApp a) then throwError "cases"
      go f f' x y
    | _, _ => throwError "no let or call"

/-- The larger limit gives the same for the calls, unless the smaller is hit. -/
structure LimR (R R' : Rec) : Prop where
  fuel : R.fuel ≤ R'.fuel
  step : ∀ k w, Lim w (R.step k w) (R'.step k w)
  loop : ∀ k w, Lim w (R.loop k w) (R'.loop k w)
  sm : ∀ w, Lim w (R.sm w) (R'.sm w)
  smLoop : ∀ w, Lim w (R.smLoop w) (R'.smLoop w)

section
variable {E : Env} {R R' : Rec}

/-! ### Functions that make no such calls -/

theorem timerCancel_oof (k : Key) (w : World) : (timerCancel k w).oof = w.oof := by
  unfold timerCancel; split <;> rfl

theorem timerAfter_oof (k : Key) (t : Int) (x : Cb) (w : World) : (timerAfter k t x w).oof = w.oof := by
  unfold timerAfter; repeat' split
  all_goals rfl

theorem mod_oof (k : Key) (f : Svc → Svc) (w : World) : (mod k f w).oof = w.oof := rfl

theorem emit_oof (e : Eff) (w : World) : (emit e w).oof = w.oof := rfl

theorem schedule_oof (w : World) : (schedule w).oof = w.oof := rfl

theorem askB_oof (w : World) : (askB E w).2.oof = w.oof := rfl

theorem ask_oof (w : World) : (ask E w).2.oof = w.oof := rfl

theorem procExists_oof (p : Int) (w : World) : (procExists E p w).2.oof = w.oof := rfl

theorem reap_oof (p : Int) (st : Option WStatus) (w : World) : (reap p st w).oof = w.oof := rfl

theorem spawned_oof (p : Int) (k : Key) (r : Role) (w : World) : (spawned p k r w).oof = w.oof := rfl

theorem touch_oof (k : Key) (w : World) : (touch k w).oof = w.oof := by unfold touch; split <;> rfl

theorem fork_oof (k : Key) (r : Role) (w : World) : (fork E k r w).2.oof = w.oof := by
  unfold fork; dsimp only; split <;> rfl

theorem kill_oof (p : Int) (s : Nat) (y : Why) (k : Key) (w : World) : (kill E p s y k w).2.oof = w.oof := by
  unfold kill; dsimp only; repeat' split
  all_goals rfl

theorem svcDel_oof (k : Key) (w : World) : (svcDel k w).oof = w.oof := rfl

theorem cleanBootstrap_oof (k : Key) (w : World) : (cleanBootstrap k w).oof = w.oof := by
  unfold cleanBootstrap; split <;> rfl

theorem serviceCleanup_oof (k : Key) (w : World) : (serviceCleanup k w).oof = w.oof := timerCancel_oof k w

theorem midHead_oof (f : Mid → Mid) (w : World) : (midHead f w).oof = w.oof := rfl

theorem runScript_oof (k : Key) (r : Role) (w : World) : (runScript E k r w).2.oof = w.oof := by
  unfold runScript; dsimp only; split
  · exact fork_oof k r w
  · exact fork_oof k r w

theorem stopAct_oof (k : Key) (w : World) : (stopAct E k w).2.oof = w.oof := by
  unfold stopAct; dsimp only; split
  · exact runScript_oof k _ w
  · split
    · exact kill_oof _ _ _ _ _
    · exact fork_oof k _ w

theorem scriptFork_oof (k : Key) (r : Role) (t : Svc → Int) (w : World) : (scriptFork E k r t w).oof = w.oof := by
  unfold scriptFork; dsimp only; split
  · exact fork_oof k r w
  · rw [timerAfter_oof]; exact fork_oof k r w

theorem readyScript_oof (k : Key) (w : World) : (readyScript E k w).oof = w.oof := by
  unfold readyScript; dsimp only; split
  · rfl
  · split
    · exact fork_oof k _ _
    · rw [timerAfter_oof]; exact fork_oof k _ _

theorem startParent_oof (k : Key) (p : Int) (b : Bool) (w : World) : (startParent k p b w).oof = w.oof := by
  unfold startParent; dsimp only; split <;> rfl

theorem serviceStart_oof (k : Key) (w : World) : (serviceStart E k w).2.oof = w.oof := by
  unfold serviceStart
  extract_lets r w1 r2 w2 r3 w3 wants bad w4 f
  have e1 : w1.oof = w.oof := rfl
  have e2 : w2.oof = w1.oof := rfl
  have e3 : w3.oof = w2.oof := rfl
  have e4 : w4.oof = w3.oof := rfl
  have ef : f.2.oof = w4.oof := fork_oof k _ w4
  split
  · rfl
  · split
    · rfl
    · split
      · rfl
      · split
        · exact ef
        · exact (startParent_oof _ _ _ _).trans ef

theorem setStateRaw_oof (k : Key) (new : SState) (w : World) : (setStateRaw k new w).oof = w.oof := by
  unfold setStateRaw
  extract_lets s w1 m tw
  have e1 : w1.oof = w.oof := by
    simp only [w1]; split
    · rw [timerAfter_oof, timerCancel_oof]
    · rfl
  split <;> exact e1

theorem scriptDel_oof (p : Int) (w : World) : (scriptDel E p w).oof = w.oof := by
  unfold scriptDel
  split
  · rfl
  · dsimp only
    rw [kill_oof, timerCancel_oof]
    split <;> rfl

theorem scriptKill_go_oof (k : Key) : ∀ l (w : World), (scriptKill.go E k l w).oof = w.oof := by
  intro l
  induction l with
  | nil => intro w; rfl
  | cons a l ih =>
    intro w
    unfold scriptKill.go
    split
    · exact ih w
    · dsimp only; rw [ih]; exact kill_oof (E := E) _ _ _ _ _

theorem scriptKill_oof (k : Key) (w : World) : (scriptKill E k w).oof = w.oof := scriptKill_go_oof k _ w

theorem monitorHead_oof (k : Key) (st : WStatus) (w : World) : (monitorHead E k st w).oof = w.oof := by
  unfold monitorHead
  dsimp only
  split
  · rw [mod_oof, timerCancel_oof, kill_oof]
  · split
    · rfl
    · split
      · rw [mod_oof, serviceCleanup_oof, mod_oof, kill_oof]
      · rw [mod_oof, kill_oof]

theorem serviceKillScript_oof (k : Key) (w : World) : (serviceKillScript E k w).oof = w.oof := by
  unfold serviceKillScript; dsimp only; split
  · rfl
  · exact kill_oof _ _ _ _ _

theorem regObj_oof (z : Stanza) (w : World) : (regObj z w).oof = w.oof := by
  unfold regObj; split <;> rfl

theorem register_oof (z : Stanza) (w : World) : (register E z w).oof = w.oof := by
  unfold register
  dsimp only
  repeat' split
  all_goals first | rfl | exact regObj_oof z _

theorem registerAll_oof : ∀ zs (w : World), (registerAll E zs w).oof = w.oof := by
  intro zs
  induction zs with
  | nil => intro w; rfl
  | cons z zs ih => intro w; exact (ih _).trans (register_oof z w)

theorem updateRdeps_oof : ∀ ks (w : World), (updateRdeps ks w).oof = w.oof := by
  intro ks
  induction ks with
  | nil => intro w; rfl
  | cons k ks ih =>
    intro w
    unfold updateRdeps
    split
    · exact ih _
    · exact ih _

theorem confReload_oof (w : World) : (confReload E w).oof = w.oof := by
  unfold confReload
  extract_lets w1 zs w2 w3 w4 w5
  exact (updateRdeps_oof _ w3).trans (registerAll_oof zs w2)

theorem hookWrites_oof : ∀ ns (w : World), (hookWrites ns w).oof = w.oof := by
  intro ns
  induction ns with
  | nil => intro w; rfl
  | cons n ns ih => intro w; unfold hookWrites; rw [ih]; split <;> rfl

theorem nologinUpdate_oof (w : World) : (nologinUpdate w).oof = w.oof := by
  unfold nologinUpdate; dsimp only; repeat' split
  all_goals rfl

theorem confFlush_oof (w : World) : (confFlush E w).oof = w.oof := by
  unfold confFlush; dsimp only; split <;> rfl

theorem ageAll_oof : ∀ ks (w : World), (ageAll ks w).oof = w.oof := by
  intro ks
  induction ks with
  | nil => intro w; rfl
  | cons k ks ih => intro w; unfold ageAll; rw [ih]; split <;> rfl

/-! ### Functions that do -/

theorem iter_lim {f f' : Key → World → World} (hf : ∀ k w, Lim w (f k w) (f' k w)) :
    ∀ n m o w, n ≤ m → Lim w (iter f n o w) (iter f' m o w) := by
  intro n
  induction n with
  | zero =>
    intro m o w _
    cases o with
    | none => cases m <;> exact .pure rfl
    | some k => exact ⟨fun _ => rfl, fun h => nomatch h⟩
  | succ n ih =>
    intro m o w h
    cases m with
    | zero => omega
    | succ m =>
      cases o with
      | none => exact .pure rfl
      | some k => exact (hf k w).bind fun x => ih m _ x (by omega)

theorem forAll_lim (hR : LimR R R') {f f' : Key → World → World} (hf : ∀ k w, Lim w (f k w) (f' k w)) (w : World) :
    Lim w (forAll R f w) (forAll R' f' w) := iter_lim hf _ _ _ w hR.fuel

theorem stepAll_lim (hR : LimR R R') (p : SType → Bool) (w : World) :
    Lim w (stepAll R p w) (stepAll R' p w) :=
  forAll_lim hR (fun k _ => .ite (fun _ => hR.step k _) (fun _ => .pure rfl)) w

/-- Close what makes no calls. -/
macro "lim_pure" : tactic => `(tactic| (with_reducible refine Lim.pure ?_) <;> first
  | with_reducible rfl
  | (simp only [timerCancel_oof, timerAfter_oof, mod_oof, emit_oof, schedule_oof, askB_oof, ask_oof, procExists_oof,
      reap_oof, touch_oof, fork_oof, kill_oof, svcDel_oof, cleanBootstrap_oof, serviceCleanup_oof, midHead_oof,
      runScript_oof, stopAct_oof, scriptFork_oof, readyScript_oof, serviceStart_oof, setStateRaw_oof, scriptDel_oof,
      scriptKill_oof, monitorHead_oof, serviceKillScript_oof, confReload_oof, hookWrites_oof, nologinUpdate_oof,
      confFlush_oof, ageAll_oof, condClearNoupdateMid, condClearNoupdate, doShutdown]; done))

macro "lim_pair" : tactic =>
  `(tactic| first | (with_reducible refine LimP.ite ?_ ?_) | (with_reducible refine LimP.pair ?_ _))

/-- Follow a function by cases. -/
macro "lim_tac" "[" ts:term,* "]" : tactic => do
  let alts ← ts.getElems.mapM fun t => `(tactic| with_reducible exact $t _)
  let mut r ← `(tactic| first | lim_bind | (with_reducible refine Lim.ite ?_ ?_) | lim_pair)
  for a in alts do
    r ← `(tactic| first | $a:tactic | $r:tactic)
  `(tactic| repeat' first | intro _ | lim_pure | $r:tactic)

theorem condUpdateOne_lim (hR : LimR R R') (n : CStr) (k : Key) (w : World) :
    Lim w (condUpdateOne R n k w) (condUpdateOne R' n k w) := by
  unfold condUpdateOne
  lim_tac [hR.step _]

theorem condUpdate_lim (hR : LimR R R') (n : CStr) (w : World) : Lim w (condUpdate R n w) (condUpdate R' n w) :=
  forAll_lim hR (condUpdateOne_lim hR n) w

theorem condSet_lim (hR : LimR R R') (n : CStr) (w : World) : Lim w (condSet R n w) (condSet R' n w) := by
  unfold condSet
  lim_tac [condUpdate_lim hR _]

theorem condOneshot_lim (hR : LimR R R') (n : CStr) (w : World) : Lim w (condOneshot R n w) (condOneshot R' n w) := by
  unfold condOneshot
  lim_tac [condUpdate_lim hR _]

theorem condDelBelow_lim (hR : LimR R R') : ∀ l (w : World), Lim w (condDelBelow R l w) (condDelBelow R' l w) := by
  intro l
  induction l with
  | nil => exact fun w => .pure rfl
  | cons n l ih =>
    intro w
    unfold condDelBelow
    lim_tac [ih, condUpdate_lim hR _]

theorem condClear_lim (hR : LimR R R') (n : CStr) (w : World) : Lim w (condClear R n w) (condClear R' n w) := by
  unfold condClear
  lim_tac [condUpdate_lim hR _, condDelBelow_lim hR _]

theorem condOneshotMid_lim (hR : LimR R R') (n : CStr) (w : World) :
    Lim w (condOneshotMid R n w) (condOneshotMid R' n w) := by
  unfold condOneshotMid
  lim_tac [condUpdate_lim hR _]

theorem condDelBelowMid_lim (hR : LimR R R') : ∀ l (w : World),
    Lim w (condDelBelowMid R l w) (condDelBelowMid R' l w) := by
  intro l
  induction l with
  | nil => exact fun w => .pure rfl
  | cons n l ih =>
    intro w
    unfold condDelBelowMid
    lim_tac [ih, condUpdate_lim hR _]

theorem condClearMid_lim (hR : LimR R R') (n : CStr) (w : World) :
    Lim w (condClearMid R n w) (condClearMid R' n w) := by
  unfold condClearMid
  lim_tac [condUpdate_lim hR _, condDelBelowMid_lim hR _]

theorem publish_lim (hR : LimR R R') (k : Key) (old new : SState) (w : World) :
    Lim w (publish R k old new w) (publish R' k old new w) := by
  unfold publish
  lim_tac [condOneshotMid_lim hR _, condClearMid_lim hR _]

theorem setStateConds_lim (hR : LimR R R') (k : Key) (old new : SState) (w : World) :
    Lim w (setStateConds R k old new w) (setStateConds R' k old new w) := by
  unfold setStateConds
  lim_tac [publish_lim hR _ _ _]

theorem setState_lim (hR : LimR R R') (k : Key) (new : SState) (w : World) :
    Lim w (setState R k new w) (setState R' k new w) := by
  unfold setState
  lim_tac [setStateConds_lim hR _ _ _]

theorem serviceStop_lim (hR : LimR R R') (k : Key) (w : World) :
    Lim w (serviceStop E R k w) (serviceStop E R' k w) := by
  unfold serviceStop
  lim_tac [setState_lim hR _ _]

theorem monitorTail_lim (hR : LimR R R') (k : Key) (p : Int) (w : World) :
    Lim w (monitorTail R k p w) (monitorTail R' k p w) := by
  unfold monitorTail
  lim_tac [hR.step _, hR.sm]

theorem monitor_lim (hR : LimR R R') (p : Int) (st : WStatus) (w : World) :
    Lim w (monitor E R p st w) (monitor E R' p st w) := by
  unfold monitor
  lim_tac []
  rename_i x
  split
  · lim_pure
  · lim_tac [monitorTail_lim hR _ _]

theorem serviceReload_lim (hR : LimR R R') (k : Key) (w : World) :
    Lim w (serviceReload E R k w) (serviceReload E R' k w) := by
  unfold serviceReload
  lim_tac [monitor_lim hR _ _]

theorem serviceReady_lim (hR : LimR R R') (k : Key) (on : Bool) (w : World) :
    Lim w (serviceReady E R k on w) (serviceReady E R' k on w) := by
  unfold serviceReady
  lim_tac [condSet_lim hR _, condClear_lim hR _]

theorem stepHalted_lim (hR : LimR R R') (k : Key) (en : Bool) (w : World) :
    Lim w (stepHalted R k en w) (stepHalted R' k en w) := by
  unfold stepHalted
  lim_tac [setState_lim hR _ _]

theorem stepTeardown_lim (hR : LimR R R') (k : Key) (w : World) :
    Lim w (stepTeardown E R k w) (stepTeardown E R' k w) := by
  unfold stepTeardown
  lim_tac [setState_lim hR _ _]

theorem stepCleanup_lim (hR : LimR R R') (k : Key) (w : World) :
    Lim w (stepCleanup R k w) (stepCleanup R' k w) := by
  unfold stepCleanup
  lim_tac [setState_lim hR _ _]

theorem stepDone_lim (hR : LimR R R') (k : Key) (en : Bool) (w : World) :
    Lim w (stepDone R k en w) (stepDone R' k en w) := by
  unfold stepDone
  lim_tac [setState_lim hR _ _]

theorem stepStopping_lim (hR : LimR R R') (k : Key) (w : World) :
    Lim w (stepStopping E R k w) (stepStopping E R' k w) := by
  unfold stepStopping
  lim_tac [setState_lim hR _ _, condClear_lim hR _]

theorem stepSetup_lim (hR : LimR R R') (k : Key) (en : Bool) (w : World) :
    Lim w (stepSetup E R k en w) (stepSetup E R' k en w) := by
  unfold stepSetup
  lim_tac [setState_lim hR _ _, serviceStop_lim hR _]

theorem stepWaiting_lim (hR : LimR R R') (k : Key) (en : Bool) (w : World) :
    Lim w (stepWaiting E R k en w) (stepWaiting E R' k en w) := by
  unfold stepWaiting
  lim_tac [setState_lim hR _ _]

theorem stepStarting_lim (hR : LimR R R') (k : Key) (en : Bool) (w : World) :
    Lim w (stepStarting E R k en w) (stepStarting E R' k en w) := by
  unfold stepStarting
  lim_tac [setState_lim hR _ _]

theorem stepPaused_lim (hR : LimR R R') (k : Key) (en : Bool) (w : World) :
    Lim w (stepPaused E R k en w) (stepPaused E R' k en w) := by
  unfold stepPaused
  lim_tac [setState_lim hR _ _, serviceStop_lim hR _]
  cases aggCond w.toCore k <;> dsimp -zeta only <;>
  lim_tac [setState_lim hR _ _, serviceStop_lim hR _, serviceReady_lim hR _ _]

theorem stepRunning_lim (hR : LimR R R') (k : Key) (en : Bool) (w : World) :
    LimP w (stepRunning E R k en w) (stepRunning E R' k en w) := by
  unfold stepRunning
  lim_tac [setState_lim hR _ _, serviceStop_lim hR _]
  rename_i x
  cases aggCond x.toCore k <;> dsimp -zeta only <;>
  lim_tac [setState_lim hR _ _, serviceStop_lim hR _, serviceReady_lim hR _ _, serviceReload_lim hR _]

theorem stepBranch_lim (hR : LimR R R') (k : Key) (w : World) :
    LimP w (stepBranch E R k w) (stepBranch E R' k w) := by
  unfold stepBranch
  dsimp only
  cases (w.svc k).state <;> dsimp only <;> first
    | exact stepRunning_lim hR _ _ _
    | exact .pair (stepHalted_lim hR _ _ _) _
    | exact .pair (stepDone_lim hR _ _ _) _
    | exact .pair (stepStopping_lim hR _ _) _
    | exact .pair (stepTeardown_lim hR _ _) _
    | exact .pair (stepSetup_lim hR _ _ _) _
    | exact .pair (stepCleanup_lim hR _ _) _
    | exact .pair (stepPaused_lim hR _ _ _) _
    | exact .pair (stepWaiting_lim hR _ _ _) _
    | exact .pair (stepStarting_lim hR _ _ _) _
    | exact .pair (.pure rfl) _

theorem LimP.then {w : World} {a b : Bool × World} {F G : Bool → World → World} (h : LimP w a b)
    (hF : ∀ t x, Lim x (F t x) (G t x)) : Lim w (F a.1 a.2) (G b.1 b.2) := by
  refine ⟨fun e => (hF _ _).mono (h.mono e), fun e => ?_⟩
  cases ea : a.2.oof with
  | true => rw [(hF _ _).mono ea] at e; cases e
  | false => rw [h.same ea]; exact (hF _ _).same e

theorem stepLoop_lim (hR : LimR R R') (k : Key) (w : World) :
    Lim w (stepLoop E R k w) (stepLoop E R' k w) := by
  unfold stepLoop
  dsimp only
  refine (stepBranch_lim hR k w).then
    (F := fun t x => if t then x else if (x.svc k).state ≠ (w.svc k).state then schedule (R.loop k x)
      else if x.runBlock ≠ 0 then schedule x else x)
    (G := fun t x => if t then x else if (x.svc k).state ≠ (w.svc k).state then schedule (R'.loop k x)
      else if x.runBlock ≠ 0 then schedule x else x) ?_
  intro t x
  lim_tac [hR.loop _]

theorem serviceStep_lim (hR : LimR R R') (k : Key) (w : World) :
    Lim w (serviceStep E R k w) (serviceStep E R' k w) := by
  unfold serviceStep
  lim_tac [stepLoop_lim hR _]

theorem serviceKill_lim (hR : LimR R R') (k : Key) (w : World) :
    Lim w (serviceKill E R k w) (serviceKill E R' k w) := by
  unfold serviceKill
  lim_tac [monitor_lim hR _ _]

theorem serviceRetry_lim (hR : LimR R R') (k : Key) (w : World) :
    Lim w (serviceRetry E R k w) (serviceRetry E R' k w) := by
  unfold serviceRetry
  lim_tac [hR.step _, setState_lim hR _ _]
  rename_i x
  cases (x.svc k).oncrash <;> dsimp only <;> lim_tac []

theorem timerFire_lim (hR : LimR R R') (k : Key) (w : World) :
    Lim w (timerFire E R k w) (timerFire E R' k w) := by
  unfold timerFire
  lim_tac []
  rename_i x
  cases (x.svc k).timer with
  | none => exact .pure rfl
  | some c => cases c <;> dsimp only <;> lim_tac [serviceKill_lim hR _, serviceRetry_lim hR _]

theorem runtaskClean_lim (hR : LimR R R') (w : World) : Lim w (runtaskClean R w) (runtaskClean R' w) := by
  unfold runtaskClean
  refine forAll_lim hR (fun k w => ?_) w
  lim_tac [setState_lim hR _ _]

theorem unregister_lim (hR : LimR R R') (k : Key) (w : World) :
    Lim w (unregister E R k w) (unregister E R' k w) := by
  unfold unregister
  lim_tac [serviceStop_lim hR _]

theorem cleanDynamic_lim (hR : LimR R R') (w : World) : Lim w (cleanDynamic E R w) (cleanDynamic E R' w) := by
  unfold cleanDynamic
  refine forAll_lim hR (fun k w => ?_) w
  lim_tac [unregister_lim hR _]

theorem runHook_lim (hR : LimR R R') (n : CStr) (w : World) : Lim w (runHook E R n w) (runHook E R' n w) := by
  unfold runHook
  lim_tac [condOneshot_lim hR _, stepAll_lim hR _]

theorem pidfileReconf_lim (hR : LimR R R') (w : World) : Lim w (pidfileReconf E R w) (pidfileReconf E R' w) := by
  unfold pidfileReconf
  refine Lim.bind (F := stepAll R _) (G := stepAll R' _) (forAll_lim hR (fun k w => ?_) w) (stepAll_lim hR _)
  lim_tac [serviceReady_lim hR _ _]

theorem notifyReconf_lim (hR : LimR R R') (w : World) : Lim w (notifyReconf E R w) (notifyReconf E R' w) := by
  unfold notifyReconf
  refine forAll_lim hR (fun k w => ?_) w
  lim_tac [serviceReady_lim hR _ _]

theorem smBootWait_lim (hR : LimR R R') (w : World) : Lim w (smBootWait E R w) (smBootWait E R' w) := by
  unfold smBootWait
  lim_tac [condOneshot_lim hR _, stepAll_lim hR _, runHook_lim hR _]

theorem smRunning_lim (hR : LimR R R') (w : World) : Lim w (smRunning R w) (smRunning R' w) := by
  unfold smRunning
  lim_tac [stepAll_lim hR _]

/-- SM_RUNLEVEL_CHANGE_STATE after the new runlevel has been taken over. -/
def rlRest (E : Env) (R : Rec) (x : World) : World :=
  let w := if x.runlevel = 0 ∨ x.runlevel = 6 then runHook E R "hook/sys/shutdown".toList x else x
  let w := nologinUpdate w
  let w := if w.runlevel ≠ 0 ∧ w.runlevel ≠ 6 ∧ w.confChanged = true then confReload E w else w
  let w := runtaskClean R w
  let w := { w with inReload := true }
  let w := stepAll R tyAny (emit .sweep w)
  { w with sm := .rlWait }

theorem smRlChange_eq (R : Rec) (w : World) :
    smRlChange E R w = rlRest E R
      (let w := emit (.runlevel w.runlevel w.newlevel.toNat) w
       { w with prevlevel := w.runlevel, runlevel := w.newlevel.toNat, newlevel := -1 }) := by
  unfold smRlChange rlRest
  rfl

theorem rlRest_lim (hR : LimR R R') (w : World) : Lim w (rlRest E R w) (rlRest E R' w) := by
  unfold rlRest
  lim_tac [stepAll_lim hR _, runHook_lim hR _, runtaskClean_lim hR]

theorem smRlChange_lim (hR : LimR R R') (w : World) : Lim w (smRlChange E R w) (smRlChange E R' w) := by
  rw [smRlChange_eq, smRlChange_eq]
  exact Lim.bind (.pure rfl) (rlRest_lim hR)

theorem smRlWait_lim (hR : LimR R R') (w : World) : Lim w (smRlWait E R w) (smRlWait E R' w) := by
  unfold smRlWait
  lim_tac [stepAll_lim hR _, runHook_lim hR _]

theorem smRlClean_lim (hR : LimR R R') (w : World) : Lim w (smRlClean E R w) (smRlClean E R' w) := by
  unfold smRlClean
  lim_tac [cleanDynamic_lim hR]

theorem smReloadChange_lim (hR : LimR R R') (w : World) : Lim w (smReloadChange E R w) (smReloadChange E R' w) := by
  unfold smReloadChange
  lim_tac [stepAll_lim hR _]

theorem smReloadWait_lim (hR : LimR R R') (w : World) : Lim w (smReloadWait R w) (smReloadWait R' w) := by
  unfold smReloadWait
  lim_tac [stepAll_lim hR _]

theorem smReloadClean_lim (hR : LimR R R') (w : World) : Lim w (smReloadClean E R w) (smReloadClean E R' w) := by
  unfold smReloadClean
  lim_tac [cleanDynamic_lim hR, pidfileReconf_lim hR, runHook_lim hR _, notifyReconf_lim hR]

theorem smBranch_lim (hR : LimR R R') (w : World) : Lim w (smBranch E R w) (smBranch E R' w) := by
  unfold smBranch
  cases w.sm <;> dsimp -zeta only
  · lim_tac [stepAll_lim hR _]
  · exact smBootWait_lim hR w
  · exact smRunning_lim hR w
  · exact smRlChange_lim hR w
  · exact smRlWait_lim hR w
  · exact smRlClean_lim hR w
  · exact smReloadChange_lim hR w
  · exact smReloadWait_lim hR w
  · exact smReloadClean_lim hR w

theorem smLoopBody_lim (hR : LimR R R') (w : World) : Lim w (smLoopBody E R w) (smLoopBody E R' w) := by
  unfold smLoopBody
  lim_tac [smBranch_lim hR, hR.smLoop]

theorem smStep_lim (hR : LimR R R') (w : World) : Lim w (smStep E R w) (smStep E R' w) := by
  unfold smStep
  lim_tac [smLoopBody_lim hR]

theorem mkRec_lim : ∀ n m, n ≤ m → LimR (mkRec E n) (mkRec E m) := by
  intro n
  induction n with
  | zero =>
    intro m _
    exact ⟨Nat.zero_le _, fun _ _ => ⟨fun _ => rfl, nofun⟩, fun _ _ => ⟨fun _ => rfl, nofun⟩,
      fun _ => ⟨fun _ => rfl, nofun⟩, fun _ => ⟨fun _ => rfl, nofun⟩⟩
  | succ n ih =>
    intro m h
    cases m with
    | zero => omega
    | succ m =>
      have hR := ih m (by omega)
      exact ⟨h, serviceStep_lim hR, stepLoop_lim hR, smStep_lim hR, smLoopBody_lim hR⟩

theorem smRunlevel_lim (hR : LimR R R') (l : Nat) (w : World) : Lim w (smRunlevel E R l w) (smRunlevel E R' l w) := by
  unfold smRunlevel
  lim_tac [hR.sm]

theorem smReload_lim (hR : LimR R R') (w : World) : Lim w (smReload E R w) (smReload E R' w) := by
  unfold smReload
  lim_tac [hR.sm]

theorem pruneBootstrap_lim (hR : LimR R R') (w : World) : Lim w (pruneBootstrap R w) (pruneBootstrap R' w) := by
  unfold pruneBootstrap
  refine forAll_lim hR (fun k w => ?_) w
  lim_tac []

theorem bootCheck_lim (hR : LimR R R') (w : World) : Lim w (bootCheck E R w) (bootCheck E R' w) := by
  unfold bootCheck
  lim_tac [stepAll_lim hR _, smRunlevel_lim hR _, pruneBootstrap_lim hR, runHook_lim hR _]

theorem apiStop_lim (hR : LimR R R') (k : Key) (w : World) : Lim w (apiStop R k w) (apiStop R' k w) := by
  unfold apiStop
  lim_tac [stepAll_lim hR _, hR.step _]

theorem apiStart_lim (hR : LimR R R') (k : Key) (w : World) : Lim w (apiStart R k w) (apiStart R' k w) := by
  unfold apiStart
  lim_tac [stepAll_lim hR _, hR.step _]

theorem apiRestart_lim (hR : LimR R R') (k : Key) (w : World) :
    Lim w (apiRestart E R k w) (apiRestart E R' k w) := by
  unfold apiRestart
  lim_tac [apiStart_lim hR _, serviceStop_lim hR _, hR.step _]

theorem apiReload_lim (hR : LimR R R') (k : Key) (w : World) : Lim w (apiReload R k w) (apiReload R' k w) := by
  unfold apiReload
  lim_tac [hR.step _]

theorem pidfileGone_lim (hR : LimR R R') (k : Key) (w : World) :
    Lim w (pidfileGone E R k w) (pidfileGone E R' k w) := by
  unfold pidfileGone
  lim_tac [condClear_lim hR _, serviceReady_lim hR _ _]

theorem pidfileSet_lim (hR : LimR R R') (k : Key) (w : World) :
    Lim w (pidfileSet E R k w) (pidfileSet E R' k w) := by
  unfold pidfileSet
  lim_tac [condSet_lim hR _, serviceReady_lim hR _ _]

theorem serviceForked_lim (hR : LimR R R') (k : Key) (w : World) :
    Lim w (serviceForked R k w) (serviceForked R' k w) := by
  unfold serviceForked
  lim_tac [setState_lim hR _ _]

theorem pidfileWrite_lim (hR : LimR R R') (k : Key) (p : Int) (t : Bool) (w : World) :
    Lim w (pidfileWrite E R k p t w) (pidfileWrite E R' k p t w) := by
  unfold pidfileWrite
  lim_tac [pidfileGone_lim hR _, condClear_lim hR _, serviceForked_lim hR _, pidfileSet_lim hR _]

theorem pidfileRemove_lim (hR : LimR R R') (k : Key) (w : World) :
    Lim w (pidfileRemove E R k w) (pidfileRemove E R' k w) := by
  unfold pidfileRemove
  lim_tac [pidfileGone_lim hR _]

theorem notifyReady_lim (hR : LimR R R') (k : Key) (w : World) :
    Lim w (notifyReady E R k w) (notifyReady E R' k w) := by
  unfold notifyReady
  lim_tac [serviceReady_lim hR _ _]

theorem gcOne_lim (hR : LimR R R') (k : Key) (w : World) : Lim w (gcOne R k w) (gcOne R' k w) := by
  unfold gcOne
  lim_tac [condClear_lim hR _]

/-- A larger limit gives the same result, unless the smaller is hit. -/
theorem handle_lim {n m : Nat} (h : n ≤ m) (ev : Ev) (w : World) : Lim w (handle E n ev w) (handle E m ev w) := by
  have hR := mkRec_lim (E := E) n m h
  unfold handle
  dsimp only
  generalize mkRec E n = R at hR ⊢
  generalize mkRec E m = R' at hR ⊢
  refine .ite (fun _ => .pure rfl) fun _ => .ite (fun _ => ?_) fun _ => ?_
  · cases ev <;> first | exact .pure rfl | (dsimp -zeta only; lim_tac [hR.sm])
  · cases ev <;> dsimp -zeta only <;>
      lim_tac [monitor_lim hR _ _, timerFire_lim hR _, stepAll_lim hR _, bootCheck_lim hR, apiStart_lim hR _,
        apiStop_lim hR _, apiRestart_lim hR _, apiReload_lim hR _, smRunlevel_lim hR _, smReload_lim hR,
        condSet_lim hR _, condOneshot_lim hR _, condClear_lim hR _, condUpdate_lim hR _, pidfileWrite_lim hR _ _ _,
        pidfileRemove_lim hR _, notifyReady_lim hR _, gcOne_lim hR _]

end
end Verif.Sup
