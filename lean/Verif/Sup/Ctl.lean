import Verif.Sup.RefineEv

/-!
# Supervisor model: the control state and how it moves

Runlevels, bootstrap and reload are driven by a handful of global variables.  This file
projects the world to those variables (`ctl`) and shows that every event moves them according
to a small automaton (`Move`, `Run`), whatever the services do in between.
-/

namespace Verif.Sup

open Verif (CStr CondStore)

/-- The global variables of src/sm.c, src/finit.c and the configuration of every service. -/
structure Ctl where
  sm : SmSt
  newlevel : Int
  reload : Bool
  runlevel : Nat
  prevlevel : Nat
  cfglevel : Nat
  cmdlevel : Nat
  bootTmo : Int
  bootWork : Bool
  nologin : Bool
  emerg : Bool
  down : Bool
  booted : Bool
  nextKey : Key
  cfg : Key → Svc

/-- The control state of a world. -/
def ctl (w : World) : Ctl :=
  ⟨w.sm, w.newlevel, w.reload, w.runlevel, w.prevlevel, w.cfglevel, w.cmdlevel, w.bootTmo, w.bootWork,
   w.nologin, w.emerg, w.down, w.booted, w.nextKey, fun k => (w.svc k).cfg⟩

/-- Nothing happens to the control state, unless something is re-entered. -/
structure Keep (w w' : World) : Prop where
  mono : w.reent = true → w'.reent = true
  eq : w'.reent = false → ctl w' = ctl w

section
variable {E : Env} {lab : Lab} {S : Key → Prop} {R : Rec}

theorem Keep.refl (w : World) : Keep w w := ⟨id, fun _ => rfl⟩

theorem Keep.trans {a b c : World} (h1 : Keep a b) (h2 : Keep b c) : Keep a c :=
  ⟨fun h => h2.mono (h1.mono h), fun h => (h2.eq h).trans (h1.eq (reent_false h2.mono h))⟩

theorem Keep.of {a b : World} (hr : b.reent = a.reent) (e : ctl b = ctl a) : Keep a b :=
  ⟨fun h => hr.trans h, fun _ => e⟩

theorem Pre.keep {a b : World} (h : Pre E lab S a b) : Keep a b := by
  refine ⟨h.mono, fun hr => ?_⟩
  obtain ⟨_, g, c⟩ := h.frame hr
  have ec : (fun k => (b.svc k).cfg) = fun k => (a.svc k).cfg := funext c
  unfold ctl
  rw [ec]
  have e : ∀ {α : Type} (f : Core → α), f (Glob b) = f (Glob a) := fun f => congrArg f g
  rw [show b.sm = a.sm from e (·.sm), show b.newlevel = a.newlevel from e (·.newlevel),
    show b.reload = a.reload from e (·.reload), show b.runlevel = a.runlevel from e (·.runlevel),
    show b.prevlevel = a.prevlevel from e (·.prevlevel), show b.cfglevel = a.cfglevel from e (·.cfglevel),
    show b.cmdlevel = a.cmdlevel from e (·.cmdlevel), show b.bootTmo = a.bootTmo from e (·.bootTmo),
    show b.bootWork = a.bootWork from e (·.bootWork), show b.nologin = a.nologin from e (·.nologin),
    show b.emerg = a.emerg from e (·.emerg), show b.down = a.down from e (·.down),
    show b.booted = a.booted from e (·.booted), show b.nextKey = a.nextKey from e (·.nextKey)]

theorem Good.keep {a b : World} (h : Good E lab S a b) : Keep a b := h.pre.keep

/-- Changing one service without touching its configuration. -/
theorem ctl_upd (w : World) (k : Key) (s' : Svc) (h : s'.cfg = (w.svc k).cfg) :
    ctl { w with svc := upd w.svc k s' } = ctl w := by
  have : (fun j => (upd w.svc k s' j).cfg) = fun j => (w.svc j).cfg := by
    funext j
    by_cases e : j = k
    · subst e; rw [upd_same]; exact h
    · rw [upd_other _ _ _ _ e]
  unfold ctl
  exact congrArg (Ctl.mk _ _ _ _ _ _ _ _ _ _ _ _ _ _) this

theorem Keep.mod (w : World) (k : Key) (f : Svc → Svc) (h : (f (w.svc k)).cfg = (w.svc k).cfg) :
    Keep w (Sup.mod k f w) := .of rfl (ctl_upd w k _ h)

theorem Keep.cancel (k : Key) (w : World) : Keep w (timerCancel k w) := by
  unfold timerCancel; split
  · exact .mod w k _ rfl
  · exact .refl w

theorem Keep.emit (e : Eff) (w : World) : Keep w (Sup.emit e w) := .of rfl rfl

theorem Keep.kill (tgt : Int) (sig : Nat) (why : Why) (k : Key) (w : World) :
    Keep w (Sup.kill E tgt sig why k w).2 := .of rfl rfl

theorem Keep.after (k : Key) (tmo : Int) (cb : Cb) (w : World) : Keep w (timerAfter k tmo cb w) := by
  unfold timerAfter; split
  · exact .refl w
  · split
    · exact .refl w
    · exact .mod w k _ rfl

theorem Keep.cleanup (k : Key) (w : World) : Keep w (serviceCleanup k w) :=
  (Keep.cancel k w).trans (.mod _ k _ rfl)

theorem Keep.fork (k : Key) (role : Role) (w : World) : Keep w (Sup.fork E k role w).2 := by
  rcases fork_cases (E := E) k role w with e | ⟨q, h1, h2, e⟩ <;> rw [e]
  · exact .of rfl rfl
  · exact .of rfl rfl

theorem Keep.touch (k : Key) (w : World) : Keep w (Sup.touch k w) := by
  unfold Sup.touch; split
  · exact ⟨fun _ => rfl, fun h => by cases h⟩
  · exact .refl w

theorem Keep.stateRaw (k : Key) (new : SState) (w : World) : Keep w (setStateRaw k new w) := by
  unfold setStateRaw
  extract_lets s0 w1
  have g1 : Keep w w1 := by
    simp only [w1]; split
    · exact (Keep.cancel k w).trans (.after k _ _ _)
    · exact .refl w
  split
  · exact g1
  · have g2 : Keep w (Sup.mod k (fun s => { s with state := new }) (Sup.emit (.trans k (w1.svc k).state new) w1)) :=
      (g1.trans (.emit _ _)).trans (.mod _ k _ rfl)
    exact g2.trans (.of rfl rfl)

theorem Keep.state (h : ROk E lab R) (k : Key) (new : SState) (w : World) :
    Keep w (setState R k new w) := by
  unfold setState
  extract_lets old w1
  have g1 : Keep w w1 := .stateRaw k new w
  split
  · exact g1
  · rename_i hn
    exact g1.trans (setStateConds_raw (E := E) (lab := lab) h (k := k) (new := new) (w := w) hn).1.keep

theorem Keep.runScript (k : Key) (role : Role) (w : World) : Keep w (Sup.runScript E k role w).2 := by
  unfold Sup.runScript
  dsimp only
  split
  · exact .fork k role w
  · exact (Keep.fork k role w).trans (.of rfl rfl)

theorem Keep.stopAct (k : Key) (w : World) : Keep w (Sup.stopAct E k w).2 := by
  unfold Sup.stopAct
  split
  · exact .runScript k _ w
  · split
    · exact .kill _ _ _ _ w
    · exact .fork k _ w

theorem Keep.stop (h : ROk E lab R) (k : Key) (w : World) : Keep w (serviceStop E R k w) := by
  unfold serviceStop
  split
  · exact .refl w
  extract_lets w1 plain r w2 w3 r2 w4 r3 w5
  have g1 : Keep w w1 := .cancel k w
  have g2 : Keep w w2 := g1.trans (.of rfl rfl)
  have g3 : Keep w w3 := g2.trans (.mod _ k _ rfl)
  have g4 : Keep w w4 := g3.trans (.of rfl rfl)
  have g5 : Keep w w5 := g4.trans (.stopAct k w4)
  split
  · exact g1
  split
  · exact (g2.trans (.cleanup k w2)).trans (.state h k _ _)
  split
  · exact g4.trans (.mod _ k _ rfl)
  split
  · exact (g5.trans (.cleanup k w5)).trans (.state h k _ _)
  · exact g5.trans (.state h k _ _)

theorem Keep.del (k : Key) (w : World) : Keep w (svcDel k w) := .of rfl rfl

theorem Keep.cleanBoot (k : Key) (w : World) : Keep w (cleanBootstrap k w) := by
  unfold cleanBootstrap; split
  · exact (Keep.mod w k _ rfl).trans (.del k _)
  · exact .refl w

theorem Keep.iter {f : Key → World → World} (hf : ∀ k w, Keep w (f k w)) :
    ∀ n o w, Keep w (Sup.iter f n o w) := by
  intro n
  induction n with
  | zero => intro o w; cases o with
    | none => exact .refl w
    | some k => exact .of rfl rfl
  | succ n ih => intro o w; cases o with
    | none => exact .refl w
    | some k => exact (hf k w).trans (ih _ _)

theorem Keep.cleanDynamic (h : ROk E lab R) (w : World) : Keep w (Sup.cleanDynamic E R w) := by
  unfold Sup.cleanDynamic forAll
  apply Keep.iter
  intro k w
  split
  · unfold unregister
    exact (((Keep.touch k w).trans (.stop h k _)).trans (.cancel k _)).trans (.del k _)
  · exact .refl w

theorem Keep.monitorHead (k : Key) (st : WStatus) (w : World) : Keep w (Sup.monitorHead E k st w) := by
  obtain ⟨s', tr, t, e, es, _⟩ := monitorHead_eq (E := E) k st w
  rw [e]
  refine .of rfl ?_
  refine (ctl_upd { w with trace := tr, tick := t } k s' ?_).trans rfl
  rw [es]; rfl

theorem Keep.scriptDel (p : Int) (w : World) : Keep w (Sup.scriptDel E p w) := by
  unfold Sup.scriptDel
  split
  · exact .refl w
  · extract_lets w1 w2 w3
    have g1 : Keep w w1 := by simp only [w1]; split <;> exact .of rfl rfl
    exact ((g1.trans (.cancel _ w1)).trans (.kill (E := E) _ _ _ _ w2)).trans (.of rfl rfl)

/-- `service_monitor` does its own work and then maybe runs `sm_step`. -/
def Turned (R : Rec) (w w' : World) : Prop := ∃ u, Keep w u ∧ (w' = u ∨ w' = R.sm u)

theorem Turned.keep {w w' : World} (h : Keep w w') : Turned R w w' := ⟨w', h, .inl rfl⟩

theorem Keep.turned {a b c : World} (h1 : Keep a b) (h2 : Turned R b c) : Turned R a c := by
  obtain ⟨u, hu, e⟩ := h2
  exact ⟨u, h1.trans hu, e⟩

theorem monitor_turned (h : ROk E lab R) (p : Int) (st : WStatus) (w : World) :
    Turned R w (monitor E R p st w) := by
  unfold monitor
  split
  · exact .keep (.refl w)
  extract_lets w1
  have g1 : Keep w w1 := by
    simp only [w1]; split
    · exact ⟨fun _ => rfl, fun h => by cases h⟩
    · exact .refl w
  split
  · exact .keep (g1.trans (.scriptDel p w1))
  · rename_i k hf
    refine (g1.trans (.monitorHead (E := E) k st w1)).turned ?_
    generalize Sup.monitorHead E k st w1 = v
    unfold monitorTail
    extract_lets x w2 w3 w4
    have g2 : Keep v w2 := by
      simp only [w2]; split
      · have a : Keep v (Sup.mod k (fun s => { s with dirty := false, argsDirty := false }) v) :=
          .mod v k _ rfl
        exact a.trans (.of rfl rfl)
      · exact .refl v
    exact ⟨w4, (g2.trans (h.step k w2).keep).trans (.cleanBoot k w3), .inr rfl⟩

/-! ### Events that do not reach `sm_step` -/

theorem Keep.serviceRetry (h : ROk E (.retry k) R) (w : World) : Keep w (Sup.serviceRetry E R k w) := by
  unfold Sup.serviceRetry
  extract_lets svc0 w1 r noresp w2 c0 wf w3 w4 w5 w6 w7 w8
  have g2 : Keep w w2 := (Keep.cancel k w).trans (.of rfl rfl)
  split
  · exact g2
  split
  · exact (g2.trans (.mod _ k _ rfl)).trans (h.step k _).keep
  split
  · have gf : Keep w2 wf := .of rfl rfl
    exact ((g2.trans gf).trans (.mod _ k _ rfl)).trans (.state h k _ _)
  split
  · have g4 : Keep w w4 := (g2.trans (.emit _ _)).trans (.mod _ k _ rfl)
    have g5 : Keep w4 w5 := by
      simp only [w5]; split
      · exact .emit _ _
      · split
        · unfold scriptFork
          extract_lets r p u1 u2
          have a : Keep w4 u2 := (Keep.fork k _ w4).trans (.mod _ k _ rfl)
          split
          · exact a
          · exact a.trans (.after k _ _ _)
        · exact .refl w4
      · exact .refl w4
    exact (g4.trans g5).trans (h.step k w5).keep
  · have g7 : Keep w w7 := (g2.trans (.emit _ _)).trans (.mod _ k _ rfl)
    exact (g7.trans (h.step k w7).keep).trans (.after k _ _ _)

theorem Keep.killScript (k : Key) (w : World) : Keep w (serviceKillScript E k w) := by
  unfold serviceKillScript
  extract_lets p
  split
  · exact .refl w
  · exact .kill _ _ _ _ w

theorem Keep.scriptKill (k : Key) (w : World) : Keep w (Sup.scriptKill E k w) := by
  unfold Sup.scriptKill
  generalize w.assoc = l
  induction l generalizing w with
  | nil => unfold scriptKill.go; exact .refl w
  | cons a l ih =>
    unfold scriptKill.go
    split
    · exact ih w
    · extract_lets w1
      have g1 : Keep w w1 := .kill _ _ _ _ w
      have g2 : Keep w1 { w1 with assoc := w1.assoc.erase a } := .of rfl rfl
      exact (g1.trans g2).trans (ih _)

theorem serviceKill_turned {k : Key} (h : ROk E lab R) (w : World) : Turned R w (serviceKill E R k w) := by
  unfold serviceKill
  extract_lets w1 p r nm w2
  have g1 : Keep w w1 := .cancel k w
  have g2 : Keep w w2 := g1.trans (.of rfl rfl)
  split
  · exact .keep g1
  · split
    · exact g2.turned (monitor_turned h _ _ _)
    · exact .keep (g2.trans (.kill _ _ _ _ w2))

theorem timerFire_turned {k : Key} (h : ∀ lab, ROk E lab R) (w : World) : Turned R w (timerFire E R k w) := by
  unfold timerFire
  split
  · exact .keep (.refl w)
  extract_lets w1 w2
  have g1 : Keep w w1 := by simp only [w1]; split <;> exact .of rfl rfl
  have g2 : Keep w w2 := g1.trans (.mod _ k _ rfl)
  split
  · exact .keep g2
  · exact g2.turned (serviceKill_turned (h (.retry k)) w2)
  · exact .keep (g2.trans (.serviceRetry (h _) w2))
  · exact .keep (g2.trans (.killScript k w2))
  · exact .keep (g2.trans (.scriptKill k w2))

theorem Keep.confFlush (w : World) : Keep w (Sup.confFlush E w) := by
  unfold Sup.confFlush
  extract_lets r
  split
  · exact .of rfl rfl
  · exact .of rfl rfl

theorem Keep.stepAll (h : ROk E lab R) (p : SType → Bool) (w : World) : Keep w (Sup.stepAll R p w) :=
  (stepAll_good h p w).keep

theorem Keep.apiStop (h : ROk E lab R) (k : Key) (w : World) : Keep w (Sup.apiStop R k w) := by
  unfold Sup.apiStop
  exact (((Keep.cancel k w).trans (.mod _ k _ rfl)).trans (h.step k _).keep).trans (.stepAll h _ _)

theorem Keep.apiStart (h : ROk E lab R) (k : Key) (w : World) : Keep w (Sup.apiStart R k w) := by
  unfold Sup.apiStart
  exact (((Keep.cancel k w).trans (.mod _ k _ rfl)).trans (h.step k _).keep).trans (.stepAll h _ _)

theorem Keep.apiRestart (h : ROk E lab R) (k : Key) (w : World) : Keep w (Sup.apiRestart E R k w) := by
  unfold Sup.apiRestart
  split
  · exact .apiStart h k w
  · exact ((Keep.cancel k w).trans (.stop h k _)).trans (h.step k _).keep

theorem Keep.apiReload (h : ROk E lab R) (k : Key) (w : World) : Keep w (Sup.apiReload R k w) := by
  unfold Sup.apiReload
  extract_lets w1
  have g1 : Keep w w1 := by
    simp only [w1]; split
    · exact .mod _ k _ rfl
    · exact .cancel k w
  exact (g1.trans (.mod _ k _ rfl)).trans (h.step k _).keep

theorem Keep.pidfileGone (h : ROk E lab R) (k : Key) (w : World) : Keep w (Sup.pidfileGone E R k w) := by
  unfold Sup.pidfileGone
  extract_lets w1
  have g1 : Keep w w1 := (condClear_good h (NameOk.pid w k)).keep
  split
  · exact g1.trans (serviceReady_good h k false w1 (fun h => nomatch h)).keep
  · exact g1

theorem Keep.pidfileSet {k : Key} (h : ROk E (.ev (.notifyReady k)) R) (w : World) : Keep w (Sup.pidfileSet E R k w) := by
  unfold Sup.pidfileSet
  extract_lets w1
  have g1 : Keep w w1 := by
    simp only [w1]; split
    · exact (condSet_good h (.pid k)).keep
    · exact .refl w
  split
  · exact g1.trans (serviceReady_good h k true w1 fun _ _ => .inr (.inr rfl)).keep
  · exact g1

theorem Keep.pidfileWrite {k : Key} (h : ROk E (.ev (.notifyReady k)) R) (p : Int) (b : Bool) (w : World) :
    Keep w (Sup.pidfileWrite E R k p b w) := by
  unfold Sup.pidfileWrite
  extract_lets st w1 w2 w3
  split
  · exact .refl w
  split
  · exact .pidfileGone h k w
  have g1 : Keep w w1 := by
    simp only [w1]; split
    · exact .mod _ k _ rfl
    · exact .refl w
  split
  · split
    · split
      · exact g1
      · exact g1.trans (condClear_good h (NameOk.pid w1 k)).keep
    · have g2 : Keep w1 w2 := by
        show Keep w1 (serviceForked R k w1)
        unfold serviceForked
        exact ((Keep.cancel k w1).trans (.mod _ k _ rfl)).trans (.state h k _ _)
      exact ((g1.trans g2).trans (.mod _ k _ rfl)).trans (.pidfileSet h w3)
  · exact g1.trans (.pidfileSet h w1)

theorem Keep.pidfileRemove (h : ROk E lab R) (k : Key) (w : World) :
    Keep w (Sup.pidfileRemove E R k w) := by
  unfold Sup.pidfileRemove
  extract_lets st
  split
  · exact .refl w
  · exact .pidfileGone h k w

theorem Keep.notifyReady {k : Key} (h : ROk E (.ev (.notifyReady k)) R) (w : World) :
    Keep w (Sup.notifyReady E R k w) := by
  unfold Sup.notifyReady
  extract_lets w1 w2 w3
  have g1 : Keep w w1 := by simp only [w1]; split <;> exact .of rfl rfl
  have g3 : Keep w w3 := (g1.trans (.mod _ k _ rfl)).trans (serviceReady_good h k true w2 fun _ _ => .inr (.inr rfl)).keep
  split
  · exact g3.trans (.mod _ k _ rfl)
  · exact g3

theorem Keep.ageAll : ∀ (l : List Key) (w : World), Keep w (Sup.ageAll l w) := by
  intro l
  induction l with
  | nil => intro w; exact .refl w
  | cons k ks ih =>
    intro w
    unfold Sup.ageAll
    refine Keep.trans ?_ (ih _)
    split
    · exact (Keep.emit _ w).trans (.mod _ k _ rfl)
    · exact .refl w

theorem Keep.gcOne (h : ROk E lab R) (k : Key) (w : World) : Keep w (Sup.gcOne R k w) := by
  unfold Sup.gcOne
  extract_lets w1 w2
  have g1 : Keep w w1 := .of rfl rfl
  have g2 : Keep w1 w2 := by
    simp only [w2]; split
    · exact .refl w1
    · exact (condClear_good h (NameOk.pid w1 k)).keep
  exact (g1.trans g2).trans (.of rfl rfl)

theorem Keep.prune (w : World) : Keep w (pruneBootstrap R w) := by
  unfold pruneBootstrap forAll
  apply Keep.iter
  intro k w; split
  · exact .cleanBoot k w
  · exact .refl w

/-! ### Reading the configuration -/

/-- Of the control state, only the configuration of services may have changed. -/
structure Conf (a b : World) : Prop where
  reent : b.reent = a.reent
  eq : ctl b = { ctl a with nextKey := b.nextKey, cfg := (ctl b).cfg }

theorem Conf.refl (w : World) : Conf w w := ⟨rfl, rfl⟩

theorem Conf.trans {a b c : World} (h1 : Conf a b) (h2 : Conf b c) : Conf a c := by
  refine ⟨h2.reent.trans h1.reent, ?_⟩
  rw [h2.eq, h1.eq]

theorem Conf.register (z : Stanza) (w : World) : Conf w (Sup.register E z w) := by
  unfold Sup.register
  split
  · exact .refl w
  split
  · exact .refl w
  extract_lets r w1 k w2 ra rc
  split
  · exact ⟨rfl, rfl⟩
  have g2 : Conf w w2 := by
    cases hf : regFind z w1.toCore with
    | some j =>
      have e : w2 = _ := regObj_some hf
      rw [e]; exact ⟨rfl, rfl⟩
    | none =>
      have e : w2 = _ := regObj_none hf
      rw [e]; exact ⟨rfl, rfl⟩
  refine g2.trans ⟨rfl, rfl⟩

theorem Conf.registerAll : ∀ (l : List Stanza) (w : World), Conf w (Sup.registerAll E l w) := by
  intro l
  induction l with
  | nil => exact fun w => .refl w
  | cons z zs ih => intro w; unfold Sup.registerAll; exact (Conf.register z w).trans (ih _)

theorem Conf.rdeps : ∀ (l : List Key) (w : World), Conf w (updateRdeps l w) := by
  intro l
  induction l with
  | nil => exact fun w => .refl w
  | cons z zs ih =>
    intro w
    unfold updateRdeps
    split
    · have g : Conf w (markAffected (w.svc z).pidCond w) := ⟨rfl, rfl⟩
      exact g.trans (ih _)
    · exact ih _

theorem Conf.reload (w : World) : Conf w (confReload E w) := by
  unfold confReload
  extract_lets w1 zs w2 w3 w4 w5
  have g1 : Conf w w2 := ⟨rfl, rfl⟩
  have g2 : Conf w2 w3 := .registerAll zs w2
  have g3 : Conf w3 w4 := .rdeps _ w3
  exact ((g1.trans g2).trans g3).trans ⟨rfl, rfl⟩

/-! ### The automaton -/

/-- Whether logins are disabled after a change from runlevel `a` to `b`, src/sm.c:167-174. -/
def nologinAfter (a b : Nat) (old : Bool) : Bool :=
  if a = 1 ∨ reserved a = true then false
  else if b = 1 ∨ reserved b = true then true else old

/-- One turn of the loop in `sm_step`. -/
inductive Move : Ctl → Ctl → Prop
  | boot (c : Ctl) (h : c.sm = .bootstrap) : Move c { c with sm := .bootstrapWait }
  | bootStay (c : Ctl) (h : c.sm = .bootstrapWait) (hn : c.newlevel = -1) : Move c c
  | up (c : Ctl) (h : c.sm = .bootstrapWait) (hn : c.newlevel ≠ -1) : Move c { c with sm := .running }
  | same (c : Ctl) (h : c.sm = .running) (hn : 0 ≤ c.newlevel ∧ c.newlevel ≤ 9)
      (e : (c.runlevel : Int) = c.newlevel) : Move c { c with newlevel := -1 }
  | change (c : Ctl) (h : c.sm = .running) (hn : 0 ≤ c.newlevel ∧ c.newlevel ≤ 9)
      (e : (c.runlevel : Int) ≠ c.newlevel) : Move c { c with sm := .rlChange }
  | reload (c : Ctl) (h : c.sm = .running) (hn : ¬ (0 ≤ c.newlevel ∧ c.newlevel ≤ 9))
      (hr : c.reload = true) : Move c { c with reload := false, sm := .reloadChange }
  | idle (c : Ctl) (h : c.sm = .running) (hn : ¬ (0 ≤ c.newlevel ∧ c.newlevel ≤ 9))
      (hr : c.reload = false) : Move c c
  | runlevel (c : Ctl) (nk : Key) (cf : Key → Svc) (h : c.sm = .rlChange)
      (hc : c.newlevel.toNat = 0 ∨ c.newlevel.toNat = 6 → nk = c.nextKey ∧ cf = c.cfg) :
      Move c { c with
        prevlevel := c.runlevel, runlevel := c.newlevel.toNat, newlevel := -1, sm := .rlWait,
        nologin := nologinAfter c.runlevel c.newlevel.toNat c.nologin, nextKey := nk, cfg := cf }
  | rlStay (c : Ctl) (h : c.sm = .rlWait) : Move c c
  | rlStopped (c : Ctl) (h : c.sm = .rlWait) : Move c { c with sm := .rlClean }
  | cleanStay (c : Ctl) (h : c.sm = .rlClean) : Move c c
  | shutdown (c : Ctl) (h : c.sm = .rlClean) (hr : c.runlevel = 0 ∨ c.runlevel = 6) :
      Move c { c with down := true }
  | rlDone (c : Ctl) (h : c.sm = .rlClean) (hr : ¬ (c.runlevel = 0 ∨ c.runlevel = 6)) :
      Move c { c with sm := .running }
  | conf (c : Ctl) (nk : Key) (cf : Key → Svc) (h : c.sm = .reloadChange) :
      Move c { c with sm := .reloadWait, nextKey := nk, cfg := cf }
  | reStay (c : Ctl) (h : c.sm = .reloadWait) : Move c c
  | reStopped (c : Ctl) (h : c.sm = .reloadWait) : Move c { c with sm := .reloadClean }
  | reCleanStay (c : Ctl) (h : c.sm = .reloadClean) : Move c c
  | reDone (c : Ctl) (h : c.sm = .reloadClean) : Move c { c with sm := .running }

/-- `sm_step`: moves until the state stays the same.  The flag tells whether it was cut short
    (the model has only so much fuel). -/
inductive Run : Bool → Ctl → Ctl → Prop
  | cut (c : Ctl) : Run true c c
  | halt {b : Bool} {c d : Ctl} (h : Move c d) (hs : d.down = true ∨ d.sm = c.sm) : Run b c d
  | go {b : Bool} {c d e : Ctl} (h : Move c d) (hd : d.down = false) (hs : d.sm ≠ c.sm) (hr : Run b d e) :
      Run b c e

theorem nologinUpdate_ctl (w : World) :
    ctl (nologinUpdate w) = { ctl w with nologin := nologinAfter w.prevlevel w.runlevel w.nologin } ∧
    (nologinUpdate w).reent = w.reent := by
  unfold nologinUpdate nologinAfter
  by_cases h1 : w.runlevel = 1 ∨ reserved w.runlevel = true <;>
    by_cases h2 : w.prevlevel = 1 ∨ reserved w.prevlevel = true <;> simp only [h1, h2, if_true, if_false] <;>
    exact ⟨rfl, trivial⟩

theorem Keep.hook (h : ROk E lab R) {n : CStr} (hn : n ∈ intNames) (w : World) :
    Keep w (runHook E R n w) := (runHook_good h hn w).keep

theorem smBootWait_move (h : ROk E lab R) {w : World} (hs : w.sm = .bootstrapWait) :
    (smBootWait E R w).reent = false → Move (ctl w) (ctl (smBootWait E R w)) := by
  unfold smBootWait
  extract_lets w1 w2 w3 w4 w5 w6
  have g1 : Keep w w1 := .stepAll h _ w
  have g2 : Keep w w2 := g1.trans (condOneshot_good h (.int _ (by decide))).keep
  split
  · rename_i hn
    intro hr
    have e := g2.eq hr
    rw [e]
    exact .bootStay _ hs (by rw [← e]; exact hn)
  · rename_i hn
    intro hr
    have g3 : Keep w2 w3 := .hook h (by decide) w2
    have g4 : Keep w2 w4 := g3.trans (.stepAll h _ w3)
    have g5 : Keep w2 w5 := g4.trans (.of rfl rfl)
    have g6 : Keep w2 w6 := g5.trans (.stepAll h _ w5)
    have e6 := g6.eq hr
    have e2 := g2.eq (reent_false g6.mono hr)
    have e : ctl { w6 with sm := .running } = { ctl w6 with sm := .running } := rfl
    rw [e, e6, e2]
    exact Move.up (ctl w) hs (by rw [← e2]; exact hn)

theorem smRunning_move (h : ROk E lab R) {w : World} (hs : w.sm = .running) :
    (smRunning R w).reent = false → Move (ctl w) (ctl (smRunning R w)) := by
  unfold smRunning
  extract_lets w1
  have g1 : Keep w w1 := .stepAll h _ w
  split
  · rename_i hn
    split
    · rename_i hl
      intro hr
      have e := g1.eq hr
      have e1 : ctl { w1 with newlevel := -1 } = { ctl w1 with newlevel := -1 } := rfl
      rw [e1, e]
      exact Move.same (ctl w) hs (by rw [← e]; exact hn) (by rw [← e]; exact hl)
    · rename_i hl
      intro hr
      have e := g1.eq hr
      have e1 : ctl { w1 with sm := .rlChange } = { ctl w1 with sm := .rlChange } := rfl
      rw [e1, e]
      exact Move.change (ctl w) hs (by rw [← e]; exact hn) (by rw [← e]; exact hl)
  · rename_i hn
    split
    · rename_i hl
      intro hr
      have e := g1.eq hr
      have e1 : ctl { w1 with reload := false, sm := .reloadChange } =
        { ctl w1 with reload := false, sm := .reloadChange } := rfl
      rw [e1, e]
      exact Move.reload (ctl w) hs (by rw [← e]; exact hn) (by rw [← e]; exact hl)
    · rename_i hl
      intro hr
      have e := g1.eq hr
      rw [e]
      have hl : w1.reload = false := by simpa using hl
      exact .idle _ hs (by rw [← e]; exact hn) (by rw [← e]; exact hl)

theorem smRlChange_move (h : ROk E lab R) {w : World} (hs : w.sm = .rlChange) :
    (smRlChange E R w).reent = false → Move (ctl w) (ctl (smRlChange E R w)) := by
  unfold smRlChange
  extract_lets w1 w2 w3 w4 w5 w6 w7 w8
  intro hr
  have g3 : Keep w2 w3 := by
    simp only [w3]; split
    · exact .hook h (by decide) w2
    · exact .refl w2
  have e2 : ctl w2 = { ctl w with prevlevel := w.runlevel, runlevel := w.newlevel.toNat, newlevel := -1 } := rfl
  clear_value w3
  obtain ⟨e4, r4⟩ := nologinUpdate_ctl w3
  have e4 : ctl w4 = _ := e4
  have r4 : w4.reent = _ := r4
  have h5 : w4.runlevel = 0 ∨ w4.runlevel = 6 → w5 = w4 := by
    intro h06
    simp only [w5]
    rw [if_neg]
    rintro ⟨a, b, _⟩
    rcases h06 with h06 | h06
    · exact a h06
    · exact b h06
  have g5 : Conf w4 w5 := by
    simp only [w5]; split
    · exact .reload w4
    · exact .refl w4
  clear_value w4 w5
  have g6 : Keep w5 w6 := (runtaskClean_good h w5).keep
  have g7 : Keep w5 w7 := g6.trans (.of rfl rfl)
  have g8 : Keep w5 w8 := g7.trans ((Keep.emit .sweep w7).trans (.stepAll h _ _))
  have e8 := g8.eq hr
  have r5 := reent_false g8.mono hr
  have e3 := g3.eq (r4.symm.trans (g5.reent.symm.trans r5))
  rw [e2] at e3
  have l1 : w3.runlevel = w.newlevel.toNat := congrArg Ctl.runlevel e3
  have l2 : w3.prevlevel = w.runlevel := congrArg Ctl.prevlevel e3
  have l3 : w3.nologin = w.nologin := congrArg Ctl.nologin e3
  rw [e3, l1, l2, l3] at e4
  have l4 : w4.runlevel = w.newlevel.toNat := congrArg Ctl.runlevel e4
  have e5 := g5.eq
  rw [e4] at e5
  have e : ctl { w8 with sm := .rlWait } = { ctl w8 with sm := .rlWait } := rfl
  rw [e, e8, e5]
  refine Move.runlevel (ctl w) w5.nextKey (ctl w5).cfg hs ?_
  intro h06
  have := h5 (by rw [l4]; exact h06)
  rw [this]
  exact ⟨(congrArg Ctl.nextKey e4).trans rfl, (congrArg Ctl.cfg e4).trans rfl⟩

theorem smRlWait_move (h : ROk E lab R) {w : World} (hs : w.sm = .rlWait) :
    (smRlWait E R w).reent = false → Move (ctl w) (ctl (smRlWait E R w)) := by
  unfold smRlWait
  split
  · intro _; exact .rlStay _ hs
  · extract_lets w0 w1 w2 w3
    intro hr
    have g0 : Keep w w0 := .of rfl rfl
    have g1 : Keep w w1 := g0.trans (.hook h (by decide) w0)
    have g2 : Keep w w2 := g1.trans (.of rfl rfl)
    have g3 : Keep w w3 := g2.trans (.stepAll h _ w2)
    have e := g3.eq hr
    have e1 : ctl { w3 with sm := .rlClean } = { ctl w3 with sm := .rlClean } := rfl
    rw [e1, e]
    exact Move.rlStopped (ctl w) hs

theorem smRlClean_move (h : ROk E lab R) {w : World} (hs : w.sm = .rlClean) :
    (smRlClean E R w).reent = false → Move (ctl w) (ctl (smRlClean E R w)) := by
  unfold smRlClean
  split
  · intro _; exact .cleanStay _ hs
  · extract_lets w1
    have g1 : Keep w w1 := .cleanDynamic h w
    split
    · rename_i hl
      intro hr
      have e := g1.eq hr
      have e1 : ctl (doShutdown w1) = { ctl w1 with down := true } := rfl
      rw [e1, e]
      exact Move.shutdown (ctl w) hs (by rw [← e]; exact hl)
    · rename_i hl
      intro hr
      have e := g1.eq hr
      have e1 : ctl { w1 with sm := .running } = { ctl w1 with sm := .running } := rfl
      rw [e1, e]
      exact Move.rlDone (ctl w) hs (by rw [← e]; exact hl)

theorem smReloadChange_move (h : ROk E lab R) {w : World} (hs : w.sm = .reloadChange) :
    (smReloadChange E R w).reent = false → Move (ctl w) (ctl (smReloadChange E R w)) := by
  unfold smReloadChange
  extract_lets w1 w2 w3 w4
  intro hr
  have g2 : Conf w1 w2 := .reload w1
  have e1 : ctl w1 = ctl w := rfl
  clear_value w2
  have g3 : Keep w2 w3 := (Keep.emit .sweep w2).trans (.stepAll h _ _)
  have e3 := g3.eq hr
  have e4 : ctl { w4 with sm := .reloadWait } = { ctl w3 with sm := .reloadWait } := rfl
  have e2 := g2.eq
  rw [e1] at e2
  rw [e4, e3, e2]
  exact Move.conf (ctl w) w2.nextKey (ctl w2).cfg hs

theorem smReloadWait_move (h : ROk E lab R) {w : World} (hs : w.sm = .reloadWait) :
    (smReloadWait R w).reent = false → Move (ctl w) (ctl (smReloadWait R w)) := by
  unfold smReloadWait
  split
  · intro _; exact .reStay _ hs
  · extract_lets w0 w1 w2
    intro hr
    have g1 : Keep w w1 := .of rfl rfl
    have g2 : Keep w w2 := g1.trans (.stepAll h _ w1)
    have e := g2.eq hr
    have e1 : ctl { w2 with sm := .reloadClean } = { ctl w2 with sm := .reloadClean } := rfl
    rw [e1, e]
    exact Move.reStopped (ctl w) hs

theorem smReloadClean_move (h : ROk E lab R) {w : World} (hs : w.sm = .reloadClean) :
    (smReloadClean E R w).reent = false → Move (ctl w) (ctl (smReloadClean E R w)) := by
  unfold smReloadClean
  split
  · intro _; exact .reCleanStay _ hs
  · extract_lets w1 w2 w3 w4
    intro hr
    have g1 : Keep w w1 := .cleanDynamic h w
    have g2 : Keep w w2 := g1.trans (pidfileReconf_good h w1).keep
    have g3 : Keep w w3 := g2.trans (.hook h (by decide) w2)
    have g4 : Keep w w4 := g3.trans (notifyReconf_good h w3).keep
    have e := g4.eq hr
    have e1 : ctl { w4 with sm := .running } = { ctl w4 with sm := .running } := rfl
    rw [e1, e]
    exact Move.reDone (ctl w) hs

/-- The control state after one turn of the loop in `sm_step`. -/
theorem smBranch_move (h : ROk E lab R) (w : World) :
    (smBranch E R w).reent = false → Move (ctl w) (ctl (smBranch E R w)) := by
  unfold smBranch
  cases hs : w.sm <;> dsimp only
  · intro hr
    have e := (Keep.stepAll h (fun t => t.isRuntask || t.isDaemon) w).eq hr
    have e1 : ∀ v : World, ctl { v with sm := .bootstrapWait } = { ctl v with sm := .bootstrapWait } := fun _ => rfl
    rw [e1, e]
    exact Move.boot (ctl w) hs
  · exact smBootWait_move h hs
  · exact smRunning_move h hs
  · exact smRlChange_move h hs
  · exact smRlWait_move h hs
  · exact smRlClean_move h hs
  · exact smReloadChange_move h hs
  · exact smReloadWait_move h hs
  · exact smReloadClean_move h hs

/-- `sm_step` from label `restart:`. -/
theorem smLoop_run : ∀ (n : Nat) (w : World), ((mkRec E n).smLoop w).reent = false →
    Run ((mkRec E n).smLoop w).oof (ctl w) (ctl ((mkRec E n).smLoop w)) := by
  intro n
  induction n with
  | zero => intro w _; exact .cut _
  | succ n ih =>
    intro w
    have hR : ROk E (.ev .worker) (mkRec E n) := mkRec_ok n
    show (smLoopBody E (mkRec E n) w).reent = false →
      Run (smLoopBody E (mkRec E n) w).oof (ctl w) (ctl (smLoopBody E (mkRec E n) w))
    unfold smLoopBody
    have hm := smBranch_move hR w
    revert hm
    generalize smBranch E (mkRec E n) w = w1
    intro hm
    dsimp only
    split
    · rename_i hd
      intro hr
      exact .halt (hm hr) (.inl hd)
    · rename_i hd
      have hd : w1.down = false := by simpa using hd
      split
      · rename_i hs
        intro hr
        exact .go (hm (reent_false (hR.smLoop w1 hd).mono hr)) hd hs (ih w1 hr)
      · rename_i hs
        intro hr
        have hs : w1.sm = w.sm := by simpa using hs
        exact .halt (hm hr) (.inr hs)

/-- `sm_step` as a whole. -/
theorem sm_run (n : Nat) (w : World) (hd : w.down = false) (hr : ((mkRec E n).sm w).reent = false) :
    Run ((mkRec E n).sm w).oof (ctl w) (ctl ((mkRec E n).sm w)) := by
  cases n with
  | zero => exact .cut _
  | succ n =>
    revert hr
    show (smStep E (mkRec E n) w).reent = false →
      Run (smStep E (mkRec E n) w).oof (ctl w) (ctl (smStep E (mkRec E n) w))
    unfold smStep
    rw [if_neg (by rw [hd]; simp)]
    extract_lets w1 was w2 w3
    intro hr
    have e : ctl w2 = ctl w := by
      show ctl w1 = ctl w
      simp only [w1]; split <;> rfl
    have := smLoop_run (E := E) (n + 1) w2 hr
    rw [e] at this
    exact this

/-! ### Events -/

/-- What an event does to the control state. -/
inductive Moved (b : Bool) : Ev → Ctl → Ctl → Prop
  | none (ev : Ev) (c : Ctl)
      (h : ev = .bootCheck → c.down = true ∨ c.booted = false ∨ c.bootWork = false := by intro h; cases h) :
      Moved b ev c c
  | boot (c d : Ctl) (nk : Key) (cf : Key → Svc) (hd : c.down = false) (hb : c.booted = false)
      (h : Run b { c with booted := true, bootWork := true, nextKey := nk, cfg := cf } d) : Moved b .boot c d
  | exit (p : Int) (st : WStatus) (c d : Ctl) (hd : c.down = false) (hb : c.booted = true)
      (h : Run b c d) : Moved b (.exit p st) c d
  | timer (k : Key) (c d : Ctl) (hd : c.down = false) (hb : c.booted = true)
      (h : Run b c d) : Moved b (.timer k) c d
  | poll (c : Ctl) (hb : c.booted = true) (hw : c.bootWork = true) (ht : 0 < c.bootTmo) :
      Moved b .bootCheck c { c with bootTmo := c.bootTmo - 1 }
  | pollDone (c d : Ctl) (hd : c.down = false) (hb : c.booted = true) (hw : c.bootWork = true)
      (h : Run b { c with
        bootWork := false, bootTmo := c.bootTmo - 1,
        newlevel := if c.cmdlevel ≠ 0 then c.cmdlevel else c.cfglevel } d) : Moved b .bootCheck c d
  | runlevel (l : Nat) (c d : Ctl) (hd : c.down = false) (hb : c.booted = true) (hl : l ≤ 9)
      (hr : reserved c.runlevel = false)
      (h : Run b { c with newlevel := (l : Int) } d) : Moved b (.apiRunlevel l) c d
  | cfglevel (l : Nat) (c : Ctl) (hb : c.booted = true) (hl : l ≤ 9) (hr : c.runlevel = 10) :
      Moved b (.apiRunlevel l) c { c with cfglevel := l }
  | reload (c d : Ctl) (hd : c.down = false) (hb : c.booted = true) (hr : reserved c.runlevel = false)
      (h : Run b { c with reload := true } d) : Moved b .reloadAll c d
  | reboot (six limit : Bool) (c d : Ctl) (hd : c.down = false) (hb : c.booted = true)
      (hr : reserved c.runlevel = false)
      (h : Run b { c with newlevel := (if six then (6 : Nat) else 0 : Nat), emerg := limit || c.emerg } d) :
      Moved b (.reboot six limit) c d
  | emergency (c : Ctl) (hb : c.booted = true) (he : c.emerg = true) :
      Moved b .emergency c { c with down := true }

theorem Run.weaken {b b' : Bool} {c d : Ctl} (h : Run b c d) (hb : b = true → b' = true) : Run b' c d := by
  induction h with
  | cut c => rw [hb rfl]; exact .cut c
  | halt h hs => exact .halt h hs
  | go h hd hs _ ih => exact .go h hd hs (ih hb)

theorem SmGood.oof {a b : World} (h : SmGood E lab a b) (ho : OrdOk a.toCore) :
    a.oof = true → b.oof = true :=
  (h.steps ho).inv (P := fun w => w.oof = true) (fun _ _ p => p.oof)

/-- After `service_monitor` and the like. -/
theorem Turned.run {n : Nat} {w w' : World} (h : Turned (mkRec E n) w w') (hd : w.down = false)
    (hr : w'.reent = false) : ctl w' = ctl w ∨ Run w'.oof (ctl w) (ctl w') := by
  obtain ⟨u, hu, e | e⟩ := h
  · subst e; exact .inl (hu.eq hr)
  · subst e
    have hru := reent_false ((mkRec_ok (E := E) (lab := .ev .worker) n).sm u).mono hr
    have eu := hu.eq hru
    have := sm_run (E := E) n u ((congrArg Ctl.down eu).trans hd) hr
    rw [eu] at this
    exact .inr this

theorem smRunlevel_run {n l : Nat} {w : World} (hd : w.down = false) :
    (smRunlevel E (mkRec E n) l w).reent = false →
    Run (smRunlevel E (mkRec E n) l w).oof { ctl w with newlevel := (l : Int) }
      (ctl (smRunlevel E (mkRec E n) l w)) := by
  unfold smRunlevel
  intro hr
  have g : Keep { w with newlevel := (l : Int) } (confFlush E { w with newlevel := (l : Int) }) := .confFlush _
  have hru := reent_false ((mkRec_ok (E := E) (lab := .ev .worker) n).sm _).mono hr
  have e := g.eq hru
  have := sm_run (E := E) n _ ((congrArg Ctl.down e).trans hd) hr
  rw [e] at this
  exact this

theorem smReload_run {n : Nat} {w : World} (hd : w.down = false) :
    (smReload E (mkRec E n) w).reent = false →
    Run (smReload E (mkRec E n) w).oof { ctl w with reload := true } (ctl (smReload E (mkRec E n) w)) := by
  unfold smReload
  intro hr
  have g : Keep { w with reload := true } (confFlush E { w with reload := true }) := .confFlush _
  have hru := reent_false ((mkRec_ok (E := E) (lab := .ev .worker) n).sm _).mono hr
  have e := g.eq hru
  have := sm_run (E := E) n _ ((congrArg Ctl.down e).trans hd) hr
  rw [e] at this
  exact this

/-- One poll of `sm_check_bootstrap`: either some run/task has not completed and there is time
    left, or the system moves on to the configured runlevel. -/
theorem bootCheck_run {n : Nat} {w : World} (hd : w.down = false) (ho : OrdOk w.toCore) :
    (bootCheck E (mkRec E n) w).reent = false →
    (0 < w.bootTmo ∧ completed (stepAll (mkRec E n) tyAny { w with bootWork := false }).toCore = false ∧
      ctl (bootCheck E (mkRec E n) w) = { ctl w with bootWork := true, bootTmo := w.bootTmo - 1 }) ∨
    ((w.bootTmo ≤ 0 ∨
        completed (stepAll (mkRec E n) tyAny { w with bootWork := false }).toCore = true) ∧
      Run (bootCheck E (mkRec E n) w).oof
        { ctl w with
          bootWork := false, bootTmo := w.bootTmo - 1,
          newlevel := if w.cmdlevel ≠ 0 then w.cmdlevel else w.cfglevel }
        (ctl (bootCheck E (mkRec E n) w))) := by
  have hR : ROk E (.ev .worker) (mkRec E n) := mkRec_ok n
  unfold bootCheck
  extract_lets w1 w2 done t w3 w4 w5 w6
  have g2 : Keep w1 w2 := .stepAll hR _ w1
  have s2 : SmGood E (.ev .worker) w w2 :=
    (sm_glob (w := w) (w' := w1) ⟨rfl, id, id, .inl rfl⟩ rfl).trans (stepAll_good hR tyAny w1).sm
  have e1 : ctl w1 = { ctl w with bootWork := false } := rfl
  have hw2 : stepAll (mkRec E n) tyAny { w with bootWork := false } = w2 := rfl
  rw [hw2]
  clear_value w2
  have e3 : ctl w3 = { ctl w2 with bootTmo := w2.bootTmo - 1 } := rfl
  have s3 : SmGood E (.ev .worker) w w3 := s2.trans (sm_glob ⟨rfl, id, id, .inl rfl⟩ rfl)
  split
  · rename_i hc
    intro hr
    have e2 := g2.eq hr
    have et : t = w.bootTmo := (congrArg Ctl.bootTmo e2).trans rfl
    refine .inl ⟨by rw [← et]; exact hc.1, hc.2, ?_⟩
    have e4 : ctl { w3 with bootWork := true } = { ctl w3 with bootWork := true } := rfl
    rw [e4, e3, e2, e1]
    show { ctl w with bootTmo := t - 1, bootWork := true } = _
    rw [et]
  · rename_i hc
    have g4 : Keep w3 w4 := .confFlush w3
    have s4 : SmGood E (.ev .worker) w w4 := s3.trans (confFlush_sm w3)
    clear_value w4
    have s5 : SmGood E (.ev .worker) w w5 := s4.trans (smRunlevel_sm hR _ w4)
    have m5 : w4.reent = true → w5.reent = true := (smRunlevel_sm hR _ w4).mono
    have r5 : w4.down = false → w5.reent = false → Run w5.oof
      { ctl w4 with newlevel := ((if w4.cmdlevel ≠ 0 then w4.cmdlevel else w4.cfglevel : Nat) : Int) }
      (ctl w5) := fun hd4 => smRunlevel_run hd4
    clear_value w5
    have main : ∀ v : World, Keep w5 v → SmGood E (.ev .worker) w5 v → v.reent = false →
        (0 < w.bootTmo ∧ done = false ∧
          ctl v = { ctl w with bootWork := true, bootTmo := w.bootTmo - 1 }) ∨
        ((w.bootTmo ≤ 0 ∨ done = true) ∧
          Run v.oof
            { ctl w with
              bootWork := false, bootTmo := w.bootTmo - 1,
              newlevel := if w.cmdlevel ≠ 0 then w.cmdlevel else w.cfglevel } (ctl v)) := by
      intro v gv sv hr
      have h5 := reent_false gv.mono hr
      have h4 := reent_false m5 h5
      have e4 := g4.eq h4
      have h3 := reent_false g4.mono h4
      have e2 := g2.eq h3
      rw [e3, e2, e1] at e4
      have et : t = w.bootTmo := (congrArg Ctl.bootTmo e2).trans rfl
      have d4 : w4.down = false := (congrArg Ctl.down e4).trans hd
      have l1 : w4.cmdlevel = w.cmdlevel := (congrArg Ctl.cmdlevel e4).trans rfl
      have l2 : w4.cfglevel = w.cfglevel := (congrArg Ctl.cfglevel e4).trans rfl
      have rr := (r5 d4 h5).weaken (sv.oof ((s5.steps ho).ord ho))
      have l3 : w2.bootTmo = w.bootTmo := et
      rw [e4, l1, l2, l3] at rr
      rw [gv.eq hr]
      refine .inr ⟨?_, ?_⟩
      · by_cases h : w.bootTmo ≤ 0
        · exact .inl h
        · refine .inr ?_
          cases hdn : done with
          | true => rfl
          | false => exact absurd ⟨by omega, hdn⟩ hc
      · refine cast ?_ rr
        congr 2
        split <;> rfl
    split
    · exact main w5 (.refl _) (.refl _)
    · have g6 : Keep w5 w6 := .prune w5
      have s6 : SmGood E (.ev .worker) w5 w6 := prune_sm _ w5
      exact main _ (g6.trans (.hook hR (by decide) w6)) (s6.trans (runHook_good hR (by decide) w6).sm)

theorem Keep.moved {w w' : World} {ev : Ev} (h : Keep w w') (hr : w'.reent = false)
    (hev : ev ≠ .bootCheck := by intro h; cases h) : Moved w'.oof ev (ctl w) (ctl w') := by
  rw [h.eq hr]; exact .none _ _ (fun h => absurd h hev)

/-- Every event moves the control state as `Moved` says. -/
theorem handle_moved (n : Nat) (ev : Ev) {w : World} (ho : OrdOk w.toCore) :
    (handle E n ev w).reent = false →
    Moved (handle E n ev w).oof ev (ctl w) (ctl (handle E n ev w)) := by
  unfold handle
  extract_lets R
  have h : ∀ lab, ROk E lab R := fun lab => mkRec_ok n
  have h1 := h (.ev .worker)
  split
  · rename_i hd; intro _; exact .none _ _ (fun _ => .inl hd)
  rename_i hd
  have hd : w.down = false := by simpa using hd
  split
  · rename_i hbo
    split
    · intro hr
      have c := Conf.reload (E := E) { w with booted := true, bootWork := true }
      have d : (confReload E { w with booted := true, bootWork := true }).down = false :=
        (congrArg Ctl.down c.eq).trans hd
      have r := sm_run (E := E) n _ d hr
      rw [c.eq] at r
      exact .boot _ _ _ _ hd hbo r
    · intro _; exact .none _ _ (fun _ => .inr (.inl hbo))
  rename_i hbo
  have hbo : w.booted = true := by simpa using hbo
  cases ev with
  | boot => intro _; exact .none _ _
  | exit p st =>
    dsimp only; split
    · intro hr
      have t : Turned R w (monitor E R p st (reap p (some st) w)) := by
        obtain ⟨u, hu, e⟩ := monitor_turned (E := E) h1 p st (reap p (some st) w)
        exact ⟨u, Keep.trans (b := reap p (some st) w) ⟨id, fun _ => rfl⟩ hu, e⟩
      rcases t.run hd hr with e | e
      · rw [e]; exact .none _ _
      · exact .exit p st _ _ hd hbo e
    · intro _; exact .none _ _
  | adopt p => dsimp only; split
               · intro _; exact .none _ _
               · intro _; exact .none _ _
  | timer k =>
    intro hr
    rcases (timerFire_turned (k := k) h w).run hd hr with e | e
    · dsimp only; rw [e]; exact .none _ _
    · exact .timer k _ _ hd hbo e
  | worker => dsimp only; split
              · exact (Keep.trans (b := { w with work := false }) (.of rfl rfl) (.stepAll h1 _ _)).moved
              · intro _; exact .none _ _
  | bootCheck =>
    dsimp only; split
    · rename_i hw
      intro hr
      rcases bootCheck_run hd ho hr with ⟨ht, _, e⟩ | ⟨_, r⟩
      · rw [e]
        have := Moved.poll (b := (bootCheck E R w).oof) (ctl w) hbo hw ht
        refine cast ?_ this
        congr 2
      · exact .pollDone _ _ hd hbo hw r
    · rename_i hw; intro _; exact .none _ _ (fun _ => .inr (.inr (Bool.eq_false_iff.mpr hw)))
  | apiStart k => dsimp only; split
                  · exact (Keep.trans (.emit _ _) (.apiStart h1 k _)).moved
                  · intro _; exact .none _ _
  | apiStop k => dsimp only; split
                 · exact (Keep.trans (.emit _ _) (.apiStop h1 k _)).moved
                 · intro _; exact .none _ _
  | apiRestart k => dsimp only; split
                    · exact (Keep.trans (.emit _ _) (.apiRestart h1 k _)).moved
                    · intro _; exact .none _ _
  | apiReload k => dsimp only; split
                   · exact (Keep.trans (.emit _ _) (.apiReload h1 k _)).moved
                   · intro _; exact .none _ _
  | apiSignal k sig => dsimp only; split
                       · exact (Keep.kill _ _ _ _ _).moved
                       · intro _; exact .none _ _
  | apiRunlevel l =>
    dsimp only; split
    · intro _; exact .none _ _
    · rename_i hl
      split
      · rename_i h10
        intro _
        exact .cfglevel l _ hbo (by omega) h10
      · intro hr
        refine .runlevel l _ _ hd hbo (by omega) ?_ (smRunlevel_run hd hr)
        show reserved w.runlevel = false
        simp [reserved]; omega
  | reloadAll => dsimp only; split
                 · rename_i hc; intro hr; exact .reload _ _ hd hbo hc (smReload_run hd hr)
                 · intro _; exact .none _ _
  | reboot six limit =>
    dsimp only; split
    · rename_i hc
      intro hr
      refine .reboot six limit _ _ hd hbo hc ?_
      cases limit
      · exact smRunlevel_run (w := w) hd hr
      · exact smRunlevel_run (w := { w with emerg := true }) hd hr
    · intro _; exact .none _ _
  | emergency => dsimp only; split
                 · rename_i he; intro _; exact .emergency _ hbo he
                 · intro _; exact .none _ _
  | condSet nm u =>
    dsimp only; split
    · rename_i hn
      split
      · exact (condSet_good (h (labOf w (.condSet nm u))) (.extSet nm hn)).keep.moved
      · exact (Keep.of rfl rfl).moved
    · intro _; exact .none _ _
  | condOneshot nm u =>
    dsimp only; split
    · rename_i hn
      split
      · exact (condOneshot_good (h (labOf w (.condOneshot nm u))) (.extOneshot nm hn)).keep.moved
      · exact (Keep.of rfl rfl).moved
    · intro _; exact .none _ _
  | condClear nm u =>
    dsimp only; split
    · rename_i hn
      split
      · exact (condClear_good (h (labOf w (.condClear nm u))) (.inl hn)).keep.moved
      · exact (Keep.of rfl rfl).moved
    · intro _; exact .none _ _
  | condNotify nm =>
    dsimp only; split
    · exact (condUpdate_good h1 nm w).keep.moved
    · intro _; exact .none _ _
  | pidfile k p there => dsimp only; split
                         · exact (Keep.pidfileWrite (h _) p there w).moved
                         · intro _; exact .none _ _
  | pidfileDel k => dsimp only; split
                    · exact (Keep.pidfileRemove h1 k w).moved
                    · intro _; exact .none _ _
  | notifyReady k => dsimp only; split
                     · exact (Keep.notifyReady (h _) w).moved
                     · intro _; exact .none _ _
  | interval => exact (Keep.ageAll _ _).moved
  | gc k => dsimp only; split
            · exact (Keep.gcOne h1 k w).moved
            · intro _; exact .none _ _
  | confTouch => intro _; exact .none _ _

end

end Verif.Sup
