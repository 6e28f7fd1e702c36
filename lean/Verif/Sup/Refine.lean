import Verif.Sup.Ord

/-!
# Supervisor model: every function is a sequence of atomic steps
-/

namespace Verif.Sup

open Verif (CStr CondStore)

/-- How often the rules services live by have changed so far. -/
def ruleCount (w : World) : Nat := (w.trace.filter (fun x => x.2.rules)).length

/-- The global part of the state that stepping a service leaves alone.  (The oracle position, which
    is of no interest here, is replaced by the number of rule changes in the trace.) -/
def Glob (w : World) : Core :=
  { w.toCore with
    svc := fun _ => {}, assoc := [], conds := CondStore.init, runBlock := 0, live := [],
    main := fun _ => [], tick := ruleCount w, work := false, stack := [], mids := [],
    twice := false, inSm := false, reent := false, oof := false, ub := false }

/-- `w'` follows from `w` by atomic steps; the call stack is back where it was; and unless
    something was re-entered, services in `S` and the global state are as before and no
    service has been reconfigured. -/
structure Good (E : Env) (lab : Lab) (S : Key → Prop) (w w' : World) : Prop where
  steps : OrdOk w.toCore → Steps E lab w w'
  stack : w'.stack = w.stack
  mono : w.reent = true → w'.reent = true
  frame : w'.reent = false → (∀ j, S j → w'.svc j = w.svc j) ∧ Glob w' = Glob w ∧
    ∀ j, (w'.svc j).cfg = (w.svc j).cfg
  mids : w'.mids = w.mids

/-- `Good` inside `svc_set_state`, where the notes about calls in progress change. -/
structure Pre (E : Env) (lab : Lab) (S : Key → Prop) (w w' : World) : Prop where
  steps : OrdOk w.toCore → Steps E lab w w'
  stack : w'.stack = w.stack
  mono : w.reent = true → w'.reent = true
  frame : w'.reent = false → (∀ j, S j → w'.svc j = w.svc j) ∧ Glob w' = Glob w ∧
    ∀ j, (w'.svc j).cfg = (w.svc j).cfg

/-- The same for `sm_step`, which is free to change everything. -/
structure SmGood (E : Env) (lab : Lab) (w w' : World) : Prop where
  steps : OrdOk w.toCore → Steps E lab w w'
  stack : w'.stack = w.stack
  mono : w.reent = true → w'.reent = true
  mids : w'.mids = w.mids

section
variable {E : Env} {lab : Lab} {S : Key → Prop} {R : Rec}

theorem reent_false {w w' : World} (hm : w.reent = true → w'.reent = true)
    (h : w'.reent = false) : w.reent = false := by
  cases hw : w.reent with
  | false => rfl
  | true => rw [hm hw] at h; cases h

theorem Good.refl (w : World) : Good E lab S w w := ⟨fun _ => .refl w, rfl, id, fun _ => ⟨fun _ _ => rfl, rfl, fun _ => rfl⟩, rfl⟩

theorem Good.pre {w w' : World} (h : Good E lab S w w') : Pre E lab S w w' :=
  ⟨h.steps, h.stack, h.mono, h.frame⟩

theorem Pre.good {w w' : World} (h : Pre E lab S w w') (hm : w'.mids = w.mids) :
    Good E lab S w w' := ⟨h.steps, h.stack, h.mono, h.frame, hm⟩

theorem Pre.trans {a b c : World} (h1 : Pre E lab S a b) (h2 : Pre E lab S b c) :
    Pre E lab S a c where
  steps := fun o => (h1.steps o).trans (h2.steps ((h1.steps o).ord o))
  stack := h2.stack.trans h1.stack
  mono := fun h => h2.mono (h1.mono h)
  frame := fun h => by
    have hb := reent_false h2.mono h
    obtain ⟨x1, x2, x3⟩ := h1.frame hb
    obtain ⟨y1, y2, y3⟩ := h2.frame h
    exact ⟨fun j hj => (y1 j hj).trans (x1 j hj), y2.trans x2, fun j => (y3 j).trans (x3 j)⟩

theorem Pre.weaken {S' : Key → Prop} {a b : World} (h : Pre E lab S a b)
    (hs : ∀ j, S' j → S j) : Pre E lab S' a b :=
  ⟨h.steps, h.stack, h.mono, fun hr => ⟨fun j hj => (h.frame hr).1 j (hs j hj), (h.frame hr).2⟩⟩

theorem Pre.then {a b c : World} (h1 : Pre E lab (fun j => j ∈ a.stack) a b)
    (h2 : Pre E lab (fun j => j ∈ b.stack) b c) : Pre E lab (fun j => j ∈ a.stack) a c := by
  rw [h1.stack] at h2; exact h1.trans h2

theorem Pre.of_prim {a b : World} (h : Prim E lab a b) (hst : b.stack = a.stack)
    (hr : b.reent = a.reent) (hsv : ∀ j, S j → b.svc j = a.svc j) (hg : Glob b = Glob a)
    (hc : ∀ j, (b.svc j).cfg = (a.svc j).cfg) : Pre E lab S a b :=
  ⟨fun _ => .one h, hst, fun x => hr.trans x, fun _ => ⟨hsv, hg, hc⟩⟩

theorem Good.trans {a b c : World} (h1 : Good E lab S a b) (h2 : Good E lab S b c) :
    Good E lab S a c where
  mids := h2.mids.trans h1.mids
  steps := fun o => (h1.steps o).trans (h2.steps ((h1.steps o).ord o))
  stack := h2.stack.trans h1.stack
  mono := fun h => h2.mono (h1.mono h)
  frame := fun h => by
    have hb := reent_false h2.mono h
    obtain ⟨x1, x2, x3⟩ := h1.frame hb
    obtain ⟨y1, y2, y3⟩ := h2.frame h
    exact ⟨fun j hj => (y1 j hj).trans (x1 j hj), y2.trans x2, fun j => (y3 j).trans (x3 j)⟩

theorem Good.weaken {S' : Key → Prop} {a b : World} (h : Good E lab S a b)
    (hs : ∀ j, S' j → S j) : Good E lab S' a b :=
  ⟨h.steps, h.stack, h.mono, fun hr => ⟨fun j hj => (h.frame hr).1 j (hs j hj), (h.frame hr).2⟩,
   h.mids⟩

theorem Good.sm {a b : World} (h : Good E lab S a b) : SmGood E lab a b :=
  ⟨h.steps, h.stack, h.mono, h.mids⟩

theorem SmGood.refl (w : World) : SmGood E lab w w := ⟨fun _ => .refl w, rfl, id, rfl⟩

theorem SmGood.trans {a b c : World} (h1 : SmGood E lab a b) (h2 : SmGood E lab b c) :
    SmGood E lab a c :=
  ⟨fun o => (h1.steps o).trans (h2.steps ((h1.steps o).ord o)), h2.stack.trans h1.stack, fun h => h2.mono (h1.mono h),
   h2.mids.trans h1.mids⟩

theorem Good.of_prim {a b : World} (h : Prim E lab a b) (hst : b.stack = a.stack)
    (hr : b.reent = a.reent) (hsv : ∀ j, S j → b.svc j = a.svc j) (hg : Glob b = Glob a)
    (hc : ∀ j, (b.svc j).cfg = (a.svc j).cfg) (hm : b.mids = a.mids := by rfl) :
    Good E lab S a b :=
  ⟨fun _ => .one h, hst, fun x => hr.trans x, fun _ => ⟨hsv, hg, hc⟩, hm⟩

theorem SmGood.of_prim {a b : World} (h : Prim E lab a b) (hst : b.stack = a.stack)
    (hr : a.reent = true → b.reent = true) (hm : b.mids = a.mids := by rfl) :
    SmGood E lab a b := ⟨fun _ => .one h, hst, hr, hm⟩

/-- What is known about names survives. -/
theorem NameOk.good {w w' : World} {n : CStr} (h : Good E lab S w w') (hn : NameOk w n) :
    NameOk w' n := by
  rcases hn with hn | ⟨k, hn⟩
  · exact .inl hn
  · refine .inr ⟨k, ?_⟩
    have key : ∀ s : Svc, Soft w ((w.svc k).cfg = s.cfg) → Soft w' ((w'.svc k).cfg = s.cfg) :=
      fun s hs hr => ((h.frame hr).2.2 k).trans (hs (reent_false h.mono hr))
    cases hn with
    | pid s hs => exact .pid s (key s hs)
    | ready s hs => exact .ready s (key s hs)

theorem NameOk.pid (w : World) (k : Key) : NameOk w (w.svc k).pidCond := .inr ⟨k, .pid _ fun _ => rfl⟩
theorem NameOk.ready (w : World) (k : Key) : NameOk w (w.svc k).readyCond := .inr ⟨k, .ready _ fun _ => rfl⟩

/-! ### Elementary steps -/

theorem Good.tick (w : World) (t : Nat) : Good E lab S w { w with tick := t } :=
  .of_prim (.glob _ _ ⟨rfl, id, id, .inl rfl⟩) rfl rfl (fun _ _ => rfl) rfl (fun _ => rfl)

theorem Good.schedule (w : World) : Good E lab S w (schedule w) :=
  .of_prim (.glob _ _ ⟨rfl, id, id, .inl rfl⟩) rfl rfl (fun _ _ => rfl) rfl (fun _ => rfl)

theorem Good.oof (w : World) : Good E lab S w { w with oof := true } :=
  .of_prim (.glob _ _ ⟨rfl, id, fun _ => rfl, .inl rfl⟩) rfl rfl (fun _ _ => rfl) rfl (fun _ => rfl)

theorem Good.reent (w : World) : Good E lab S w { w with reent := true } :=
  ⟨fun _ => .one (.glob _ _ ⟨rfl, fun _ => rfl, id, .inl rfl⟩), rfl, fun _ => rfl,
   fun h => (by cases h), rfl⟩

theorem Good.touch (k : Key) (w : World) : Good E lab S w (touch k w) := by
  unfold Sup.touch; split
  · exact .reent w
  · exact .refl w

theorem Good.askB (w : World) : Good E lab S w (askB E w).2 := .tick w _

theorem Good.ask (w : World) : Good E lab S w (ask E w).2 := .tick w _

theorem Good.procExists (p : Int) (w : World) : Good E lab S w (procExists E p w).2 := .tick w _

theorem Good.svc {w : World} {k : Key} {s' : Svc} (h : SvcMod E lab w k s') (hS : ¬ S k)
    (hc : s'.cfg = (w.svc k).cfg) : Good E lab S w { w with svc := upd w.svc k s' } := by
  refine .of_prim (.svc w k s' h) rfl rfl ?_ rfl ?_
  · intro j hj; exact upd_other _ _ _ _ (fun e => hS (e ▸ hj))
  · intro j
    by_cases e : j = k
    · subst e; simp only [upd_same]; exact hc
    · simp only [upd_other _ _ _ _ e]

theorem Good.mod {w : World} {k : Key} {f : Svc → Svc} (h : SvcMod E lab w k (f (w.svc k)))
    (hS : ¬ S k) (hc : (f (w.svc k)).cfg = (w.svc k).cfg) : Good E lab S w (mod k f w) :=
  .svc h hS hc

/-- A change of minor fields. -/
theorem Good.minor {w : World} {k : Key} {f : Svc → Svc} (h : Minor (w.svc k) (f (w.svc k)))
    (hS : ¬ S k) (hw : (f (w.svc k)).watch = true → (w.svc k).watch = true := by
      first | exact id | exact fun h => nomatch h) : Good E lab S w (Sup.mod k f w) :=
  .mod (.minor _ h hw) hS (by rw [h]; rfl)

theorem Good.cancel {w : World} {k : Key} (h : CancelOk lab w k) (hS : ¬ S k) :
    Good E lab S w (timerCancel k w) := by
  unfold timerCancel; split
  · exact .mod (.cancel h) hS rfl
  · exact .refl w

/-- A crashed service is let go. -/
theorem Good.lift {w : World} {k : Key} (hb : (w.svc k).block = .restarting)
    (ha : aggCond w.toCore k = .off) (hS : ¬ S k) :
    Good E lab S w
      (Sup.mod k (fun s => { s with block := .none }) (timerCancel k (emit (.lifted k) w))) := by
  have g0 : Good E lab S w (emit (.lifted k) w) :=
    .of_prim (.lifted _ k hb ha) rfl rfl (fun _ _ => rfl) rfl (fun _ => rfl)
  have ha1 : aggCond (emit (.lifted k) w).toCore k = .off := by simpa [aggCond, emit] using ha
  obtain ⟨x, e⟩ := timerCancel_eq k (emit (.lifted k) w)
  have g1 : Good E lab S (emit (.lifted k) w) (timerCancel k (emit (.lifted k) w)) :=
    .cancel (.cond hb ha1 rfl) hS
  rw [e] at g1 ⊢
  refine (g0.trans g1).trans ?_
  · refine .mod (.unblockCond ?_ ?_ ?_ rfl) hS rfl
    · simpa [emit] using hb
    · simpa [aggCond, emit] using ha
    · simp [emit]

theorem Good.kill {w : World} {k : Key} {tgt : Int} {sig : Nat} {why : Why}
    (h : KillOk lab w k tgt sig why) (hw : why ≠ .pause := by decide) :
    Good E lab S w (kill E tgt sig why k w).2 :=
  (Good.of_prim (.kill w k tgt sig why h hw) rfl rfl (fun _ _ => rfl) rfl (fun _ => rfl)).trans (.tick _ _)

theorem Good.bump {w : World} {k : Key} (h : (w.svc k).state = .starting ∨ (w.svc k).state = .paused)
    (hS : ¬ S k) : Good E lab S w (Sup.mod k (fun s => { s with restartCnt := schar (s.restartCnt + 1) })
      (emit (.bump k) w)) := by
  refine .of_prim (.bump w k h) rfl rfl ?_ rfl ?_
  · intro j hj
    have : j ≠ k := fun e => hS (e ▸ hj)
    exact upd_other _ _ _ _ this
  · intro j
    by_cases e : j = k
    · subst e; simp only [Sup.mod, upd_same, emit]; rfl
    · simp only [Sup.mod, upd_other _ _ _ _ e, emit]

theorem Good.conds {w : World} {st : CondStore} (h : CondMod lab w st) :
    Good E lab S w { w with conds := st } :=
  .of_prim (.conds w st h) rfl rfl (fun _ _ => rfl) rfl (fun _ => rfl)

/-! ### The recursion interface -/

/-- What is assumed of the recursive calls. -/
structure ROk (E : Env) (lab : Lab) (R : Rec) : Prop where
  step : ∀ k w, Good E lab (fun j => j ∈ w.stack) w (R.step k w)
  loop : ∀ k w, k ∈ w.stack → Good E lab (fun j => j ∈ w.stack ∧ j ≠ k) w (R.loop k w)
  sm : ∀ w, SmGood E lab w (R.sm w)
  smLoop : ∀ w, w.down = false → SmGood E lab w (R.smLoop w)

theorem iter_good {f : Key → World → World}
    (hf : ∀ k w, Good E lab (fun j => j ∈ w.stack) w (f k w)) :
    ∀ n o w, Good E lab (fun j => j ∈ w.stack) w (iter f n o w) := by
  intro n
  induction n with
  | zero => intro o w; cases o with
    | none => exact .refl w
    | some k => exact .oof w
  | succ n ih => intro o w; cases o with
    | none => exact .refl w
    | some k =>
      have h1 := hf k w
      refine h1.trans ?_
      have := ih (nextOf w.toCore k) (f k w)
      rw [h1.stack] at this
      exact this

theorem forAll_good {f : Key → World → World}
    (hf : ∀ k w, Good E lab (fun j => j ∈ w.stack) w (f k w)) (w : World) :
    Good E lab (fun j => j ∈ w.stack) w (forAll R f w) := iter_good hf _ _ w

theorem nextOf_order {c : Core} {k j : Key} (hk : k ∈ c.order) (h : nextOf c k = some j) :
    j ∈ c.order := by
  unfold nextOf at h
  rw [if_pos hk] at h
  exact List.dropWhile_subset _ (List.mem_of_mem_drop (List.mem_of_head? h))

/-- The same for loops that stay on the list. -/
theorem iter_good_mem {f : Key → World → World}
    (hf : ∀ k w, Soft w (k ∈ w.order) → Good E lab (fun j => j ∈ w.stack) w (f k w)) :
    ∀ n o w, Soft w (∀ k, o = some k → k ∈ w.order) →
      Good E lab (fun j => j ∈ w.stack) w (iter f n o w) := by
  intro n
  induction n with
  | zero => intro o w _; cases o with
    | none => exact .refl w
    | some k => exact .oof w
  | succ n ih => intro o w ho; cases o with
    | none => exact .refl w
    | some k =>
      have h1 := hf k w (fun hr => ho hr k rfl)
      refine h1.trans ?_
      have := ih (nextOf w.toCore k) (f k w) (by
        intro hr j hj
        have e0 : (Glob (f k w)).order = (Glob w).order := congrArg Core.order (h1.frame hr).2.1
        have e1 : (f k w).order = w.order := e0
        rw [e1]; exact nextOf_order (ho (reent_false h1.mono hr) k rfl) hj)
      rw [h1.stack] at this
      exact this

theorem forAll_good_mem {f : Key → World → World}
    (hf : ∀ k w, Soft w (k ∈ w.order) → Good E lab (fun j => j ∈ w.stack) w (f k w)) (w : World) :
    Good E lab (fun j => j ∈ w.stack) w (forAll R f w) :=
  iter_good_mem hf _ _ w (fun _ _ hk => List.mem_of_head? hk)

theorem stepAll_good (h : ROk E lab R) (p : SType → Bool) (w : World) :
    Good E lab (fun j => j ∈ w.stack) w (stepAll R p w) := by
  apply forAll_good
  intro k w; split
  · exact h.step k w
  · exact .refl w

theorem condUpdateOne_good (h : ROk E lab R) (n : CStr) (k : Key) (w : World) :
    Good E lab (fun j => j ∈ w.stack) w (condUpdateOne R n k w) := by
  unfold condUpdateOne
  extract_lets s w1 w2
  split
  · have h1 : Good E lab (fun j => j ∈ w.stack) w w1 := .touch k w
    have h2 : Good E lab (fun j => j ∈ w.stack) w w2 := by
      by_cases hk : k ∈ w.stack
      · -- re-entered: no frame to show
        have hr : w1.reent = true := by simp only [w1, Sup.touch, if_pos hk]
        have hw1 : Good E lab (fun _ => False) w1 w2 := by
          simp only [w2]; split
          · rename_i hb
            have hb' := Bool.and_eq_true_iff.mp hb
            have hbl : (w1.svc k).block = .restarting := by
              have := of_decide_eq_true hb'.1
              simp only [w1, Sup.touch, if_pos hk]; exact this
            have hag : aggCond w1.toCore k = .off := of_decide_eq_true hb'.2
            exact .lift hbl hag (fun h => h)
          · exact .refl _
        have hm := hw1.mono hr
        refine ⟨(h1.sm.trans hw1.sm).steps, hw1.stack.trans h1.stack, fun _ => hm, fun hf => ?_,
          hw1.mids.trans h1.mids⟩
        rw [hm] at hf; cases hf
      · refine h1.trans ?_
        have e1 : w1 = w := by simp only [w1, Sup.touch, if_neg hk]
        simp only [w2]; split
        · rename_i hb
          have hb' := Bool.and_eq_true_iff.mp hb
          have hbl : (w1.svc k).block = .restarting := by
            have := of_decide_eq_true hb'.1
            rw [e1]; exact this
          have hag : aggCond w1.toCore k = .off := of_decide_eq_true hb'.2
          exact .lift hbl hag hk
        · exact .refl _
    refine h2.trans ?_
    have := h.step k w2
    rw [h2.stack] at this
    exact this
  · exact .refl w

theorem condUpdate_good (h : ROk E lab R) (n : CStr) (w : World) :
    Good E lab (fun j => j ∈ w.stack) w (condUpdate R n w) :=
  forAll_good (condUpdateOne_good h n) w

/-- `trans` for a second part whose frame is the stack of the intermediate state. -/
theorem Good.then {a b c : World} (h1 : Good E lab (fun j => j ∈ a.stack) a b)
    (h2 : Good E lab (fun j => j ∈ b.stack) b c) : Good E lab (fun j => j ∈ a.stack) a c := by
  rw [h1.stack] at h2; exact h1.trans h2

theorem condSet_good (h : ROk E lab R) {n : CStr} {w : World} (hn : CondMod lab w (w.conds.set n).1) :
    Good E lab (fun j => j ∈ w.stack) w (condSet R n w) := by
  unfold condSet; extract_lets r w1
  have h1 : Good E lab (fun j => j ∈ w.stack) w w1 := .conds hn
  split
  · exact h1.then (condUpdate_good h n w1)
  · exact h1

theorem condOneshot_good (h : ROk E lab R) {n : CStr} {w : World}
    (hn : CondMod lab w (w.conds.oneshot n).1) :
    Good E lab (fun j => j ∈ w.stack) w (condOneshot R n w) := by
  unfold condOneshot; extract_lets r w1
  have h1 : Good E lab (fun j => j ∈ w.stack) w w1 := .conds hn
  split
  · exact h1.then (condUpdate_good h n w1)
  · exact h1

theorem condDelBelow_good (h : ROk E lab R) (n : CStr) : ∀ (l : List CStr) (w : World),
    NameOk w n → (∀ p ∈ l, under (condPath n) p = true) →
    Good E lab (fun j => j ∈ w.stack) w (condDelBelow R l w) := by
  intro l
  induction l with
  | nil => intro w _ _; exact .refl w
  | cons p l ih =>
    intro w hn hl
    unfold condDelBelow; extract_lets w1 w2
    have h1 : Good E lab (fun j => j ∈ w.stack) w w1 := .conds (.unlink n p hn (.inr (hl p (by simp))))
    have h2 : Good E lab (fun j => j ∈ w.stack) w w2 := by
      simp only [w2]; split
      · exact h1
      · exact h1.then (condUpdate_good h p w1)
    exact h2.then (ih w2 (hn.good h2) (fun q hq => hl q (by simp [hq])))

theorem below_under {st : CondStore} {p q : CStr} (h : q ∈ st.below p) : under p q = true := by
  simp only [CondStore.below, List.mem_map, List.mem_filter] at h
  obtain ⟨a, ⟨_, h2⟩, rfl⟩ := h
  exact h2

theorem condClear_good (h : ROk E lab R) {n : CStr} {w : World} (hn : NameOk w n) :
    Good E lab (fun j => j ∈ w.stack) w (condClear R n w) := by
  unfold condClear; split
  · exact .refl w
  · extract_lets p prev w1
    have h1 : Good E lab (fun j => j ∈ w.stack) w w1 := by
      simp only [w1]; split
      · exact .conds (.unlink n _ hn (.inl rfl))
      · exact condDelBelow_good h n _ w hn (fun q hq => below_under hq)
    split
    · exact h1
    · exact h1.then (condUpdate_good h n w1)

/-! ### Changing the state of a service -/

theorem setStateRaw_fields (k : Key) (new : SState) (w : World) :
    (setStateRaw k new w).stack = w.stack ∧ (setStateRaw k new w).reent = w.reent ∧
    (∀ j, j ≠ k → (setStateRaw k new w).svc j = w.svc j) ∧
    Glob (setStateRaw k new w) = Glob w ∧
    (∀ j, ((setStateRaw k new w).svc j).cfg = (w.svc j).cfg) ∧
    ((setStateRaw k new w).svc k).state = new ∧
    ((setStateRaw k new w).svc k).type = (w.svc k).type ∧
    ((setStateRaw k new w).svc k).pid = (w.svc k).pid ∧
    ((setStateRaw k new w).svc k).block = (w.svc k).block ∧
    ((setStateRaw k new w).svc k).respawn = (w.svc k).respawn ∧
    ((setStateRaw k new w).svc k).status = (w.svc k).status ∧
    ((setStateRaw k new w).svc k).started = (w.svc k).started ∧
    (new ≠ .stopping → ((setStateRaw k new w).svc k).timer = (w.svc k).timer) := by
  obtain ⟨t, a, ht, e⟩ := setStateRaw_eq k new w
  rw [e]
  refine ⟨rfl, rfl, fun j hj => upd_other _ _ _ _ hj, ?_, ?_, ?_, ?_, ?_, ?_, ?_, ?_, ?_, ?_⟩
  · unfold Glob ruleCount
    simp only
    congr 1
    split <;> simp [Eff.rules]
  · intro j
    by_cases ej : j = k
    · subst ej; simp only [upd_same]; rfl
    · simp only [upd_other _ _ _ _ ej]
  all_goals simp only [upd_same]
  intro hn; exact (ht.1 hn).1

theorem setStateRaw_pre {k : Key} {new : SState} {w : World} (h : StateMod lab w k new)
    (hS : ¬ S k) : Pre E lab S w (setStateRaw k new w) := by
  obtain ⟨f1, f2, f3, f4, f5, _⟩ := setStateRaw_fields k new w
  exact .of_prim (.state w k new h) f1 f2 (fun j hj => f3 j (fun e => hS (e ▸ hj))) f4 f5

theorem setStateRaw_mids (k : Key) (new : SState) (w : World) :
    (setStateRaw k new w).conds = w.conds ∧
    (setStateRaw k new w).mids = if (w.svc k).state = new then w.mids else midOf k w :: w.mids := by
  obtain ⟨t, a, _, e⟩ := setStateRaw_eq k new w
  rw [e]; exact ⟨rfl, rfl⟩

theorem Pre.mid {w : World} {m : Mid} {ms : List Mid} {st : CondStore} {ms' : List Mid}
    (hm : w.mids = m :: ms) (h : MidMod w m ms st ms') :
    Pre E lab S w { w with conds := st, mids := ms' } :=
  .of_prim (.mid w m ms st ms' hm h) rfl rfl (fun _ _ => rfl) rfl (fun _ => rfl)

theorem midHead_eq {f : Mid → Mid} {w : World} {m : Mid} {ms : List Mid} (hm : w.mids = m :: ms) :
    midHead f w = { w with mids := f m :: ms } := by unfold midHead; rw [hm]

/-- What is known about the name survives as long as the service does not change. -/
theorem StateName.soft {w w' : World} {n : CStr} {k : Key} {P : Prop}
    (h : Soft w (StateName (w.svc k) n ∧ P))
    (hk : k ∈ w.stack) (g : Pre E lab (fun j => j ∈ w.stack) w w') :
    Soft w' (StateName (w'.svc k) n ∧ P) := by
  intro hr
  rw [(g.frame hr).1 k hk]; exact h (reent_false g.mono hr)

theorem condOneshotMid_pre (h : ROk E lab R) {n : CStr} {w : World} {m : Mid} {ms : List Mid}
    (hm : w.mids = m :: ms)
    (hn : MidMod w m ms (w.conds.oneshot n).1 (m.make (condPath n) :: ms)) :
    Pre E lab (fun j => j ∈ w.stack) w (condOneshotMid R n w) ∧
    (condOneshotMid R n w).mids = m.make (condPath n) :: ms := by
  unfold condOneshotMid; extract_lets r w1
  have e1 : w1 = { w with conds := r.1, mids := m.make (condPath n) :: ms } :=
    midHead_eq (w := { w with conds := r.1 }) hm
  have h1 : Pre E lab (fun j => j ∈ w.stack) w w1 := by rw [e1]; exact .mid hm hn
  have m1 : w1.mids = m.make (condPath n) :: ms := by rw [e1]
  split
  · have g := condUpdate_good h n w1
    exact ⟨h1.then g.pre, g.mids.trans m1⟩
  · exact ⟨h1, m1⟩

theorem condDelBelowMid_pre (h : ROk E lab R) (n : CStr) : ∀ (l : List CStr) (w : World) (m : Mid)
    (ms : List Mid), w.mids = m :: ms → m.key ∈ w.stack →
    Soft w (StateName (w.svc m.key) n ∧ m.made = none) → (∀ p ∈ l, under (condPath n) p = true) →
    Pre E lab (fun j => j ∈ w.stack) w (condDelBelowMid R l w) ∧
    ∃ m', (condDelBelowMid R l w).mids = m' :: ms ∧ m'.key = m.key ∧ m'.was = m.was ∧
      m'.made = m.made ∧ ∀ q ∈ m'.left, q ∈ m.left ∧ q ∉ l := by
  intro l
  induction l with
  | nil =>
    intro w m ms hm _ _ _
    exact ⟨(Good.refl w).pre, m, hm, rfl, rfl, rfl, fun q hq => ⟨hq, by simp⟩⟩
  | cons p l ih =>
    intro w m ms hm hk hn hl
    unfold condDelBelowMid; extract_lets w1 w2
    have e1 : w1 = { w with conds := w.conds.unlink p, mids := m.drop (fun q => decide (q = p)) :: ms } :=
      midHead_eq (w := { w with conds := w.conds.unlink p }) hm
    have h1 : Pre E lab (fun j => j ∈ w.stack) w w1 := by
      rw [e1]; exact .mid hm (.unlink n p hn (.inr (hl p (by simp))))
    have m1 : w1.mids = m.drop (fun q => decide (q = p)) :: ms := by rw [e1]
    have h2 : Pre E lab (fun j => j ∈ w.stack) w w2 ∧ w2.mids = m.drop (fun q => decide (q = p)) :: ms := by
      simp only [w2]; split
      · exact ⟨h1, m1⟩
      · have g := condUpdate_good h p w1
        exact ⟨h1.then g.pre, g.mids.trans m1⟩
    obtain ⟨g3, m', e, x1, x2, x3, x4⟩ := ih w2 _ ms h2.2 (by rw [h2.1.stack]; exact hk)
      (StateName.soft hn hk h2.1) (fun q hq => hl q (by simp [hq]))
    refine ⟨h2.1.then g3, m', e, x1, x2, x3, ?_⟩
    intro q hq
    obtain ⟨y1, y2⟩ := x4 q hq
    simp only [Mid.drop, List.mem_filter, Bool.not_eq_true', decide_eq_false_iff_not] at y1
    exact ⟨y1.1, by simp only [List.mem_cons, not_or]; exact ⟨y1.2, y2⟩⟩

theorem condClearMid_pre (h : ROk E lab R) {n : CStr} {w : World} {m : Mid} {ms : List Mid}
    (hm : w.mids = m :: ms) (hk : m.key ∈ w.stack) (hn : Soft w (StateName (w.svc m.key) n ∧ m.made = none))
    (hnn : n ≠ nopName) :
    Pre E lab (fun j => j ∈ w.stack) w (condClearMid R n w) ∧
    ∃ m', (condClearMid R n w).mids = m' :: ms ∧ m'.key = m.key ∧ m'.was = m.was ∧
      m'.made = m.made ∧ ∀ q ∈ m'.left, q ∈ m.left ∧ q ≠ condPath n ∧
        ((condPath n).getLast? = some '/' → q ∉ w.conds.below (condPath n)) := by
  unfold condClearMid
  rw [if_neg hnn]
  extract_lets p prev w1
  have h1 : Pre E lab (fun j => j ∈ w.stack) w w1 ∧
      ∃ m', w1.mids = m' :: ms ∧ m'.key = m.key ∧ m'.was = m.was ∧
      m'.made = m.made ∧ ∀ q ∈ m'.left, q ∈ m.left ∧ q ≠ condPath n ∧
        ((condPath n).getLast? = some '/' → q ∉ w.conds.below (condPath n)) := by
    have hd : ∀ q ∈ (m.drop (fun q => decide (q = p))).left, q ∈ m.left ∧ q ≠ p := by
      intro q hq
      simp only [Mid.drop, List.mem_filter, Bool.not_eq_true', decide_eq_false_iff_not] at hq
      exact hq
    simp only [w1]; split
    · rename_i hs
      rw [midHead_eq (w := { w with conds := w.conds.unlink p }) hm]
      refine ⟨.mid hm (.unlink n p hn (.inl rfl)), _, rfl, rfl, rfl, rfl, ?_⟩
      intro q hq
      exact ⟨(hd q hq).1, (hd q hq).2, fun hx => absurd hx hs.2⟩
    · rename_i hs
      have hx : w.conds.lookup p = none ∨ p.getLast? = some '/' := by
        by_cases hl : p.getLast? = some '/'
        · exact .inr hl
        · refine .inl ?_
          cases e : w.conds.lookup p with
          | none => rfl
          | some _ => exact absurd ⟨by rw [e]; rfl, hl⟩ hs
      rw [midHead_eq hm]
      have g0 : Pre E lab (fun j => j ∈ w.stack) w
          { w with mids := m.drop (fun q => decide (q = p)) :: ms } := .mid hm (.drop p hx)
      obtain ⟨g, m', e, x1, x2, x3, x4⟩ := condDelBelowMid_pre h n (w.conds.below p)
        { w with mids := m.drop (fun q => decide (q = p)) :: ms } _ ms rfl hk hn
        (fun q hq => below_under hq)
      refine ⟨g0.then g, m', e, x1, x2, x3, ?_⟩
      intro q hq
      obtain ⟨y1, y2⟩ := x4 q hq
      exact ⟨(hd q y1).1, (hd q y1).2, fun _ => y2⟩
  obtain ⟨g1, m', e, x1, x2, x3, x4⟩ := h1
  split
  · exact ⟨g1, m', e, x1, x2, x3, x4⟩
  · have g := condUpdate_good h n w1
    exact ⟨g1.then g.pre, m', g.mids.trans e, x1, x2, x3, x4⟩

theorem condClearNoupdateMid_pre {n : CStr} {w : World} {m : Mid} {ms : List Mid}
    (hm : w.mids = m :: ms) (hn : Soft w (StateName (w.svc m.key) n ∧ m.made = none)) :
    Pre E lab (fun j => j ∈ w.stack) w (condClearNoupdateMid n w) ∧
    (condClearNoupdateMid n w).mids =
      m.drop (fun q => decide (q = condPath n) || under (condPath n) q) :: ms := by
  unfold condClearNoupdateMid condClearNoupdate
  rw [midHead_eq (w := { w with conds := (w.conds.clear n).1 }) hm]
  exact ⟨.mid hm (.clear n hn), rfl⟩

theorem getLast?_snoc (a : CStr) (b : CStr) (hb : b ≠ []) : (a ++ b).getLast? = b.getLast? := by
  rw [List.getLast?_append]
  cases e : b.getLast? with
  | none => rw [List.getLast?_eq_none_iff] at e; exact absurd e hb
  | some _ => rfl

theorem svcDir_last (s : Svc) : s.svcDir.getLast? = some '/' := by
  unfold Svc.svcDir; rw [getLast?_snoc _ _ (by decide)]; decide

theorem below_files {st : CondStore} {p q : CStr} (h : q ∈ st.files.map (·.1))
    (hu : under p q = true) : q ∈ st.below p := by
  simp only [List.mem_map] at h
  obtain ⟨a, h1, rfl⟩ := h
  simp only [CondStore.below, List.mem_map, List.mem_filter]
  exact ⟨a, ⟨h1, hu⟩, rfl⟩

theorem dir_nop (s : Svc) : s.svcDir ≠ nopName := by
  intro e
  have h1 := svcDir_last s
  rw [e] at h1; revert h1; decide

theorem success_nop (s : Svc) : s.successCond ≠ nopName := by
  intro e
  have h1 := congrArg List.getLast? e
  unfold Svc.successCond at h1
  rw [getLast?_snoc _ _ (by decide)] at h1
  revert h1; decide

theorem failure_nop (s : Svc) : s.failureCond ≠ nopName := by
  intro e
  have h1 := congrArg List.getLast? e
  unfold Svc.failureCond at h1
  rw [getLast?_snoc _ _ (by decide)] at h1
  revert h1; decide

/-- The work of `svc_set_state` on the conditions, from the note made when it begins. -/
theorem publish_pre (h : ROk E lab R) {k : Key} {old new : SState} {w : World} {m : Mid}
    {ms : List Mid} (hm : w.mids = m :: ms) (hmk : m.key = k) (hmo : m.old = old)
    (hmw : (w.svc k).block = m.was.block ∧ (w.svc k).started = m.was.started ∧
      (w.svc k).status = m.was.status)
    (hml : m.left = w.conds.files.map (·.1)) (hmm : m.made = none) (hmf : m.fresh = true)
    (hk : k ∈ w.stack) (hst : (w.svc k).state = new) :
    Pre E lab (fun j => j ∈ w.stack) w (publish R k old new w) ∧
    ∃ m', (publish R k old new w).mids = m' :: ms ∧ m'.key = k ∧
      Soft (publish R k old new w) (Published m' ((publish R k old new w).svc k)) := by
  subst hmk
  unfold publish
  extract_lets s w1 w2 s2 w3
  -- run/task
  have h2 : Pre E lab (fun j => j ∈ w.stack) w w2 ∧ ∃ m2, w2.mids = m2 :: ms ∧ m2.key = m.key ∧
      m2.was = m.was ∧
      (s.type.isRuntask = false → w2 = w ∧ m2 = m) ∧
      (s.type.isRuntask = true → new = .done → m2.fresh = true ∧
        m2.made = some (condPath (if s.started = true ∧ s.status.rc = 0 then s.successCond
          else s.failureCond))) ∧
      (s.type.isRuntask = true → new = .halted → m2.made = none ∧
        condPath s.successCond ∉ m2.left ∧ condPath s.failureCond ∉ m2.left) ∧
      (s.type.isRuntask = true → new ≠ .done → new ≠ .halted → m2.made = none ∧ m2.fresh = true) := by
    simp only [w2]; split
    · rename_i hrt
      simp only [w1]
      by_cases hd : new = .done
      · rw [if_pos hd, if_neg (by rw [hd]; decide)]
        by_cases hok : s.started = true ∧ s.status.rc = 0
        · rw [if_pos (by simp [hok.1, hok.2])]
          obtain ⟨g, e⟩ := condOneshotMid_pre h hm
            (n := s.successCond) (.success fun _ => ⟨hrt, hst.trans hd, hok.1, hok.2, hmm⟩)
          refine ⟨g, _, e, rfl, rfl, by simp [hrt], fun _ _ => ⟨hmf, by rw [if_pos hok]; rfl⟩,
            fun _ e => ?_, fun _ e => absurd hd e⟩
          rw [hd] at e; cases e
        · rw [if_neg (by
            intro hx
            have := Bool.and_eq_true_iff.mp hx
            exact hok ⟨this.1, of_decide_eq_true this.2⟩)]
          obtain ⟨g, e⟩ := condOneshotMid_pre h hm
            (n := s.failureCond) (.failure fun _ => ⟨hrt, hst.trans hd, hok, hmm⟩)
          refine ⟨g, _, e, rfl, rfl, by simp [hrt], fun _ _ => ⟨hmf, by rw [if_neg hok]; rfl⟩,
            fun _ e => ?_, fun _ e => absurd hd e⟩
          rw [hd] at e; cases e
      · rw [if_neg hd]
        by_cases hh : new = .halted
        · rw [if_pos hh]
          obtain ⟨g1, m1, e1, x1, x2, x3, x4⟩ := condClearMid_pre h (n := s.successCond) hm hk
            (fun _ => ⟨.success hrt, hmm⟩) (success_nop s)
          have hk1 : m1.key ∈ (condClearMid R s.successCond w).stack := by rw [g1.stack, x1]; exact hk
          have hn1 : Soft (condClearMid R s.successCond w)
              (StateName ((condClearMid R s.successCond w).svc m1.key) s.failureCond ∧
                m1.made = none) := by
            intro hr
            rw [x1, (g1.frame hr).1 m.key hk]; exact ⟨.failure hrt, x3.trans hmm⟩
          obtain ⟨g2, m2, e2, y1, y2, y3, y4⟩ := condClearMid_pre h (n := s.failureCond) e1 hk1 hn1
            (failure_nop s)
          refine ⟨g1.then g2, m2, e2, y1.trans x1, y2.trans x2, by simp [hrt],
            fun _ e => absurd e hd, fun _ _ => ⟨(y3.trans x3).trans hmm, ?_, ?_⟩,
            fun _ _ e => absurd hh e⟩
          · intro hq; exact (x4 _ (y4 _ hq).1).2.1 rfl
          · intro hq; exact (y4 _ hq).2.1 rfl
        · rw [if_neg hh]
          exact ⟨(Good.refl w).pre, m, hm, rfl, rfl, by simp [hrt], fun _ e => absurd e hd,
            fun _ e => absurd e hh, fun _ _ _ => ⟨hmm, hmf⟩⟩
    · rename_i hrt
      exact ⟨(Good.refl w).pre, m, hm, rfl, rfl, fun _ => ⟨rfl, rfl⟩, fun e => absurd e hrt,
        fun e => absurd e hrt, fun e => absurd e hrt⟩
  obtain ⟨g2, m2, e2, k2, o2, z1, z2, z3, z4⟩ := h2
  have f2 : Soft w2 (w2.svc m.key = s) := fun hr => (g2.frame hr).1 m.key hk
  have hk2 : m.key ∈ w2.stack := by rw [g2.stack]; exact hk
  -- daemons are not run/tasks
  have notRt : ∀ {t : SType}, t.isDaemon = true → t.isRuntask = false := by
    intro t; cases t <;> simp [SType.isDaemon, SType.isRuntask]
  have rt : ∀ (m' : Mid) (v : World), Soft v (v.svc m.key = s) → (v.reent = false → w2.reent = false) →
      (s.type.isDaemon = false → m' = m2) → Soft v (s.type.isDaemon = false → Published m' (v.svc m.key)) := by
    intro m' v hv _ hd hr hnd
    rw [hv hr, hd hnd]
    have hs : s.state = new := hst
    exact ⟨by rw [o2]; exact hmw, by simp [hnd], by simp [hnd], by simp [hnd], by simp [hnd],
      fun a b => z2 a (hs ▸ b), fun a b => z3 a (hs ▸ b), fun a b c => z4 a (hs ▸ b) (hs ▸ c)⟩
  split
  · rename_i hd
    have made2 : Soft w2 (m2.made = none) := by
      intro hr
      have : s2.type.isDaemon = true := hd
      have hq : s2 = s := f2 hr
      rw [hq] at this
      rw [(z1 (notRt this)).2]; exact hmm
    have n2 : Soft w2 (StateName (w2.svc m2.key) s2.svcDir ∧ m2.made = none) := fun hr =>
      ⟨by rw [k2]; exact .dir hd, made2 hr⟩
    -- the directory
    have h3 : Pre E lab (fun j => j ∈ w2.stack) w2 w3 ∧ ∃ m3, w3.mids = m3 :: ms ∧ m3.key = m.key ∧
        m3.was = m.was ∧ m3.made = m2.made ∧ (paused old new → m3.fresh = m2.fresh) ∧
        (¬ paused old new → s2.svcDir.length ≤ 43 → w2.conds = w.conds → m2.left = m.left →
          ∀ q ∈ m3.left, under (condPath s2.svcDir) q = false) := by
      simp only [w3]; split
      · rename_i hp
        exact ⟨(Good.refl w2).pre, m2, e2, k2, o2, rfl, fun _ => rfl, fun e => absurd hp e⟩
      · rename_i hp
        have hnp : ¬ paused old new := hp
        split
        · obtain ⟨g, e⟩ := condClearNoupdateMid_pre (E := E) (lab := lab) (n := s2.svcDir) e2 n2
          refine ⟨g, _, e, k2, o2, rfl, fun e => absurd e hnp, ?_⟩
          intro _ _ _ _ q hq
          simp only [Mid.drop, List.mem_filter, Bool.not_eq_true', Bool.or_eq_false_iff] at hq
          exact hq.2.2
        · obtain ⟨g, m3, e, x1, x2, x3, x4⟩ := condClearMid_pre h (n := s2.svcDir) e2
            (by rw [k2]; exact hk2) n2 (dir_nop s2)
          refine ⟨g, m3, e, x1.trans k2, x2.trans o2, x3, fun e => absurd e hnp, ?_⟩
          intro _ hl hc hle q hq
          obtain ⟨y1, _, y3⟩ := x4 q hq
          cases hu : under (condPath s2.svcDir) q with
          | false => rfl
          | true =>
            refine absurd (below_files ?_ hu) (y3 ?_)
            · rw [hc, ← hml, ← hle]; exact y1
            · have : condPath s2.svcDir = s2.svcDir := List.take_of_length_le hl
              rw [this]; exact svcDir_last s2
    obtain ⟨g3, m3, e3, k3, o3, a3, b3, c3⟩ := h3
    have g23 : Pre E lab (fun j => j ∈ w.stack) w w3 := g2.then g3
    have f3 : Soft w3 (w3.svc m.key = s ∧ s2 = s) := fun hr =>
      ⟨(g23.frame hr).1 m.key hk, f2 (reent_false g3.mono hr)⟩
    -- conclusion, given what happened last
    have fin : ∀ (m' : Mid) (v : World), Soft v (v.svc m.key = s ∧ s2 = s) → m'.was = m3.was →
        m'.left = m3.left → m'.fresh = m3.fresh →
        Soft v (m'.made = if new = .halted ∨ new = .running then
          some (condPath (s2.svcDir ++ s2.statusStr)) else none) →
        Soft v (Published m' (v.svc m.key)) := by
      intro m' v hv ho hl hf hmade hr
      obtain ⟨q1, q2⟩ := hv hr
      have hds : s.type.isDaemon = true := by
        have : s2.type.isDaemon = true := hd
        rw [q2] at this; exact this
      have hnr := notRt hds
      obtain ⟨ew, em⟩ := z1 hnr
      have hs : s.state = new := hst
      have hmd := hmade hr
      have ow : m'.was = m.was := ho.trans o3
      have oo : m'.old = old := by show m'.was.state = old; rw [ow]; exact hmo
      rw [q1]
      constructor
      · rw [ow]; exact hmw
      · intro _ hp; rw [hf, b3 (by rw [oo, hs] at hp; exact hp), em]; exact hmf
      · intro _ hp hlen
        rw [hl]
        have := c3 (by rw [oo, hs] at hp; exact hp) (by rw [q2]; exact hlen) (by rw [ew]) (by rw [em])
        rw [q2] at this; exact this
      · intro _ hc
        rw [hmd, if_pos (by rw [hs] at hc; exact hc), q2]
      · intro _ hc
        rw [hmd, if_neg (by rw [hs] at hc; exact hc)]
      · intro e; rw [hnr] at e; cases e
      · intro e; rw [hnr] at e; cases e
      · intro e; rw [hnr] at e; cases e
    split
    · rename_i hn
      obtain ⟨g4, e4⟩ := condOneshotMid_pre h (n := s2.svcDir ++ (w3.svc m.key).statusStr) e3
        (.status s2 _ (fun hr => by
          obtain ⟨q1, q2⟩ := f3 hr
          rw [k3, q1, q2]
          have hds : s.type.isDaemon = true := by
            have : s2.type.isDaemon = true := hd
            rw [q2] at this; exact this
          have hs : s.state = new := hst
          exact ⟨rfl, hds, rfl, by rw [hs]; exact hn, a3.trans (made2 (reent_false g3.mono hr))⟩))
      have g := g23.then g4
      refine ⟨g, _, e4, k3, fin _ _ (fun hr => ?_) rfl rfl rfl (fun hr => ?_)⟩
      · exact ⟨(g.frame hr).1 m.key hk, f2 (reent_false g3.mono (reent_false g4.mono hr))⟩
      · obtain ⟨q1, q2⟩ := f3 (reent_false g4.mono hr)
        rw [if_pos hn, q1, q2]; rfl
    · rename_i hn
      refine ⟨g23, m3, e3, k3, fin m3 w3 f3 rfl rfl rfl (fun hr => ?_)⟩
      obtain ⟨_, q2⟩ := f3 hr
      have hds : s.type.isDaemon = true := by
        have : s2.type.isDaemon = true := hd
        rw [q2] at this; exact this
      rw [if_neg hn, a3, (z1 (notRt hds)).2]; exact hmm
  · rename_i hd
    refine ⟨g2, m2, e2, k2, fun hr => ?_⟩
    refine rt m2 w2 f2 id (fun _ => rfl) hr ?_
    have := f2 hr
    rw [this] at hd
    exact Bool.eq_false_iff.mpr hd

/-- The end of `svc_set_state` after the assignment. -/
theorem setStateConds_pre (h : ROk E lab R) {k : Key} {old new : SState} {w : World} {m : Mid}
    {ms : List Mid} (hm : w.mids = m :: ms) (hmk : m.key = k) (hmo : m.old = old)
    (hmw : (w.svc k).block = m.was.block ∧ (w.svc k).started = m.was.started ∧
      (w.svc k).status = m.was.status)
    (hml : m.left = w.conds.files.map (·.1)) (hmm : m.made = none) (hmf : m.fresh = true)
    (hst : (w.svc k).state = new) :
    Pre E lab (fun j => j ∈ k :: w.stack) w (setStateConds R k old new w) ∧
    (setStateConds R k old new w).mids = ms := by
  unfold setStateConds
  extract_lets st w1
  obtain ⟨g, m', e, hk', hp⟩ := publish_pre h (w := { w with stack := k :: st }) (ms := ms) (m := m)
    (k := k) (old := old) (new := new) hm hmk hmo hmw hml hmm hmf (by simp) hst
  change Pre E lab (fun j => j ∈ k :: st) { w with stack := k :: st } w1 at g
  have e' : w1.mids = m' :: ms := e
  have hp' : Soft w1 (Published m' (w1.svc m'.key)) := by rw [hk']; exact hp
  refine ⟨⟨?_, rfl, fun hr => g.mono hr, fun hr => g.frame hr⟩, by simp only [e', List.tail_cons]⟩
  intro ho
  have s0 : Steps E lab w { w with stack := k :: st } := .one (.glob _ _ ⟨rfl, id, id, .inl rfl⟩)
  have s1 : Steps E lab w w1 := s0.trans (g.steps ho)
  have s2 : Steps E lab w1 { w1 with mids := ms } := .one (.mid w1 m' ms w1.conds ms e' (.finish hp'))
  have s3 : Steps E lab { w1 with mids := ms } { w1 with stack := st, mids := ms } :=
    .one (.glob _ _ ⟨rfl, id, id, .inl rfl⟩)
  have := (s1.trans s2).trans s3
  rw [e']; exact this

/-- The condition updates after `setStateRaw` has changed the state. -/
theorem setStateConds_raw (h : ROk E lab R) {k : Key} {new : SState} {w : World}
    (hn : (w.svc k).state ≠ new) :
    Pre E lab (fun j => j ∈ k :: w.stack) (setStateRaw k new w)
      (setStateConds R k (w.svc k).state new (setStateRaw k new w)) ∧
    (setStateConds R k (w.svc k).state new (setStateRaw k new w)).mids = w.mids := by
  obtain ⟨f1, _, _, _, _, f6, _⟩ := setStateRaw_fields k new w
  obtain ⟨c1, c2⟩ := setStateRaw_mids k new w
  rw [if_neg hn] at c2
  have := setStateConds_pre (E := E) (lab := lab) h (old := (w.svc k).state) c2 rfl rfl
    (by
      obtain ⟨t, a, _, e⟩ := setStateRaw_eq k new w
      rw [e]; simp [midOf])
    (by rw [c1]; rfl) rfl rfl f6
  rw [f1] at this; exact this

theorem setState_good (h : ROk E lab R) {k : Key} {new : SState} {w : World}
    (hm : StateMod lab w k new) :
    Good E lab (fun j => j ∈ w.stack ∧ j ≠ k) w (setState R k new w) ∧
    ((setState R k new w).reent = false →
      (setState R k new w).svc k = (setStateRaw k new w).svc k) := by
  unfold setState
  extract_lets old w1
  have h1 : Pre E lab (fun j => j ∈ w.stack ∧ j ≠ k) w w1 := setStateRaw_pre hm (fun x => x.2 rfl)
  split
  · rename_i hn
    refine ⟨h1.good ?_, fun _ => rfl⟩
    have := (setStateRaw_mids k new w).2
    rw [if_pos hn] at this; exact this
  · rename_i hn
    obtain ⟨h2, m2⟩ := setStateConds_raw (E := E) (lab := lab) h (k := k) (new := new) (w := w) hn
    refine ⟨(h1.trans (h2.weaken ?_)).good m2, ?_⟩
    · intro j hj; exact List.mem_cons_of_mem _ hj.1
    · intro hr
      exact (h2.frame hr).1 k (by simp)

/-! ### Functions working on one service -/

/-- The services being stepped other than `k`. -/
abbrev Oth (k : Key) (w : World) : Key → Prop := fun j => j ∈ w.stack ∧ j ≠ k

theorem not_oth (k : Key) (w : World) : ¬ Oth k w k := fun h => h.2 rfl

theorem Good.next {k : Key} {a b c : World} (h1 : Good E lab (Oth k a) a b)
    (h2 : Good E lab (Oth k b) b c) : Good E lab (Oth k a) a c := by
  have e : Oth k b = Oth k a := by unfold Oth; rw [h1.stack]
  rw [e] at h2; exact h1.trans h2

theorem Good.stk {a b : World} (k : Key) (h : Good E lab (fun j => j ∈ a.stack) a b) :
    Good E lab (Oth k a) a b := h.weaken fun _ hj => hj.1

theorem timerAfter_good {k : Key} {tmo : Int} {cb : Cb} {w : World}
    (h : (w.svc k).timer = none → SvcMod E lab w k { w.svc k with timer := some cb, armed := decide (0 < tmo) })
    (hS : ¬ S k) : Good E lab S w (timerAfter k tmo cb w) := by
  unfold timerAfter; split
  · exact .refl w
  · split
    · exact .refl w
    · rename_i hn; exact .mod (h (by simpa using hn)) hS rfl

theorem fork_cases (k : Key) (role : Role) (w : World) :
    fork E k role w = (-1, { w with tick := w.tick + 1 }) ∨
    ∃ p, 1 < p ∧ p ∉ w.live ∧ fork E k role w = (p, spawned p k role { w with tick := w.tick + 1 }) := by
  unfold fork
  extract_lets p w1
  by_cases h : 1 < p ∧ p ∉ w1.live
  · right; exact ⟨p, h.1, h.2, by rw [if_pos h]⟩
  · left; rw [if_neg h]

theorem runScript_good {k : Key} {role : Role} {w : World}
    (hr : role = .stopScript ∨ role = .reloadScript) : Good E lab S w (runScript E k role w).2 := by
  unfold runScript
  extract_lets f
  rcases fork_cases (E := E) k role w with h | ⟨p, h1, h2, h⟩
  · have e : f = _ := h
    rw [e]; exact .tick w _
  · have e : f = _ := h
    rw [e]
    have h0 : ¬ p < 0 := by omega
    rw [if_neg h0]
    have t : Good E lab S w { w with tick := w.tick + 1 } := .tick w _
    refine t.trans (Good.trans (.of_prim (.scriptRun _ k p role h1 h2 hr) rfl rfl (fun _ _ => rfl) rfl (fun _ => rfl)) ?_)
    exact .ask _

theorem runScript_svc (k : Key) (role : Role) (w : World) :
    (runScript E k role w).2.svc = w.svc := by
  unfold runScript
  extract_lets f
  rcases fork_cases (E := E) k role w with h | ⟨p, h1, h2, h⟩
  · have e : f = _ := h
    rw [e]; rfl
  · have e : f = _ := h
    rw [e]
    have h0 : ¬ p < 0 := by omega
    rw [if_neg h0]; rfl

theorem stopAct_good {k : Key} {w : World} (hs : SState.stopping.toNat < (w.svc k).state.toNat)
    (hz : (w.svc k).state = .paused →
      w.trace.head?.map (·.2) = some (.kill (w.svc k).pid 18 .cont k))
    (hp : (w.svc k).stopScript = false → (w.svc k).type ≠ .sysv → 1 < (w.svc k).pid) :
    Good E lab S w (stopAct E k w).2 ∧ (stopAct E k w).2.svc = w.svc ∧
    (((stopAct E k w).1 = false →
      (1 < (w.svc k).pid ∧ (w.svc k).stopScript = false ∧ (w.svc k).type ≠ .sysv ∧
       ∃ c tl, (stopAct E k w).2.trace = (c, .kill (w.svc k).pid (w.svc k).sighalt .halt k) :: tl ∧
         c.svc k = w.svc k ∧ c.order = (stopAct E k w).2.order ∧ c.main = (stopAct E k w).2.main) ∨
      (w.svc k).stopScript = true ∨ (w.svc k).type = .sysv)) ∧
    ((stopAct E k w).1 = true → (w.svc k).pid ∉ (stopAct E k w).2.live ∨
      (w.svc k).stopScript = true ∨ (w.svc k).type = .sysv) := by
  unfold stopAct
  split
  · rename_i h
    exact ⟨runScript_good (.inl rfl), runScript_svc _ _ _, fun _ => .inr (.inl h), fun _ => .inr (.inl h)⟩
  · rename_i h
    have h' : (w.svc k).stopScript = false := by simpa using h
    split
    · rename_i ht
      have h1 := hp h' ht
      refine ⟨.kill (.halt h1 hs hz), rfl, fun _ => .inl ⟨h1, h', ht, _, _, rfl, rfl, rfl, rfl⟩, ?_⟩
      intro hk
      left
      have := (Bool.and_eq_true_iff.mp hk).2
      have h2 : ¬ (w.svc k).pid ∈ (emit (Eff.kill (w.svc k).pid (w.svc k).sighalt Why.halt k) w).live := by
        simpa using this
      exact h2
    · rename_i ht
      have ht' : (w.svc k).type = .sysv := by simpa using ht
      extract_lets r
      refine ⟨?_, ?_, fun _ => .inr (.inr ht'), fun _ => .inr (.inr ht')⟩
      · rcases fork_cases (E := E) k .sysvStop w with h | ⟨p, h1, h2, h⟩
        · have e : r = _ := h
          rw [e]; exact .tick w _
        · have e : r = _ := h
          rw [e]
          exact (Good.tick w _).trans (.of_prim (.sysvStop _ k p h1 h2 ht') rfl rfl (fun _ _ => rfl) rfl (fun _ => rfl))
      · rcases fork_cases (E := E) k .sysvStop w with h | ⟨p, h1, h2, h⟩
        · have e : r = _ := h
          rw [e]
        · have e : r = _ := h
          rw [e]; rfl

theorem serviceCleanup_good {k : Key} {w : World}
    (hs : SState.stopping.toNat < (w.svc k).state.toNat)
    (hp : (w.svc k).pid ∉ w.live ∨ (w.svc k).stopScript = true ∨ (w.svc k).type = .sysv) (hS : ¬ S k) :
    Good E lab S w (serviceCleanup k w) := by
  unfold serviceCleanup
  obtain ⟨a, e⟩ := timerCancel_eq k w
  have h1 : Good E lab S w (timerCancel k w) := .cancel (.up hs) hS
  refine h1.trans ?_
  rw [e]
  generalize hw1 : ({ w with svc := upd w.svc k { w.svc k with timer := none, armed := a } } : World) = w1
  have es : w1.svc k = { w.svc k with timer := none, armed := a } := by rw [← hw1]; simp
  have el : w1.live = w.live := by rw [← hw1]
  have h2 : Good E lab S w1 (mod k (fun s => { s with watch := false, starting := false }) w1) :=
    .minor rfl hS
  have e3 : Sup.mod k (fun s => { s with watch := false, starting := false, pid := 0 }) w1 =
      Sup.mod k (fun s => { s with pid := 0 }) (Sup.mod k (fun s => { s with watch := false, starting := false }) w1) := by
    simp only [Sup.mod, upd_same, upd_upd]
  rw [e3]
  refine h2.trans (.mod ?_ hS rfl)
  rcases hp with hp | hp
  · refine .pidLost ?_ ?_
    · simp only [Sup.mod, upd_same, es, el]; exact hp
    · simp only [Sup.mod, upd_same, es]; exact hs
  · refine .pidOdd ?_ ?_
    · simp only [Sup.mod, upd_same, es]; exact hp
    · simp only [Sup.mod, upd_same, es]; exact hs

theorem setState_oth (h : ROk E lab R) {k : Key} {new : SState} {w : World}
    (hm : StateMod lab w k new) : Good E lab (Oth k w) w (setState R k new w) := (setState_good h hm).1

/-- Freezing a process. -/
theorem pause_oth (h : ROk E lab R) {k : Key} {w : World} (hs : (w.svc k).state = .running)
    (hp : (w.svc k).pid ≠ 0) (he : enabled w.toCore k = true) (ha : aggCond w.toCore k = .flux) :
    Good E lab (Oth k w) w (setState R k .paused (kill E (w.svc k).pid 19 .pause k w).2) := by
  obtain ⟨f1, f2, f3, f4, f5, f6, _⟩ := setStateRaw_fields k .paused (kill E (w.svc k).pid 19 .pause k w).2
  have h1 : Pre E lab (Oth k w) w (setStateRaw k .paused (kill E (w.svc k).pid 19 .pause k w).2) :=
    .of_prim (.pause w k hs hp he ha) f1 f2 (fun j hj => f3 j hj.2) f4 f5
  have hn : ((kill E (w.svc k).pid 19 .pause k w).2.svc k).state ≠ .paused := by
    show (w.svc k).state ≠ .paused
    rw [hs]; decide
  unfold setState
  dsimp only
  rw [if_neg hn]
  obtain ⟨g, m⟩ := setStateConds_raw (E := E) (lab := lab) h hn
  refine (h1.trans (g.weaken ?_)).good m
  intro j hj; exact List.mem_cons_of_mem _ hj.1

theorem serviceStop_good (h : ROk E lab R) (k : Key) (w : World)
    (hz : (w.svc k).state = .paused →
      w.trace.head?.map (·.2) = some (.kill (w.svc k).pid 18 .cont k)) :
    Good E lab (Oth k w) w (serviceStop E R k w) := by
  unfold serviceStop
  split
  · exact .refl w
  rename_i hst
  have hst : SState.stopping.toNat < (w.svc k).state.toNat := by omega
  have hns : (w.svc k).state ≠ .stopping := by
    intro h; rw [h] at hst; exact Nat.lt_irrefl _ hst
  obtain ⟨a, e⟩ := timerCancel_eq k w
  have h1 : Good E lab (Oth k w) w (timerCancel k w) := .cancel (.up hst) (not_oth k w)
  refine h1.next ?_
  rw [e]
  generalize hw1 : ({ w with svc := upd w.svc k { w.svc k with timer := none, armed := a } } : World) = w1
  have et : (w1.svc k).timer = none := by rw [← hw1]; simp
  have hst1 : SState.stopping.toNat < (w1.svc k).state.toNat := by rw [← hw1]; simpa using hst
  have hz1 : (w1.svc k).state = .paused →
      w1.trace.head?.map (·.2) = some (.kill (w1.svc k).pid 18 .cont k) := by
    rw [← hw1]; simpa using hz
  clear hw1 h1 e
  extract_lets w1' plain r w2 w3 r2 w4 r3 w5
  -- the lost case, from any state that still knows no process
  have lostCase : ∀ v : World, (v.svc k).timer = none → SState.stopping.toNat < (v.svc k).state.toNat →
      ((v.svc k).pid ∉ v.live ∨ (v.svc k).stopScript = true ∨ (v.svc k).type = .sysv) →
      Good E lab (Oth k v) v (setState R k .halted (serviceCleanup k v)) := by
    intro v hvt hvs hvp
    have g1 : Good E lab (Oth k v) v (serviceCleanup k v) := serviceCleanup_good hvs hvp (not_oth k v)
    refine g1.next (setState_oth h (.lost ?_ ?_ ?_))
    all_goals
      obtain ⟨b, eb⟩ := serviceCleanup_eq k v
      rw [eb]; simp only [upd_same]
    exact hvs
  split
  · exact .refl w1
  rename_i hpl
  have g2 : Good E lab (Oth k w1) w1 w2 := .procExists _ _
  split
  · rename_i hx
    have hx' := Bool.and_eq_true_iff.mp hx
    refine g2.next (lostCase w2 et hst1 (.inl ?_))
    have : r.1 = false := by simpa using hx'.2
    simp only [r, procExists] at this
    have := (Bool.or_eq_false_iff.mp this).1
    simpa [w2, r, procExists] using this
  · have g3 : Good E lab (Oth k w2) w2 w3 := .minor rfl (not_oth k w2)
    have et3 : (w3.svc k).timer = none := by simp only [w3, Sup.mod, upd_same]; exact et
    have hst3 : SState.stopping.toNat < (w3.svc k).state.toNat := by
      simp only [w3, Sup.mod, upd_same]; exact hst1
    have g4 : Good E lab (Oth k w3) w3 w4 := .procExists _ _
    have g24 := (g2.next g3).next g4
    have et4 : (w4.svc k).timer = none := et3
    have hst4 : SState.stopping.toNat < (w4.svc k).state.toNat := hst3
    have hz4 : (w4.svc k).state = .paused →
        w4.trace.head?.map (·.2) = some (.kill (w4.svc k).pid 18 .cont k) := by
      have e4 : w4.svc k = { w1.svc k with starting := false } := by
        have : w4.svc k = w3.svc k := rfl
        rw [this]; simp only [w3, Sup.mod, upd_same]; rfl
      rw [e4]; exact hz1
    split
    · rename_i hx
      have hx' := Bool.and_eq_true_iff.mp hx
      refine g24.next (.mod (.pidLost ?_ hst4) (not_oth k w4) rfl)
      have : r2.1 = false := by simpa using hx'.2
      simp only [r2, procExists] at this
      have := (Bool.or_eq_false_iff.mp this).1
      simpa [w4, r2, procExists] using this
    · have hpid : (w4.svc k).stopScript = false → (w4.svc k).type ≠ .sysv → 1 < (w4.svc k).pid := by
        intro a1 a2
        have e4 : w4.svc k = { w1.svc k with starting := false } := by
          have : w4.svc k = w3.svc k := rfl
          rw [this]; simp only [w3, Sup.mod, upd_same]; rfl
        rw [e4] at a1 a2 ⊢
        have hp : plain = true := by
          simp only [plain, w1']; simp only at a1 a2; simp [a1, a2]
        rw [hp] at hpl
        simp only [Bool.true_and, decide_eq_true_eq, w1'] at hpl
        simp only; omega
      obtain ⟨s1, s2, s3, s4⟩ := stopAct_good (E := E) (lab := lab) (S := Oth k w4) hst4 hz4 hpid
      have g5 : Good E lab (Oth k w4) w4 w5 := s1
      have e5 : w5.svc = w4.svc := s2
      split
      · rename_i hr
        refine (g24.next g5).next (lostCase w5 ?_ ?_ ?_)
        · rw [e5]; exact et4
        · rw [e5]; exact hst4
        · rw [e5]; exact s4 hr
      · rename_i hr
        have hr' : (stopAct E k w4).1 = false := by simpa using hr
        refine (g24.next g5).next (setState_oth h (.stop ?_ ?_ ?_))
        · rw [e5]; exact hst4
        · rw [e5]; exact et4
        · rw [e5]; exact s3 hr'

theorem stopAct_frame (k : Key) (w : World) :
    (stopAct E k w).2.stack = w.stack ∧ (stopAct E k w).2.reent = w.reent ∧
    (stopAct E k w).2.mids = w.mids := by
  have hf : ∀ role, (fork E k role w).2.stack = w.stack ∧ (fork E k role w).2.reent = w.reent ∧
      (fork E k role w).2.mids = w.mids := by
    intro role; unfold fork; extract_lets; split <;> exact ⟨rfl, rfl, rfl⟩
  unfold stopAct
  split
  · unfold runScript
    dsimp only
    split
    · exact hf _
    · exact hf _
  · split
    · exact ⟨rfl, rfl, rfl⟩
    · exact hf _

theorem setState_frame (h : ROk E lab R) (k : Key) (new : SState) (w : World) :
    (setState R k new w).stack = w.stack ∧ (w.reent = true → (setState R k new w).reent = true) ∧
    (setState R k new w).mids = w.mids := by
  unfold setState
  extract_lets old w1
  obtain ⟨t, x, _, e⟩ := setStateRaw_eq k new w
  have e1 : w1 = _ := e
  split
  · rename_i hn
    rw [e1]; exact ⟨rfl, id, if_pos hn⟩
  · rename_i hn
    obtain ⟨g, gm⟩ := setStateConds_raw (E := E) (lab := lab) h (k := k) (new := new) (w := w) hn
    exact ⟨g.stack.trans (congrArg (fun v => v.stack) e), fun hr => g.mono (by rw [e]; exact hr), gm⟩

/-- The call stack after `service_stop`, whatever the state of the service. -/
theorem serviceStop_frame (h : ROk E lab R) (k : Key) (w : World) :
    (serviceStop E R k w).stack = w.stack ∧ (w.reent = true → (serviceStop E R k w).reent = true) ∧
    (serviceStop E R k w).mids = w.mids := by
  unfold serviceStop
  split
  · exact ⟨rfl, id, rfl⟩
  obtain ⟨a, e⟩ := timerCancel_eq k w
  rw [e]
  extract_lets w1' w1 plain r w2 w3 r2 w4 r3 w5
  have f5 := stopAct_frame (E := E) k w4
  split
  · exact ⟨rfl, id, rfl⟩
  split
  · obtain ⟨b, e⟩ := serviceCleanup_eq k w2
    rw [e]
    exact setState_frame h k .halted _
  split
  · exact ⟨rfl, id, rfl⟩
  split
  · obtain ⟨b, e⟩ := serviceCleanup_eq k w5
    rw [e]
    obtain ⟨x, y, z⟩ := setState_frame h k .halted
      { w5 with svc := upd w5.svc k { w5.svc k with timer := none, armed := b, watch := false,
                                                    starting := false, pid := 0 } }
    exact ⟨x.trans f5.1, fun hr => y (f5.2.1.trans hr), z.trans f5.2.2⟩
  · obtain ⟨x, y, z⟩ := setState_frame h k .stopping w5
    exact ⟨x.trans f5.1, fun hr => y (f5.2.1.trans hr), z.trans f5.2.2⟩

theorem SmGood.reent {a b : World} (h : SmGood E lab a b) (hr : a.reent = true)
    (S : Key → Prop) : Good E lab S a b :=
  ⟨h.steps, h.stack, h.mono, fun hf => (by rw [h.mono hr] at hf; cases hf), h.mids⟩

theorem cleanBootstrap_sm {k : Key} {w : World} (hk : Soft w (k ∈ w.order)) :
    SmGood E lab w (cleanBootstrap k w) := by
  unfold cleanBootstrap; split
  · rename_i h; exact .of_prim (.delBoot w k h hk) rfl id
  · exact .refl w

theorem monitorTail_sm (h : ROk E lab R) {k : Key} {p : Int} {w : World} (hp : p ∉ w.live)
    (hk : k ∈ w.order) :
    SmGood E lab w (monitorTail R k p w) := by
  unfold monitorTail
  extract_lets x w1 w2 w3
  have h1 : SmGood E lab w w1 := by
    simp only [w1]; split
    · rename_i e
      have g : Good E lab (fun _ => False) w
          (mod k (fun s => { s with dirty := false, argsDirty := false }) w) := .minor rfl (fun h => h)
      refine g.sm.trans (.of_prim (.unblock _ ?_) rfl id)
      show w.runBlock ∉ w.live
      rw [← e]; exact hp
    · exact .refl w
  have h2 : SmGood E lab w1 w2 := (h.step k w1).sm
  have hk2 : Soft w2 (k ∈ w2.order) := by
    intro hr
    have e0 : (Glob w2).order = (Glob w1).order := congrArg Core.order ((h.step k w1).frame hr).2.1
    have e1 : w2.order = w1.order := e0
    have e2 : w1.order = w.order := by simp only [w1]; split <;> rfl
    rw [e1, e2]; exact hk
  exact ((h1.trans h2).trans (cleanBootstrap_sm hk2)).trans (h.sm w3)

theorem scriptDel_sm {p : Int} {w : World} (hp : 1 < p) : SmGood E lab w (scriptDel E p w) := by
  unfold scriptDel
  split
  · exact .refl w
  · rename_i a ha
    have hm := List.mem_of_find?_eq_some ha
    extract_lets w1 w2 w3
    have h1 : SmGood E lab w w1 := by
      simp only [w1]; split
      · rename_i hf; exact .of_prim (.ub w a.2 hf (.inr (.inl ⟨a.1, hm⟩))) rfl id
      · exact .refl w
    have ea : w1.assoc = w.assoc := by simp only [w1]; split <;> rfl
    have h2 : Good E lab (fun _ => False) w1 w2 :=
      .cancel (.readyExit a.1 (by rw [ea]; exact hm)) (fun h => h)
    have ea2 : w2.assoc = w.assoc := by
      obtain ⟨b, e⟩ := timerCancel_eq a.2 w1
      have : w2 = _ := e
      rw [this]; exact ea
    have h3 : Good E lab (fun _ => False) w2 w3 := .kill (.group p hp)
    have ea3 : w3.assoc = w.assoc := ea2
    refine ((h1.trans h2.sm).trans h3.sm).trans (.of_prim (.assoc w3 _ ?_) rfl id)
    intro x hx; exact List.mem_of_mem_eraseP hx

theorem findByPid_some {c : Core} {p : Int} {k : Key} (h : findByPid c p = some k) :
    k ∈ c.order ∧ (c.svc k).pid = p := by
  unfold findByPid at h
  exact ⟨List.mem_of_find?_eq_some h, by have := List.find?_some h; simpa using this⟩

/-- `service_monitor` on a process that is not our child. -/
theorem monitor_sm (h : ROk E lab R) {p : Int} {st : WStatus} {w : World} (hp : p ∉ w.live) :
    SmGood E lab w (monitor E R p st w) ∧ (1 < p → w.stack ≠ [] → (monitor E R p st w).reent = true) := by
  unfold monitor
  split
  · rename_i h1; exact ⟨.refl w, fun h => by omega⟩
  · rename_i h1
    extract_lets w1
    have g1 : SmGood E lab w w1 := by
      simp only [w1]; split
      · exact (Good.reent (S := fun _ => False) w).sm
      · exact .refl w
    have l1 : w1.live = w.live := by simp only [w1]; split <;> rfl
    have r1 : w.stack ≠ [] → w1.reent = true := by
      intro hs; simp only [w1, if_pos hs]
    have key : ∀ v, SmGood E lab w1 v → SmGood E lab w v ∧ (1 < p → w.stack ≠ [] → v.reent = true) :=
      fun v hv => ⟨g1.trans hv, fun _ hs => hv.mono (r1 hs)⟩
    split
    · exact key _ (scriptDel_sm (by omega))
    · rename_i k hf
      obtain ⟨hk, hpid⟩ := findByPid_some hf
      refine key _ ?_
      have hl : (w1.svc k).pid ∉ w1.live := by rw [hpid, l1]; exact hp
      have g2 : SmGood E lab w1 (monitorHead E k st w1) := by
        obtain ⟨s', tr, t, e, _⟩ := monitorHead_eq (E := E) k st w1
        refine .of_prim (.lost w1 k st hl (by rw [hpid]; omega) hk) ?_ ?_ ?_
        · rw [e]
        · rw [e]; exact id
        · rw [e]
      obtain ⟨s', tr, t, e, _⟩ := monitorHead_eq (E := E) k st w1
      refine g2.trans (monitorTail_sm h ?_ (by rw [e]; exact hk))
      rw [e]; show p ∉ w1.live; rw [l1]; exact hp

/-- `service_monitor` called for a child that was just collected. -/
theorem monitor_exit_sm {p : Int} {st : WStatus} (h : ROk E (.ev (.exit p st)) R) {w : World}
    (hp : p ∈ w.live) (hst : w.stack = []) :
    SmGood E (.ev (.exit p st)) w (monitor E R p st (reap p (some st) w)) := by
  have hn : p ∉ (reap p (some st) w).live := by simp [reap, emit]
  unfold monitor
  split
  · rename_i h1; exact .of_prim (.collectOther w p st hp (.inr h1) rfl) rfl id
  · rename_i h1
    extract_lets w1
    have e1 : w1 = reap p (some st) w := by
      simp only [w1]; rw [if_neg]; simp [reap, emit, hst]
    rw [e1]
    split
    · rename_i hf
      refine SmGood.trans (.of_prim (.collectOther w p st hp (.inl hf) rfl) rfl id) (scriptDel_sm (by omega))
    · rename_i k hf
      obtain ⟨hk, hpid⟩ := findByPid_some hf
      obtain ⟨s', tr, t, e, _⟩ := monitorHead_eq (E := E) k st (reap p (some st) w)
      have g2 : SmGood E (.ev (.exit p st)) w (monitorHead E k st (reap p (some st) w)) := by
        refine .of_prim (.collect w k p st hp hf hpid (by omega) rfl) ?_ ?_ ?_
        · rw [e]; rfl
        · rw [e]; exact id
        · rw [e]; rfl
      refine g2.trans (monitorTail_sm h ?_ (by rw [e]; exact hk))
      rw [e]; exact hn

theorem serviceReload_good (h : ROk E lab R) {k : Key} {w : World} (hk : k ∈ w.stack)
    (hs : (w.svc k).state = .running) : Good E lab (Oth k w) w (serviceReload E R k w) := by
  unfold serviceReload
  extract_lets r noresp w1 s r2 rc w2 r3 esrch w3
  have g1 : Good E lab (Oth k w) w w1 := .askB w
  have e1 : w1.svc = w.svc := rfl
  split
  · exact g1
  · split
    · have g2 : Good E lab (Oth k w1) w1 w2 := runScript_good (.inr rfl)
      split
      · exact (g1.next g2).next (.minor rfl (not_oth k w2))
      · exact g1.next g2
    · split
      · split
        · rename_i hp
          exact g1.next (.mod (.pidNone hp hs) (not_oth k w1) rfl)
        · rename_i hp
          have hp' : 1 < (w1.svc k).pid := by
            have : ¬ (w1.svc k).pid ≤ 1 := hp
            omega
          have g3 : Good E lab (Oth k w1) w1 w3 := .kill (.hup hp' hs)
          split
          · rename_i he
            have hl : s.pid ∉ w3.live := by
              have := (Bool.and_eq_true_iff.mp he).2
              have h2 : s.pid ∉ (emit (.kill s.pid 1 .hup k) w1).live := by simpa using this
              exact h2
            have hk3 : w3.stack ≠ [] := by
              have : w3.stack = w.stack := rfl
              rw [this]; intro e; rw [e] at hk; cases hk
            obtain ⟨m1, m2⟩ := monitor_sm (E := E) (lab := lab) h (p := s.pid) (st := .exited 0) hl
            have hr := m2 hp' hk3
            have g13 := (g1.next g3)
            refine ⟨(g13.sm.trans m1).steps, m1.stack.trans g13.stack, fun _ => hr, ?_,
              m1.mids.trans g13.mids⟩
            intro hf; rw [hr] at hf; cases hf
          · exact (g1.next g3).next (.minor rfl (not_oth k w3))
      · exact g1

theorem scriptFork_good {k : Key} {role : Role} {tmo : Svc → Int} {w : World}
    (hr : role = .pre ∨ role = .post ∨ role = .cleanup)
    (h : Soft w (ScriptState lab k role (w.svc k))) (hS : ¬ S k)
    (ha : Soft w (role = .pre → Allowed w.toCore k) := by intro _ h; cases h) :
    Good E lab S w (scriptFork E k role tmo w) := by
  unfold scriptFork
  extract_lets r p w1 w2
  have hm : role ≠ .main := by rcases hr with h | h | h <;> rw [h] <;> decide
  have key : Good E lab S w w2 ∧ (w2.svc k).state = (w.svc k).state ∧ (w2.svc k).block = (w.svc k).block
      ∧ w2.reent = w.reent := by
    rcases fork_cases (E := E) k role w with e | ⟨q, h1, h2, e⟩
    · have er : r = _ := e
      simp only [w2, w1, p, er]
      refine ⟨(Good.tick w _).trans (.mod (.scriptFail role h) hS rfl), ?_, ?_, rfl⟩ <;> simp [Sup.mod]
    · have er : r = _ := e
      simp only [w2, w1, p, er]
      refine ⟨(Good.tick w _).trans (.of_prim (.script _ k q role h1 h2 hm h ha) rfl rfl ?_ rfl ?_), ?_, ?_, rfl⟩
      · intro j hj
        have : j ≠ k := fun e => hS (e ▸ hj)
        simp [Sup.mod, spawned, emit, upd_other _ _ _ _ this]
      · intro j
        by_cases ej : j = k
        · subst ej; simp [Sup.mod, spawned, emit, Svc.cfg]
        · simp [Sup.mod, spawned, emit, upd_other _ _ _ _ ej]
      all_goals simp [Sup.mod, spawned, emit]
  split
  · exact key.1
  · refine key.1.trans (timerAfter_good (fun ht => .armScript _ role ht ?_) hS)
    intro hr2
    have := h (key.2.2.2 ▸ hr2)
    unfold ScriptState at this ⊢
    rw [key.2.1, key.2.2.1]; exact this

/-- Who may run a ready script does not change. -/
theorem ReadyBy.good {k : Key} {w w' : World} (g : Good E lab S w w')
    (h : Soft w (ReadyBy lab w.toCore k)) : Soft w' (ReadyBy lab w'.toCore k) := by
  intro hr
  have e0 : (Glob w').order = (Glob w).order := congrArg Core.order (g.frame hr).2.1
  have e1 : w'.order = w.order := e0
  have e2 : (Glob w').runlevel = (Glob w).runlevel := congrArg Core.runlevel (g.frame hr).2.1
  have e3 : w'.runlevel = w.runlevel := e2
  have c := (g.frame hr).2.2 k
  have c4 : (w'.svc k).cfg.levels = (w.svc k).cfg.levels := congrArg Svc.levels c
  have c5 : (w'.svc k).cfg.removed = (w.svc k).cfg.removed := congrArg Svc.removed c
  have e4 : (w'.svc k).levels = (w.svc k).levels := c4
  have e5 : (w'.svc k).removed = (w.svc k).removed := c5
  have := h (reent_false g.mono hr)
  unfold ReadyBy Allowed at this ⊢
  rw [e1, e3, e4, e5]; exact this

theorem readyScript_good {k : Key} {w : World} (hr : (w.svc k).ready = true) (hS : ¬ S k)
    (hk : Soft w (ReadyBy lab w.toCore k)) :
    Good E lab S w (readyScript E k w) := by
  unfold readyScript
  extract_lets r noexec w1 r2 p w2 w3
  have g1 : Good E lab S w w1 := .askB w
  split
  · exact g1
  · rcases fork_cases (E := E) k .ready w1 with e | ⟨q, h1, h2, e⟩
    · have er : r2 = _ := e
      have hp : p < 0 := by simp only [p, er]; decide
      rw [if_pos hp]
      refine g1.trans ?_
      simp only [w2, er]; exact .tick w1 _
    · have er : r2 = _ := e
      have hp : ¬ p < 0 := by simp only [p, er]; omega
      rw [if_neg hp]
      have g2 : Good E lab S w1 w3 := by
        simp only [w3, w2, p, er]
        exact (Good.tick w1 _).trans (.of_prim (.readyScript _ k q h1 h2 hr hk) rfl rfl (fun _ _ => rfl) rfl (fun _ => rfl))
      exact (g1.trans g2).trans (timerAfter_good (fun ht => .armReady _ ht (by
        simp only [w3, w2, er]; exact hr) (ReadyBy.good (g1.trans g2) hk)) hS)

theorem serviceReady_good (h : ROk E lab R) (k : Key) (on : Bool) (w : World)
    (hk : on = true → Soft w (ReadyBy lab w.toCore k)) :
    Good E lab (Oth k w) w (serviceReady E R k on w) := by
  unfold serviceReady
  split
  · exact .refl w
  · rename_i hd
    split
    · rename_i ho
      extract_lets w1
      have g1 : Good E lab (Oth k w) w w1 := (condSet_good h (.ready k (by simpa using hd))).stk k
      split
      · rename_i hr
        exact g1.next (readyScript_good hr (not_oth k w1) (ReadyBy.good g1 (hk ho)))
      · exact g1
    · exact (condClear_good h (NameOk.ready w k)).stk k

/-! ### `service_step` -/

/-- After `svc_set_state` of the service being stepped, unless re-entered, the service is as
    `setStateRaw` left it. -/
theorem setState_after (h : ROk E lab R) {k : Key} {new : SState} {w : World}
    (hm : StateMod lab w k new) (_ : k ∈ w.stack) {w' : World} (hw : w' = setState R k new w) :
    Soft w' (w'.svc k = (setStateRaw k new w).svc k) := by
  subst hw; exact (setState_good h hm).2

theorem stepHalted_good (h : ROk E lab R) {k : Key} {en : Bool} {w : World}
    (hs : (w.svc k).state = .halted) (he : en = enabled w.toCore k) :
    Good E lab (Oth k w) w (stepHalted R k en w) := by
  unfold stepHalted; split
  · rename_i hen; exact setState_oth h (.wake hs (by rw [← he]; exact hen))
  · split
    · rename_i hr; exact setState_oth h (.dead hs hr)
    · rename_i hr
      split
      · rename_i hb
        split
        · rename_i hc
          exact .mod (.unblockConflict hb hs (by simpa using hc) (by simpa using hr)) (not_oth k w) rfl
        · exact .refl w
      · exact .refl w

theorem setStateRaw_timer {k : Key} {new : SState} {w : World} (h : new ≠ .stopping) :
    ((setStateRaw k new w).svc k) = { w.svc k with state := new } := by
  unfold setStateRaw
  rw [if_neg h]
  dsimp only
  split
  · rename_i e; rw [← e]
  · simp [Sup.mod, emit]

theorem stepTeardown_good (h : ROk E lab R) {k : Key} {w : World} (hk : k ∈ w.stack)
    (hs : (w.svc k).state = .teardown) : Good E lab (Oth k w) w (stepTeardown E R k w) := by
  unfold stepTeardown; split
  · rename_i hp
    extract_lets w1 w2
    have g1 : Good E lab (Oth k w) w w1 := .cancel (.noProc hp (by rw [hs]; decide)) (not_oth k w)
    obtain ⟨a, e⟩ := timerCancel_eq k w
    have e1 : w1 = _ := e
    have es : w1.svc k = { w.svc k with timer := none, armed := a } := by rw [e1]; simp
    have hs1 : (w1.svc k).state = .teardown := by rw [es]; exact hs
    have hp1 : (w1.svc k).pid = 0 := by rw [es]; exact hp
    have ht1 : (w1.svc k).timer = none := by rw [es]
    split
    · rename_i hrc
      have hrc' := Bool.and_eq_true_iff.mp hrc
      have hm : StateMod lab w1 k .cleanup := .tearCleanup hs1 hp1 hrc'.1 hrc'.2 ht1
      have g2 : Good E lab (Oth k w1) w1 w2 := setState_oth h hm
      have hk1 : k ∈ w1.stack := by rw [g1.stack]; exact hk
      have ha := setState_after h hm hk1 (w' := w2) rfl
      refine (g1.next g2).next (scriptFork_good (.inr (.inr rfl)) ?_ (not_oth k w2))
      intro hr
      rw [ha hr, setStateRaw_timer (by decide)]
      exact .inr (.inr (.inl ⟨rfl, rfl⟩))
    · exact g1.next (setState_oth h (.tearHalted hs1 hp1 ht1))
  · exact .refl w

theorem stepCleanup_good (h : ROk E lab R) {k : Key} {w : World}
    (hs : (w.svc k).state = .cleanup) : Good E lab (Oth k w) w (stepCleanup R k w) := by
  unfold stepCleanup; split
  · rename_i hp; exact setState_oth h (.cleanHalted hs hp)
  · exact .refl w

theorem enabled_block {c : Core} {k : Key} (h : enabled c k = true) : (c.svc k).block = .none := by
  unfold enabled at h
  simp only [Bool.if_false_left, Bool.if_true_right] at h
  by_cases hb : (c.svc k).block = .none
  · exact hb
  · simp [hb] at h

theorem enabled_removed {c : Core} {k : Key} (h : enabled c k = true) : (c.svc k).removed = false := by
  unfold enabled at h
  simp only [Bool.if_false_left, Bool.if_true_right] at h
  cases hb : (c.svc k).removed with
  | false => rfl
  | true => simp [hb] at h

theorem enabled_allowed {c : Core} {k : Key} (h : enabled c k = true) : Allowed c k := by
  refine ⟨?_, enabled_removed h⟩
  unfold enabled at h
  dsimp only at h
  split at h
  · cases h
  · rename_i hx; simpa using hx

/-- Who may run is not changed by stepping services. -/
theorem Good.allowed {a b : World} {k : Key} (h : Good E lab S a b) (hr : b.reent = false) :
    Allowed b.toCore k ↔ Allowed a.toCore k := by
  obtain ⟨_, y2, y3⟩ := h.frame hr
  have e1 : b.runlevel = a.runlevel := by have := congrArg Core.runlevel y2; exact this
  have e2 : (b.svc k).levels = (a.svc k).levels := by have := congrArg Svc.levels (y3 k); exact this
  have e3 : (b.svc k).removed = (a.svc k).removed := by have := congrArg Svc.removed (y3 k); exact this
  unfold Allowed
  rw [e1, e2, e3]

theorem stepDone_good (h : ROk E lab R) {k : Key} {en : Bool} {w : World} (hk : k ∈ w.stack)
    (hs : (w.svc k).state = .done) (he : en = enabled w.toCore k) : Good E lab (Oth k w) w (stepDone R k en w) := by
  unfold stepDone
  extract_lets w1
  have g1 : Good E lab (Oth k w) w w1 := by
    simp only [w1]; split
    · exact setState_oth h (.doneHalted hs)
    · exact .refl w
  have hst : Soft w1 (((w1.svc k).state = .done ∨ (w1.svc k).state = .halted) ∧
      (w1.svc k).block = (w.svc k).block) := by
    by_cases hd : (w.svc k).dirty = true
    · have e1 : w1 = setState R k .halted w := by simp only [w1, if_pos hd]
      intro hr
      rw [setState_after h (.doneHalted hs) hk e1 hr, setStateRaw_timer (by decide)]
      exact ⟨.inr rfl, rfl⟩
    · have e1 : w1 = w := by simp only [w1, if_neg hd]
      intro _; rw [e1]; exact ⟨.inl hs, rfl⟩
  split
  · rename_i hx
    have hx' := Bool.and_eq_true_iff.mp (Bool.and_eq_true_iff.mp hx).1
    have hen : enabled w.toCore k = true := by rw [← he]; exact (Bool.and_eq_true_iff.mp hx).2
    exact g1.next (setState_oth h (.redo (fun hr => (hst hr).1) hx'.1 hx'.2
      (fun hr => (hst hr).2.trans (enabled_block hen)) (fun hr => (g1.allowed hr).mpr (enabled_allowed hen))))
  · exact g1

theorem stepStopping_good (h : ROk E lab R) {k : Key} {w : World} (hk : k ∈ w.stack)
    (hs : (w.svc k).state = .stopping) : Good E lab (Oth k w) w (stepStopping E R k w) := by
  unfold stepStopping; split
  · rename_i hp
    extract_lets w1 w2 w3 w4 w5 w6
    have g1 : Good E lab (Oth k w) w w1 := .minor rfl (not_oth k w)
    have hp1 : (w1.svc k).pid = 0 := by simp only [w1, Sup.mod, upd_same]; exact hp
    have hs1 : (w1.svc k).state = .stopping := by simp only [w1, Sup.mod, upd_same]; exact hs
    have g2 : Good E lab (Oth k w1) w1 w2 := .cancel (.noProc hp1 (by rw [hs1]; decide)) (not_oth k w1)
    obtain ⟨a, e⟩ := timerCancel_eq k w1
    have e2 : w2 = _ := e
    have es : w2.svc k = { w1.svc k with timer := none, armed := a } := by rw [e2]; simp
    have g12 := g1.next g2
    have hk2 : k ∈ w2.stack := by rw [g12.stack]; exact hk
    have g3 : Good E lab (fun j => j ∈ w2.stack) w2 w3 := condClear_good h (NameOk.pid w2 k)
    have a3 : Soft w3 (w3.svc k = w2.svc k) := fun hr => (g3.frame hr).1 k hk2
    have hst3 : Soft w3 ((w3.svc k).state = .stopping ∧ (w3.svc k).pid = 0 ∧ (w3.svc k).timer = none) := by
      intro hr; rw [a3 hr, es]; exact ⟨hs1, hp1, rfl⟩
    have g13 := g12.next (g3.stk k)
    have hk3 : k ∈ w3.stack := by rw [g13.stack]; exact hk
    split
    · rename_i hrt
      have key : Good E lab (Oth k w3) w3 w4 ∧ (w4.svc k).type.isRuntask = true ∧
          Soft w4 ((w4.svc k).state = .stopping ∧ (w4.svc k).pid = 0 ∧ (w4.svc k).timer = none) := by
        simp only [w4]; split
        · rename_i hm
          refine ⟨.mod (.blockManual hst3 hrt hm) (not_oth k w3) rfl, ?_, ?_⟩
          · simp only [Sup.mod, upd_same]; exact hrt
          · intro hr; simp only [Sup.mod, upd_same]; exact hst3 hr
        · exact ⟨.refl _, hrt, hst3⟩
      exact (g13.next key.1).next (setState_oth h (.stopDone key.2.2 key.2.1))
    · split
      · rename_i hpost
        have hm : StateMod lab w3 k .teardown := .stopTear hst3 hpost
        refine (g13.next (setState_oth h hm)).next (scriptFork_good (.inr (.inl rfl)) ?_ (not_oth k _))
        intro hr
        rw [setState_after h hm hk3 rfl hr, setStateRaw_timer (by decide)]
        exact .inr (.inl ⟨rfl, rfl⟩)
      · split
        · rename_i hrc
          have hrc' := Bool.and_eq_true_iff.mp hrc
          have hm : StateMod lab w3 k .cleanup := .stopCleanup hst3 hrc'.1 hrc'.2
          refine (g13.next (setState_oth h hm)).next (scriptFork_good (.inr (.inr rfl)) ?_ (not_oth k _))
          intro hr
          rw [setState_after h hm hk3 rfl hr, setStateRaw_timer (by decide)]
          exact .inr (.inr (.inl ⟨rfl, rfl⟩))
        · exact g13.next (setState_oth h (.stopHalted hst3))
  · exact .refl w

theorem stepSetup_good (h : ROk E lab R) {k : Key} {en : Bool} {w : World} (hk : k ∈ w.stack)
    (hs : (w.svc k).state = .setup) (he : en = enabled w.toCore k) :
    Good E lab (Oth k w) w (stepSetup E R k en w) := by
  unfold stepSetup; split
  · exact serviceStop_good h k w (fun hx => by rw [hs] at hx; cases hx)
  · rename_i hen
    have hen' : enabled w.toCore k = true := by rw [← he]; simpa using hen
    split
    · rename_i hp
      split
      · rename_i hf
        have hm : StateMod lab w k .stopping := .setupFail hs hp hen' hf
        extract_lets w1
        have g1 : Good E lab (Oth k w) w w1 := setState_oth h hm
        refine g1.next (.mod (.blockCrash ?_) (not_oth k w1) rfl)
        intro hr
        rw [setState_after h hm hk (w' := w1) rfl hr]
        obtain ⟨_, _, _, _, _, f1, _, f2, f3, _⟩ := setStateRaw_fields k .stopping w
        exact ⟨f1, f2.trans hp, f3.trans (enabled_block hen')⟩
      · rename_i hf
        exact setState_oth h (.setupOk hs hp hen' (by simpa using hf))
    · exact .refl w

theorem stepWaiting_good (h : ROk E lab R) {k : Key} {en : Bool} {w : World} (hk : k ∈ w.stack)
    (hs : (w.svc k).state = .waiting) (he : en = enabled w.toCore k) :
    Good E lab (Oth k w) w (stepWaiting E R k en w) := by
  unfold stepWaiting; split
  · rename_i hen
    exact setState_oth h (.waitOff hs (by rw [← he]; simpa using hen))
  · rename_i hen
    have hen' : enabled w.toCore k = true := by rw [← he]; simpa using hen
    split
    · rename_i ha
      split
      · exact .refl w
      · rename_i hr
        have hr' : w.inReload = false := by simpa using hr
        extract_lets r noresp w1 w2
        have g1 : Good E lab (Oth k w) w w1 := .askB w
        have hk1 : k ∈ w1.stack := hk
        have hs1 : (w1.svc k).state = .waiting := hs
        have hen1 : enabled w1.toCore k = true := hen'
        have ha1 : aggCond w1.toCore k = .on := ha
        have hr1 : w1.inReload = false := hr'
        clear_value w1
        split
        · exact g1
        · split
          · rename_i hc
            have g2 : Good E lab (Oth k w1) w1 (mod k (fun s => { s with block := .conflict }) w1) :=
              .mod (.blockConflict hs1 hen1 hc) (not_oth k w1) rfl
            refine (g1.next g2).next (setState_oth h (.waitConflict ?_ ?_))
            · simp only [Sup.mod, upd_same]; exact hs1
            · simp only [Sup.mod, upd_same]
          · rename_i hc
            have hc' : conflicts w1.toCore k = false := by simpa using hc
            split
            · rename_i hp
              have hm : StateMod lab w1 k .setup := .waitSetup hs1 hen1 ha1 hr1 hc' hp
              have g2 : Good E lab (Oth k w1) w1 w2 := setState_oth h hm
              refine (g1.next g2).next (scriptFork_good (.inl rfl) ?_ (not_oth k _)
                (fun hr _ => (g2.allowed hr).mpr (enabled_allowed hen1)))
              intro hr
              rw [setState_after h hm hk1 (w' := w2) rfl hr, setStateRaw_timer (by decide)]
              exact .inl ⟨rfl, rfl⟩
            · rename_i hp
              exact g1.next (setState_oth h (.waitStart hs1 hen1 ha1 hr1 hc' (by simpa using hp)))
    · exact .refl w

theorem enabled_congr {c c' : Core} {k : Key} (h1 : (c'.svc k).levels = (c.svc k).levels)
    (h2 : (c'.svc k).removed = (c.svc k).removed) (h3 : (c'.svc k).block = (c.svc k).block)
    (h4 : (c'.svc k).ifstmt = (c.svc k).ifstmt) (h5 : (c'.svc k).type = (c.svc k).type)
    (h6 : c'.runlevel = c.runlevel) (h7 : c'.conds = c.conds) (h8 : c'.bootstrap = c.bootstrap) :
    enabled c' k = enabled c k := by
  unfold enabled; dsimp only; rw [h1, h2, h3, h4, h5, h6, h7, h8]

theorem startParent_fields (k : Key) (p : Int) (b : Bool) (w : World) :
    (startParent k p b w).stack = w.stack ∧ (startParent k p b w).reent = w.reent ∧
    (startParent k p b w).svc = upd w.svc k { w.svc k with pid := p, watch := (w.svc k).watch || b } ∧
    Glob (startParent k p b w) = Glob w ∧ (startParent k p b w).main = w.main ∧
    (startParent k p b w).live = w.live ∧ (startParent k p b w).trace = w.trace ∧
    (startParent k p b w).runBlock = (if (w.svc k).type = .run then p else w.runBlock) ∧
    (startParent k p b w).conds = w.conds ∧ (startParent k p b w).assoc = w.assoc := by
  unfold startParent
  extract_lets w1
  have e : (w1.svc k).type = (w.svc k).type := by simp only [w1, Sup.mod, upd_same]
  split
  · rename_i ht; rw [e] at ht; rw [if_pos ht]; exact ⟨rfl, rfl, rfl, rfl, rfl, rfl, rfl, rfl, rfl, rfl⟩
  · rename_i ht; rw [e] at ht; rw [if_neg ht]; exact ⟨rfl, rfl, rfl, rfl, rfl, rfl, rfl, rfl, rfl, rfl⟩

theorem stepStarting_good (h : ROk E lab R) {k : Key} {en : Bool} {w : World}
    (hs : (w.svc k).state = .starting) (he : en = enabled w.toCore k) :
    Good E lab (Oth k w) w (stepStarting E R k en w) := by
  unfold stepStarting; split
  · rename_i hen
    exact setState_oth h (.startOff hs (by rw [← he]; simpa using hen))
  rename_i hen
  have hen' : enabled w.toCore k = true := by rw [← he]; simpa using hen
  extract_lets r ok w1 w2
  -- failure to start leaves the service in STARTING
  have failCase : ∀ v : World, Good E lab (Oth k w) w v → (v.svc k).state = .starting →
      Good E lab (Oth k w) w (if v.runBlock ≠ 0 then v
        else if (v.svc k).block = .missing then setState R k .halted v
        else mod k (fun s => { s with restartCnt := schar (s.restartCnt + 1) }) (emit (.bump k) v)) := by
    intro v gv hv
    split
    · exact gv
    · split
      · rename_i hb; exact gv.next (setState_oth h (.startMissing hv hb))
      · exact gv.next (.bump (.inl hv) (not_oth k v))
  have hr : r = serviceStart E k w := rfl
  clear_value r
  unfold serviceStart at hr
  extract_lets a1 v1 a2 v2 a3 v4 wants bad v5 f at hr
  have gv1 : Good E lab (Oth k w) w v1 := .askB w
  by_cases c1 : a1.1 = true
  · rw [if_pos c1] at hr
    have : ok = false := by simp only [ok, hr]
    rw [this]; simp only [Bool.not_false, if_true]
    have e1 : w1 = v1 := by simp only [w1, hr]
    rw [e1]; exact failCase v1 gv1 hs
  rw [if_neg c1] at hr
  by_cases c2 : v1.runBlock ≠ 0
  · rw [if_pos c2] at hr
    have : ok = false := by simp only [ok, hr]
    rw [this]; simp only [Bool.not_false, if_true]
    have e1 : w1 = v1 := by simp only [w1, hr]
    rw [e1]; exact failCase v1 gv1 hs
  rw [if_neg c2] at hr
  have hrb : w.runBlock = 0 := by
    have : v1.runBlock = 0 := by simpa using c2
    exact this
  have gv2 : Good E lab (Oth k w) w v2 := gv1.trans (.askB v1)
  by_cases c3 : a2.1 = true
  · rw [if_pos c3] at hr
    have : ok = false := by simp only [ok, hr]
    rw [this]; simp only [Bool.not_false, if_true]
    have e1 : w1 = mod k (fun s => { s with block := .missing }) v2 := by simp only [w1, hr]
    rw [e1]
    have gv3 : Good E lab (Oth k w) w (mod k (fun s => { s with block := .missing }) v2) :=
      gv2.trans (.mod (.blockMissing hs hen') (not_oth k w) rfl)
    refine failCase _ gv3 ?_
    simp only [Sup.mod, upd_same]; exact hs
  rw [if_neg c3] at hr
  have gv4 : Good E lab (Oth k w) w v4 := gv2.trans (.askB v2)
  have gv5 : Good E lab (Oth k w) w v5 := gv4.trans (.minor rfl (not_oth k w))
  have s5 : v5.svc k = { w.svc k with starting := (v5.svc k).starting, restartTot := (v5.svc k).restartTot } := by
    simp only [v5, Sup.mod, upd_same]; rfl
  have hs5 : (v5.svc k).state = .starting := by rw [s5]; exact hs
  have hen5 : enabled v5.toCore k = true := by
    rw [← hen']
    apply enabled_congr <;> first | rfl | (rw [s5])
  have hrb5 : v5.runBlock = 0 := hrb
  rcases fork_cases (E := E) k .main v5 with ef | ⟨p, hp1, hp2, ef⟩
  · have ef' : f = _ := ef
    have c4 : f.1 < 0 := by rw [ef']; simp
    rw [if_pos c4] at hr
    have : ok = false := by simp only [ok, hr]
    rw [this]; simp only [Bool.not_false, if_true]
    have e1 : w1 = { v5 with tick := v5.tick + 1 } := by simp only [w1, hr, ef']
    rw [e1]
    exact failCase _ (gv5.trans (.tick _ _)) hs5
  · have ef' : f = _ := ef
    have c4 : ¬ f.1 < 0 := by rw [ef']; simp only; omega
    rw [if_neg c4] at hr
    have gv6 : Good E lab (Oth k w) w { v5 with tick := v5.tick + 1 } := gv5.trans (.tick _ _)
    generalize hv6 : ({ v5 with tick := v5.tick + 1 } : World) = v6 at *
    have hs6 : (v6.svc k).state = .starting := by rw [← hv6]; exact hs5
    have hen6 : enabled v6.toCore k = true := by rw [← hv6]; exact hen5
    have hrb6 : v6.runBlock = 0 := by rw [← hv6]; exact hrb5
    have hp6 : p ∉ v6.live := by rw [← hv6]; exact hp2
    have hnot6 : (v6.svc k).notify = (v4.svc k).notify := by rw [← hv6, s5]; rfl
    rw [ef'] at hr
    by_cases cb : bad = true
    · have hok : ok = false := by simp only [ok, hr, cb, Bool.not_true]
      rw [hok]; simp only [Bool.not_false, if_true]
      have e1 : w1 = startParent k p false (spawned p k .main v6) := by
        simp only [w1, hr, cb, Bool.not_true, Bool.and_false]
      rw [e1]
      have hw : wants = true := by
        have : (wants && a3.1) = true := cb
        exact (Bool.and_eq_true_iff.mp this).1
      have hn : (v6.svc k).notify = .systemd ∨ (v6.svc k).notify = .s6 := by
        rw [hnot6]
        simp only [wants, Bool.or_eq_true, decide_eq_true_eq] at hw
        exact hw
      obtain ⟨f1, f2, f3, f4, _⟩ := startParent_fields k p false (spawned p k .main v6)
      refine failCase _ (gv6.trans (.of_prim (.startBad v6 k p hp1 hp6 hrb6 hen6 hs6 hn) f1 f2 ?_ f4 ?_
        (by rw [startParent_eq]; rfl))) ?_
      · intro j hj; rw [f3]; exact upd_other _ _ _ _ hj.2
      · intro j; rw [f3]
        by_cases ej : j = k
        · subst ej; simp only [upd_same]; rfl
        · simp only [upd_other _ _ _ _ ej]; rfl
      · rw [f3]; simp only [upd_same]; exact hs6
    · have cb' : bad = false := by simpa using cb
      have hok : ok = true := by simp only [ok, hr, cb', Bool.not_false]
      rw [hok]; simp only [Bool.not_true, Bool.false_eq_true, if_false]
      have e1 : w1 = startParent k p wants (spawned p k .main v6) := by
        simp only [w1, hr, cb', Bool.not_false, Bool.and_true]
      obtain ⟨f1, f2, f3, f4, _⟩ := startParent_fields k p wants (spawned p k .main v6)
      have e2 : w2 = mod k (fun s => { s with dirty := false, argsDirty := false })
          (startParent k p wants (spawned p k .main v6)) := by simp only [w2, e1]
      have hs2 : (w2.svc k).state = .starting := by
        rw [e2]; simp only [Sup.mod, upd_same, f3]; exact hs6
      unfold setState
      extract_lets old w3
      obtain ⟨r1, r2, r3, r4, r5, r6, _⟩ := setStateRaw_fields k .running w2
      have g3 : Pre E lab (Oth k w) v6 w3 := by
        have pr : Prim E lab v6 w3 := by
          simp only [w3, e2]
          refine .start v6 k p wants hp1 hp6 hrb6 hen6 hs6 fun hw => ?_
          rw [hnot6]
          simp only [wants, Bool.or_eq_true, decide_eq_true_eq] at hw
          exact hw
        refine .of_prim pr ?_ ?_ ?_ ?_ ?_
        · rw [show w3.stack = w2.stack from r1, e2]; exact f1
        · rw [show w3.reent = w2.reent from r2, e2]; exact f2
        · intro j hj
          rw [show w3.svc j = w2.svc j from r3 j hj.2, e2]
          simp only [Sup.mod, upd_other _ _ _ _ hj.2, f3]; rfl
        · rw [show Glob w3 = Glob w2 from r4, e2]; exact f4
        · intro j
          rw [show (w3.svc j).cfg = (w2.svc j).cfg from r5 j, e2]
          by_cases ej : j = k
          · subst ej; simp only [Sup.mod, upd_same, f3]; rfl
          · simp only [Sup.mod, upd_other _ _ _ _ ej, f3]; rfl
      have hn2 : (w2.svc k).state ≠ .running := by rw [hs2]; decide
      obtain ⟨g4, m4⟩ := setStateConds_raw (E := E) (lab := lab) h hn2
      have hst2 : w2.stack = w.stack := by rw [e2]; exact f1.trans gv6.stack
      rw [if_neg hn2]
      refine ((gv6.pre.trans g3).trans (g4.weaken ?_)).good ?_
      · intro j hj; rw [hst2]; exact List.mem_cons_of_mem _ hj.1
      · have : w2.mids = v6.mids := by rw [e2, startParent_eq]; rfl
        exact (m4.trans this).trans gv6.mids

theorem runtask_of {t : SType} (h : (t.isDaemon || decide (t = .tty)) = false) : t.isRuntask = true := by
  cases t <;> simp_all [SType.isDaemon, SType.isRuntask]

theorem stepRunning_good (h : ROk E lab R) {k : Key} {en : Bool} {w : World} (hk : k ∈ w.stack)
    (hs : (w.svc k).state = .running) (he : en = enabled w.toCore k) :
    Good E lab (Oth k w) w (stepRunning E R k en w).2 := by
  unfold stepRunning; split
  · exact serviceStop_good h k w (fun hx => by rw [hs] at hx; cases hx)
  rename_i hen
  have hen' : enabled w.toCore k = true := by rw [← he]; simpa using hen
  split
  · rename_i hx
    extract_lets w1 w2
    have g1 : Good E lab (Oth k w) w w1 := .mod (.blockRestart hs hx.1 hx.2 hen') (not_oth k w) rfl
    have hm : StateMod lab w1 k .halted := by
      refine .crash ?_ ?_ ?_ ?_ ?_ <;> simp only [w1, Sup.mod, upd_same]
      · exact hs
      · exact hx.1
      · exact enabled_removed hen'
      · exact hx.2
    have g2 : Good E lab (Oth k w1) w1 w2 := setState_oth h hm
    have hk1 : k ∈ w1.stack := hk
    have ha : Soft w2 ((w2.svc k).state = .halted ∧ (w2.svc k).block = .restarting) := by
      intro hr
      rw [setState_after h hm hk1 (w' := w2) rfl hr, setStateRaw_timer (by decide)]
      simp only [w1, Sup.mod, upd_same]; exact ⟨trivial, trivial⟩
    have hal : Soft w2 (Allowed w2.toCore k) := by
      intro hr
      have hl0 : (Glob w2).runlevel = (Glob w1).runlevel := congrArg Core.runlevel (g2.frame hr).2.1
      have hl : w2.runlevel = w.runlevel := hl0
      have he := enabled_allowed hen'
      unfold Allowed at he ⊢
      rw [setState_after h hm hk1 (w' := w2) rfl hr, setStateRaw_timer (by decide), hl]
      simp only [w1, Sup.mod, upd_same]; exact he
    split
    · exact (g1.next g2).next (timerAfter_good (fun ht => .armRetry _ ht
        (.inl fun hr => ⟨(ha hr).1, (ha hr).2, hal hr⟩)) (not_oth k w2))
    · rename_i hr
      dsimp only
      exact (g1.next g2).next (.mod (.unblockRespawn ha (by simpa using hr)) (not_oth k w2) rfl)
  · rename_i hx
    split
    · rename_i hp
      extract_lets w1
      have ht : (w.svc k).type.isRuntask = true := by
        apply runtask_of
        cases hb : ((w.svc k).type.isDaemon || decide ((w.svc k).type = .tty)) with
        | false => rfl
        | true => exact absurd ⟨hp, hb⟩ hx
      have g1 : Good E lab (Oth k w) w w1 := setState_oth h (.complete hs hp ht hen')
      dsimp only
      exact g1.next (.minor rfl (not_oth k w1))
    · rename_i hp
      extract_lets w1 w2 w3 w4
      have g1 : Good E lab (Oth k w) w w1 := .cancel (.up (by rw [hs]; decide)) (not_oth k w)
      obtain ⟨a, e⟩ := timerCancel_eq k w
      have e1 : w1 = _ := e
      have es : w1.svc k = { w.svc k with timer := none, armed := a } := by rw [e1]; simp
      have hk1 : k ∈ w1.stack := by rw [g1.stack]; exact hk
      have hs1 : (w1.svc k).state = .running := by rw [es]; exact hs
      have hp1 : (w1.svc k).pid ≠ 0 := by rw [es]; exact hp
      have hen1 : enabled w1.toCore k = true := by
        rw [← hen']
        apply enabled_congr <;> first | (rw [es]) | (rw [e1])
      clear_value w1
      split
      · exact g1.next (serviceStop_good h k w1 (fun hx => by rw [hs1] at hx; cases hx))
      · rename_i ha
        exact g1.next (pause_oth h hs1 hp1 hen1 ha)
      · split
        · exact g1
        · have g4 : Good E lab (Oth k w1) w1 w4 := by
            simp only [w4]; split
            · have g3 : Good E lab (Oth k w1) w1 w3 := by
                simp only [w3]; split
                · exact serviceStop_good h k w1 (fun hx => by rw [hs1] at hx; cases hx)
                · exact serviceReload_good h hk1 hs1
              exact g3.next (.minor rfl (not_oth k w3))
            · exact .refl w1
          split
          · have hal : Soft w (ReadyBy lab w.toCore k) := fun _ => .inr (.inl (enabled_allowed hen'))
            exact (g1.next g4).next (serviceReady_good h k true w4 fun _ => ReadyBy.good (g1.next g4) hal)
          · exact g1.next g4

theorem stepPaused_good (h : ROk E lab R) {k : Key} {en : Bool} {w : World}
    (hs : (w.svc k).state = .paused) (he : en = enabled w.toCore k) :
    Good E lab (Oth k w) w (stepPaused E R k en w) := by
  unfold stepPaused
  have gk : Good E lab (Oth k w) w (kill E (w.svc k).pid 18 .cont k w).2 := .kill (.cont hs)
  split
  · exact gk.next (serviceStop_good h k _ (fun _ => rfl))
  rename_i hen
  have hen' : enabled w.toCore k = true := by rw [← he]; simpa using hen
  split
  · rename_i hp
    have g1 : Good E lab (Oth k w) w (mod k (fun s => { s with restartCnt := schar (s.restartCnt + 1) })
        (emit (.bump k) w)) := .bump (.inr hs) (not_oth k w)
    refine g1.next (setState_oth h (.pausedGone ?_ ?_ ?_))
    · simp only [Sup.mod, emit, upd_same]; exact hs
    · simp only [Sup.mod, emit, upd_same]; exact hp
    · rw [← hen']; apply enabled_congr <;> first | rfl | simp only [Sup.mod, emit, upd_same]
  · rename_i hp
    extract_lets w1 w2 w3
    split
    · rename_i ha
      have g2 : Good E lab (Oth k w1) w1 w2 := setState_oth h (.cont hs hp hen' ha rfl)
      have g12 := gk.next g2
      split
      · have g3 : Good E lab (Oth k w2) w2 w3 := by
          simp only [w3]; split
          · exact .conds (.pidPath k)
          · exact .refl _
        have hal : Soft w (ReadyBy lab w.toCore k) := fun _ => .inr (.inl (enabled_allowed hen'))
        exact (g12.next g3).next (serviceReady_good h k true w3 fun _ => ReadyBy.good (g12.next g3) hal)
      · exact g12
    · exact gk.next (serviceStop_good h k _ (fun _ => rfl))
    · exact .refl w

theorem stepBranch_good (h : ROk E lab R) {k : Key} {w : World} (hk : k ∈ w.stack) :
    Good E lab (Oth k w) w (stepBranch E R k w).2 := by
  unfold stepBranch
  extract_lets en
  split
  · rename_i hs; exact stepHalted_good h hs rfl
  · rename_i hs; exact stepTeardown_good h hk hs
  · rename_i hs; exact stepCleanup_good h hs
  · exact .refl w
  · rename_i hs; exact stepDone_good h hk hs rfl
  · rename_i hs; exact stepStopping_good h hk hs
  · rename_i hs; exact stepSetup_good h hk hs rfl
  · rename_i hs; exact stepWaiting_good h hk hs rfl
  · rename_i hs; exact stepStarting_good h hs rfl
  · rename_i hs; exact stepRunning_good h hk hs rfl
  · rename_i hs; exact stepPaused_good h hs rfl

theorem stepLoop_good (h : ROk E lab R) {k : Key} {w : World} (hk : k ∈ w.stack) :
    Good E lab (Oth k w) w (stepLoop E R k w) := by
  unfold stepLoop
  extract_lets old r gd w1
  have g1 : Good E lab (Oth k w) w w1 := stepBranch_good h hk
  split
  · exact g1
  · split
    · have hk1 : k ∈ w1.stack := by rw [g1.stack]; exact hk
      exact (g1.next (h.loop k w1 hk1)).trans (.schedule _)
    · split
      · exact g1.trans (.schedule _)
      · exact g1

theorem serviceStep_good (h : ROk E lab R) (k : Key) (w : World) :
    Good E lab (fun j => j ∈ w.stack) w (serviceStep E R k w) := by
  unfold serviceStep; split
  · exact .refl w
  · extract_lets st w1 w2 w3
    have g1 : Good E lab (fun j => j ∈ w.stack) w w1 := .touch k w
    have s2 : Steps E lab w1 w2 := .one (.glob _ _ ⟨rfl, id, id, .inl rfl⟩)
    have g3 : Good E lab (Oth k w2) w2 w3 := stepLoop_good h (by simp only [w2]; exact List.mem_cons_self ..)
    have s4 : Steps E lab w3 { w3 with stack := st } := .one (.glob _ _ ⟨rfl, id, id, .inl rfl⟩)
    have s : OrdOk w.toCore → Steps E lab w { w3 with stack := st } := by
      intro o
      have a := (g1.steps o).trans s2
      exact (a.trans (g3.steps (a.ord o))).trans s4
    refine ⟨s, rfl, fun hr => g3.mono (g1.mono hr), ?_, g3.mids.trans g1.mids⟩
    intro hr
    have hr3 : w3.reent = false := hr
    have hr1 : w1.reent = false := reent_false g3.mono hr3
    obtain ⟨x1, x2, x3⟩ := g3.frame hr3
    obtain ⟨y1, y2, y3⟩ := g1.frame hr1
    refine ⟨?_, x2.trans y2, fun j => (x3 j).trans (y3 j)⟩
    intro j hj
    have hjk : j ≠ k := by
      intro e; subst e
      have : w1.reent = true := by simp only [w1, Sup.touch]; rw [if_pos hj]
      rw [this] at hr1; cases hr1
    refine (x1 j ⟨?_, hjk⟩).trans (y1 j hj)
    simp only [w2]; exact List.mem_cons_of_mem _ hj

end

end Verif.Sup
