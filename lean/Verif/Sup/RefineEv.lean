import Verif.Sup.RefineSm

/-!
# Supervisor model: every event is a sequence of atomic steps
-/

namespace Verif.Sup

open Verif (CStr CondStore)

section
variable {E : Env} {lab : Lab} {S : Key → Prop} {R : Rec}

/-! ### Timers -/

theorem serviceKill_sm {k : Key} (h : ROk E (.ev (.timer k)) R) {w : World}
    (ht : (w.svc k).timer = some .kill) : SmGood E (.ev (.timer k)) w (serviceKill E R k w) := by
  unfold serviceKill
  extract_lets w1 p r nm w2
  have g1 : Good E (.ev (.timer k)) (fun _ => False) w w1 := .cancel (.fired rfl ht) (fun h => h)
  split
  · exact g1.sm
  · rename_i hp
    have g2 : Good E (.ev (.timer k)) (fun _ => False) w1 w2 := .procExists p w1
    have g12 := (g1.trans g2).sm
    split
    · rename_i hn
      refine g12.trans (monitor_sm h ?_).1
      intro hl
      have : nm = true := by
        show (decide (p ∈ w1.live) || _) = true
        rw [decide_eq_true (show p ∈ w1.live from hl)]; rfl
      rw [this] at hn; cases hn
    · refine g12.trans ?_
      have hp1 : 1 < (w2.svc k).pid := by show 1 < p; omega
      have gk : Good E (.ev (.timer k)) (fun _ => False) w2
          (kill E (w2.svc k).pid 9 .escalate k w2).2 := .kill (.escalate hp1 rfl)
      exact gk.sm

theorem serviceKillScript_sm (k : Key) (w : World) : SmGood E lab w (serviceKillScript E k w) := by
  unfold serviceKillScript
  extract_lets p
  split
  · exact .refl w
  · rename_i hp
    have gk : Good E lab (fun _ => False) w (kill E (w.svc k).pid 9 .scriptTimeout k w).2 :=
      .kill (.scriptTimeout (by show 1 < p; omega))
    exact gk.sm

theorem scriptKill_sm (k : Key) (w : World) : SmGood E lab w (scriptKill E k w) := by
  unfold scriptKill
  generalize w.assoc = l
  induction l generalizing w with
  | nil => unfold scriptKill.go; exact .refl w
  | cons a l ih =>
    unfold scriptKill.go
    split
    · exact ih w
    · rename_i hp
      extract_lets w1
      have g1 : Good E lab (fun _ => False) w w1 := .kill (.readyTimeout a.1 (by
        simp only [not_or] at hp; omega))
      refine (g1.sm.trans ?_).trans (ih _)
      exact .of_prim (.assoc w1 _ (fun x hx => List.mem_of_mem_erase hx)) rfl id

theorem timerCancel_some {k : Key} {w : World} {c : Cb} (h : (w.svc k).timer = some c) :
    timerCancel k w = mod k (fun s => { s with timer := none, armed := false }) w := by
  unfold timerCancel; rw [h]; rfl

theorem setState_force (h : ROk E lab R) {k : Key} {new : SState} {v w : World}
    (p : Prim E lab v (setStateRaw k new w)) (hs : w.stack = v.stack) (hr : w.reent = v.reent)
    (hm : w.mids = v.mids) : SmGood E lab v (setState R k new w) := by
  obtain ⟨f1, f2, _⟩ := setStateRaw_fields k new w
  have m1 := (setStateRaw_mids k new w).2
  have n1 : v.reent = true → (setStateRaw k new w).reent = true := fun x => by rw [f2, hr]; exact x
  unfold setState
  extract_lets old w1
  split
  · rename_i hn
    rw [if_pos hn] at m1
    exact .of_prim p (f1.trans hs) n1 (m1.trans hm)
  · rename_i hn
    obtain ⟨g, gm⟩ := setStateConds_raw (E := E) (lab := lab) h (k := k) (new := new) (w := w) hn
    have s1 : Steps E lab v w1 := .one p
    exact ⟨fun o => s1.trans (g.steps (s1.ord o)), (g.stack.trans f1).trans hs,
      fun x => g.mono (n1 x), gm.trans hm⟩

theorem serviceRetry_sm {k : Key} (h : ROk E (.retry k) R) {w : World}
    (ht : (w.svc k).timer = some .retry) : SmGood E (.retry k) w (serviceRetry E R k w) := by
  unfold serviceRetry
  extract_lets svc0 w1 r noresp w2 c0 wf w3 w4 w5 w6 w7 w8
  have ew1 : w1 = mod k (fun s => { s with timer := none, armed := false }) w := timerCancel_some ht
  -- the same with the tick first
  let v : World := { w with tick := w.tick + 1 }
  have gv : SmGood E (.retry k) w v := (Good.tick (S := fun _ => False) w _).sm
  have hv : (v.svc k).timer = some .retry := ht
  have ev : timerCancel k v = w2 := by
    rw [timerCancel_some hv]
    show _ = (askB E w1).2
    rw [ew1]; rfl
  have fs : w2.stack = v.stack ∧ w2.reent = v.reent ∧ w2.mids = v.mids := by
    rw [← ev, timerCancel_some hv]; exact ⟨rfl, rfl, rfl⟩
  have fr : v.reent = true → w2.reent = true := fun x => fs.2.1.trans x
  have es : w2.svc k = { w.svc k with timer := none, armed := false } := by
    show w1.svc k = _
    rw [ew1]; simp [Sup.mod]
  split
  · refine gv.trans ?_
    rw [← ev]
    exact (Good.cancel (S := fun _ => False) (.retry rfl hv) (fun h => h)).sm
  split
  · rename_i hre
    have hre' : (w.svc k).respawn = true := by rw [es] at hre; exact hre
    have p := Prim.retryRespawn (E := E) (lab := .retry k) v k rfl hv hre'
    rw [ev] at p
    exact (gv.trans (.of_prim p fs.1 fr fs.2.2)).trans (h.step k _).sm
  rename_i hre
  have hre' : (w.svc k).respawn = false := by rw [es] at hre; simpa using hre
  have est : (w2.svc k).state = (w.svc k).state ∧ (w2.svc k).block = (w.svc k).block ∧
      (w2.svc k).restartMax = (w.svc k).restartMax ∧ (w2.svc k).restartCnt = (w.svc k).restartCnt := by
    rw [es]; exact ⟨rfl, rfl, rfl, rfl⟩
  split
  · rename_i hs
    rw [est.1, est.2.1] at hs
    have gf : SmGood E (.retry k) v (emit (.forced k) v) := .of_prim (.forced v k rfl hv hs) rfl id
    have ef : timerCancel k (emit (.forced k) v) = wf := by
      rw [timerCancel_some (w := emit (.forced k) v) hv]
      have e2 : w2 = mod k (fun s => { s with timer := none, armed := false }) v := by
        rw [← timerCancel_some hv]; exact ev.symm
      have e3 : wf = { w2 with trace := ({ w2.toCore with svc := w.svc }, .forced k) :: w2.trace } := rfl
      rw [e3, e2]; rfl
    have p := Prim.retryForce (E := E) (lab := .retry k) (emit (.forced k) v) k rfl hv hre' hs ⟨_, _, rfl, rfl⟩
    rw [ef] at p
    exact (gv.trans gf).trans (setState_force h p fs.1 fs.2.1 fs.2.2)
  rename_i hs
  have hs1 : (w.svc k).state = .halted := by
    rw [est.1] at hs
    by_cases x : (w.svc k).state = .halted
    · exact x
    · exact absurd (.inl x) hs
  have hs2 : (w.svc k).block = .restarting := by
    rw [est.2.1] at hs
    by_cases x : (w.svc k).block = .restarting
    · exact x
    · exact absurd (.inr x) hs
  split
  · rename_i hc
    rw [est.2.2.1, est.2.2.2] at hc
    have p := Prim.retryGiveUp (E := E) (lab := .retry k) v k rfl hv hre' hs1 hs2 hc.1 hc.2
    rw [ev] at p
    have g4 : SmGood E (.retry k) v w4 := .of_prim p fs.1 fr fs.2.2
    have e4 : w4.svc k = { w.svc k with timer := none, armed := false, block := .crashing, restartCnt := 0,
                                        restartTmo := (w.svc k).restartSaved } := by
      show (mod k _ (emit _ w2)).svc k = _
      simp only [Sup.mod, emit, upd_same, es]
    have g5 : SmGood E (.retry k) w4 w5 := by
      simp only [w5]
      split
      · rename_i ho
        exact .of_prim (.rebootSelf w4 k rfl (by rw [e4]) ho) rfl id
      · split
        · refine (scriptFork_good (S := fun _ => False) (.inr (.inl rfl)) ?_ (fun h => h)).sm
          intro _
          refine .inr (.inr (.inr ⟨rfl, ?_, ?_, rfl⟩))
          · rw [e4]; exact hs1
          · rw [e4]
        · exact .refl w4
      · exact .refl w4
    exact ((gv.trans g4).trans g5).trans (h.step k w5).sm
  · rename_i hc
    rw [est.2.2.1, est.2.2.2] at hc
    have p := Prim.retryAgain (E := E) (lab := .retry k) v k
      (if schar ((w.svc k).restartCnt + 1) = 1 then (w.svc k).restartTmo else (w.svc k).restartSaved)
      (max (w.svc k).restartTmo
        (if schar ((w.svc k).restartCnt + 1) ≤ (w.svc k).restartMax.tdiv 2 then 2000 else 5000))
      rfl hv hre' hs1 hs2 hc
    rw [ev] at p
    have e7 : w7 = mod k (fun s => { s with
          restartCnt := schar (s.restartCnt + 1),
          restartSaved := (if schar ((w.svc k).restartCnt + 1) = 1 then (w.svc k).restartTmo else (w.svc k).restartSaved),
          restartTmo := (max (w.svc k).restartTmo
            (if schar ((w.svc k).restartCnt + 1) ≤ (w.svc k).restartMax.tdiv 2 then 2000 else 5000)),
          block := .none }) (emit (.retry k) w2) := by
      show mod k _ (emit _ w2) = _
      simp only [Sup.mod, emit, es]
    have g7 : SmGood E (.retry k) v w7 := .of_prim (by rw [e7]; exact p) fs.1 fr fs.2.2
    have g8 : SmGood E (.retry k) w7 w8 := (h.step k w7).sm
    refine ((gv.trans g7).trans g8).trans ?_
    exact (timerAfter_good (S := fun _ => False) (fun hn => .armRetry _ hn (.inr rfl)) (fun h => h)).sm

/-- The label under which an event runs. -/
def labOf (w : World) : Ev → Lab
  | .timer k => if (w.svc k).timer = some .retry then .retry k else .ev (.timer k)
  | e => .ev e

theorem timerFire_sm {k : Key} (w : World) (h : ROk E (labOf w (.timer k)) R) :
    SmGood E (labOf w (.timer k)) w (timerFire E R k w) := by
  unfold timerFire
  split
  · exact .refl w
  rename_i ha
  have ha : (w.svc k).armed = true := by simpa using ha
  extract_lets w1 w2
  have e1 : w1.svc = w.svc := by simp only [w1]; split <;> rfl
  have g1 : SmGood E (labOf w (.timer k)) w w1 := by
    simp only [w1]; split
    · rename_i hf; exact .of_prim (.ub w k hf (.inl ha)) rfl id
    · exact .refl w
  have hl : labOf w (.timer k) = .ev (.timer k) ∨
      (labOf w (.timer k) = .retry k ∧ (w1.svc k).timer = some .retry) := by
    unfold labOf; dsimp only; rw [e1]; split
    · rename_i ht; exact .inr ⟨rfl, ht⟩
    · exact .inl rfl
  have g2 : SmGood E (labOf w (.timer k)) w1 w2 := by
    have p : SvcMod E (labOf w (.timer k)) w1 k { w1.svc k with armed := false } :=
      .armedOff hl (by rw [e1]; exact ha)
    exact (Good.mod (S := fun _ => False) p (fun h => h) rfl).sm
  have e2 : (w2.svc k).timer = (w.svc k).timer := by
    simp [w2, Sup.mod, e1]
  have g12 := g1.trans g2
  split
  · exact g12
  · rename_i ht
    rw [e2] at ht
    have el : labOf w (.timer k) = .ev (.timer k) := by unfold labOf; dsimp only; rw [ht]; rfl
    rw [el] at g12 h ⊢
    exact g12.trans (serviceKill_sm h (by rw [e2]; exact ht))
  · rename_i ht
    rw [e2] at ht
    have el : labOf w (.timer k) = .retry k := by unfold labOf; dsimp only; rw [ht]; rfl
    rw [el] at g12 h ⊢
    exact g12.trans (serviceRetry_sm h (by rw [e2]; exact ht))
  · exact g12.trans (serviceKillScript_sm k w2)
  · exact g12.trans (scriptKill_sm k w2)

/-! ### Bootstrap -/

theorem iter_sm {f : Key → World → World} (hf : ∀ k w, SmGood E lab w (f k w)) :
    ∀ n o w, SmGood E lab w (iter f n o w) := by
  intro n
  induction n with
  | zero => intro o w; cases o with
    | none => exact .refl w
    | some k => exact (Good.oof (S := fun _ => False) w).sm
  | succ n ih => intro o w; cases o with
    | none => exact .refl w
    | some k => exact (hf k w).trans (ih _ _)

theorem confFlush_sm (w : World) : SmGood E lab w (confFlush E w) := by
  unfold confFlush
  extract_lets r
  have g : SmGood E lab w r.2 := (Good.askB (S := fun _ => False) w).sm
  split
  · exact g.trans (sm_glob ⟨rfl, id, id, .inl rfl⟩ rfl)
  · exact g

theorem smRunlevel_sm (h : ROk E lab R) (l : Nat) (w : World) : SmGood E lab w (smRunlevel E R l w) := by
  unfold smRunlevel
  have g : SmGood E lab w { w with newlevel := (l : Int) } := sm_glob ⟨rfl, id, id, .inl rfl⟩ rfl
  exact (g.trans (confFlush_sm _)).trans (h.sm _)

theorem smReload_sm (h : ROk E lab R) (w : World) : SmGood E lab w (smReload E R w) := by
  unfold smReload
  have g : SmGood E lab w { w with reload := true } := sm_glob ⟨rfl, id, id, .inl rfl⟩ rfl
  exact (g.trans (confFlush_sm _)).trans (h.sm _)

theorem cleanBoot_ord {k j : Key} {w : World} (ho : OrdOk w.toCore) (hk : k ∈ w.order)
    (hj : nextOf w.toCore k = some j) : j ∈ (cleanBootstrap k w).order := by
  obtain ⟨h1, h2⟩ := nextOf_mem ho.1 hk hj
  unfold cleanBootstrap; split
  · show j ∈ w.order.filter (· ≠ k)
    exact List.mem_filter.mpr ⟨h1, by simpa using h2⟩
  · exact h1

/-- `svc_prune_bootstrap` deletes only services on the list. -/
theorem prune_steps : ∀ (n : Nat) (o : Option Key) (w : World), OrdOk w.toCore →
    (∀ k, o = some k → k ∈ w.order) → SmGood E lab w
      (iter (fun k w => if (w.svc k).pid = 0 then cleanBootstrap k w else w) n o w) := by
  intro n
  induction n with
  | zero => intro o w _ _; cases o with
    | none => exact .refl w
    | some k => exact (Good.oof (S := fun _ => False) w).sm
  | succ n ih => intro o w ho hm; cases o with
    | none => exact .refl w
    | some k =>
      have hk := hm k rfl
      unfold iter
      dsimp only
      split
      · have g : SmGood E lab w (cleanBootstrap k w) := cleanBootstrap_sm (fun _ => hk)
        exact g.trans (ih _ _ ((g.steps ho).ord ho) (fun j hj => cleanBoot_ord ho hk hj))
      · exact ih _ _ ho (fun j hj => (nextOf_mem ho.1 hk hj).1)

theorem prune_frame : ∀ (n : Nat) (o : Option Key) (w : World),
    let w' := iter (fun k w => if (w.svc k).pid = 0 then cleanBootstrap k w else w) n o w
    w'.stack = w.stack ∧ (w.reent = true → w'.reent = true) ∧ w'.mids = w.mids := by
  intro n
  induction n with
  | zero => intro o w; cases o <;> exact ⟨rfl, id, rfl⟩
  | succ n ih => intro o w; cases o with
    | none => exact ⟨rfl, id, rfl⟩
    | some k =>
      unfold iter
      dsimp only
      obtain ⟨a, b, c⟩ := ih (nextOf w.toCore k) (if (w.svc k).pid = 0 then cleanBootstrap k w else w)
      have key : (if (w.svc k).pid = 0 then cleanBootstrap k w else w).stack = w.stack ∧
          (w.reent = true → (if (w.svc k).pid = 0 then cleanBootstrap k w else w).reent = true) ∧
          (if (w.svc k).pid = 0 then cleanBootstrap k w else w).mids = w.mids := by
        split
        · unfold cleanBootstrap; split <;> exact ⟨rfl, id, rfl⟩
        · exact ⟨rfl, id, rfl⟩
      exact ⟨a.trans key.1, fun h => b (key.2.1 h), c.trans key.2.2⟩

theorem prune_sm (R : Rec) (w : World) : SmGood E lab w (pruneBootstrap R w) := by
  unfold pruneBootstrap forAll
  obtain ⟨f1, f2, f3⟩ := prune_frame R.fuel w.order.head? w
  exact ⟨fun ho => (prune_steps R.fuel w.order.head? w ho (fun _ h => List.mem_of_head? h)).steps ho, f1, f2, f3⟩

theorem bootCheck_sm (h : ROk E lab R) (w : World) : SmGood E lab w (bootCheck E R w) := by
  unfold bootCheck
  extract_lets w1 w2 done t w3 w4 w5 w6
  have g1 : SmGood E lab w w1 := sm_glob ⟨rfl, id, id, .inl rfl⟩ rfl
  have g2 : SmGood E lab w1 w2 := (stepAll_good h tyAny w1).sm
  have g3 : SmGood E lab w2 w3 := sm_glob ⟨rfl, id, id, .inl rfl⟩ rfl
  have g13 := (g1.trans g2).trans g3
  split
  · exact g13.trans (sm_glob ⟨rfl, id, id, .inl rfl⟩ rfl)
  have g4 : SmGood E lab w3 w4 := confFlush_sm w3
  have g5 : SmGood E lab w4 w5 := smRunlevel_sm h _ w4
  have g15 := (g13.trans g4).trans g5
  split
  · exact g15
  have g6 : SmGood E lab w5 w6 := by
    exact prune_sm R w5
  exact (g15.trans g6).trans (runHook_good h (by decide) w6).sm

/-! ### initctl -/

theorem apiStop_sm {k : Key} (h : ROk E (.ev (.apiStop k)) R) (w : World)
    (ha : w.trace.head?.map (·.2) = some (.asked k)) (hc : CancelOk (.ev (.apiStop k)) w k) :
    SmGood E (.ev (.apiStop k)) w (apiStop R k w) := by
  unfold apiStop
  extract_lets w1 w2
  have g1 : Good E (.ev (.apiStop k)) (fun _ => False) w w1 := .cancel hc (fun h => h)
  have g2 : Good E (.ev (.apiStop k)) (fun _ => False) w1 w2 := by
    obtain ⟨a, e⟩ := timerCancel_eq k w
    refine .mod (.apiBlock rfl ?_ ?_) (fun h => h) rfl
    · show ((timerCancel k w).svc k).timer = none
      rw [e]; simp
    · show (timerCancel k w).trace.head?.map (·.2) = _
      rw [e]; exact ha
  exact ((g1.trans g2).sm.trans (h.step k w2).sm).trans (stepAll_good h tyAny _).sm

theorem apiStart_sm {k : Key} (h : ROk E lab R) (w : World)
    (hc : CancelOk lab w k)
    (hl : lab = .ev (.apiStart k) ∨ lab = .ev (.apiRestart k) ∨ lab = .ev (.apiReload k))
    (ha : w.trace.head?.map (·.2) = some (.asked k)) :
    SmGood E lab w (apiStart R k w) := by
  unfold apiStart
  extract_lets w1 w2
  have g1 : Good E lab (fun _ => False) w w1 := .cancel hc (fun h => h)
  have g2 : Good E lab (fun _ => False) w1 w2 := by
    obtain ⟨x, e⟩ := timerCancel_eq k w
    exact .mod (.apiUnblock hl (by simp only [w1]; rw [e]; exact ha)) (fun h => h) rfl
  exact ((g1.trans g2).sm.trans (h.step k w2).sm).trans (stepAll_good h tyAny _).sm

theorem apiRestart_sm {k : Key} (h : ROk E (.ev (.apiRestart k)) R) (w : World)
    (ha : w.trace.head?.map (·.2) = some (.asked k)) (hc : CancelOk (.ev (.apiRestart k)) w k) :
    SmGood E (.ev (.apiRestart k)) w (apiRestart E R k w) := by
  unfold apiRestart
  split
  · exact apiStart_sm h w hc (.inr (.inl rfl)) ha
  · rename_i hs
    have hs : (w.svc k).state = .running := by simpa using hs
    have g1 : Good E (.ev (.apiRestart k)) (fun _ => False) w (timerCancel k w) :=
      .cancel hc (fun h => h)
    have hs1 : ((timerCancel k w).svc k).state = .running := by
      obtain ⟨a, e⟩ := timerCancel_eq k w
      rw [e]; simpa using hs
    exact (g1.sm.trans (serviceStop_good h k _ (fun hx => by rw [hs1] at hx; cases hx)).sm).trans (h.step k _).sm

theorem apiReload_sm {k : Key} (h : ROk E (.ev (.apiReload k)) R) (w : World)
    (ha : w.trace.head?.map (·.2) = some (.asked k)) (hc : CancelOk (.ev (.apiReload k)) w k) :
    SmGood E (.ev (.apiReload k)) w (apiReload R k w) := by
  unfold apiReload
  extract_lets w1
  have g1 : Good E (.ev (.apiReload k)) (fun _ => False) w w1 := by
    simp only [w1]; split
    · exact .mod (.apiUnblock (.inr (.inr rfl)) ha) (fun h => h) rfl
    · exact .cancel hc (fun h => h)
  have g2 : Good E (.ev (.apiReload k)) (fun _ => False) w1
      (mod k (fun s => { s with dirty := true }) w1) := .minor rfl (fun h => h)
  exact (g1.trans g2).sm.trans (h.step k _).sm

/-! ### Pid files and readiness -/

theorem pidfileGone_sm (h : ROk E lab R) (k : Key) (w : World) : SmGood E lab w (pidfileGone E R k w) := by
  unfold pidfileGone
  extract_lets w1
  have g1 : SmGood E lab w w1 := (condClear_good h (NameOk.pid w k)).sm
  split
  · exact g1.trans (serviceReady_good h k false w1 (fun h => nomatch h)).sm
  · exact g1

theorem pidfileSet_sm (h : ROk E lab R) (k : Key) (w : World)
    (hk : Soft w (ReadyBy lab w.toCore k)) : SmGood E lab w (pidfileSet E R k w) := by
  unfold pidfileSet
  extract_lets w1
  have g1 : Good E lab (fun j => j ∈ w.stack) w w1 := by
    simp only [w1]; split
    · exact condSet_good h (.pid k)
    · exact .refl w
  split
  · exact g1.sm.trans (serviceReady_good h k true w1 fun _ => ReadyBy.good g1 hk).sm
  · exact g1.sm

theorem pidfileWrite_sm {k : Key} {p : Int} {b : Bool} (h : ROk E (.ev (.pidfile k p b)) R) (w : World)
    (hk : k ∈ w.order) :
    SmGood E (.ev (.pidfile k p b)) w (pidfileWrite E R k p b w) := by
  unfold pidfileWrite
  extract_lets st w1 w2 w3
  split
  · exact .refl w
  rename_i hst
  split
  · exact pidfileGone_sm h k w
  rename_i hst2
  have g1 : Good E (.ev (.pidfile k p b)) (fun _ => False) w w1 := by
    simp only [w1]; split
    · exact .minor rfl (fun h => h)
    · exact .refl w
  have e1 : (w1.svc k).state = st := by
    simp only [w1]; split <;> simp [Sup.mod, st]
  have k1 : Soft w1 (ReadyBy (.ev (.pidfile k p b)) w1.toCore k) :=
    ReadyBy.good g1 (fun _ => .inl hk)
  split
  · rename_i hf
    split
    · split
      · exact g1.sm
      · exact g1.sm.trans (condClear_good h (NameOk.pid w1 k)).sm
    · simp only [not_or] at hst
      have n1 : (w1.svc k).state ≠ .stopping := by rw [e1]; exact hst2
      have n2 : (w1.svc k).state ≠ .teardown := by rw [e1]; exact hst.1
      have n3 : (w1.svc k).state ≠ .cleanup := by rw [e1]; exact hst.2.1
      have n4 : (w1.svc k).state ≠ .setup := by rw [e1]; exact hst.2.2
      have g2 : Good E (.ev (.pidfile k p b)) (Oth k w1) w1 w2 := by
        show Good E _ _ w1 (serviceForked R k w1)
        unfold serviceForked
        extract_lets u1 u2
        have a1 : Good E (.ev (.pidfile k p b)) (Oth k w1) w1 u1 := .cancel (.forked n1 hf) (not_oth k w1)
        obtain ⟨x, e⟩ := timerCancel_eq k w1
        have eu : u1.svc k = { w1.svc k with timer := none, armed := x } := by
          have : u1 = _ := e
          rw [this]; simp
        have a2 : Good E (.ev (.pidfile k p b)) (Oth k w1) u1 u2 := by
          refine .mod (.forkedUnblock p b rfl ?_ ?_ ?_ ?_ ?_ ?_) (not_oth k w1) rfl <;> rw [eu]
          · exact hf
          · exact n1
          · exact n2
          · exact n3
          · exact n4
        have e2 : u2.svc k = { w1.svc k with timer := none, armed := x, block := .none } := by
          show (mod k _ u1).svc k = _
          simp [Sup.mod, eu]
        have o1 : w1.order = w.order := by simp only [w1]; split <;> rfl
        have o2 : u2.order = w1.order := by
          show (timerCancel k w1).order = w1.order
          rw [e]
        refine (a1.trans a2).next
          (setState_oth h (.forked p b rfl ?_ ?_ ?_ ?_ ?_ ?_ ?_ (by rw [o2, o1]; exact hk))) <;> rw [e2]
        · exact hf
        · exact n1
        · exact n2
        · exact n3
        · exact n4
      have g3 : Good E (.ev (.pidfile k p b)) (fun _ => False) w2 w3 := by
        refine .mod (.forkedPid p b rfl ?_) (fun h => h) rfl
        intro hr
        have := congrArg Svc.forking ((g2.frame hr).2.2 k)
        exact this.trans hf
      exact ((g1.sm.trans g2.sm).trans g3.sm).trans
        (pidfileSet_sm h k w3 (ReadyBy.good g3 (ReadyBy.good g2 k1)))
  · exact g1.sm.trans (pidfileSet_sm h k w1 k1)

theorem pidfileRemove_sm (h : ROk E lab R) (k : Key) (w : World) :
    SmGood E lab w (pidfileRemove E R k w) := by
  unfold pidfileRemove
  extract_lets st
  split
  · exact .refl w
  · exact pidfileGone_sm h k w

theorem notifyReady_sm {k : Key} (h : ROk E (.ev (.notifyReady k)) R) {w : World}
    (hw : (w.svc k).watch = true) : SmGood E (.ev (.notifyReady k)) w (notifyReady E R k w) := by
  unfold notifyReady
  extract_lets w1 w2 w3
  have g1 : SmGood E (.ev (.notifyReady k)) w w1 := by
    simp only [w1]; split
    · rename_i hf; exact .of_prim (.ub w k hf (.inr (.inr hw))) rfl id
    · exact .refl w
  have g2 : Good E (.ev (.notifyReady k)) (fun _ => False) w1 w2 := .minor rfl (fun h => h)
  have g3 : SmGood E (.ev (.notifyReady k)) w2 w3 :=
    (serviceReady_good h k true w2 fun _ _ => .inr (.inr rfl)).sm
  have g13 := (g1.trans g2.sm).trans g3
  split
  · have g4 : Good E (.ev (.notifyReady k)) (fun _ => False) w3
        (mod k (fun s => { s with watch := false }) w3) := .minor rfl (fun h => h)
    exact g13.trans g4.sm
  · exact g13

theorem ageAll_sm : ∀ (l : List Key) (w : World), SmGood E lab w (ageAll l w) := by
  intro l
  induction l with
  | nil => intro w; exact .refl w
  | cons k ks ih =>
    intro w
    unfold ageAll
    refine SmGood.trans ?_ (ih _)
    split
    · rename_i hc; exact .of_prim (.age w k hc.2.2 hc.2.1) rfl id
    · exact .refl w

theorem gcOne_sm {k : Key} (h : ROk E (.ev (.gc k)) R) {w : World} (hk : k ∈ w.gc) :
    SmGood E (.ev (.gc k)) w (gcOne R k w) := by
  unfold gcOne
  extract_lets w1 w2
  have g1 : SmGood E (.ev (.gc k)) w w1 := .of_prim (.freeUp w k rfl hk) rfl id
  have g2 : SmGood E (.ev (.gc k)) w1 w2 := by
    simp only [w2]; split
    · exact .refl w1
    · exact (condClear_good h (NameOk.pid w1 k)).sm
  have hg : Soft w2 (k ∉ w2.gc) := by
    intro hr
    have e : w2.gc = w1.gc := by
      revert hr
      simp only [w2]; split
      · exact fun _ => rfl
      · intro hr
        have e0 : (Glob (condClear R (w1.svc k).pidCond w1)).gc = (Glob w1).gc :=
          congrArg Core.gc ((condClear_good h (NameOk.pid w1 k)).frame hr).2.1
        exact e0
    rw [e]; simp [w1]
  exact (g1.trans g2).trans (.of_prim (.free w2 k rfl hg) rfl id)

/-! ### The main loop -/

theorem handle_sm (n : Nat) (ev : Ev) {w : World} (hst : w.stack = [])
    (hb : w.booted = false → w.sm = .bootstrap) :
    SmGood E (labOf w ev) w (handle E n ev w) := by
  unfold handle
  extract_lets R
  have h : ∀ lab, ROk E lab R := fun lab => mkRec_ok n
  split
  · exact .refl w
  split
  · rename_i hbo
    split
    · refine SmGood.trans ?_ ((h _).sm _)
      have g1 : SmGood E (labOf w .boot) w { w with booted := true, bootWork := true } :=
        sm_glob ⟨rfl, id, id, .inr ⟨hbo, rfl⟩⟩ rfl
      have g2 := confReload_good (E := E) (lab := labOf w .boot)
        (w := { w with booted := true, bootWork := true }) (fun _ => .inl (hb hbo))
      exact g1.trans g2.toSmGood
    · exact .refl w
  cases ev with
  | boot => exact .refl w
  | exit p st => dsimp only; split
                 · rename_i hp; exact monitor_exit_sm (h _) hp hst
                 · exact .refl w
  | adopt p => dsimp only; split
               · rename_i hp; exact .of_prim (.adopt w p hp.1 hp.2) rfl id
               · exact .refl w
  | timer k => exact timerFire_sm w (h _)
  | worker => dsimp only; split
              · have g1 : SmGood E (labOf w .worker) w { w with work := false } :=
                  sm_glob ⟨rfl, id, id, .inl rfl⟩ rfl
                exact g1.trans (stepAll_good (h _) tyAny _).sm
              · exact .refl w
  | bootCheck => dsimp only; split
                 · exact bootCheck_sm (h _) w
                 · exact .refl w
  | apiStart k => dsimp only; split
                  · exact (SmGood.of_prim (.asked w k (.inl rfl)) rfl id).trans
                      (apiStart_sm (h _) _ (.asked ⟨_, _, rfl, rfl⟩) (.inl rfl) rfl)
                  · exact .refl w
  | apiStop k => dsimp only; split
                 · exact (SmGood.of_prim (.asked w k (.inr (.inl rfl))) rfl id).trans (apiStop_sm (h _) _ rfl (.asked ⟨_, _, rfl, rfl⟩))
                 · exact .refl w
  | apiRestart k => dsimp only; split
                    · exact (SmGood.of_prim (.asked w k (.inr (.inr (.inl rfl)))) rfl id).trans
                        (apiRestart_sm (h _) _ rfl (.asked ⟨_, _, rfl, rfl⟩))
                    · exact .refl w
  | apiReload k => dsimp only; split
                   · exact (SmGood.of_prim (.asked w k (.inr (.inr (.inr rfl)))) rfl id).trans
                       (apiReload_sm (h _) _ rfl (.asked ⟨_, _, rfl, rfl⟩))
                   · exact .refl w
  | apiSignal k sig =>
    dsimp only; split
    · rename_i hk
      have g : Good E (labOf w (.apiSignal k sig)) (fun _ => False) w
        (kill E (w.svc k).pid sig .api k w).2 := .kill (.api sig hk.2 rfl)
      exact g.sm
    · exact .refl w
  | apiRunlevel l =>
    dsimp only; split
    · exact .refl w
    · split
      · exact sm_glob ⟨rfl, id, id, .inl rfl⟩ rfl
      · exact smRunlevel_sm (h _) l w
  | reloadAll => dsimp only; split
                 · exact smReload_sm (h _) w
                 · exact .refl w
  | reboot six limit =>
    dsimp only; split
    · refine SmGood.trans ?_ (smRunlevel_sm (h _) _ _)
      split
      · exact sm_glob ⟨rfl, id, id, .inl rfl⟩ rfl
      · exact .refl w
    · exact .refl w
  | emergency => dsimp only; split
                 · rename_i he; exact .of_prim (.shutdown w (.inl ⟨rfl, he⟩)) rfl id
                 · exact .refl w
  | condSet m u => dsimp only; split
                   · rename_i hn
                     split
                     · exact (condSet_good (h _) (.extSet m hn)).sm
                     · exact .of_prim (.conds w _ (.extSet m hn)) rfl id
                   · exact .refl w
  | condOneshot m u => dsimp only; split
                       · rename_i hn
                         split
                         · exact (condOneshot_good (h _) (.extOneshot m hn)).sm
                         · exact .of_prim (.conds w _ (.extOneshot m hn)) rfl id
                       · exact .refl w
  | condClear m u => dsimp only; split
                     · rename_i hn
                       split
                       · exact (condClear_good (h _) (.inl hn)).sm
                       · exact .of_prim (.conds w _ (.extClear m hn)) rfl id
                     · exact .refl w
  | condNotify m => dsimp only; split
                    · exact (condUpdate_good (h _) m w).sm
                    · exact .refl w
  | pidfile k p b => dsimp only; split
                     · rename_i hk; exact pidfileWrite_sm (h _) w hk
                     · exact .refl w
  | pidfileDel k => dsimp only; split
                    · exact pidfileRemove_sm (h _) k w
                    · exact .refl w
  | notifyReady k => dsimp only; split
                     · rename_i hw; exact notifyReady_sm (h _) hw
                     · exact .refl w
  | interval => exact ageAll_sm _ w
  | gc k => dsimp only; split
            · rename_i hk; exact gcOne_sm (h _) hk
            · exact .refl w
  | confTouch => exact sm_glob ⟨rfl, id, id, .inl rfl⟩ rfl

end

end Verif.Sup
