import Verif.Sup.Later
import Verif.Sup.Demo

/-!
# Properties of stopping services: C13
-/

namespace Verif.Sup

open Verif (CStr CondStore)

section
variable {E : Env}

/-! ## C13 -/

/-- Stopped by the user or given up for crashing, and no crash timer pending. -/
def Held (k : Key) (w : World) : Prop :=
  k < w.nextKey ∧ ((w.svc k).block = .user ∨ (w.svc k).block = .crashing) ∧
  (w.svc k).timer ≠ some .retry

/-- Spec: the events by which service `k` may be brought back: the user asks for it, or (forking
    services) its pid file is written. -/
def Wakes (k : Key) : Ev → Prop
  | .apiStart j => j = k
  | .apiRestart j => j = k
  | .apiReload j => j = k
  | .pidfile j _ _ => j = k
  | _ => False

/-- The label of an event that does not bring `k` back. -/
def CalmLab (k : Key) (lab : Lab) : Prop := lab ≠ .retry k ∧ ∀ ev, lab = .ev ev → ¬ Wakes k ev

theorem Held.prim {lab : Lab} {a b : World} {k : Key} (hr : a.reent = false)
    (hl : CalmLab k lab) (h : Prim E lab a b) (hg : Held k a) :
    Held k b ∨ ∃ c, b.trace = (c, .reg k) :: a.trace := by
  obtain ⟨g1, g2, g3⟩ := hg
  have hk : k < b.nextKey := Nat.lt_of_lt_of_le g1 h.nextKey
  have hbn : (a.svc k).block ≠ .none := by rcases g2 with h | h <;> rw [h] <;> decide
  have hbr : (a.svc k).block ≠ .restarting := by rcases g2 with h | h <;> rw [h] <;> decide
  have hbc : (a.svc k).block ≠ .conflict := by rcases g2 with h | h <;> rw [h] <;> decide
  have hen : enabled a.toCore k = true → False := fun h => hbn (enabled_block h)
  cases h.view k with
  | same h => left; refine ⟨hk, ?_⟩; rw [h]; exact ⟨g2, g3⟩
  | mod s' h e =>
    left
    refine ⟨hk, ?_⟩
    rw [e]
    cases h with
    | minor _ h => rw [h]; exact ⟨g2, g3⟩
    | cancel => exact ⟨g2, by simp⟩
    | unblockCond h => exact absurd h hbr
    | unblockConflict h => exact absurd h hbc
    | blockRestart h hp ht he => exact (hen he).elim
    | unblockRespawn h => exact absurd (h hr).2 hbr
    | blockMissing h he => exact (hen he).elim
    | blockConflict h he => exact (hen he).elim
    | blockCrash => exact ⟨.inr rfl, g3⟩
    | blockManual => exact ⟨.inl rfl, g3⟩
    | apiUnblock h =>
      rcases h with h | h | h <;> exact absurd rfl (hl.2 _ h)
    | apiBlock => exact ⟨.inl rfl, g3⟩
    | forkedUnblock p x h => exact absurd rfl (hl.2 _ h)
    | armRetry b ht h =>
      rcases h with h | h
      · exact absurd (h hr).2.1 hbr
      · exact absurd h hl.1
    | armScript => exact ⟨g2, by simp⟩
    | armReady => exact ⟨g2, by simp⟩
    | apply z x y =>
      obtain ⟨_, _, _, _, _, _, _, _, _, _, _, _, e⟩ := applyStanza_eq z x y (a.svc k)
      rw [e]; exact ⟨g2, g3⟩
    | _ => exact ⟨g2, g3⟩
  | state new t x h ht e =>
    left
    refine ⟨hk, ?_⟩
    rw [e]
    refine ⟨g2, ?_⟩
    show t ≠ some .retry
    by_cases hn : new = .stopping
    · rw [(ht.2 hn).1]; split <;> simp
    · rw [(ht.1 hn).1]; exact g3
  | force x h => exact absurd h hl.1
  | respawn x h => exact absurd h hl.1
  | giveUp x h => exact absurd h hl.1
  | again x sv tm h => exact absurd h hl.1
  | age h hs e => left; refine ⟨hk, ?_⟩; rw [e]; exact ⟨g2, g3⟩
  | bump h e => left; refine ⟨hk, ?_⟩; rw [e]; exact ⟨g2, g3⟩
  | marks r d hr hp hs e => left; refine ⟨hk, ?_⟩; rw [e]; exact ⟨g2, g3⟩
  | start p x hp hl hb he hs e hv ht => exact (hen he).elim
  | startBad p x hp hl hb he hs hn e hv ht => exact (hen he).elim
  | script p role hp hl hr h e hv ht => left; refine ⟨hk, ?_⟩; rw [e]; exact ⟨g2, g3⟩
  | exit s' hp hl hs ht e =>
    left; refine ⟨hk, ?_⟩
    rw [e]
    refine ⟨by rw [hs]; exact g2, ?_⟩
    rcases ht with ht | ht
    · rw [ht.1]; exact g3
    · rw [ht]; simp
  | delBoot h hb e => left; refine ⟨hk, ?_⟩; rw [e]; exact ⟨g2, g3⟩
  | reg z h hz hs ht e => exact .inr ht
  | new z h => rw [h] at g1; exact absurd g1 (Nat.lt_irrefl _)

/-- Since `t0`, service `k` has been registered again, or it is held down and has not been
    started. -/
def StaysDown (k : Key) (t0 : List (Core × Eff)) (w : World) : Prop :=
  (∃ l, w.trace = l ++ t0 ∧ ∃ c e, (c, e) ∈ l ∧ e = .reg k) ∨
  (Held k w ∧ ∃ l, w.trace = l ++ t0 ∧ ∀ c e, (c, e) ∈ l → ∀ p, e ≠ .spawn p k .main)

theorem StaysDown.prim {lab : Lab} {a b : World} {k : Key} {t0 : List (Core × Eff)}
    (hr : a.reent = false) (hl : CalmLab k lab) (h : Prim E lab a b) (hg : StaysDown k t0 a) :
    StaysDown k t0 b := by
  rcases hg with hg | ⟨hg, ht⟩
  · exact .inl (h.newLow hg)
  · rcases hg.prim hr hl h with h1 | ⟨c, h1⟩
    · refine .inr ⟨h1, h.newAll ht ?_⟩
      rintro c e tl ⟨he, hs⟩ p rfl
      rcases hs with hs | ⟨_, hs⟩
      · cases hs
      · cases he with
        | start _ _ _ hp hl hb hen _ =>
          have := enabled_block hen
          rw [hs.block] at this
          rcases hg.2.1 with x | x <;> (rw [x] at this; cases this)
        | script _ _ _ _ hp hl hr => exact hr rfl
    · left
      obtain ⟨l, e, _⟩ := ht
      exact ⟨(c, .reg k) :: l, by rw [h1, e]; rfl, c, .reg k, List.mem_cons_self .., rfl⟩

theorem StaysDown.steps {lab : Lab} {a b : World} {k : Key} {t0 : List (Core × Eff)}
    (h : Steps E lab a b) (hl : CalmLab k lab) (hr : b.reent = false) (hg : StaysDown k t0 a) :
    StaysDown k t0 b :=
  h.inv_soft (P := StaysDown k t0) (fun _ _ ha p => StaysDown.prim ha hl p) hr hg

theorem StaysDown.later {k : Key} {t0 : List (Core × Eff)} {ok : World → Ev → Prop}
    (hok : ∀ v ev, ok v ev → ¬ Wakes k ev) {w v : World} (hw : Reach E w)
    (h : Later E ok w v) (hg : StaysDown k t0 w) (hr : v.reent = false) : StaysDown k t0 v := by
  refine h.inv hw ?_ hg hr
  intro n ev u hu ho hr hd
  rcases hd with hd | hd
  · exact .inl ((hu.steps n ev).inv (P := fun w => ∃ l, w.trace = l ++ t0 ∧ ∃ c e, (c, e) ∈ l ∧ e = .reg k)
      (fun a b p => p.newLow) hd)
  · refine StaysDown.steps (hu.steps n ev) ⟨?_, ?_⟩ hr (.inr hd)
    · intro hl; exact hd.1.2.2 (labOf_retry hl).2
    · intro ev' hl; rw [← labOf_ev hl]; exact hok u ev ho

theorem calm_worker (k : Key) : CalmLab k (.ev .worker) :=
  ⟨by simp, fun ev h => by injection h with h; rw [← h]; exact fun h => h⟩

/-- The stop itself. -/
theorem apiStop_down {w : World} (h : Reach E w) {k : Key} (hk : k ∈ w.order)
    (n : Nat) (hr : (handle E n (.apiStop k) w).reent = false)
    (hd : w.down = false) (hb : w.booted = true) (hres : reserved w.runlevel = false) :
    StaysDown k w.trace (handle E n (.apiStop k) w) := by
  have e : handle E n (.apiStop k) w = apiStop (mkRec E n) k (emit (.asked k) w) := by
    unfold handle
    simp [hd, hb, hk, hres]
  rw [e] at hr ⊢
  unfold apiStop at hr ⊢
  obtain ⟨x, ec⟩ := timerCancel_eq k (emit (.asked k) w)
  dsimp only at hr ⊢
  generalize ew : mod k (fun s => { s with block := .user }) (timerCancel k (emit (.asked k) w)) = w2 at hr ⊢
  have e2 : w2 = { emit (.asked k) w with svc := upd w.svc k { w.svc k with timer := none, armed := x, block := .user } } := by
    rw [← ew, ec]; simp only [Sup.mod, upd_same, upd_upd, emit]
  have ho : OrdOk w2.toCore := by rw [e2]; exact h.basic.1
  have g1 : SmGood E (.ev .worker) w2 ((mkRec E n).step k w2) := ((mkRec_ok n).step k w2).sm
  have g2 : SmGood E (.ev .worker) w2 (stepAll (mkRec E n) tyAny ((mkRec E n).step k w2)) :=
    g1.trans (stepAll_good (mkRec_ok n) tyAny _).sm
  refine StaysDown.steps (g2.steps ho) (calm_worker k) hr (.inr ⟨⟨?_, ?_⟩, ?_⟩)
  · rw [e2]; exact h.basic.1.2 k hk
  · rw [e2]; simp
  · rw [e2]
    refine ⟨[(w.toCore, .asked k)], rfl, fun c e h p he => ?_⟩
    simp only [List.mem_singleton, Prod.mk.injEq] at h
    rw [h.2] at he; cases he

/-- The full claim of C13: after `initctl stop`, whatever happens, the command is not started
    again unless the user asks for it or the configuration of the service is registered again. -/
def C13_full : Prop := ∀ (E : Env) (w : World), Reach E w → ∀ k ∈ w.order, w.down = false →
  reserved w.runlevel = false → ∀ n v,
  Later E (fun _ ev => ev ≠ .apiStart k ∧ ev ≠ .apiRestart k ∧ ev ≠ .apiReload k)
    (handle E n (.apiStop k) w) v →
  ∃ l, v.trace = l ++ w.trace ∧
    ((∃ c, (c, .reg k) ∈ l) ∨ ∀ c p, (c, .spawn p k .main) ∉ l)

/-- **C13, partial.**  After `initctl stop` the command of the service is not started again by
    any sequence of process exits, timers, condition changes, runlevel changes, reboot requests,
    or requests about other services, unless its configuration is registered again.  Missing: pid
    file events of the service itself (for forking services the claim is then false) and
    executions with re-entrant stepping. -/
theorem C13_user_stop_lasts_partial {w : World} (h : Reach E w) {k : Key} (hk : k ∈ w.order)
    (hd : w.down = false) (hres : reserved w.runlevel = false) (n : Nat) {v : World}
    (hv : Later E (fun _ ev => ev ≠ .apiStart k ∧ ev ≠ .apiRestart k ∧ ev ≠ .apiReload k ∧
      ∀ p b, ev ≠ .pidfile k p b) (handle E n (.apiStop k) w) v) (hr : v.reent = false) :
    ∃ l, v.trace = l ++ w.trace ∧
      ((∃ c, (c, .reg k) ∈ l) ∨ ∀ c p, (c, .spawn p k .main) ∉ l) := by
  have hb : w.booted = true := by
    cases hb : w.booted with
    | true => rfl
    | false =>
      obtain ⟨cfg, cmd, e⟩ := h.basic.2.2 hb
      rw [e] at hk; cases hk
  have hw' : Reach E (handle E n (.apiStop k) w) := .event n _ h
  have hr' : (handle E n (.apiStop k) w).reent = false := by
    clear hk hd hres hb
    induction hv with
    | refl => exact hr
    | event m ev hl _ ih => exact ih ((hl.reach hw').reent m ev hr)
  have := StaysDown.later (k := k) (t0 := w.trace) ?_ hw' hv (apiStop_down h hk n hr' hd hb hres) hr
  · rcases this with ⟨l, e, c, x, hx, rfl⟩ | ⟨_, l, e, hl⟩
    · exact ⟨l, e, .inl ⟨c, hx⟩⟩
    · exact ⟨l, e, .inr (fun c p hx => hl c _ hx p rfl)⟩
  · rintro v ev ⟨h1, h2, h3, h4⟩ hw
    cases ev <;> simp only [Wakes] at hw <;> first | exact hw | (subst hw; simp_all)

/-- A forking service is stopped by the user and its process is gone. -/
def demoForkStop : World :=
  run (calm [{ name := "a".toList, levels := lv234, forking := true }]) 20 [.boot, .bootCheck, .worker]

/-- **C13 is false** for forking services: when the pid file of a stopped forking service is
    written again (by a process started by hand, say) the block set by the user is lifted, and when
    that process exits the service is restarted. -/
theorem C13_pidfile_lifts_user_stop : ¬ C13_full := by
  intro h
  let E := calm [{ name := "a".toList, levels := lv234, forking := true }]
  let evs : List Ev := [.exit 112 (.exited 0), .worker, .adopt 500, .pidfile 0 500 true,
    .exit 500 (.exited 1), .worker, .timer 0]
  have hv := h E demoForkStop (run_reach _ _ _) 0 (by decide +kernel) (by decide +kernel)
    (by decide +kernel) 20 _ (Later.foldl 20 evs (by
      intro e he v
      simp only [evs, List.mem_cons, List.not_mem_nil, or_false] at he
      rcases he with rfl | rfl | rfl | rfl | rfl | rfl | rfl <;> simp) .refl)
  have key : (evs.foldl (fun w e => handle E 20 e w) (handle E 20 (.apiStop 0) demoForkStop)).trace.countP
      (fun x => x.2.isStart 0) = 2 ∧ demoForkStop.trace.countP (fun x => x.2.isStart 0) = 1 ∧
      ∀ x ∈ (evs.foldl (fun w e => handle E 20 e w) (handle E 20 (.apiStop 0) demoForkStop)).trace,
        x.2 ≠ .reg 0 := by
    decide +kernel
  obtain ⟨l, e, hl⟩ := hv
  obtain ⟨k1, k2, k3⟩ := key
  rw [e, List.countP_append, k2] at k1
  rcases hl with ⟨c, hl⟩ | hl
  · exact k3 (c, .reg 0) (by rw [e]; exact List.mem_append_left _ hl) rfl
  · have : 0 < l.countP (fun x => x.2.isStart 0) := by omega
    rw [List.countP_pos_iff] at this
    obtain ⟨⟨c, x⟩, h1, h2⟩ := this
    cases x with
    | spawn p j r =>
      cases r <;> simp only [Eff.isStart, decide_eq_true_eq] at h2 <;> try cases h2
      exact hl c p h1
    | _ => cases h2

/-- a is stopped by the user and stays stopped through a runlevel change, a condition change and
    its own exit. -/
def demoUserStop : World :=
  run (calm [{ name := "a".toList, levels := lv234 }]) 20 [.boot, .bootCheck, .worker]

example : 0 ∈ demoUserStop.order ∧ demoUserStop.down = false ∧ reserved demoUserStop.runlevel = false ∧
    (demoUserStop.svc 0).state = .running ∧
    ([Ev.exit 112 (.exited 0), .worker, .condSet "usr/x".toList true, .apiRunlevel 3, .worker].foldl
      (fun w e => handle (calm [{ name := "a".toList, levels := lv234 }]) 20 e w)
      (handle (calm [{ name := "a".toList, levels := lv234 }]) 20 (.apiStop 0) demoUserStop)).reent = false := by
  decide +kernel

end

end Verif.Sup
