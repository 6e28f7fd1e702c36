import Verif.Sup.Quiet
import Verif.Sup.Demo
import Verif.Props.Start

/-!
# C21: a runlevel change stops services before it starts any
-/

namespace Verif.Sup

open Verif (CStr CondStore)

section
variable {E : Env}

/-- The full claim of C21: a service that is waiting to start leaves that state, during a runlevel
    change, only when no process of the command of a service that is not allowed in the new runlevel
    is left. -/
def C21_full : Prop := ∀ (E : Env) (w : World), Reach E w → ∀ (c : Core) (k : Key) (b : SState)
  (tl : List (Core × Eff)), (c, .trans k .waiting b) :: tl <:+ w.trace → b = .setup ∨ b = .starting →
  c.sm = .rlChange ∨ c.sm = .rlWait ∨ c.sm = .rlClean →
  ∀ j ∈ c.order, (c.svc j).levels.testBit c.runlevel = false → mainAlive j tl = []

/-- a runs in runlevel 2, b is to be started by the shutdown hook in runlevel 0. -/
def demoHook : World :=
  run (calm [{ name := "a".toList, levels := lv234 },
             { name := "b".toList, levels := 1, cond := some "hook/sys/shutdown".toList }]) 20
    [.boot, .bootCheck, .worker, .apiRunlevel 0, .worker]

theorem demoHook_reach : Reach (calm [{ name := "a".toList, levels := lv234 },
    { name := "b".toList, levels := 1, cond := some "hook/sys/shutdown".toList }]) demoHook :=
  run_reach _ _ _

/-- **C21 is false** of services that wait for the shutdown hook: the hook is called, and starts
    them, before the other services are told to stop (src/sm.c:280). -/
theorem C21_shutdown_hook_starts_early : ¬ C21_full := by
  intro h
  have key : (demoHook.trace.drop 5).head?.any (fun x =>
        decide (x.2 = .trans 1 .waiting .starting) && decide (x.1.sm = .rlChange) &&
        decide (0 ∈ x.1.order) && decide ((x.1.svc 0).levels.testBit x.1.runlevel = false)) = true ∧
      mainAlive 0 (demoHook.trace.drop 6) = [115] := by
    decide +kernel
  obtain ⟨k1, k2⟩ := key
  cases e : demoHook.trace.drop 5 with
  | nil => rw [e] at k1; cases k1
  | cons x tl =>
    rw [e] at k1
    obtain ⟨c, ef⟩ := x
    simp only [List.head?_cons, Option.any_some, Bool.and_eq_true, decide_eq_true_eq] at k1
    obtain ⟨⟨⟨rfl, h1⟩, h2⟩, h3⟩ := k1
    have e6 : demoHook.trace.drop 6 = tl := by
      have := congrArg (List.drop 1) e
      rw [List.drop_drop] at this
      exact this
    have := h _ _ demoHook_reach c 1 .starting tl (by rw [← e]; exact List.drop_suffix _ _) (.inr rfl)
      (.inl h1) 0 h2 h3
    rw [e6, this] at k2
    cases k2

/-- **C21** from the moment on at which, under the new runlevel, every service is given its turn:
    a service that is waiting to start leaves that state only when no process is left of the command
    of any plain service that is not allowed in the runlevel, or is marked for removal.

    Missing from the full claim: what is started by the shutdown hook before that moment (where the
    claim is false), services that are not plain (forking, sysv, stop script, systemd or s6
    notification), and services whose crash timer has expired since the change: it puts them to
    RUNNING. -/
theorem C21_waiting_starts_after_stops_partial {w : World} (h : Reach E w) {c : Core} {k : Key}
    {b : SState} {tl : List (Core × Eff)} (hx : (c, .trans k .waiting b) :: tl <:+ w.trace)
    (hb : b = .setup ∨ b = .starting) (hr : c.reent = false) (ho : c.oof = false)
    (ht : c.sm = .rlWait ∨ c.sm = .rlClean ∨ swept tl = true) {j : Key} (hj : j ∈ c.order)
    (hodd : (c.svc j).odd = false) (hf : lately (.forced j) tl = false)
    (hn : (c.svc j).levels.testBit c.runlevel = false ∨ (c.svc j).removed = true) :
    mainAlive j tl = [] := by
  obtain ⟨a, hp, hq, rfl, hs⟩ := h.orderly_at hx (by
    rintro hs; rcases hb with rfl | rfl <;> cases hs)
  have hi : c.inReload = false :=
    (effOk_waiting (h.effOk (hx.subset (List.mem_cons_self ..))) hb).2.1
  have same : c.reent = a.reent ∧ c.oof = a.oof ∧ c.sm = a.sm ∧ c.order = a.order ∧
      c.inReload = a.inReload ∧ c.runlevel = a.runlevel ∧ (c.svc j).odd = (a.svc j).odd ∧
      (c.svc j).levels = (a.svc j).levels ∧ (c.svc j).removed = (a.svc j).removed := by
    rcases hs with rfl | ⟨i, t, x, r, rfl⟩
    · exact ⟨rfl, rfl, rfl, rfl, rfl, rfl, rfl, rfl, rfl⟩
    · refine ⟨rfl, rfl, rfl, rfl, rfl, rfl, ?_⟩
      simp only [upd]
      split
      · rename_i e; rw [e]; exact ⟨rfl, rfl, rfl⟩
      · exact ⟨rfl, rfl, rfl⟩
  obtain ⟨e1, e2, e3, e4, e5, e6, e7, e8, e9⟩ := same
  rw [e1] at hr; rw [e2] at ho; rw [e3] at ht; rw [e4] at hj; rw [e5] at hi; rw [e7] at hodd
  rw [e6, e8, e9] at hn
  have hq := hq hr
  have hsw : swept a.trace = true := by
    rcases ht with ht | ht | ht
    · exact hq.turn (.inl ht)
    · exact hq.turn (.inr (.inl ht))
    · exact ht
  have hna : ¬ Allowed a.toCore j := by
    rintro ⟨h1, h2⟩
    rcases hn with hn | hn
    · rw [hn] at h1; cases h1
    · rw [hn] at h2; cases h2
  rcases hq.seen ho (hq.hold hsw hi) j hj hodd hna with h | h
  · rw [← hp.books.spec j]; exact h
  · rw [hf] at h; cases h

/-- a runs in runlevel 2 only, b in runlevel 3 only. -/
def demoSwap (evs : List Ev) : World :=
  run (calm [{ name := "a".toList, levels := lv2 }, { name := "b".toList, levels := 2 ^ 3 }]) 20
    ([.boot, .bootCheck, .worker, .apiRunlevel 3, .worker] ++ evs)

/-- Not vacuous: in the change to runlevel 3, b is started when the process of a has been
    collected, not before; and a has no crash timer. -/
example :
    (demoSwap []).log.drop 11 = [.runlevel 2 3, .sweep, .kill 115 15 .halt 0,
      .trans 0 .running .stopping, .trans 1 .halted .waiting] ∧
    (demoSwap [.exit 115 (.exited 0)]).log.drop 16 = [.reap 115 (some (.exited 0)), .kill (-115) 9 .group 0,
      .trans 0 .stopping .halted, .stopped, .trans 1 .waiting .starting, .spawn 127 1 .main,
      .trans 1 .starting .running] ∧
    (demoSwap [.exit 115 (.exited 0)]).reent = false ∧ (demoSwap [.exit 115 (.exited 0)]).oof = false := by
  decide +kernel

end

end Verif.Sup
