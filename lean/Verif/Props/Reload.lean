import Verif.Sup.ReloadFn
import Verif.Sup.Demo

/-!
# C24: reading the configuration again
-/

namespace Verif.Sup

open Verif (CStr CondStore)

section
variable {E : Env}

/-- Service `k` goes by the name and id of stanza `z`. -/
def Bears (w : World) (k : Key) (z : Stanza) : Prop := (w.svc k).name = z.name ∧ (w.svc k).id = z.id

/-- The full claim of C24: whenever the supervisor is at rest after bootstrap, the registered
    services are those of the configuration as it was last read (and the built-in, protected ones),
    and each of them has the settings of its stanza. -/
def C24_full : Prop := ∀ (E : Env) (w : World), Reach E w → w.sm = .running → w.runlevel ≠ 10 →
  (∀ k ∈ w.order, (w.svc k).protect = true ∨ FromConf E w k) ∧
  (∀ t, lastConf w.trace = some t → ∀ z ∈ E.conf t, ∃ k ∈ w.order, Bears w k z)

/-- **C24, what is gone.**  When the supervisor is at rest after bootstrap, every registered service
    is a protected one or is in the configuration as it was last read: its latest stanza is one of
    that reading and bears its name (a terminal is known by its device instead). -/
theorem C24_removed_are_gone_partial {w : World} (h : Reach E w) (hr : w.reent = false)
    (ho : w.oof = false) (hs : w.sm = .running) (hl : w.runlevel ≠ 10) (k : Key) (hk : k ∈ w.order) :
    (w.svc k).removed = false ∧
    ((w.svc k).protect = true ∨ ∃ t z, lastConf w.trace = some t ∧ z ∈ E.conf t ∧
      (w.svc k).type = z.type ∧ (z.type = .tty ∨ Bears w k z)) := by
  have h1 := h.unmarked hr ho hs hl k hk
  obtain ⟨h2, z, h3, h4, h5⟩ := h.fromConf k hk
  refine ⟨h1, (h2 h1).imp_right ?_⟩
  rintro ⟨t, z', g1, g2, g3⟩
  rw [h3] at g2; injection g2 with g2; subst g2
  exact ⟨t, z, g1, g3, h5, h4⟩

/-- **C24, what stays.**  Every service registered by the last reading of the configuration is on the
    service list and not marked for removal, unless that reading found its `if:` statement not to
    hold or it was for bootstrap only and bootstrap is over. -/
theorem C24_listed_stay {w : World} (h : Reach E w) (k : Key) (hk : Listed w k) :
    (k ∈ w.order ∧ (w.svc k).removed = false) ∨ Unavail w k ∨ BootGone w k := h.listed k hk

/-- **C24, once stopped.**  A service is taken off the list only if it is marked for removal and has
    stopped, or is for bootstrap only. -/
theorem C24_removed_once_stopped {w : World} (h : Reach E w) {c : Core} {k : Key}
    (hx : (c, .del k) ∈ w.trace) :
    ((c.svc k).removed = true ∧ ((c.svc k).state = .dead ∨ (c.svc k).state = .done)) ∨
    (c.svc k).levels &&& (2 ^ 32 - 1 - 2 ^ 10) = 0 := by
  cases h.effOk hx with
  | del _ _ hr hs => exact .inl ⟨hr, hs⟩
  | delBoot _ _ h => exact .inr h

/-- Reading the configuration, the state just before the stanzas are registered. -/
def marked (w : World) : World := { markDynamic (emit (.conf w.tick) w) with tick := w.tick + 1 }

/-- **C24, what is registered.**  Reading the configuration registers every stanza that is accepted:
    there is a service of its name with its settings, the same object as before if there was one.
    (If its `if:` statement has ceased to hold at the end of the reading, it is marked for removal
    again.) -/
theorem C24_stanza_is_registered {w : World} (ho : OrdOk w.toCore) {l1 l2 : List Stanza} {z : Stanza}
    (hc : E.conf w.tick = l1 ++ z :: l2) (hz : z.type ≠ .tty)
    (ha : Accepts E z (registerAll E l1 (marked w)))
    (hu : ∀ z' ∈ l2, z'.type ≠ .tty ∧ ¬ (z'.name = z.name ∧ z'.id = z.id)) :
    ∃ k ∈ (confReload E w).order, Listed (confReload E w) k ∧ Bears (confReload E w) k z ∧
      (let s := (confReload E w).svc k
       s.type = z.type ∧ s.levels = z.levels ∧ s.manual = z.manual ∧ s.respawn = z.respawn ∧
       s.forking = z.forking ∧ s.restartMax = z.restartMax ∧ s.oncrash = z.oncrash ∧
       s.killdelay = z.killdelay ∧ s.notify = z.notify ∧ s.conflict = z.conflict ∧ s.ifstmt = z.ifstmt ∧
       s.stopScript = z.stopScript ∧ s.reloadScript = z.reloadScript ∧
       (s.removed = false ∨ Unavail (confReload E w) k)) ∧
      (∀ j, find w.toCore z.name z.id = some j → k = j) := by
  obtain ⟨l, r1⟩ := registerAll_regs (E := E) l1 (marked w)
  generalize ev : registerAll E l1 (marked w) = v at ha r1
  have om : OrdOk (marked w).toCore := ho
  have bv := r1.below om.2
  have fv : ∀ j, find w.toCore z.name z.id = some j → find v.toCore z.name z.id = some j := by
    intro j hj
    refine r1.find om (Eq.trans ?_ hj)
    show List.find? _ w.order = List.find? _ w.order
    congr 1
    funext i
    show (decide (((markDynamic (emit (.conf w.tick) w)).svc i).name = z.name) &&
      decide (((markDynamic (emit (.conf w.tick) w)).svc i).id = z.id)) = _
    rw [markDynamic_svc]; rfl
  have step : ∃ k x y c b m, register E z v = m ∧ m.trace = (c, b) :: v.trace ∧ (b = .reg k ∨ b = .new k) ∧
      k ∈ m.order ∧ k < m.nextKey ∧ m.svc k = applyStanza z x y (regBase z v (regFind z v.toCore)) ∧
      (m.svc k).name = z.name ∧ (m.svc k).id = z.id ∧
      (∀ j, find v.toCore z.name z.id = some j → k = j) := by
    have hrf : regFind z v.toCore = find v.toCore z.name z.id := if_neg hz
    rcases register_cases (E := E) z v with ⟨hn, _⟩ | ⟨_, k, x, y, t, c, hf, e⟩ | ⟨_, x, y, t, c, hf, e⟩
    · exact absurd ha hn
    · have hm := regFind_mem hf
      refine ⟨k, x, y, c, .reg k, _, rfl, by rw [e], .inl rfl, by rw [e]; exact hm,
        by rw [e]; exact bv k hm, ?_, ?_, ?_, ?_⟩
      · rw [e, hf]; exact upd_same _ _ _
      · rw [e]; dsimp only
        obtain ⟨_, _, _, _, _, _, _, _, _, _, _, _, e⟩ := applyStanza_eq z x y (regBase z v (some k))
        rw [upd_same, e]; exact (regFind_name hf hz).1
      · rw [e]; dsimp only
        obtain ⟨_, _, _, _, _, _, _, _, _, _, _, _, e⟩ := applyStanza_eq z x y (regBase z v (some k))
        rw [upd_same, e]; exact (regFind_name hf hz).2
      · intro j hj
        rw [hrf, hj] at hf; injection hf with hf; exact hf.symm
    · refine ⟨v.nextKey, x, y, c, .new v.nextKey, _, rfl, by rw [e], .inr rfl, by rw [e]; simp,
        by rw [e]; exact Nat.lt_succ_self _, ?_, ?_, ?_, ?_⟩
      · rw [e, hf]; exact upd_same _ _ _
      · rw [e]; dsimp only
        obtain ⟨_, _, _, _, _, _, _, _, _, _, _, _, e⟩ := applyStanza_eq z x y (regBase z v none)
        rw [upd_same, e]; rfl
      · rw [e]; dsimp only
        obtain ⟨_, _, _, _, _, _, _, _, _, _, _, _, e⟩ := applyStanza_eq z x y (regBase z v none)
        rw [upd_same, e]; rfl
      · intro j hj
        rw [hrf, hj] at hf; cases hf
  obtain ⟨k, x, y, c, b, m, em, mt, hb, mo, mn, ms, n1, n2, mj⟩ := step
  have keep := registerAll_other (E := E) l2 m k mo mn (fun z' h' => by rw [n1, n2]; exact hu z' h')
  obtain ⟨l', r2⟩ := registerAll_regs (E := E) l2 m
  have eall : registerAll E (E.conf w.tick) (marked w) = registerAll E l2 m := by
    rw [hc, registerAll_append, ev]
    show registerAll E l2 (register E z v) = _
    rw [em]
  obtain ⟨ll, d, c', rr, hc', econf⟩ := confReload_eq (E := E) w
  have eall' : registerAll E (E.conf w.tick)
    { markDynamic (emit (.conf w.tick) w) with tick := w.tick + 1 } = registerAll E l2 m := eall
  rw [eall'] at rr econf hc'
  generalize eu : registerAll E l2 m = u at keep r2 rr econf hc'
  have hmem : (c, b) ∈ ll := by
    have h1 := rr.trace
    rw [r2.trace, mt, r1.trace] at h1
    have : ll = l' ++ (c, b) :: l := by
      have h1 : l' ++ (c, b) :: (l ++ (marked w).trace) = ll ++ (marked w).trace := h1
      rw [← List.cons_append, ← List.append_assoc] at h1
      exact (List.append_cancel_right h1).symm
    rw [this]; exact List.mem_append_right _ (List.mem_cons_self ..)
  have hsince : sinceConf (confReload E w).trace = (c', .confEnd) :: ll := by
    have : (confReload E w).trace = (c', .confEnd) :: (ll ++ (w.toCore, .conf w.tick) :: w.trace) := by
      rw [econf, hc']
      show (_, Eff.confEnd) :: u.trace = _
      rw [rr.trace]; rfl
    rw [this, since_cons (x := (c', .confEnd)) nofun, since_regs rr.only]
  have hsvc : ∃ rm dt, (confReload E w).svc k = { m.svc k with removed := rm, dirty := dt } ∧
      (rm = (m.svc k).removed ∨ ((c'.svc k).ifstmt ≠ [] ∧ ifthenConf c' (c'.svc k).ifstmt = false)) := by
    have h0 : (confReload E w).svc k = { u.svc k with
        removed := if k ∈ u.order ∧ (u.svc k).ifstmt ≠ [] ∧ ifthenConf c' (u.svc k).ifstmt = false ∧
          (u.svc k).protect = false then true else (u.svc k).removed
        dirty := d k } := by
      rw [econf]
      show (markUnavail _).svc k = _
      rw [markUnavail_svc, hc']; rfl
    have hi : (c'.svc k).ifstmt = (u.svc k).ifstmt := by rw [hc']
    rw [keep] at h0 hi
    refine ⟨_, _, h0, ?_⟩
    rw [hi]
    split
    · rename_i hcond; exact .inr ⟨hcond.2.1, hcond.2.2.1⟩
    · exact .inl rfl
  obtain ⟨rm, dt, es, hrm⟩ := hsvc
  obtain ⟨_, _, _, _, _, _, _, _, _, _, _, _, ea⟩ := applyStanza_eq z x y (regBase z v (regFind z v.toCore))
  refine ⟨k, ?_, ⟨c, b, by rw [hsince]; exact List.mem_cons_of_mem _ hmem, hb⟩, ?_, ?_, ?_⟩
  · rw [econf]; exact r2.order.subset mo
  · unfold Bears; rw [es]; exact ⟨n1, n2⟩
  · dsimp only
    rw [es]
    have ms' := ms.trans ea
    refine ⟨?_, ?_, ?_, ?_, ?_, ?_, ?_, ?_, ?_, ?_, ?_, ?_, ?_, ?_⟩
    rotate_right
    · rcases hrm with h | h
      · left; show rm = false; rw [h, ms']
      · exact .inr ⟨c', by rw [hsince]; exact List.mem_cons_self .., h⟩
    · show (m.svc k).type = _; rw [ms']; cases regFind z v.toCore <;> rfl
    all_goals rw [ms']
  · exact fun j hj => mj j (fv j hj)

/-- **C24, everybody else.**  Reading the configuration touches no process, timer or condition, starts
    and stops nothing: the state of every service, registered again or not, is the same as before, and
    a service that is not in the configuration is changed only in being marked for removal (and
    perhaps as one whose dependencies changed). -/
theorem C24_reading_only_marks {w : World} (ho : OrdOk w.toCore) :
    Outside w.toCore (confReload E w).toCore ∧
    (∃ l, (confReload E w).trace = l ++ w.trace ∧ ∀ x ∈ l, x.2.book = true ∧ ∀ k, x.2 ≠ .del k) ∧
    w.order <+: (confReload E w).order ∧
    ∀ k ∈ w.order, ((confReload E w).svc k).proc = (w.svc k).proc ∧
      (¬ Listed (confReload E w) k → ∃ d, (confReload E w).svc k =
        { w.svc k with
          dirty := d
          removed := if (w.svc k).protect then (w.svc k).removed else true }) := by
  obtain ⟨ll, d, c', rr, hc', econf⟩ := confReload_eq (E := E) w
  generalize eu : registerAll E (E.conf w.tick)
    { markDynamic (emit (.conf w.tick) w) with tick := w.tick + 1 } = u at rr econf hc'
  have ht : (confReload E w).trace = (c', .confEnd) :: (ll ++ (w.toCore, .conf w.tick) :: w.trace) := by
    rw [econf, hc']
    show (_, Eff.confEnd) :: u.trace = _
    rw [rr.trace]; rfl
  have hsince : sinceConf (confReload E w).trace = (c', .confEnd) :: ll := by
    rw [ht, since_cons (x := (c', .confEnd)) nofun, since_regs rr.only]
  have out : Outside w.toCore u.toCore := rr.out
  have hs : ∀ k, (confReload E w).svc k = { u.svc k with
      removed := if k ∈ u.order ∧ (u.svc k).ifstmt ≠ [] ∧ ifthenConf c' (u.svc k).ifstmt = false ∧
        (u.svc k).protect = false then true else (u.svc k).removed
      dirty := d k } := by
    intro k
    rw [econf]
    show (markUnavail _).svc k = _
    rw [markUnavail_svc, hc']; rfl
  refine ⟨by rw [econf]; exact out, ⟨(c', .confEnd) :: (ll ++ [(w.toCore, .conf w.tick)]), ?_, ?_⟩, ?_, ?_⟩
  · rw [ht]; simp
  · intro x hx
    rcases List.mem_cons.mp hx with rfl | hx
    · exact ⟨rfl, nofun⟩
    rcases List.mem_append.mp hx with hx | hx
    · obtain ⟨k, h | h⟩ := rr.only x hx <;> rw [h] <;> exact ⟨rfl, nofun⟩
    · rw [List.mem_singleton.mp hx]; exact ⟨rfl, nofun⟩
  · rw [econf]; exact rr.order
  · intro k hk
    have hn : k < w.nextKey := ho.2 k hk
    constructor
    · rw [hs k]
      refine Eq.trans (show _ = (u.svc k).proc from rfl) ((rr.proc k hn).trans ?_)
      show ((markDynamic (emit (.conf w.tick) w)).svc k).proc = _
      rw [markDynamic_svc]; rfl
    · intro hl
      have e := rr.others k hn (fun c h => hl ⟨c, .reg k, by rw [hsince]; exact List.mem_cons_of_mem _ h, .inl rfl⟩)
      have e' : u.svc k = { w.svc k with
          removed := if (w.svc k).protect then (w.svc k).removed else true } := by
        rw [e]
        show (markDynamic (emit (.conf w.tick) w)).svc k = _
        rw [markDynamic_svc]
        have : k ∈ (emit (.conf w.tick) w).order := hk
        cases hp : (w.svc k).protect
        · rw [if_pos ⟨this, hp⟩]; rfl
        · rw [if_neg (fun h => by have := h.2; rw [show ((emit (.conf w.tick) w).svc k) = w.svc k from rfl, hp] at this; cases this)]
          rfl
      refine ⟨d k, ?_⟩
      rw [hs k, e']
      dsimp only
      congr 1
      cases hp : (w.svc k).protect <;> simp

end

/-! ## Examples and a counterexample -/

/-- Two daemons and a bootstrap task at first; then one daemon has other settings, one is gone, one is
    new, and the task is still there ... -/
def rlZs : List Stanza :=
  [{ name := "b".toList, levels := lv2, respawn := true }, { name := "c".toList, levels := lv234 },
   { name := "t".toList, type := .task, levels := lvS }]

def rlEnv : Env :=
  calm [{ name := "a".toList, levels := lv234 }, { name := "b".toList, levels := lv234 },
        { name := "t".toList, type := .task, levels := lvS }] 30 rlZs

/-- ... boot, enter runlevel 2, reload, and `a` (pid 124) exits. -/
def rlRun (n : Nat) : World :=
  run rlEnv 24 ([Ev.boot, .exit 114 (.exited 0), .bootCheck, .worker, .worker, .reloadAll, .exit 124 (.exited 0),
    .worker].take n)

/-- The reload waits for `a` (object 0) to stop, then it is gone, `b` (object 1) is the same object
    and process, and `c` (object 3) is new. -/
example : (rlRun 5).order = [0, 1] ∧ (rlRun 6).order = [0, 1, 3] ∧ (rlRun 6).sm = .reloadWait ∧
    ((rlRun 6).svc 0).removed = true ∧ ((rlRun 6).svc 0).state = .stopping ∧
    (rlRun 8).order = [1, 3] ∧ (rlRun 8).sm = .running ∧ (rlRun 8).runlevel = 2 ∧ (rlRun 8).reent = false ∧
    (rlRun 8).oof = false ∧ ((rlRun 8).svc 1).pid = ((rlRun 5).svc 1).pid ∧ ((rlRun 8).svc 1).levels = lv2 ∧
    ((rlRun 8).svc 1).respawn = true ∧ ((rlRun 8).svc 3).state = .running ∧
    lastConf (rlRun 8).trace = some 32 ∧ ((rlRun 8).trace.any fun x => decide (x.2 = .del 0)) = true ∧
    (∀ k ∈ (rlRun 8).order, ((rlRun 8).svc k).protect = false) ∧
    ((sinceConf (rlRun 8).trace).any fun x => decide (x.2 = .reg 1)) = true := by
  decide +kernel

/-- The hypotheses of `C24_stanza_is_registered` hold for `b` at the reload. -/
example : OrdOk (rlRun 5).toCore ∧ rlEnv.conf (rlRun 5).tick = [] ++ rlZs[0] :: rlZs.drop 1 ∧
    Accepts rlEnv rlZs[0] (registerAll rlEnv [] (marked (rlRun 5))) ∧
    (∀ z' ∈ rlZs.drop 1, z'.type ≠ .tty ∧ ¬ (z'.name = rlZs[0].name ∧ z'.id = rlZs[0].id)) ∧
    find (rlRun 5).toCore rlZs[0].name rlZs[0].id = some 1 := by
  refine ⟨⟨?_, ?_⟩, ?_, ⟨?_, ?_, ?_⟩, ?_, ?_⟩ <;> decide +kernel

/-- The full claim does not hold to the letter: the bootstrap task is still in the configuration, but
    is not registered. -/
theorem C24_full_false : ¬ C24_full := by
  intro h
  have key : (rlRun 8).sm = .running ∧ (rlRun 8).runlevel ≠ 10 ∧ lastConf (rlRun 8).trace = some 32 ∧
      ∀ k ∈ (rlRun 8).order, ((rlRun 8).svc k).name ≠ "t".toList := by decide +kernel
  obtain ⟨k1, k2, k3, k4⟩ := key
  obtain ⟨k, hk, hn⟩ := (h rlEnv _ (run_reach _ _ _) k1 k2).2 32 k3
    { name := "t".toList, type := .task, levels := lvS } (by decide +kernel)
  exact k4 k hk hn.1

end Verif.Sup
