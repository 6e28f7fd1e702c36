import Verif.Sup.EndsEv
import Verif.Sup.Limit
import Verif.Props.Nest

/-!
# C63: PID 1 is done with every event in finite time

Changing the state of a service changes conditions, conditions change the states of other services,
and `service_step` and `sm_step` go on as long as something changes.  In the model every such
function takes a limit on nested calls; the flag `oof` records that the limit was hit.  An event
is dealt with in finite time if some limit is not hit; then all larger limits give the same
result (`handle_lim`).
-/

namespace Verif.Sup

open Verif (CStr CondStore)

section
variable {E : Env}

/-- Some limit is not hit when the event is dealt with, and what happens does not depend on the
    limit from there on. -/
def DoneBy (E : Env) (w : World) (ev : Ev) (n : Nat) : Prop :=
  (handle E n ev w).oof = false ∧ ∀ m, n ≤ m → handle E m ev w = handle E n ev w

/-- The full claim of C63: from every state that can come about, every event is dealt with in finite
    time. -/
def C63_full : Prop := ∀ (E : Env) (w : World) (ev : Ev), Reach E w → w.oof = false → ∃ n, DoneBy E w ev n

/-! ### A service that is to run while it is halted -/

def spinIf : CStr :=
  ['<', 's', 'e', 'r', 'v', 'i', 'c', 'e', '/', 'a', '/', 'h', 'a', 'l', 't', 'e', 'd', '>']

/-- The service is running; then `if:<service/a/halted>` is added to its line. -/
def spinEnv : Env :=
  calm [{ name := "a".toList, levels := lv2 }] 14 [{ name := "a".toList, levels := lv2, ifstmt := spinIf }]

/-- The configuration has been reloaded and the service has been told to stop. -/
def demoSpin : World := run spinEnv 20 [.boot, .bootCheck, .worker, .confTouch, .reloadAll]

def spinC0 : CondStore := demoSpin.conds
def spinC1 : CondStore := (spinC0.oneshot "service/a/halted".toList).1

/-- The service is in state `st` and the conditions are `c`. -/
structure Spin (st : SState) (c : CondStore) (w : World) : Prop where
  order : w.order = [0]
  level : w.runlevel = 2
  reload : w.inReload = true
  conds : w.conds = c
  state : (w.svc 0).state = st
  type : (w.svc 0).type = .service
  levels : (w.svc 0).levels = lv2
  removed : (w.svc 0).removed = false
  block : (w.svc 0).block = .none
  ifstmt : (w.svc 0).ifstmt = spinIf
  cond : (w.svc 0).cond = []
  name : (w.svc 0).name = "a".toList
  id : (w.svc 0).id = []
  pid : (w.svc 0).pid = 0
  post : (w.svc 0).post = false

theorem Spin.update {st : SState} {c : CondStore} {w : World} (h : Spin st c w) (R : Rec) (n : CStr) :
    condUpdate R n w = w ∨ condUpdate R n w = { w with oof := true } := by
  have h1 : condUpdateOne R n 0 w = w := by
    unfold condUpdateOne
    rw [if_neg (by simp [Svc.hasCond, h.cond])]
  unfold condUpdate forAll
  have e : w.order.head? = some 0 := by rw [h.order]; rfl
  rw [e]
  cases R.fuel with
  | zero => exact .inr rfl
  | succ n =>
    left
    show iter _ n (nextOf w.toCore 0) (condUpdateOne R _ 0 w) = w
    rw [h1]
    have : nextOf w.toCore 0 = none := by unfold nextOf; rw [h.order]; rfl
    rw [this]
    cases n <;> rfl

theorem Spin.next {st new : SState} {c c' : CondStore} {w v : World} (h : Spin st c w) (ho : v.order = w.order)
    (hl : v.runlevel = w.runlevel) (hr : v.inReload = w.inReload) (hc : v.conds = c')
    (hs : v.svc 0 = { w.svc 0 with state := new, watch := (v.svc 0).watch, timer := (v.svc 0).timer, armed := (v.svc 0).armed }) :
    Spin new c' v := by
  constructor <;> first
    | exact hc
    | rw [ho]; exact h.order
    | rw [hl]; exact h.level
    | rw [hr]; exact h.reload
    | (rw [hs]; exact h.type)
    | (rw [hs]; exact h.levels)
    | (rw [hs]; exact h.removed)
    | (rw [hs]; exact h.block)
    | (rw [hs]; exact h.ifstmt)
    | (rw [hs]; exact h.cond)
    | (rw [hs]; exact h.name)
    | (rw [hs]; exact h.id)
    | (rw [hs]; exact h.pid)
    | (rw [hs]; exact h.post)
    | rw [hs]

theorem Spin.dir {st : SState} {c : CondStore} {w : World} (h : Spin st c w) :
    (w.svc 0).svcDir = "service/a/".toList := by
  unfold Svc.svcDir Svc.ident
  rw [h.id, if_pos rfl, h.name]
  rfl

/-- What is published when the service goes to `new`. -/
def spinStore (new : SState) (c : CondStore) : CondStore :=
  let c := (c.clear "service/a/".toList).1
  if new = .halted then (c.oneshot "service/a/halted".toList).1 else c

theorem Spin.set {st new : SState} {c : CondStore} {w : World} (h : Spin st c w) (hne : st ≠ new)
    (hn : new = .waiting ∨ new = .halted) (R : Rec) :
    Spin new (spinStore new c) (setState R 0 new w) := by
  unfold setState
  rw [if_neg (by rw [h.state]; exact hne)]
  have h1 : Spin new c (setStateRaw 0 new w) := by
    unfold setStateRaw
    extract_lets s w1 m tw
    have e1 : w1 = w := if_neg (by rcases hn with rfl | rfl <;> decide)
    clear_value w1; subst e1
    rw [if_neg (by rw [h.state]; exact hne)]
    exact h.next rfl rfl rfl h.conds rfl
  generalize setStateRaw 0 new w = v at h1
  unfold setStateConds
  extract_lets st0 w1
  suffices hs : Spin new (spinStore new c) w1 from hs.next rfl rfl rfl hs.conds (by
    rw [← hs.state])
  have h2 : Spin new c { v with stack := 0 :: st0 } := h1.next rfl rfl rfl h1.conds (by rw [← h1.state])
  simp only [w1]
  generalize ({ v with stack := 0 :: st0 } : World) = u at h2
  unfold publish
  extract_lets s wx w2 s2 w3
  have e2 : w2 = u := if_neg (by show ¬ ((u.svc 0).type.isRuntask = true); rw [h2.type]; decide)
  clear_value w2; subst e2
  rw [if_pos (by rw [h2.type]; decide)]
  have e3 : w3 = condClearNoupdateMid "service/a/".toList w2 := by
    simp only [w3, s2, h2.dir]
    rw [if_neg (by rcases hn with rfl | rfl <;> simp), if_pos h2.reload]
  have h3 : Spin new (c.clear "service/a/".toList).1 w3 := by
    rw [e3]
    exact h2.next rfl rfl rfl (by
      show (w2.conds.clear _).1 = _
      rw [h2.conds]) (by rw [← h2.state]; rfl)
  clear_value w3
  unfold spinStore
  rcases hn with rfl | rfl
  · exact h3
  · rw [if_pos (rfl : SState.halted = .halted), if_pos (Or.inl rfl : SState.halted = .halted ∨ SState.halted = .running)]
    have ed : s2.svcDir ++ (w3.svc 0).statusStr = "service/a/halted".toList := by
      simp only [s2, h2.dir]
      unfold Svc.statusStr
      rw [h3.state]; dsimp only; rw [h3.block]; rfl
    rw [ed]
    unfold condOneshotMid
    extract_lets r w4
    have h4 : Spin .halted ((c.clear "service/a/".toList).1.oneshot "service/a/halted".toList).1 w4 :=
      h3.next rfl rfl rfl (by
        show (w3.conds.oneshot _).1 = _
        rw [h3.conds]) (by rw [← h3.state]; rfl)
    split
    · rcases h4.update R "service/a/halted".toList with e | e
      · rw [e]; exact h4
      · rw [e]; exact h4.next rfl rfl rfl h4.conds (by rw [← h4.state])
    · exact h4

theorem spin_stores : spinStore .halted spinC0 = spinC1 ∧ spinStore .waiting spinC1 = spinC0 ∧
    ifthenRun spinC1 spinIf = true ∧ ifthenRun spinC0 spinIf = false := by decide +kernel

theorem Spin.enabled {st : SState} {c : CondStore} {w : World} (h : Spin st c w) :
    enabled w.toCore 0 = ifthenRun c spinIf := by
  unfold Sup.enabled
  dsimp only
  rw [h.levels, h.level, h.removed, h.block, h.ifstmt, h.type, h.conds]
  cases ifthenRun c spinIf <;> rfl

/-- The loop of `service_step` goes from HALTED to WAITING and back for ever. -/
theorem spin_for_ever (n : Nat) : ∀ w, Spin .halted spinC1 w ∨ Spin .waiting spinC0 w →
    ((mkRec spinEnv n).loop 0 w).oof = true := by
  induction n with
  | zero => intro w _; rfl
  | succ n ih =>
    intro w h
    show (stepLoop spinEnv (mkRec spinEnv n) 0 w).oof = true
    obtain ⟨s1, s2, s3, s4⟩ := spin_stores
    have key : ∃ v, (Spin .halted spinC1 v ∨ Spin .waiting spinC0 v) ∧ (v.svc 0).state ≠ (w.svc 0).state ∧
        stepBranch spinEnv (mkRec spinEnv n) 0 w = (false, v) := by
      rcases h with h | h
      · have := h.set (new := .waiting) (by decide) (.inl rfl) (mkRec spinEnv n)
        rw [s2] at this
        refine ⟨_, .inr this, by rw [this.state, h.state]; decide, ?_⟩
        unfold stepBranch
        rw [h.state, h.enabled, s3]
        rfl
      · have := h.set (new := .halted) (by decide) (.inr rfl) (mkRec spinEnv n)
        rw [s1] at this
        refine ⟨_, .inl this, by rw [this.state, h.state]; decide, ?_⟩
        unfold stepBranch
        rw [h.state, h.enabled, s4]
        rfl
    obtain ⟨v, hv, hne, e⟩ := key
    unfold stepLoop
    dsimp only
    rw [e]
    dsimp only
    rw [if_neg (by decide), if_pos hne]
    exact ih v hv

/-- The process has ended: the books of the service are updated and it is stepped. -/
theorem spin_step (n : Nat) {w : World} (h : Spin .stopping spinC0 w) (hd : w.down = false) :
    ((mkRec spinEnv n).step 0 w).oof = true := by
  cases n with
  | zero => rfl
  | succ n =>
    show (serviceStep spinEnv (mkRec spinEnv n) 0 w).oof = true
    unfold serviceStep
    rw [if_neg (by rw [hd]; decide)]
    dsimp only
    have h1 : Spin .stopping spinC0 { touch 0 w with stack := 0 :: w.stack } := by
      refine h.next ?_ ?_ ?_ ?_ ?_ <;> unfold touch <;> split <;> first | rfl | exact h.conds | (rw [← h.state])
    generalize ({ touch 0 w with stack := 0 :: w.stack } : World) = v at h1 ⊢
    have key : ∃ u, Spin .halted spinC1 u ∧ stepBranch spinEnv (mkRec spinEnv n) 0 v = (false, u) := by
      unfold stepBranch
      rw [h1.state]
      dsimp only
      unfold stepStopping
      rw [if_pos h1.pid]
      extract_lets w1 w2 w3 w4
      have h2 : Spin .stopping spinC0 w1 := h1.next rfl rfl rfl h1.conds (by rw [← h1.state]; rfl)
      clear_value w1
      have h3 : Spin .stopping spinC0 w2 := by
        simp only [w2]
        unfold timerCancel
        split
        · exact h2.next rfl rfl rfl h2.conds (by rw [← h2.state]; rfl)
        · exact h2
      clear_value w2
      have hp : (w2.svc 0).pidCond = "pid/a".toList := by
        unfold Svc.pidCond Svc.ident
        rw [h3.id, if_pos rfl, h3.name]
        rfl
      have e3 : w3 = w2 := by
        simp only [w3, hp]
        unfold condClear
        have c1 : ("pid/a".toList = nopName) = False := by decide +kernel
        have c2 : spinC0.lookup (condPath "pid/a".toList) = none := by decide +kernel
        have c3 : spinC0.below (condPath "pid/a".toList) = [] := by decide +kernel
        have c4 : spinC0.getPath (condPath "pid/a".toList) = .off := by decide +kernel
        dsimp only
        rw [h3.conds, c2, c3, c4, if_neg (by rw [c1]; exact id), if_pos rfl, if_neg (by decide)]
        rfl
      clear_value w3; subst e3
      have hh := h3.set (new := .halted) (by decide) (.inr rfl) (mkRec spinEnv n)
      rw [spin_stores.1] at hh
      refine ⟨_, hh, ?_⟩
      rw [if_neg (by rw [h3.type]; decide), if_neg (by rw [h3.post]; decide),
        if_neg (by rw [h3.removed, Bool.false_and]; decide)]
    obtain ⟨u, hu, e⟩ := key
    show (stepLoop spinEnv (mkRec spinEnv n) 0 v).oof = true
    unfold stepLoop
    dsimp only
    rw [e]
    dsimp only
    rw [if_neg (by decide), if_pos (by rw [hu.state, h1.state]; decide)]
    exact spin_for_ever n u (.inl hu)

/-- When the process has ended, no limit is enough: PID 1 hangs. -/
theorem spin_hangs (n : Nat) : (handle spinEnv n (.exit 112 (.exited 0)) demoSpin).oof = true := by
  have c0 : demoSpin.down = false ∧ demoSpin.booted = true ∧ (112 : Int) ∈ demoSpin.live ∧
    findByPid (reap 112 (some (.exited 0)) demoSpin).toCore 112 = some 0 ∧
    (reap 112 (some (.exited 0)) demoSpin).stack = [] := by decide +kernel
  obtain ⟨a1, a2, a3, a4, a5⟩ := c0
  have hX : OrdOk (monitorHead spinEnv 0 (.exited 0) (reap 112 (some (.exited 0)) demoSpin)).toCore ∧
      (monitorHead spinEnv 0 (.exited 0) (reap 112 (some (.exited 0)) demoSpin)).down = false ∧
      (monitorHead spinEnv 0 (.exited 0) (reap 112 (some (.exited 0)) demoSpin)).runBlock = 0 := by
    unfold OrdOk; decide +kernel
  have hS : Spin .stopping spinC0 (monitorHead spinEnv 0 (.exited 0) (reap 112 (some (.exited 0)) demoSpin)) := by
    constructor <;> decide +kernel
  have e1 : handle spinEnv n (.exit 112 (.exited 0)) demoSpin = monitorTail (mkRec spinEnv n) 0 112
      (monitorHead spinEnv 0 (.exited 0) (reap 112 (some (.exited 0)) demoSpin)) := by
    generalize demoSpin = w at *
    unfold handle
    dsimp only
    rw [a1, a2, if_neg (by decide), if_neg (by decide), if_pos a3]
    unfold monitor
    rw [if_neg (by decide)]
    dsimp only
    rw [if_neg (by rw [a5]; decide), a4]
  rw [e1]
  generalize monitorHead spinEnv 0 (.exited 0) (reap 112 (some (.exited 0)) demoSpin) = X at hX hS ⊢
  unfold monitorTail
  extract_lets w0 w1 w2 w3
  have e : w1 = X := if_neg (by rw [hX.2.2]; decide)
  clear_value w1; subst e
  have h2 : w2.oof = true := spin_step n hS hX.2.1
  have hR : ROk spinEnv (.ev .worker) (mkRec spinEnv n) := mkRec_ok n
  have o2 : OrdOk w2.toCore := ((hR.step 0 w1).steps hX.1).ord hX.1
  have h3 : w3.oof = true ∧ OrdOk w3.toCore := by
    simp only [w3]
    unfold cleanBootstrap
    split
    · exact ⟨h2, o2.1.filter _, fun k hk => o2.2 k ((List.mem_filter.mp hk).1)⟩
    · exact ⟨h2, o2⟩
  exact (hR.sm w3).oof h3.2 h3.1

/-- **C63 is false.** -/
theorem C63_false_for_halted : ¬ C63_full := by
  intro h
  obtain ⟨n, hn⟩ := h spinEnv demoSpin (.exit 112 (.exited 0)) (run_reach _ _ _) (by decide +kernel)
  have := hn.1
  rw [spin_hangs n] at this
  cases this

/-! ### Configurations for which it is true -/

/-- In the order given by `rank`, each service waits for, and tests in `if:<...>`, only conditions of
    services before it.  The names of these conditions are at most 42 characters long: what
    follows is ignored when a condition is set. -/
def Staged (E : Env) (rank : CStr → Nat) : Prop :=
  ∀ t, ∀ z ∈ E.conf t, ∀ i, Applies E z i → ∀ n ∈ z.waits ++ testsOf z.ifstmt,
    n.length ≤ 42 ∧ ∀ j, Told j n → rank j < rank i

/-- What is asked of the configuration, over all the times it is read:
    the services can be ordered so that each depends only on those before it, and there is a limit on
    the number of stanzas;
    no service is forking, sysv, has a stop:script or systemd/s6 notification; and what is for
    runlevel S alone is a run or task not told of changes by SIGHUP. -/
def Tiered (E : Env) : Prop :=
  (∃ rank b, Staged E rank ∧ ∀ t, (E.conf t).length ≤ b ∧ ∀ z ∈ E.conf t, rank z.full ≤ b) ∧
  PlainEnv E ∧ BootOk E

theorem Tiered.layered (h : Tiered E) : Layered E := by
  obtain ⟨⟨rank, b, hs, _⟩, h2⟩ := h
  exact ⟨⟨rank, fun t z hz i hi n hn j hj => (hs t z hz i hi n (List.mem_append_left _ hn)).2 j hj⟩, h2⟩

theorem hits_told {j n : CStr} (hn : n.length ≤ 42) (h : Hits j (condPath n)) : Told j n := by
  have e : condPath n = n := List.take_of_length_le (by omega)
  rw [e] at h
  obtain ⟨m, hm, h | h⟩ := h
  · left
    have : m.length ≤ 43 := by
      have := congrArg List.length h
      unfold condPath at this
      rw [List.length_take] at this
      omega
    rw [h]
    unfold condPath
    rw [List.take_of_length_le this]
    exact hm
  · exact .inr ⟨m, hm, h⟩

/-- **C63, partial.**  With a tiered configuration, from every state that can come about, every event is
    dealt with in finite time; the limit does not depend on the event.
    Missing: other configurations (for `if:<...>` on the service itself it is false). -/
theorem C63_done_in_time_partial (hE : Tiered E) {w : World} (h : Reach E w) (hw : w.oof = false) :
    ∃ n, ∀ ev, DoneBy E w ev n := by
  have hL := hE.layered
  obtain ⟨⟨rank, b, hs, hb⟩, hP, hB⟩ := hE
  have hR : Ranked E (fun i => rank i + 1) := fun t z hz i hi n hn j hj =>
    Nat.succ_lt_succ ((hs t z hz i hi n (List.mem_append_left _ hn)).2 j hj)
  have hS : Sound E (fun i => rank i + 1) := ⟨fun _ => Nat.succ_pos _, fun t z hz i hi n hn j hj =>
    have := hs t z hz i hi n hn
    Nat.succ_lt_succ (this.2 j (hits_told this.1 hj))⟩
  have hW : Within E (fun i => rank i + 1) (b + 1) b := fun t => ⟨(hb t).1, fun z hz => Nat.succ_le_succ ((hb t).2 z hz)⟩
  obtain ⟨n, hn⟩ := h.ends hR hS hW hP hB
  have h0 : ∀ ev, (handle E n ev w).oof = false := fun ev => (hn n (Nat.le_refl n) ev).trans hw
  exact ⟨n, fun ev => ⟨h0 ev, fun m hm => (handle_lim hm ev w).same (h0 ev)⟩⟩

/-- **C63, partial**, for sequences of events: PID 1 deals with all of them in finite time, and what
    happens does not depend on the limit. -/
theorem C63_runs_in_time_partial (hE : Tiered E) (evs : List Ev) (cfg cmd : Nat) :
    ∃ n v, Reach E v ∧ v.oof = false ∧
      ∀ m, n ≤ m → evs.foldl (fun w ev => handle E m ev w) (World.start cfg cmd) = v := by
  suffices h : ∀ w, Reach E w → w.oof = false → ∃ n v, Reach E v ∧ v.oof = false ∧
      ∀ m, n ≤ m → evs.foldl (fun w ev => handle E m ev w) w = v from h _ (.start cfg cmd) rfl
  induction evs with
  | nil => exact fun w h hw => ⟨0, w, h, hw, fun _ _ => rfl⟩
  | cons ev evs ih =>
    intro w h hw
    obtain ⟨n, hn⟩ := C63_done_in_time_partial hE h hw
    obtain ⟨n', v, hv, ho, e⟩ := ih (handle E n ev w) (h.event n ev) (hn ev).1
    refine ⟨max n n', v, hv, ho, fun m hm => ?_⟩
    rw [List.foldl_cons, (hn ev).2 m (by omega)]
    exact e m (by omega)

/-! ### Checking that a configuration is tiered -/

/-- A check of one stanza of a finite configuration. -/
def stagedOk (rank : CStr → Nat) (zs : List Stanza) (z : Stanza) : Bool :=
  (z.waits ++ testsOf z.ifstmt).all fun n => decide (n.length ≤ 42) && (parts n).all fun j =>
    decide (Told j n → rank j < rank z.full ∧
      (z.type = .tty → ∀ y ∈ zs, y.type = .tty → y.dev = z.dev → rank j < rank y.full))

theorem staged_of_check {rank : CStr → Nat} {zs : List Stanza} (hz : ∀ t, ∀ z ∈ E.conf t, z ∈ zs)
    (h : zs.all (stagedOk rank zs) = true) : Staged E rank := by
  intro t z hzt i hi n hn
  have := List.all_eq_true.mp (List.all_eq_true.mp h z (hz t z hzt)) n hn
  simp only [Bool.and_eq_true, decide_eq_true_eq] at this
  refine ⟨this.1, fun j hj => ?_⟩
  have := of_decide_eq_true (List.all_eq_true.mp this.2 j (told_part this.1 hj)) hj
  rcases hi with rfl | ⟨ht, t', y, hy, h1, h2, rfl⟩
  · exact this.1
  · exact this.2 ht y (hz t' y hy) h1 h2

/-- A database, a web server that waits for it to be ready, and a fallback that is to run only
    while the database has been stopped by the user. -/
def backConf : List Stanza :=
  [{ name := "check".toList, type := .task, levels := lvS },
   { name := "db".toList, levels := lv234 },
   { name := "web".toList, levels := lv234, cond := some "service/db/ready".toList },
   { name := "fallback".toList, levels := lv234, ifstmt := "<service/db/stopped>".toList }]

def backRank (n : CStr) : Nat := if n = "db".toList then 0 else 1

/-- Not vacuous: this configuration is tiered, if nothing else is configured later. -/
theorem back_tiered : Tiered (calm backConf) := by
  have hz : ∀ t, ∀ z ∈ (calm backConf).conf t, z ∈ backConf := by
    intro t z hz
    unfold calm at hz
    dsimp only at hz
    split at hz
    · exact hz
    · cases hz
  refine ⟨⟨backRank, 4, staged_of_check hz (by decide +kernel), fun t => ⟨?_, fun z h => ?_⟩⟩, ?_, ?_⟩
  · unfold calm
    dsimp only
    split
    · decide +kernel
    · decide
  · have : ∀ z ∈ backConf, backRank z.full ≤ 4 := by decide +kernel
    exact this z (hz t z h)
  · intro t z h
    have : ∀ z ∈ backConf, z.odd = false := by decide +kernel
    exact this z (hz t z h)
  · intro t z h hb
    have : ∀ z ∈ backConf, bootMask z.levels → z.type.isRuntask = true ∧
        ∀ y ∈ backConf, y.full = z.full → y.hups = false := by decide +kernel
    obtain ⟨h1, h2⟩ := this z (hz t z h) hb
    exact ⟨h1, fun t' y hy => h2 y (hz t' y hy)⟩

/-- The system is booted, the database reports that it is ready, the user stops it, and it ends. -/
def demoBack : World :=
  run (calm backConf) 24
    [.boot, .exit 117 (.exited 0), .bootCheck, .worker, .pidfile 1 127 true, .apiStop 1,
     .exit 127 (.exited 0), .worker, .worker]

/-- Not vacuous: the conditions published by the database have stopped the web server and started
    the fallback. -/
example : Reach (calm backConf) demoBack ∧ demoBack.oof = false ∧ (demoBack.svc 1).state = .halted ∧
    (demoBack.svc 2).state = .stopping ∧ (demoBack.svc 3).state = .running ∧
    mainAlive 3 demoBack.trace = [145] :=
  ⟨run_reach _ _ _, by decide +kernel⟩

end
end Verif.Sup
