import Verif.Sup.NestEv

/-!
# Supervisor model: the handling of an event ends

Changing the state of a service changes conditions, `cond_update` steps the services that wait for
them, and so on, and `service_step` itself goes round as long as the state changes; nothing in the
code bounds this.  Here: if each service waits for, and tests with `if:`, only conditions of
services before it, the recursion is bounded by the number of services, whatever the environment
answers.

`Fr a b w v`: going from `w` to `v` changes nothing of services of rank below `a` and no condition
that belongs to services of rank below `b` alone (unless `b` is 0), and the model has not run out of fuel.
-/

namespace Verif.Sup

open Verif (CStr CondStore)

/-- The file of a condition is touched on behalf of the service registered as `i`. -/
def Hits (i p : CStr) : Prop := ∃ m ∈ condsOf i, p = condPath m ∨ under (condPath m) p = true

/-- The conditions of a statement `if:<...>`. -/
def testsOf (stmt : CStr) : List CStr :=
  match stmt with
  | '<' :: rest => (tokens isComma ((rest.takeWhile (· ≠ '>')).take 129)).map
      (fun t => match t with | '!' :: c => c | c => c)
  | _ => []

/-- The conditions the state machine looks at for a service. -/
def Svc.reads (s : Svc) : List CStr := tokens isComma s.cond ++ testsOf s.ifstmt

section
variable (E : Env) (rank : CStr → Nat)

/-- Each service looks only at conditions of services before it; ranks start at 1. -/
def ReadOk (c : Core) : Prop :=
  ∀ j, 0 < rank (c.svc j).ident ∧
    ∀ n ∈ (c.svc j).reads, ∀ i, Hits i (condPath n) → rank i < rank (c.svc j).ident

/-- The services that are registered, at most `L`, of rank at most `M`. -/
structure Bnd (M L : Nat) (w : World) : Prop where
  ord : OrdOk w.toCore
  len : w.order.length ≤ L
  rank : ∀ j ∈ w.order, rank (w.svc j).ident ≤ M

structure Fr (a b : Nat) (w v : World) : Prop where
  oof : v.oof = w.oof
  order : v.order = w.order
  next : v.nextKey = w.nextKey
  runlevel : v.runlevel = w.runlevel
  inReload : v.inReload = w.inReload
  bootstrap : v.bootstrap = w.bootstrap
  sm : v.sm = w.sm
  newlevel : v.newlevel = w.newlevel
  reload : v.reload = w.reload
  down : v.down = w.down
  cfg : ∀ j, (v.svc j).cfg = (w.svc j).cfg
  svc : ∀ j, rank (w.svc j).ident < a → v.svc j = w.svc j
  rgen : v.conds.rgen = w.conds.rgen
  look : b ≠ 0 → ∀ p, (∀ i, Hits i p → rank i < b) → v.conds.lookup p = w.conds.lookup p

/-- What a function of the state machine does, as far as it matters here. -/
structure InTime (a b : Nat) (w v : World) : Prop where
  nest : Nest E rank w v
  out : Lost E rank v.trace ∨ Fr rank a b w v

/-- In which situation a function is called. -/
structure Cx (M L : Nat) (Q : World → Prop) (w : World) : Prop where
  ctx : Ctx E rank Q w
  ok : Lost E rank w.trace ∨ (ReadOk rank w.toCore ∧ Bnd rank M L w)

end

section
variable {E : Env} {rank : CStr → Nat} {Q : World → Prop} {R : Rec} {M L a b : Nat}

theorem Fr.refl (w : World) : Fr rank a b w w :=
  ⟨rfl, rfl, rfl, rfl, rfl, rfl, rfl, rfl, rfl, rfl, fun _ => rfl, fun _ _ => rfl, rfl, fun _ _ _ => rfl⟩

theorem Fr.ident {w v : World} (h : Fr rank a b w v) (j : Key) : (v.svc j).ident = (w.svc j).ident :=
  cfg_ident (h.cfg j)

theorem Fr.trans {u v w : World} (h1 : Fr rank a b u v) (h2 : Fr rank a b v w) : Fr rank a b u w :=
  ⟨h2.oof.trans h1.oof, h2.order.trans h1.order, h2.next.trans h1.next, h2.runlevel.trans h1.runlevel,
    h2.inReload.trans h1.inReload, h2.bootstrap.trans h1.bootstrap, h2.sm.trans h1.sm,
    h2.newlevel.trans h1.newlevel, h2.reload.trans h1.reload, h2.down.trans h1.down,
    fun j => (h2.cfg j).trans (h1.cfg j),
    fun j hj => (h2.svc j (by rw [h1.ident]; exact hj)).trans (h1.svc j hj), h2.rgen.trans h1.rgen,
    fun b0 p hp => (h2.look b0 p hp).trans (h1.look b0 p hp)⟩

theorem Fr.mono {a' b' : Nat} {w v : World} (h : Fr rank a b w v) (ha : a' ≤ a) (hb : b' ≤ b) :
    Fr rank a' b' w v :=
  { h with
    svc := fun j hj => h.svc j (Nat.lt_of_lt_of_le hj ha)
    look := fun b0 p hp => h.look (by omega) p fun i hi => Nat.lt_of_lt_of_le (hp i hi) hb }

theorem InTime.refl (w : World) : InTime E rank a b w w := ⟨.refl w, .inr (.refl w)⟩

theorem InTime.trans {u v w : World} (h1 : InTime E rank a b u v) (h2 : InTime E rank a b v w) :
    InTime E rank a b u w := by
  refine ⟨h1.nest.trans h2.nest, ?_⟩
  rcases h2.out with g | g
  · exact .inl g
  · rcases h1.out with f | f
    · exact .inl (f.mono (s := h2.nest.ext))
    · exact .inr (f.trans g)

theorem InTime.mono {a' b' : Nat} {w v : World} (h : InTime E rank a b w v) (ha : a' ≤ a) (hb : b' ≤ b) :
    InTime E rank a' b' w v := ⟨h.nest, h.out.imp_right fun g => g.mono ha hb⟩

theorem ReadOk.congr {c d : Core} (h : ReadOk rank c) (e : ∀ j, (d.svc j).cfg = (c.svc j).cfg) :
    ReadOk rank d := by
  intro j
  have e1 : (d.svc j).reads = (c.svc j).reads := by
    have := congrArg Svc.reads (e j); exact this
  rw [cfg_ident (e j), e1]
  exact h j

theorem Bnd.next {w v : World} (h : Bnd rank M L w) (f : Fr rank a b w v) : Bnd rank M L v := by
  refine ⟨⟨?_, ?_⟩, ?_, ?_⟩
  · rw [f.order]; exact h.ord.1
  · rw [f.order, f.next]; exact h.ord.2
  · rw [f.order]; exact h.len
  · rw [f.order]; intro j hj; rw [f.ident]; exact h.rank j hj

theorem Cx.next [Stable Q] {w v : World} (h : Cx E rank M L Q w) (f : InTime E rank a b w v) :
    Cx E rank M L Q v := by
  refine ⟨h.ctx.next f.nest, ?_⟩
  rcases h.ok with g | g
  · exact .inl (g.mono (s := f.nest.ext))
  · rcases f.out with f | f
    · exact .inl f
    · exact .inr ⟨g.1.congr f.cfg, g.2.next f⟩

theorem Cx.of {Q' : World → Prop} {w : World} (h : Cx E rank M L Q w) (c : Ctx E rank Q' w) :
    Cx E rank M L Q' w := ⟨c, h.ok⟩

/-! ### What a service looks at does not change -/

theorem look_get {st st' : CondStore} (hr : st'.rgen = st.rgen) {n : CStr}
    (h : st'.lookup (condPath n) = st.lookup (condPath n)) : st'.get n = st.get n := by
  unfold CondStore.get CondStore.getPath CondStore.getGen
  rw [h, hr]

theorem aggLoop_congr {st st' : CondStore} : ∀ (l : List CStr) (s : CState),
    (∀ n ∈ l, st'.get n = st.get n) → st'.aggLoop s l = st.aggLoop s l := by
  intro l
  induction l with
  | nil => exact fun _ _ => rfl
  | cons n l ih =>
    intro s h
    simp only [CondStore.aggLoop, h n (.head _), ih _ (fun m hm => h m (.tail _ hm))]

theorem ifthen_congr {st st' : CondStore} {stmt : CStr} (h : ∀ n ∈ testsOf stmt, st'.get n = st.get n) :
    ifthenRun st' stmt = ifthenRun st stmt := by
  unfold ifthenRun
  split
  · rename_i rest
    simp only [testsOf, List.forall_mem_map] at h
    dsimp only
    have : ∀ l : List CStr, (∀ t ∈ l, st'.get (match t with | '!' :: c => c | c => c) =
        st.get (match t with | '!' :: c => c | c => c)) →
      (l.all fun t => match t with | '!' :: c => decide (st'.get c ≠ .on) | c => decide (st'.get c ≠ .off)) =
      (l.all fun t => match t with | '!' :: c => decide (st.get c ≠ .on) | c => decide (st.get c ≠ .off)) := by
      intro l hl
      induction l with
      | nil => rfl
      | cons t l ih =>
        rw [List.all_cons, List.all_cons, ih fun t ht => hl t (.tail _ ht)]
        congr 1
        have := hl t (.head _)
        split at this
        · rw [this]
        · exact congrArg (fun z => decide (z ≠ .off)) this
    exact this _ h
  · rfl

/-- What a service looks at. -/
theorem Fr.get {w v : World} (f : Fr rank a b w v) (h : ReadOk rank w.toCore) {k : Key}
    (hb : b ≥ rank (w.svc k).ident) {n : CStr} (hn : n ∈ (w.svc k).reads) : v.conds.get n = w.conds.get n :=
  look_get f.rgen (f.look (by have := (h k).1; omega) _
    fun i hi => Nat.lt_of_lt_of_le ((h k).2 n hn i hi) hb)

/-- Everything that decides whether a service may run, except that it is blocked. -/
def can (c : Core) (k : Key) : Bool :=
  (c.svc k).levels.testBit c.runlevel && !(c.svc k).removed && ifthenRun c.conds (c.svc k).ifstmt &&
  !(decide ((c.svc k).type = .tty) && c.bootstrap)

theorem enabled_can (c : Core) (k : Key) : enabled c k = (can c k && decide ((c.svc k).block = .none)) := by
  unfold enabled can
  extract_lets s
  generalize s.levels.testBit c.runlevel = x
  generalize ifthenRun c.conds s.ifstmt = y
  generalize s.removed = r
  generalize (decide (s.type = .tty) && c.bootstrap) = t
  cases hb : s.block <;> cases x <;> cases r <;> cases y <;> cases t <;> rfl

theorem Fr.can {w v : World} (f : Fr rank a b w v) (h : ReadOk rank w.toCore) {k : Key}
    (hb : b ≥ rank (w.svc k).ident) : Sup.can v.toCore k = Sup.can w.toCore k := by
  have e := f.cfg k
  have e1 : (v.svc k).levels = (w.svc k).levels := cfg_lev e
  have e2 : (v.svc k).removed = (w.svc k).removed := by have := congrArg Svc.removed e; exact this
  have e3 : (v.svc k).ifstmt = (w.svc k).ifstmt := by have := congrArg Svc.ifstmt e; exact this
  have e4 : (v.svc k).type = (w.svc k).type := cfg_type e
  unfold Sup.can
  rw [e1, e2, e3, e4, f.runlevel, f.bootstrap]
  rw [ifthen_congr (st := w.conds) fun n hn => f.get h hb (List.mem_append_right _ hn)]

theorem Fr.agg {w v : World} (f : Fr rank a b w v) (h : ReadOk rank w.toCore) {k : Key}
    (hb : b ≥ rank (w.svc k).ident) : aggCond v.toCore k = aggCond w.toCore k := by
  have e1 : (v.svc k).cond = (w.svc k).cond := cfg_cond (f.cfg k)
  unfold aggCond CondStore.aggStr CondStore.agg
  rw [e1]
  exact aggLoop_congr _ _ fun n hn => f.get h hb (List.mem_append_left _ hn)

/-! ### Simple updates -/

theorem Fr.glob {w v : World} (hs : v.svc = w.svc) (hc : v.conds = w.conds) (h1 : v.oof = w.oof)
    (h2 : v.order = w.order) (h3 : v.nextKey = w.nextKey) (h4 : v.runlevel = w.runlevel)
    (h5 : v.inReload = w.inReload) (h6 : v.bootstrap = w.bootstrap) (h7 : v.sm = w.sm)
    (h8 : v.newlevel = w.newlevel) (h9 : v.reload = w.reload) (h10 : v.down = w.down) : Fr rank a b w v :=
  ⟨h1, h2, h3, h4, h5, h6, h7, h8, h9, h10, fun j => by rw [hs], fun j _ => by rw [hs], by rw [hc],
    fun _ p _ => by rw [hc]⟩

theorem Fr.mod {w : World} {k : Key} {f : Svc → Svc} (hk : a ≤ rank (w.svc k).ident)
    (hf : (f (w.svc k)).cfg = (w.svc k).cfg) : Fr rank a b w (mod k f w) := by
  refine ⟨rfl, rfl, rfl, rfl, rfl, rfl, rfl, rfl, rfl, rfl, fun j => ?_, fun j hj => ?_, rfl, fun _ _ _ => rfl⟩
  · simp only [Sup.mod]
    by_cases hj : j = k
    · subst hj; rw [upd_same]; exact hf
    · rw [upd_other _ _ _ _ hj]
  · simp only [Sup.mod]
    have : j ≠ k := by rintro rfl; omega
    rw [upd_other _ _ _ _ this]

theorem Fr.le {w v : World} (f : Fr rank a b w v) {k : Key} (hk : a ≤ rank (w.svc k).ident) :
    a ≤ rank (v.svc k).ident := by rw [f.ident]; exact hk

/-- Record an effect. -/
theorem emit_fr (e : Eff) (w : World) : Fr rank a b w (emit e w) :=
  .glob rfl rfl rfl rfl rfl rfl rfl rfl rfl rfl rfl rfl

theorem timerCancel_fr {k : Key} {w : World} (hk : a ≤ rank (w.svc k).ident) :
    Fr rank a b w (timerCancel k w) := by
  unfold timerCancel; split
  · exact .mod hk rfl
  · exact .refl w

theorem timerAfter_fr {k : Key} (t : Int) (cb : Cb) {w : World} (hk : a ≤ rank (w.svc k).ident) :
    Fr rank a b w (timerAfter k t cb w) := by
  unfold timerAfter; split
  · exact .refl w
  · split
    · exact .refl w
    · exact .mod hk rfl

theorem askB_fr (w : World) : Fr rank a b w (askB E w).2 :=
  .glob rfl rfl rfl rfl rfl rfl rfl rfl rfl rfl rfl rfl

theorem procExists_fr (p : Int) (w : World) : Fr rank a b w (procExists E p w).2 :=
  .glob rfl rfl rfl rfl rfl rfl rfl rfl rfl rfl rfl rfl

theorem kill_fr (t : Int) (s : Nat) (y : Why) (k : Key) (w : World) :
    Fr rank a b w (kill E t s y k w).2 :=
  .glob rfl rfl rfl rfl rfl rfl rfl rfl rfl rfl rfl rfl

theorem fork_fr (k : Key) (role : Role) (w : World) : Fr rank a b w (fork E k role w).2 := by
  unfold fork
  extract_lets p w1
  split
  · exact .glob rfl rfl rfl rfl rfl rfl rfl rfl rfl rfl rfl rfl
  · exact .glob rfl rfl rfl rfl rfl rfl rfl rfl rfl rfl rfl rfl

theorem fork_svc (k : Key) (role : Role) (w : World) : (fork E k role w).2.svc = w.svc := by
  unfold fork
  extract_lets p w1
  split <;> rfl

theorem fork_nz (k : Key) (role : Role) (w : World) : (fork E k role w).1 ≠ 0 := by
  unfold fork
  extract_lets p w1
  split
  · rename_i h
    have := h.1
    show p ≠ 0
    omega
  · exact fun h => nomatch h

theorem reap_fr (p : Int) (st : Option WStatus) (w : World) : Fr rank a b w (reap p st w) :=
  .glob rfl rfl rfl rfl rfl rfl rfl rfl rfl rfl rfl rfl

theorem schedule_fr (w : World) : Fr rank a b w (schedule w) :=
  .glob rfl rfl rfl rfl rfl rfl rfl rfl rfl rfl rfl rfl

theorem runScript_fr (k : Key) (role : Role) (w : World) : Fr rank a b w (runScript E k role w).2 := by
  unfold runScript
  extract_lets f
  split
  · exact fork_fr k role w
  · exact ((fork_fr k role w).trans (reap_fr _ _ _)).trans
      (.glob rfl rfl rfl rfl rfl rfl rfl rfl rfl rfl rfl rfl)

theorem serviceCleanup_fr {k : Key} {w : World} (hk : a ≤ rank (w.svc k).ident) :
    Fr rank a b w (serviceCleanup k w) :=
  (timerCancel_fr hk).trans (.mod ((timerCancel_fr (b := b) hk).le hk) rfl)

theorem stopAct_fr (k : Key) (w : World) : Fr rank a b w (stopAct E k w).2 := by
  unfold stopAct
  split
  · exact runScript_fr _ _ _
  · split
    · exact kill_fr _ _ _ _ _
    · exact fork_fr _ _ _

theorem stopAct_svc (k : Key) (w : World) : (stopAct E k w).2.svc = w.svc := by
  unfold stopAct
  split
  · exact runScript_svc _ _ _
  · split
    · rfl
    · exact fork_svc _ _ _

theorem scriptFork_fr {k : Key} (role : Role) (tmo : Svc → Int) {w : World} (hk : a ≤ rank (w.svc k).ident) :
    Fr rank a b w (scriptFork E k role tmo w) := by
  unfold scriptFork
  extract_lets r p w1 w2
  have h1 : Fr rank a b w w1 := fork_fr k role w
  have h : Fr rank a b w w2 := h1.trans (.mod (h1.le hk) rfl)
  split
  · exact h
  · exact h.trans (timerAfter_fr _ _ (h.le hk))

theorem readyScript_fr {k : Key} {w : World} (hk : a ≤ rank (w.svc k).ident) :
    Fr rank a b w (readyScript E k w) := by
  unfold readyScript
  extract_lets r x w1 r2 p w2 w3
  have h1 : Fr rank a b w w1 := askB_fr w
  split
  · exact h1
  · have h2 : Fr rank a b w w2 := h1.trans (fork_fr _ _ _)
    split
    · exact h2
    · have h3 : Fr rank a b w w3 := h2.trans (.glob rfl rfl rfl rfl rfl rfl rfl rfl rfl rfl rfl rfl)
      exact h3.trans (timerAfter_fr _ _ (h3.le hk))

theorem startParent_fr {k : Key} (p : Int) (x : Bool) {w : World} (hk : a ≤ rank (w.svc k).ident) :
    Fr rank a b w (startParent k p x w) := by
  unfold startParent
  extract_lets w1
  have h1 : Fr rank a b w w1 := .mod hk rfl
  split
  · exact h1.trans (.glob rfl rfl rfl rfl rfl rfl rfl rfl rfl rfl rfl rfl)
  · exact h1

theorem serviceStart_fr {k : Key} {w : World} (hk : a ≤ rank (w.svc k).ident) :
    Fr rank a b w (serviceStart E k w).2 := by
  unfold serviceStart
  extract_lets r w1 r2 w2 r3 w3 wants bad w4 f
  have h1 : Fr rank a b w w1 := askB_fr w
  split
  · exact h1
  split
  · exact h1
  have h2 : Fr rank a b w w2 := h1.trans (askB_fr _)
  split
  · have h3 : Fr rank a b w (Sup.mod k (fun s => { s with block := .missing }) w2) := h2.trans (.mod (h2.le hk) rfl)
    exact h3
  have h3 : Fr rank a b w w3 := h2.trans (askB_fr _)
  have h4 : Fr rank a b w w4 := h3.trans (.mod (h3.le hk) rfl)
  have h5 : Fr rank a b w f.2 := h4.trans (fork_fr _ _ _)
  split
  · exact h5
  · exact h5.trans (startParent_fr _ _ (h5.le hk))

theorem monitorHead_fr {k : Key} (st : WStatus) {w : World} (hk : a ≤ rank (w.svc k).ident) :
    Fr rank a b w (monitorHead E k st w) := by
  unfold monitorHead
  extract_lets x w1
  have h1 : Fr rank a b w w1 := kill_fr _ _ _ _ _
  split
  · have h2 := h1.trans (timerCancel_fr (h1.le hk))
    exact h2.trans (.mod (h2.le hk) rfl)
  split
  · exact .mod hk rfl
  split
  · have h2 : Fr rank a b w (Sup.mod k (fun s => { s with status := st }) w1) := h1.trans (.mod (h1.le hk) rfl)
    have h3 := h2.trans (serviceCleanup_fr (h2.le hk))
    exact h3.trans (.mod (h3.le hk) rfl)
  · exact h1.trans (.mod (h1.le hk) rfl)

theorem scriptDel_fr (p : Int) (w : World) : Fr rank 0 b w (scriptDel E p w) := by
  unfold scriptDel
  split
  · exact .refl w
  · extract_lets w1 w2 w3
    have h1 : Fr rank 0 b w w1 := by
      simp only [w1]; split
      · exact .glob rfl rfl rfl rfl rfl rfl rfl rfl rfl rfl rfl rfl
      · exact .refl w
    have h2 : Fr rank 0 b w w2 := h1.trans (timerCancel_fr (Nat.zero_le _))
    have h3 : Fr rank 0 b w w3 := h2.trans (kill_fr _ _ _ _ _)
    exact h3.trans (.glob rfl rfl rfl rfl rfl rfl rfl rfl rfl rfl rfl rfl)

theorem scriptKill_go_fr (k : Key) : ∀ (l : List (Int × Key)) (w : World),
    Fr rank a b w (scriptKill.go E k l w) := by
  intro l
  induction l with
  | nil => exact fun w => .refl w
  | cons x rest ih =>
    intro w
    rw [scriptKill.go]
    split
    · exact ih w
    · extract_lets w1
      have h1 : Fr rank a b w w1 := kill_fr _ _ _ _ _
      have h2 : Fr rank a b w { w1 with assoc := w1.assoc.erase x } :=
        h1.trans (.glob rfl rfl rfl rfl rfl rfl rfl rfl rfl rfl rfl rfl)
      exact h2.trans (ih _)

theorem scriptKill_fr (k : Key) (w : World) : Fr rank a b w (scriptKill E k w) :=
  scriptKill_go_fr k _ w

/-! ### The store of conditions -/

theorem lookup_write {st : CondStore} {p q : CStr} {f : CFile} (h : q ≠ p) :
    (st.write p f).lookup q = st.lookup q := by
  unfold CondStore.write
  split
  · unfold CondStore.lookup
    dsimp only
    rw [List.find?_map]
    have : ∀ l : List (CStr × CFile),
        l.find? ((fun e => decide (e.1 = q)) ∘ fun e => if e.1 = p then (p, f) else e) =
        l.find? (fun e => decide (e.1 = q)) ∧ ∀ e, l.find? (fun e => decide (e.1 = q)) = some e → e.1 ≠ p := by
      intro l
      induction l with
      | nil => exact ⟨rfl, fun e he => nomatch he⟩
      | cons e l ih =>
        rw [List.find?_cons, List.find?_cons]
        by_cases he : e.1 = q
        · have hp : e.1 ≠ p := by rw [he]; exact h
          have hq : q ≠ p := h
          simp only [Function.comp_apply, he, if_neg hq, decide_true]
          exact ⟨trivial, fun x hx => by injection hx with hx; rw [← hx]; exact hp⟩
        · by_cases hp : e.1 = p
          · have hq : ¬ p = q := fun x => h x.symm
            simp only [Function.comp_apply, if_pos hp, hq, he, decide_false]
            exact ih
          · simp only [Function.comp_apply, if_neg hp, he, decide_false]
            exact ih
    rw [(this st.files).1]
    cases hf : st.files.find? (fun e => decide (e.1 = q)) with
    | none => rfl
    | some e => simp [(this st.files).2 e hf]
  · unfold CondStore.lookup
    dsimp only
    rw [List.find?_append]
    have hq : ¬ p = q := fun x => h x.symm
    simp [hq]

theorem lookup_filter {st : CondStore} {q : CStr} {g : CStr × CFile → Bool}
    (h : ∀ e : CStr × CFile, e.1 = q → g e = true) :
    ({ st with files := st.files.filter g } : CondStore).lookup q = st.lookup q := by
  unfold CondStore.lookup
  dsimp only
  rw [List.find?_filter]
  congr 1
  apply congrArg (fun f => st.files.find? f)
  funext e
  by_cases he : e.1 = q
  · simp [he, h e he]
  · simp [he]

theorem setOn_look {st : CondStore} {p q : CStr} (h : q ≠ p) :
    (st.setOn p).1.lookup q = st.lookup q ∧ (st.setOn p).1.rgen = st.rgen := by
  unfold CondStore.setOn
  dsimp only
  have hw : ∀ f : CFile, (st.write p f).rgen = st.rgen := by
    intro f; unfold CondStore.write; split <;> rfl
  split
  · exact ⟨rfl, rfl⟩
  split
  · exact ⟨rfl, rfl⟩
  split
  · exact ⟨rfl, rfl⟩
  · exact ⟨lookup_write h, hw _⟩
  · split
    · exact ⟨rfl, rfl⟩
    · exact ⟨lookup_write h, hw _⟩

theorem setOn_rgen (st : CondStore) (p : CStr) : (st.setOn p).1.rgen = st.rgen := by
  have : p ++ ['x'] ≠ p := by simp
  exact (setOn_look (st := st) this).2

theorem oneshot_rgen (st : CondStore) (n : CStr) : (st.oneshot n).1.rgen = st.rgen := by
  unfold CondStore.oneshot
  split
  · rfl
  dsimp only
  split
  · rfl
  split
  · rfl
  · unfold CondStore.write; split <;> rfl

theorem oneshot_look {st : CondStore} {n q : CStr} (h : q ≠ condPath n) :
    (st.oneshot n).1.lookup q = st.lookup q := by
  unfold CondStore.oneshot
  split
  · rfl
  dsimp only
  split
  · rfl
  split
  · rfl
  · exact lookup_write h

theorem set_rgen (st : CondStore) (n : CStr) : (st.set n).1.rgen = st.rgen := by
  unfold CondStore.set
  split
  · rfl
  · exact setOn_rgen _ _

theorem set_look {st : CondStore} {n q : CStr} (h : q ≠ condPath n) :
    (st.set n).1.lookup q = st.lookup q := by
  unfold CondStore.set
  split
  · rfl
  · exact (setOn_look h).1

theorem unlink_look {st : CondStore} {p q : CStr} (h : q ≠ p) : (st.unlink p).lookup q = st.lookup q := by
  unfold CondStore.unlink
  exact lookup_filter fun e he => by simp [he, h]

theorem clear_look {st : CondStore} {n q : CStr} (h : q ≠ condPath n) (hu : under (condPath n) q = false) :
    (st.clear n).1.lookup q = st.lookup q := by
  unfold CondStore.clear
  split
  · rfl
  · unfold CondStore.setOff
    exact lookup_filter fun e he => by simp [he, h, hu]

theorem clear_rgen (st : CondStore) (n : CStr) : (st.clear n).1.rgen = st.rgen := by
  unfold CondStore.clear
  split
  · rfl
  · rfl

/-- The condition `n` is on no one's list but those of rank at least `b`. -/
def Mine (rank : CStr → Nat) (b : Nat) (n : CStr) : Prop := ∃ i, b ≤ rank i ∧ n ∈ condsOf i

theorem Mine.ne {n p : CStr} (h : Mine rank b n) (hp : ∀ i, Hits i p → rank i < b) :
    p ≠ condPath n ∧ under (condPath n) p = false := by
  obtain ⟨i, hi, hm⟩ := h
  constructor
  · intro e; exact absurd (hp i ⟨n, hm, .inl e⟩) (Nat.not_lt.mpr hi)
  · cases hu : under (condPath n) p with
    | false => rfl
    | true => exact absurd (hp i ⟨n, hm, .inr hu⟩) (Nat.not_lt.mpr hi)

theorem Fr.conds {w v : World} (hs : v.svc = w.svc) (hr : v.conds.rgen = w.conds.rgen)
    (hl : b ≠ 0 → ∀ p, (∀ i, Hits i p → rank i < b) → v.conds.lookup p = w.conds.lookup p) (h1 : v.oof = w.oof)
    (h2 : v.order = w.order) (h3 : v.nextKey = w.nextKey) (h4 : v.runlevel = w.runlevel)
    (h5 : v.inReload = w.inReload) (h6 : v.bootstrap = w.bootstrap) (h7 : v.sm = w.sm)
    (h8 : v.newlevel = w.newlevel) (h9 : v.reload = w.reload) (h10 : v.down = w.down) : Fr rank a b w v :=
  ⟨h1, h2, h3, h4, h5, h6, h7, h8, h9, h10, fun j => by rw [hs], fun j _ => by rw [hs], hr, hl⟩

/-! ### Stepping others -/

/-- Whoever waits for `n` comes after everything that is being stepped and has rank at least
    `a`. -/
def PubA1 (rank : CStr → Nat) (a : Nat) (n : CStr) (w : World) : Prop :=
  Pub1 rank n w ∧ ∀ j, condAffects n (w.svc j).cond = true → a ≤ rank (w.svc j).ident

/-- The same for `n` and everything below it. -/
def PubA (rank : CStr → Nat) (a : Nat) (n : CStr) (w : World) : Prop :=
  ∀ m, (m = n ∨ under (condPath n) m = true) → PubA1 rank a m w

instance (n : CStr) : Stable (PubA1 rank a n) where
  next h hb := by
    refine ⟨Stable.next h hb.1, fun j hj => ?_⟩
    rw [cfg_cond (h.cfg j)] at hj
    rw [cfg_ident (h.cfg j)]
    exact hb.2 j hj

instance (n : CStr) : Stable (PubA rank a n) where
  next h hb := fun m hm => Stable.next h (hb m hm)

theorem Cx.pub1 {w : World} {n : CStr} (h : Cx E rank M L (PubA rank a n) w) :
    Cx E rank M L (PubA1 rank a n) w := h.of (h.ctx.imp fun _ h => h n (.inl rfl))

theorem Cx.pubBelow {w : World} {n m : CStr} (h : Cx E rank M L (PubA rank a n) w)
    (hm : under (condPath n) m = true) : Cx E rank M L (PubA1 rank a m) w :=
  h.of (h.ctx.imp fun _ h => h m (.inr hm))

theorem Cx.own {w : World} {k : Key} {n : CStr} (h : Cx E rank M L (Head rank k) w)
    (hn : n ∈ condsOf (w.svc k).ident) :
    Cx E rank M L (PubA rank (rank (w.svc k).ident + 1) n) w := by
  refine h.of (h.ctx.imp fun hc h m hm => ?_)
  have ht : Told (w.svc k).ident m := by
    rcases hm with rfl | hm
    · exact .inl hn
    · exact .inr ⟨n, hn, hm⟩
  exact ⟨fun j hj s hs => Nat.lt_of_le_of_lt (h s hs) (hc.waits j m hj _ ht),
    fun j hj => hc.waits j m hj _ ht⟩

theorem Cx.pub {w : World} (h : Cx E rank M L Idle w) (n : CStr) : Cx E rank M L (PubA rank 0 n) w :=
  h.of (h.ctx.imp fun _ h m _ => ⟨fun j _ s hs => (by rw [h.1] at hs; cases hs), fun _ _ => Nat.zero_le _⟩)

theorem Cx.head {w : World} {k : Key} (h : Cx E rank M L (Top rank k) w) : Cx E rank M L (Head rank k) w :=
  h.of h.ctx.head

/-- Fuel for publishing the conditions of a service of rank `r`. -/
def fuelOf (M L r : Nat) : Nat := L + 1 + 80 * (M - r)

/-- What is assumed of the mutually recursive functions. -/
structure EndR (E : Env) (rank : CStr → Nat) (M L : Nat) (R : Rec) : Prop where
  nest : NestR E rank R
  step : ∀ k w, Cx E rank M L (Below rank k) w → 72 + fuelOf M L (rank (w.svc k).ident) ≤ R.fuel →
    InTime E rank (rank (w.svc k).ident) (rank (w.svc k).ident) w (R.step k w)

theorem nextOf_mid {c : Core} {pre l : List Key} {k : Key} (h : c.order = pre ++ k :: l)
    (hn : c.order.Nodup) : nextOf c k = l.head? := by
  unfold nextOf
  have hk : k ∈ c.order := by rw [h]; simp
  rw [if_pos hk]
  have hp : k ∉ pre := by
    rw [h] at hn
    intro hm
    exact (List.nodup_append.mp hn).2.2 k hm k (.head _) rfl
  have : c.order.dropWhile (· ≠ k) = k :: l := by
    rw [h]
    clear h hk hn
    induction pre with
    | nil => simp
    | cons x xs ih =>
      have hx : x ≠ k := fun e => hp (e ▸ .head _)
      rw [List.cons_append, List.dropWhile_cons_of_pos (by simpa using hx)]
      exact ih fun hm => hp (.tail _ hm)
  rw [this]
  rfl

theorem iter_ends [Stable Q] {f : Key → World → World}
    (hn : ∀ k w, Ctx E rank Q w → Nest E rank w (f k w))
    (hf : ∀ k w, Cx E rank M L Q w → k ∈ w.order → Lost E rank (f k w).trace ∨ Fr rank a b w (f k w)) :
    ∀ (n : Nat) (pre l : List Key) (w : World), Cx E rank M L Q w → w.order = pre ++ l → l.length ≤ n →
    Lost E rank (iter f n l.head? w).trace ∨ Fr rank a b w (iter f n l.head? w) := by
  intro n
  induction n with
  | zero =>
    intro pre l w _ _ hl
    cases l with
    | nil => exact .inr (.refl w)
    | cons k l => simp at hl
  | succ n ih =>
    intro pre l w h ho hl
    cases l with
    | nil => exact .inr (.refl w)
    | cons k l =>
      have h1 := hn k w h.ctx
      have hk : k ∈ w.order := by rw [ho]; simp
      have h2 := iter_nest hn n (nextOf w.toCore k) _ (h.ctx.next h1)
      show Lost E rank (iter f n (nextOf w.toCore k) (f k w)).trace ∨ Fr rank a b w (iter f n (nextOf w.toCore k) (f k w))
      rcases h.ok with g | g
      · exact .inl (g.mono (s := h1.ext.trans h2.ext))
      rcases hf k w h hk with e | e
      · exact .inl (e.mono (s := h2.ext))
      rw [nextOf_mid ho g.2.ord.1]
      have ho' : (f k w).order = (pre ++ [k]) ++ l := by rw [e.order, ho]; simp
      have := ih (pre ++ [k]) l (f k w) (h.next ⟨h1, .inr e⟩) ho' (by simp at hl; omega)
      exact this.imp_right e.trans

theorem forAll_ends [Stable Q] {f : Key → World → World}
    (hn : ∀ k w, Ctx E rank Q w → Nest E rank w (f k w))
    (hf : ∀ k w, Cx E rank M L Q w → k ∈ w.order → Lost E rank (f k w).trace ∨ Fr rank a b w (f k w))
    {w : World} (h : Cx E rank M L Q w) (hF : L ≤ R.fuel) : InTime E rank a b w (forAll R f w) := by
  have h1 : Nest E rank w (forAll R f w) := forAll_nest hn h.ctx
  refine ⟨h1, ?_⟩
  rcases h.ok with g | g
  · exact .inl (g.mono (s := h1.ext))
  · exact iter_ends hn hf R.fuel [] w.order w h rfl (Nat.le_trans g.2.len hF)

theorem stepAll_ends (hR : EndR E rank M L R) (hF : 72 + fuelOf M L 0 ≤ R.fuel) (p : SType → Bool) {w : World}
    (h : Cx E rank M L Idle w) : InTime E rank 0 0 w (stepAll R p w) := by
  refine forAll_ends (Q := Idle) (fun k w h => ?_) (fun k w h hk => ?_) h (by unfold fuelOf at hF; omega)
  · split
    · exact hR.nest.step k w (h.below k)
    · exact .refl w
  · split
    · have := hR.step k w (h.of (h.ctx.below k)) (by unfold fuelOf at *; omega)
      exact this.out.imp_right fun f => f.mono (Nat.zero_le _) (Nat.zero_le _)
    · exact .inr (.refl w)

theorem touch_ends {k : Key} {w : World} (h : Ctx E rank (Below rank k) w) :
    InTime E rank a b w (touch k w) := by
  refine ⟨touch_nest h, .inr ?_⟩
  unfold touch; split
  · exact .glob rfl rfl rfl rfl rfl rfl rfl rfl rfl rfl rfl rfl
  · exact .refl w

theorem touch_svc (k : Key) (w : World) : (touch k w).svc = w.svc := by
  unfold touch; split <;> rfl

theorem condUpdateOne_ends (hR : EndR E rank M L R) {n : CStr} (k : Key) {w : World}
    (hF : a ≤ M → 72 + fuelOf M L a ≤ R.fuel) (hk : k ∈ w.order)
    (h : Cx E rank M L (PubA1 rank a n) w) : InTime E rank a a w (condUpdateOne R n k w) := by
  have hN := condUpdateOne_nest hR.nest k (h.ctx.imp fun _ h => h.1)
  refine ⟨hN, ?_⟩
  rcases h.ok with hl | ho
  · exact .inl (hl.mono (s := hN.ext))
  rcases h.ctx with hl | hq
  · exact .inl (hl.mono (s := hN.ext))
  unfold condUpdateOne
  extract_lets s w1 w2
  split
  · rename_i hc
    have hc : condAffects n (w.svc k).cond = true := (Bool.and_eq_true _ _ ▸ hc).2
    have ha : a ≤ rank (w.svc k).ident := hq.2.2.2 k hc
    have hM := ho.2.rank k hk
    have hb : Ctx E rank (Below rank k) w := h.ctx.imp fun _ h => h.1 k hc
    have h1 : InTime E rank a a w w1 := touch_ends hb
    have h2 : InTime E rank a a w w2 := by
      simp only [w2]; split
      · have h3 : InTime E rank a a w (emit (.lifted k) w1) := h1.trans ⟨.emit _ _, .inr (emit_fr _ _)⟩
        have e3 : ((emit (.lifted k) w1).svc k).ident = (w.svc k).ident := by
          show (w1.svc k).ident = _
          rw [touch_svc]
        have h4 : InTime E rank a a w (timerCancel k (emit (.lifted k) w1)) :=
          h3.trans ⟨timerCancel_nest _ _, .inr (timerCancel_fr (by rw [e3]; exact ha))⟩
        refine h4.trans ⟨.mod rfl, .inr (.mod ?_ rfl)⟩
        have := (timerCancel_fr (rank := rank) (a := a) (b := a) (k := k) (w := emit (.lifted k) w1)
          (by rw [e3]; exact ha)).ident k
        rw [this, e3]; exact ha
      · exact h1
    have c2 := (h.of hb).next h2
    have hi : Lost E rank w2.trace ∨ (w2.svc k).ident = (w.svc k).ident := h2.out.imp_right fun f => f.ident k
    rcases hi with hi | hi
    · exact .inl (hi.mono (s := (hR.nest.step k w2 c2.ctx).ext))
    · have hr := hR.step k w2 c2 (by
        rw [hi]
        have := hF (Nat.le_trans ha hM)
        unfold fuelOf at *; omega)
      rw [hi] at hr
      exact (h2.trans (hr.mono ha ha)).out
  · exact .inr (.refl w)

theorem condUpdate_ends (hR : EndR E rank M L R) {n : CStr} {w : World}
    (hF : a ≤ M → 72 + fuelOf M L a ≤ R.fuel) (hL : L ≤ R.fuel)
    (h : Cx E rank M L (PubA1 rank a n) w) : InTime E rank a a w (condUpdate R n w) :=
  forAll_ends (fun k _ h => condUpdateOne_nest hR.nest k (h.imp fun _ h => h.1))
    (fun k _ h hk => (condUpdateOne_ends hR k hF hk h).out) h hL

theorem condSet_ends (hR : EndR E rank M L R) {n : CStr} {w : World}
    (hF : a ≤ M → 72 + fuelOf M L a ≤ R.fuel) (hL : L ≤ R.fuel) (hb : b ≤ a) (hn : b ≠ 0 → Mine rank b n)
    (h : Cx E rank M L (PubA1 rank a n) w) : InTime E rank a b w (condSet R n w) := by
  unfold condSet
  extract_lets r w1
  have h1 : InTime E rank a b w w1 := by
    refine ⟨.glob rfl rfl rfl rfl rfl, .inr (.conds rfl (set_rgen _ _) ?_ rfl rfl rfl rfl rfl rfl rfl rfl rfl rfl)⟩
    exact fun b0 p hp => set_look ((hn b0).ne hp).1
  split
  · exact h1.trans ((condUpdate_ends hR hF hL (h.next h1)).mono (Nat.le_refl _) hb)
  · exact h1

theorem condOneshot_ends (hR : EndR E rank M L R) {n : CStr} {w : World}
    (hF : a ≤ M → 72 + fuelOf M L a ≤ R.fuel) (hL : L ≤ R.fuel) (hb : b ≤ a) (hn : b ≠ 0 → Mine rank b n)
    (h : Cx E rank M L (PubA1 rank a n) w) : InTime E rank a b w (condOneshot R n w) := by
  unfold condOneshot
  extract_lets r w1
  have h1 : InTime E rank a b w w1 := by
    refine ⟨.glob rfl rfl rfl rfl rfl, .inr (.conds rfl (oneshot_rgen _ _) ?_ rfl rfl rfl rfl rfl rfl rfl rfl rfl rfl)⟩
    exact fun b0 p hp => oneshot_look ((hn b0).ne hp).1
  split
  · exact h1.trans ((condUpdate_ends hR hF hL (h.next h1)).mono (Nat.le_refl _) hb)
  · exact h1

theorem condOneshotMid_ends (hR : EndR E rank M L R) {n : CStr} {w : World}
    (hF : a ≤ M → 72 + fuelOf M L a ≤ R.fuel) (hL : L ≤ R.fuel) (hb : b ≤ a) (hn : b ≠ 0 → Mine rank b n)
    (h : Cx E rank M L (PubA1 rank a n) w) : InTime E rank a b w (condOneshotMid R n w) := by
  unfold condOneshotMid
  extract_lets r w1
  have h1 : InTime E rank a b w w1 := by
    refine ⟨.glob rfl rfl rfl rfl rfl (makeMid_keys _ _) rfl,
      .inr (.conds rfl (oneshot_rgen _ _) ?_ rfl rfl rfl rfl rfl rfl rfl rfl rfl rfl)⟩
    exact fun b0 p hp => oneshot_look ((hn b0).ne hp).1
  split
  · exact h1.trans ((condUpdate_ends hR hF hL (h.next h1)).mono (Nat.le_refl _) hb)
  · exact h1

theorem Mine.under {n p m : CStr} (h : Mine rank b n) (hm : under (condPath n) m = true)
    (hp : ∀ i, Hits i p → rank i < b) : p ≠ m := by
  rintro rfl
  rw [(h.ne hp).2] at hm
  cases hm

theorem condDelBelow_ends (hR : EndR E rank M L R) {n : CStr} (hF : a ≤ M → 72 + fuelOf M L a ≤ R.fuel)
    (hL : L ≤ R.fuel) (hb : b ≤ a) (hn : b ≠ 0 → Mine rank b n) : ∀ (l : List CStr),
    (∀ m ∈ l, under (condPath n) m = true) → ∀ (w : World), Cx E rank M L (PubA rank a n) w →
    InTime E rank a b w (condDelBelow R l w) := by
  intro l
  induction l with
  | nil => exact fun _ w _ => .refl w
  | cons m ms ih =>
    intro hl w h
    unfold condDelBelow
    extract_lets w1 w2
    have h1 : InTime E rank a b w w1 := by
      refine ⟨.glob rfl rfl rfl rfl rfl, .inr (.conds rfl rfl ?_ rfl rfl rfl rfl rfl rfl rfl rfl rfl rfl)⟩
      exact fun b0 p hp => unlink_look ((hn b0).under (hl m (.head _)) hp)
    have h2 : InTime E rank a b w w2 := by
      simp only [w2]; split
      · exact h1
      · exact h1.trans ((condUpdate_ends hR hF hL ((h.pubBelow (hl m (.head _))).next h1)).mono (Nat.le_refl _) hb)
    exact h2.trans (ih (fun m hm => hl m (.tail _ hm)) _ (h.next h2))

theorem midHead_fr (f : Mid → Mid) (w : World) : Fr rank a b w (midHead f w) :=
  .glob rfl rfl rfl rfl rfl rfl rfl rfl rfl rfl rfl rfl

theorem condDelBelowMid_ends (hR : EndR E rank M L R) {n : CStr} (hF : a ≤ M → 72 + fuelOf M L a ≤ R.fuel)
    (hL : L ≤ R.fuel) (hb : b ≤ a) (hn : b ≠ 0 → Mine rank b n) : ∀ (l : List CStr),
    (∀ m ∈ l, under (condPath n) m = true) → ∀ (w : World), Cx E rank M L (PubA rank a n) w →
    InTime E rank a b w (condDelBelowMid R l w) := by
  intro l
  induction l with
  | nil => exact fun _ w _ => .refl w
  | cons m ms ih =>
    intro hl w h
    unfold condDelBelowMid
    extract_lets w1 w2
    have h1 : InTime E rank a b w w1 := by
      refine ⟨.glob rfl rfl rfl rfl rfl (dropMid_keys _ _) rfl,
        .inr (.conds rfl rfl ?_ rfl rfl rfl rfl rfl rfl rfl rfl rfl rfl)⟩
      exact fun b0 p hp => unlink_look ((hn b0).under (hl m (.head _)) hp)
    have h2 : InTime E rank a b w w2 := by
      simp only [w2]; split
      · exact h1
      · exact h1.trans ((condUpdate_ends hR hF hL ((h.pubBelow (hl m (.head _))).next h1)).mono (Nat.le_refl _) hb)
    exact h2.trans (ih (fun m hm => hl m (.tail _ hm)) _ (h.next h2))

theorem condClear_ends (hR : EndR E rank M L R) {n : CStr} {w : World}
    (hF : a ≤ M → 72 + fuelOf M L a ≤ R.fuel) (hL : L ≤ R.fuel) (hb : b ≤ a) (hn : b ≠ 0 → Mine rank b n)
    (h : Cx E rank M L (PubA rank a n) w) : InTime E rank a b w (condClear R n w) := by
  unfold condClear
  split
  · exact .refl w
  extract_lets p prev w1
  have h1 : InTime E rank a b w w1 := by
    simp only [w1]; split
    · refine ⟨.glob rfl rfl rfl rfl rfl, .inr (.conds rfl rfl ?_ rfl rfl rfl rfl rfl rfl rfl rfl rfl rfl)⟩
      exact fun b0 p hp => unlink_look ((hn b0).ne hp).1
    · exact condDelBelow_ends hR hF hL hb hn _ (fun m hm => below_isUnder hm) w h
  split
  · exact h1
  · exact h1.trans ((condUpdate_ends hR hF hL (h.next h1).pub1).mono (Nat.le_refl _) hb)

theorem condClearMid_ends (hR : EndR E rank M L R) {n : CStr} {w : World}
    (hF : a ≤ M → 72 + fuelOf M L a ≤ R.fuel) (hL : L ≤ R.fuel) (hb : b ≤ a) (hn : b ≠ 0 → Mine rank b n)
    (h : Cx E rank M L (PubA rank a n) w) : InTime E rank a b w (condClearMid R n w) := by
  unfold condClearMid
  split
  · exact .refl w
  extract_lets p prev w1
  have h1 : InTime E rank a b w w1 := by
    simp only [w1]; split
    · refine ⟨.glob rfl rfl rfl rfl rfl (dropMid_keys _ _) rfl,
        .inr (.conds rfl rfl ?_ rfl rfl rfl rfl rfl rfl rfl rfl rfl rfl)⟩
      exact fun b0 p hp => unlink_look ((hn b0).ne hp).1
    · have h0 : InTime E rank a b w (midHead (Mid.drop (fun q => decide (q = p))) w) :=
        ⟨midHead_nest (f := Mid.drop _) (fun _ => rfl) _, .inr (midHead_fr _ _)⟩
      exact h0.trans (condDelBelowMid_ends hR hF hL hb hn _ (fun m hm => below_isUnder hm) _ (h.next h0))
  split
  · exact h1
  · exact h1.trans ((condUpdate_ends hR hF hL (h.next h1).pub1).mono (Nat.le_refl _) hb)

/-! ### A service's own conditions -/

theorem fuel_own {r : Nat} (h : fuelOf M L r ≤ R.fuel) :
    (r + 1 ≤ M → 72 + fuelOf M L (r + 1) ≤ R.fuel) ∧ L ≤ R.fuel := by
  unfold fuelOf at *
  constructor
  · intro; omega
  · omega

theorem publish_ends (hR : EndR E rank M L R) {k : Key} (old new : SState) {w : World} {r : Nat}
    (hr : r = rank (w.svc k).ident) (hF : fuelOf M L r ≤ R.fuel)
    (h : Cx E rank M L (Head rank k) w) : InTime E rank (r + 1) r w (publish R k old new w) := by
  obtain ⟨hF, hL⟩ := fuel_own hF
  have own : ∀ {v : World} {n : CStr}, InTime E rank (r + 1) r w v → n ∈ condsOf (w.svc k).ident →
      Cx E rank M L (PubA rank (r + 1) n) v := by
    intro v n e hn
    have := h.own hn
    rw [← hr] at this
    exact this.next e
  have mine : ∀ {n : CStr}, n ∈ condsOf (w.svc k).ident → r ≠ 0 → Mine rank r n :=
    fun hn _ => ⟨_, Nat.le_of_eq hr, hn⟩
  refine ⟨publish_nest hR.nest old new h.ctx, ?_⟩
  unfold publish
  extract_lets s w1 w2 s2 w3
  have h2 : InTime E rank (r + 1) r w w2 := by
    simp only [w2]; split
    · have h1 : InTime E rank (r + 1) r w w1 := by
        simp only [w1]; split
        · split
          · exact condOneshotMid_ends hR hF hL (Nat.le_succ _) (mine (mem_outcome s).1) (own (.refl w) (mem_outcome s).1).pub1
          · exact condOneshotMid_ends hR hF hL (Nat.le_succ _) (mine (mem_outcome s).2) (own (.refl w) (mem_outcome s).2).pub1
        · exact .refl w
      split
      · have h3 := h1.trans (condClearMid_ends hR hF hL (Nat.le_succ _) (mine (mem_outcome s).1) (own h1 (mem_outcome s).1))
        exact h3.trans (condClearMid_ends hR hF hL (Nat.le_succ _) (mine (mem_outcome s).2) (own h3 (mem_outcome s).2))
      · exact h1
    · exact .refl w
  rcases h2.out with g | g
  · exact .inl (g.mono (s := by
      clear_value w2
      have c2 := h.ctx.next h2.nest
      have h3 : Nest E rank w2 w3 := by
        simp only [w3]; split
        · exact .refl _
        split
        · exact .glob rfl rfl rfl rfl rfl (dropMid_keys _ _) rfl
        · exact condClearMid_nest hR.nest (c2.own (mem_svcDir s2))
      split
      · split
        · refine (h3.trans (condOneshotMid_nest hR.nest ?_)).ext
          exact ((c2.own (mem_status s2 _)).next h3).pub1
        · exact h3.ext
      · exact List.suffix_refl _))
  have hs : s2 = w.svc k := g.svc k (by omega)
  clear_value s2
  subst hs
  split
  · have h3 : InTime E rank (r + 1) r w w3 := by
      simp only [w3]; split
      · exact h2
      split
      · refine h2.trans ⟨.glob rfl rfl rfl rfl rfl (dropMid_keys _ _) rfl, .inr (.conds rfl (clear_rgen _ _) ?_ rfl rfl rfl rfl rfl rfl rfl rfl rfl rfl)⟩
        intro b0 p hp
        have := (mine (mem_svcDir (w.svc k)) b0).ne hp
        exact clear_look this.1 this.2
      · exact h2.trans (condClearMid_ends hR hF hL (Nat.le_succ _) (mine (mem_svcDir _)) (own h2 (mem_svcDir _)))
    split
    · exact (h3.trans (condOneshotMid_ends hR hF hL (Nat.le_succ _) (mine (mem_status _ _)) (own h3 (mem_status _ _)).pub1)).out
    · exact h3.out
  · exact h2.out

/-! ### A service that is being stepped -/

/-- `k` is being stepped and is of rank `r`. -/
def TopR (rank : CStr → Nat) (k : Key) (r : Nat) (w : World) : Prop :=
  Top rank k w ∧ rank (w.svc k).ident = r

instance (k : Key) (r : Nat) : Stable (TopR rank k r) where
  next h hb := ⟨Stable.next h hb.1, by rw [cfg_ident (h.cfg k)]; exact hb.2⟩

/-- The situation while `k` is being stepped, with a statement on `k`. -/
abbrev Ck (E : Env) (rank : CStr → Nat) (M L : Nat) (k : Key) (r : Nat) (P : Svc → Prop) (w : World) : Prop :=
  Cx E rank M L (fun w => TopR rank k r w ∧ P (w.svc k)) w

/-- What a part of a step of `k` does. -/
structure Go (E : Env) (rank : CStr → Nat) (M L : Nat) (k : Key) (r : Nat) (P : Svc → Prop) (w v : World) :
    Prop where
  ends : InTime E rank r r w v
  cx : Ck E rank M L k r P v

variable {k : Key} {r : Nat} {P P' : Svc → Prop}

theorem Go.bind {w v u : World} (h1 : Go E rank M L k r P w v)
    (h2 : Ck E rank M L k r P v → Go E rank M L k r P' v u) : Go E rank M L k r P' w u :=
  ⟨h1.ends.trans (h2 h1.cx).ends, (h2 h1.cx).cx⟩

theorem Go.lost {w v : World} (h : Lost E rank w.trace) (n : Nest E rank w v) : Go E rank M L k r P w v :=
  ⟨⟨n, .inl (h.mono (s := n.ext))⟩, .inl (h.mono (s := n.ext)), .inl (h.mono (s := n.ext))⟩

theorem Ck.top {w : World} (h : Ck E rank M L k r P w) : Cx E rank M L (TopR rank k r) w :=
  h.of (h.ctx.imp fun _ h => h.1)

theorem Ck.ctop {w : World} (h : Ck E rank M L k r P w) : Ctx E rank (Top rank k) w :=
  h.ctx.imp fun _ h => h.1.1

theorem Ck.imp {w : World} (h : Ck E rank M L k r P w) (hp : ∀ s, P s → P' s) : Ck E rank M L k r P' w :=
  h.of (h.ctx.imp fun _ h => ⟨h.1, hp _ h.2⟩)

theorem Go.imp {w v : World} (h : Go E rank M L k r P w v) (hp : ∀ s, P s → P' s) : Go E rank M L k r P' w v :=
  ⟨h.ends, h.cx.imp hp⟩

/-- A part that does not step others. -/
theorem Go.base {w v : World} (h : Ck E rank M L k r P w) (n : Nest E rank w v)
    (f : r ≤ rank (w.svc k).ident → Fr rank r r w v) (hp : P (w.svc k) → P' (v.svc k)) :
    Go E rank M L k r P' w v := by
  rcases h.ctx with g | g
  · exact .lost g n
  · have e : InTime E rank r r w v := ⟨n, .inr (f (Nat.le_of_eq g.2.2.1.2.symm))⟩
    have c := h.top.next e
    exact ⟨e, c.of (c.ctx.imp fun _ x => ⟨x, hp g.2.2.2⟩)⟩

/-- A part that steps others, which come after `k`. -/
theorem Go.above {w v : World} (h : Ck E rank M L k r P w) (e : InTime E rank (r + 1) r w v) :
    Go E rank M L k r P w v := by
  rcases h.ctx with g | g
  · exact .lost g e.nest
  · have e' : InTime E rank r r w v := e.mono (Nat.le_succ _) (Nat.le_refl _)
    have c := h.top.next e'
    refine ⟨e', ?_⟩
    rcases e.out with x | x
    · exact ⟨.inl x, .inl x⟩
    · have := x.svc k (by have := g.2.2.1.2; omega)
      exact c.of (c.ctx.imp fun _ y => ⟨y, by rw [this]; exact g.2.2.2⟩)

theorem Go.refl {w : World} (h : Ck E rank M L k r P w) : Go E rank M L k r P w w := ⟨.refl w, h⟩

/-- Nothing but the state has changed that matters. -/
structure Kept (new : SState) (s t : Svc) : Prop where
  state : t.state = new
  pid : t.pid = s.pid
  block : t.block = s.block
  dirty : t.dirty = s.dirty

theorem Kept.refl (s : Svc) : Kept s.state s s := ⟨rfl, rfl, rfl, rfl⟩

theorem timerCancel_kept (k : Key) (w : World) : Kept (w.svc k).state (w.svc k) ((timerCancel k w).svc k) := by
  unfold timerCancel; split
  · constructor <;> simp [Sup.mod]
  · exact .refl _

theorem timerAfter_kept (k : Key) (t : Int) (cb : Cb) (w : World) :
    Kept (w.svc k).state (w.svc k) ((timerAfter k t cb w).svc k) := by
  unfold timerAfter; split
  · exact .refl _
  split
  · exact .refl _
  · constructor <;> simp [Sup.mod]

theorem timerCancel_go {w : World} (h : Ck E rank M L k r P w) (hp : ∀ s t, P s → Kept s.state s t → P' t) :
    Go E rank M L k r P' w (timerCancel k w) :=
  .base h (timerCancel_nest _ _) timerCancel_fr fun p => hp _ _ p (timerCancel_kept k w)

theorem timerAfter_go {t : Int} {cb : Cb} {w : World} (h : Ck E rank M L k r P w)
    (hp : ∀ s t, P s → Kept s.state s t → P' t) : Go E rank M L k r P' w (timerAfter k t cb w) :=
  .base h (timerAfter_nest _ _ _ _) (timerAfter_fr _ _) fun p => hp _ _ p (timerAfter_kept k _ _ w)

theorem mod_go {w : World} {f : Svc → Svc} (h : Ck E rank M L k r P w)
    (hf : (f (w.svc k)).cfg = (w.svc k).cfg) (hp : P (w.svc k) → P' (f (w.svc k))) :
    Go E rank M L k r P' w (mod k f w) :=
  .base h (.mod hf) (fun h => .mod h hf) fun p => by
    have : (Sup.mod k f w).svc k = f (w.svc k) := by simp [Sup.mod]
    rw [this]; exact hp p

theorem glob_go {w v : World} (h : Ck E rank M L k r P w) (n : Nest E rank w v) (f : Fr rank r r w v)
    (hs : v.svc = w.svc) : Go E rank M L k r P w v := .base h n (fun _ => f) fun p => by rw [hs]; exact p

theorem own_go {w v : World} (h : Ck E rank M L k r P w) {n : CStr} (hn : n ∈ condsOf (w.svc k).ident)
    (e : Cx E rank M L (PubA rank (r + 1) n) w → (r ≠ 0 → Mine rank r n) → InTime E rank (r + 1) r w v)
    (nest : Nest E rank w v) : Go E rank M L k r P w v := by
  rcases h.ctx with g | g
  · exact .lost g nest
  · have hr := g.2.2.1.2
    refine .above h (e ?_ fun _ => ⟨_, Nat.le_of_eq hr.symm, hn⟩)
    have := (h.of h.ctop.head).own hn
    rw [hr] at this
    exact this

theorem setState_go (hR : EndR E rank M L R) (hF : fuelOf M L r ≤ R.fuel) (new : SState) {w : World}
    (h : Ck E rank M L k r P w) (hp : ∀ s t, P s → Kept new s t → P' t) :
    Go E rank M L k r P' w (setState R k new w) := by
  have hN := setState_nest hR.nest new h.ctop
  rcases h.ctx with hl | hq
  · exact .lost hl hN
  rcases h.ok with hl | ho
  · exact .lost hl hN
  have hr : rank (w.svc k).ident = r := hq.2.2.1.2
  suffices hs : Lost E rank (setState R k new w).trace ∨
      (Fr rank r r w (setState R k new w) ∧ Kept new (w.svc k) ((setState R k new w).svc k)) by
    have e : InTime E rank r r w (setState R k new w) := ⟨hN, hs.imp_right (·.1)⟩
    have c := h.top.next e
    refine ⟨e, ?_⟩
    rcases hs with x | x
    · exact ⟨.inl x, .inl x⟩
    · exact c.of (c.ctx.imp fun _ y => ⟨y, hp _ _ hq.2.2.2 x.2⟩)
  clear hN
  have ht := h.ctop
  have ok := h.ok
  unfold setState setStateRaw
  extract_lets old s w1 m tw w3 w2
  have h1 : Fr rank r r w w1 ∧ Kept old (w.svc k) (w1.svc k) ∧ Nest E rank w w1 := by
    simp only [w1]; split
    · have f1 := timerCancel_fr (rank := rank) (b := r) (Nat.le_of_eq hr.symm)
      refine ⟨f1.trans (timerAfter_fr _ _ (f1.le (Nat.le_of_eq hr.symm))), ?_,
        (timerCancel_nest _ _).trans (timerAfter_nest _ _ _ _)⟩
      have a1 := timerCancel_kept k w
      have a2 := timerAfter_kept k (w.svc k).killdelay .kill (timerCancel k w)
      exact ⟨a2.state.trans a1.state, a2.pid.trans a1.pid, a2.block.trans a1.block, a2.dirty.trans a1.dirty⟩
    · exact ⟨.refl w, .refl _, .refl w⟩
  obtain ⟨f1, k1, n1⟩ := h1
  have e1 : (w1.svc k).state = old := k1.state
  simp only [w2, e1]
  by_cases hs : old = new
  · rw [if_pos hs, if_pos hs]
    exact .inr ⟨f1, hs ▸ k1⟩
  rw [if_neg hs, if_neg hs]
  have c1 := ht.next n1
  have o1 : Lost E rank w1.trace ∨ (ReadOk rank w1.toCore ∧ Bnd rank M L w1) :=
    .inr ⟨ho.1.congr f1.cfg, ho.2.next f1⟩
  have hr1 : rank (w1.svc k).ident = r := by rw [f1.ident]; exact hr
  clear_value w1
  unfold setStateConds
  extract_lets st v
  let u : World := { mod k (fun s => { s with state := new }) (emit (.trans k (w1.svc k).state new) w1) with
    mids := m :: w1.mids, twice := tw, stack := k :: w1.stack }
  have e2 : w1.trace <:+ u.trace := List.suffix_cons _ _
  have ek : u.svc k = { w1.svc k with state := new } := by simp only [u, Sup.mod, Sup.emit, upd_same]
  have ec : ∀ j, (u.svc j).cfg = (w1.svc j).cfg := by
    intro j
    by_cases hj : j = k
    · subst hj; rw [ek]; rfl
    · simp only [u, Sup.mod, Sup.emit, upd_other _ _ _ _ hj]
  have fu : Fr rank r r w1 u := by
    refine ⟨rfl, rfl, rfl, rfl, rfl, rfl, rfl, rfl, rfl, rfl, ec, fun j hj => ?_, rfl, fun _ _ _ => rfl⟩
    have : j ≠ k := by rintro rfl; omega
    simp only [u, Sup.mod, Sup.emit, upd_other _ _ _ _ this]
  have c2 : Ctx E rank (Head rank k) u := by
    rcases c1 with g | ⟨g1, g2, g3⟩
    · exact .inl (g.mono (s := e2))
    · refine .inr ⟨⟨⟨g1.1.1, ?_⟩, ?_⟩, g2.congr (e := ec), ?_⟩
      · show tw = false
        simp only [tw, g1.1.2, Bool.false_or, decide_eq_false_iff_not]
        exact g3.2
      · intro s hs
        rcases List.mem_cons.mp hs with rfl | hs
        · exact .head _
        · exact .tail _ (g1.2 s hs)
      · intro s hs
        rw [cfg_ident (ec s), cfg_ident (ec k)]
        rcases List.mem_cons.mp hs with rfl | hs
        · exact Nat.le_refl _
        · exact g3.1 s hs
  have x2 : Cx E rank M L (Head rank k) u := by
    refine ⟨c2, ?_⟩
    rcases o1 with g | g
    · exact .inl (g.mono (s := e2))
    · exact .inr ⟨g.1.congr fu.cfg, g.2.next fu⟩
  have hr2 : r = rank (u.svc k).ident := by rw [fu.ident]; exact hr1.symm
  have h2 : InTime E rank (r + 1) r u v := publish_ends hR _ _ hr2 hF x2
  rcases h2.out with g | g
  · exact .inl g
  · have f2 : Fr rank r r u v := g.mono (Nat.le_succ _) (Nat.le_refl _)
    refine .inr ⟨(f1.trans (fu.trans f2)).trans (.glob rfl rfl rfl rfl rfl rfl rfl rfl rfl rfl rfl rfl), ?_⟩
    have e3 : v.svc k = u.svc k := g.svc k (by omega)
    show Kept new (w.svc k) (v.svc k)
    rw [e3, ek]
    exact ⟨rfl, k1.pid, k1.block, k1.dirty⟩

theorem serviceCleanup_go {w : World} (h : Ck E rank M L k r P w)
    (hp : ∀ s t, P s → t.state = s.state ∧ t.block = s.block → P' t) :
    Go E rank M L k r P' w (serviceCleanup k w) := by
  refine .base h (serviceCleanup_nest _ _) serviceCleanup_fr fun p => hp _ _ p ?_
  have := timerCancel_kept k w
  unfold serviceCleanup
  simp [Sup.mod, this.state, this.block]

/-- What stopping a service may lead to. -/
def Stopped (s t : Svc) : Prop :=
  t.block = s.block ∧ (t.state = s.state ∨ t.state = .halted ∨ t.state = .stopping)

theorem serviceStop_go (hR : EndR E rank M L R) (hF : fuelOf M L r ≤ R.fuel) {s : Svc} {w : World}
    (h : Ck E rank M L k r (fun t => t.state = s.state ∧ t.block = s.block) w) :
    Go E rank M L k r (Stopped s) w (serviceStop E R k w) := by
  unfold serviceStop
  split
  · exact (Go.refl h).imp fun t p => ⟨p.2, .inl p.1⟩
  extract_lets w1 plain q w2 w3 q2 w4 q3 w5
  have h1 : Go E rank M L k r (fun t => t.state = s.state ∧ t.block = s.block) w w1 :=
    timerCancel_go h fun s t p e => ⟨e.state.trans p.1, e.block.trans p.2⟩
  split
  · exact h1.imp fun t p => ⟨p.2, .inl p.1⟩
  have h2 : Go E rank M L k r (fun t => t.state = s.state ∧ t.block = s.block) w w2 :=
    h1.bind fun c => glob_go c (procExists_nest _ _) (procExists_fr _ _) rfl
  have halt : ∀ {v : World}, Go E rank M L k r (fun t => t.state = s.state ∧ t.block = s.block) w v →
      Go E rank M L k r (Stopped s) w (setState R k .halted (serviceCleanup k v)) := by
    intro v g
    have g1 : Go E rank M L k r (fun t => t.block = s.block) w (serviceCleanup k v) :=
      g.bind fun c => serviceCleanup_go c fun s t p e => e.2.trans p.2
    exact g1.bind fun c => setState_go hR hF .halted c fun s t p e => ⟨e.block.trans p, .inr (.inl e.state)⟩
  split
  · exact halt h2
  have h3 : Go E rank M L k r (fun t => t.state = s.state ∧ t.block = s.block) w w3 :=
    h2.bind fun c => mod_go c rfl fun p => p
  have h4 : Go E rank M L k r (fun t => t.state = s.state ∧ t.block = s.block) w w4 :=
    h3.bind fun c => glob_go c (procExists_nest _ _) (procExists_fr _ _) rfl
  split
  · exact h4.bind fun c => mod_go c rfl fun p => ⟨p.2, .inl p.1⟩
  have h5 : Go E rank M L k r (fun t => t.state = s.state ∧ t.block = s.block) w w5 :=
    h4.bind fun c => glob_go c (stopAct_nest _ _) (stopAct_fr _ _) (stopAct_svc _ _)
  split
  · exact halt h5
  · exact h5.bind fun c => setState_go hR hF .stopping c fun s t p e => ⟨e.block.trans p.2, .inr (.inr e.state)⟩

theorem fuelStep (hF : fuelOf M L r ≤ R.fuel) : r + 1 ≤ M → 72 + fuelOf M L (r + 1) ≤ R.fuel := (fuel_own hF).1

theorem condSet_go (hR : EndR E rank M L R) (hF : fuelOf M L r ≤ R.fuel) {w : World}
    (h : Ck E rank M L k r P w) {n : CStr} (hn : n ∈ condsOf (w.svc k).ident) :
    Go E rank M L k r P w (condSet R n w) :=
  own_go h hn (fun c m => condSet_ends hR (fuel_own hF).1 (fuel_own hF).2 (Nat.le_succ _) m c.pub1)
    (condSet_nest hR.nest (h.ctop.head.own hn).pub1)

theorem condClear_go (hR : EndR E rank M L R) (hF : fuelOf M L r ≤ R.fuel) {w : World}
    (h : Ck E rank M L k r P w) {n : CStr} (hn : n ∈ condsOf (w.svc k).ident) :
    Go E rank M L k r P w (condClear R n w) :=
  own_go h hn (fun c m => condClear_ends hR (fuel_own hF).1 (fuel_own hF).2 (Nat.le_succ _) m c)
    (condClear_nest hR.nest (h.ctop.head.own hn))

theorem readyScript_kept (k : Key) (w : World) :
    Kept (w.svc k).state (w.svc k) ((readyScript E k w).svc k) := by
  unfold readyScript
  extract_lets q x w1 q2 p w2 w3
  split
  · exact .refl _
  have e2 : w2.svc = w.svc := fork_svc _ _ _
  split
  · rw [e2]; exact .refl _
  · have := timerAfter_kept k (w3.svc k).readyTmo .scriptKill w3
    have e3 : w3.svc = w.svc := e2
    rw [e3] at this ⊢
    exact this

theorem serviceReady_go (hR : EndR E rank M L R) (hF : fuelOf M L r ≤ R.fuel) (on : Bool) {w : World}
    (h : Ck E rank M L k r P w) (hp : ∀ s t, P s → Kept s.state s t → P t) :
    Go E rank M L k r P w (serviceReady E R k on w) := by
  unfold serviceReady
  split
  · exact .refl h
  split
  · extract_lets w1
    have h1 : Go E rank M L k r P w w1 := condSet_go hR hF h (mem_readyCond _)
    split
    · exact h1.bind fun c => .base c (readyScript_nest _ _) readyScript_fr fun p => hp _ _ p (readyScript_kept k w1)
    · exact h1
  · exact condClear_go hR hF h (mem_readyCond _)

theorem scriptFork_go (role : Role) (tmo : Svc → Int) {w : World} (h : Ck E rank M L k r P w)
    (hp : ∀ s t, P s → t.state = s.state ∧ t.pid ≠ 0 ∧ t.block = s.block → P' t) :
    Go E rank M L k r P' w (scriptFork E k role tmo w) := by
  refine .base h (scriptFork_nest _ _ _ _) (scriptFork_fr _ _) fun p => hp _ _ p ?_
  unfold scriptFork
  extract_lets q x w1 w2
  have hx : x ≠ 0 := fork_nz _ _ _
  have e1 : w1.svc = w.svc := fork_svc _ _ _
  have e2 : (w2.svc k).state = (w.svc k).state ∧ (w2.svc k).pid ≠ 0 ∧ (w2.svc k).block = (w.svc k).block := by
    simp only [w2, Sup.mod, upd_same, e1]
    exact ⟨trivial, hx, trivial⟩
  split
  · exact e2
  · have := timerAfter_kept k (tmo (w2.svc k)) .killScript w2
    rw [this.state, this.pid, this.block]; exact e2

theorem serviceReload_go (hR : EndR E rank M L R) {s : Svc} {w : World}
    (h : Ck E rank M L k r (fun t => t.state = s.state ∧ t.block = s.block) w) (he : enabled w.toCore k = true) :
    Go E rank M L k r (fun t => t.state = s.state ∧ t.block = s.block) w (serviceReload E R k w) := by
  have hN := serviceReload_nest hR.nest h.ctop he
  rcases h.ctx with hl | hq
  · exact .lost hl hN
  revert hN
  unfold serviceReload
  extract_lets q x w1 s' q2 rc w2 q3 esrch w3
  intro hN
  have h1 : Go E rank M L k r (fun t => t.state = s.state ∧ t.block = s.block) w w1 :=
    glob_go h (askB_nest _) (askB_fr _) rfl
  split
  · exact h1
  split
  · have h2 : Go E rank M L k r (fun t => t.state = s.state ∧ t.block = s.block) w w2 :=
      h1.bind fun c => glob_go c (runScript_nest _ _ _) (runScript_fr _ _ _) (runScript_svc _ _ _)
    split
    · exact h2.bind fun c => mod_go c rfl fun p => p
    · exact h2
  split
  · rename_i hx hs hsig
    split
    · exact h1.bind fun c => mod_go c rfl fun p => p
    rename_i hp
    have h3 : Go E rank M L k r (fun t => t.state = s.state ∧ t.block = s.block) w w3 :=
      h1.bind fun c => glob_go c (kill_nest _ _ _ _ _) (kill_fr _ _ _ _ _) rfl
    split
    · rename_i hes
      rw [if_neg hx, if_neg hs, if_pos hsig, if_neg hp, if_pos hes] at hN
      have hl : Lost E rank w3.trace := by
        refine ⟨(w1.toCore, .kill s'.pid 1 .hup k), .head _, k, rfl, hq.1.1.1, ?_, ?_, he, hsig,
          hq.2.1.congr (e := fun _ => rfl)⟩
        · exact Int.not_le.mp hp
        · have : esrch = true := hes
          have := ((Bool.and_eq_true _ _).mp this).2
          have := of_decide_eq_false (Bool.not_eq_true' _ ▸ this)
          exact this
      have hm := (monitor_nest hR.nest s'.pid (.exited 0) (.inl hl : Ctx E rank Resting w3)).lost hl
      have hl' := hl.mono (s := hm.ext)
      exact ⟨⟨hN, .inl hl'⟩, .inl hl', .inl hl'⟩
    · exact h3.bind fun c => mod_go c rfl fun p => p
  · exact h1

/-! ### `service_step` ends -/

/-- How often `service_step` may still go round: `e` the service may run, `on` its conditions hold,
    `z` it has no process, `d` it is marked as changed. -/
def muT (st : SState) (e on z d : Bool) : Nat :=
  match st with
  | .dead => 0
  | .halted => if e then 30 else 1
  | .done => if e then 35 else 2
  | .teardown => if z then (if e then 35 else 2) else 0
  | .cleanup => if z then (if e then 35 else 2) else 0
  | .stopping => if z then (if e then 40 else 5) else 0
  | .waiting => if e then 25 else 2
  | .starting => if e then (if on then 20 else 60) else 2
  | .setup => if e then (if z then (if on then 30 else 70) else 0) else 10
  | .running => if e then (if on && !z && !d then 0 else 50) else 10
  | .paused => if e then (if on then 55 else 45) else 10

def muS (can on : Bool) (s : Svc) : Nat :=
  muT s.state (can && decide (s.block = .none)) on (decide (s.pid = 0)) s.dirty

theorem muS_le (can on : Bool) (s : Svc) : muS can on s ≤ 70 := by
  unfold muS
  generalize (can && decide (s.block = .none)) = e
  generalize decide (s.pid = 0) = z
  generalize s.dirty = d
  generalize s.state = st
  cases st <;> cases e <;> cases z <;> cases d <;> cases on <;> decide

/-- The state is the same or closer to the end. -/
def Down (can on : Bool) (s t : Svc) : Prop := t.state = s.state ∨ muS can on t < muS can on s

theorem Down.kept {can on : Bool} {new : SState} {s t : Svc} (h : Kept new s t)
    (hl : muT new (can && decide (s.block = .none)) on (decide (s.pid = 0)) s.dirty < muS can on s) :
    Down can on s t := by
  refine .inr ?_
  rw [muS, h.state, h.block, h.pid, h.dirty]
  exact hl

theorem Down.stopped {can on : Bool} {s t : Svc} (h : Stopped s t)
    (hl : 10 ≤ muS can on s) (he : (can && decide (s.block = .none)) = true → 41 ≤ muS can on s) :
    Down can on s t := by
  obtain ⟨h1, h2 | h2 | h2⟩ := h
  · exact .inl h2
  all_goals
    refine .inr ?_
    rw [muS, h1, h2, muT]
    cases hE : (can && decide (s.block = .none))
    · cases decide (t.pid = 0) <;> simp <;> omega
    · have := he hE
      cases decide (t.pid = 0) <;> simp <;> omega

variable {can on : Bool} {s : Svc}

theorem Ck.eq_kept {w : World} {s : Svc} (h : Ck E rank M L k r (· = s) w) :
    Ck E rank M L k r (fun t => t.state = s.state ∧ t.block = s.block) w :=
  h.imp fun t e => by rw [e]; exact ⟨rfl, rfl⟩

theorem stepHalted_go (hR : EndR E rank M L R) (hF : fuelOf M L r ≤ R.fuel) {w : World}
    (h : Ck E rank M L k r (· = s) w) (hs : s.state = .halted) :
    Go E rank M L k r (Down can on s) w (stepHalted R k (can && decide (s.block = .none)) w) := by
  unfold stepHalted
  split
  · rename_i he
    refine setState_go hR hF .waiting h fun s' t e q => ?_
    subst e
    exact .kept q (by simp only [muS, hs, he, muT]; decide)
  rename_i he
  split
  · refine setState_go hR hF .dead h fun s' t e q => ?_
    subst e
    refine .kept q ?_
    simp only [muS, hs, muT]
    split <;> decide
  split
  · split
    · exact mod_go h rfl fun e => .inl (by rw [e])
    · exact (Go.refl h).imp fun t e => .inl (by rw [e])
  · exact (Go.refl h).imp fun t e => .inl (by rw [e])

theorem stepTeardown_go (hR : EndR E rank M L R) (hF : fuelOf M L r ≤ R.fuel) {w : World}
    (h : Ck E rank M L k r (· = s) w) (hk : w.svc k = s) (hs : s.state = .teardown) :
    Go E rank M L k r (Down can on s) w (stepTeardown E R k w) := by
  unfold stepTeardown
  split
  · rename_i hz
    rw [hk] at hz
    extract_lets w1 w2
    have h1 : Go E rank M L k r (Kept s.state s) w w1 := timerCancel_go h fun s' t e q => by subst e; exact q
    split
    · have h2 : Go E rank M L k r (fun t => t.state = .cleanup) w w2 :=
        h1.bind fun c => setState_go hR hF .cleanup c fun s' t e q => q.state
      refine h2.bind fun c => scriptFork_go _ _ c fun s' t e q => .inr ?_
      have e1 : t.state = .cleanup := q.1.trans e
      have e2 : decide (t.pid = 0) = false := decide_eq_false q.2.1
      simp only [muS, e1, e2, hs, hz, muT]
      cases (can && decide (s.block = .none)) <;> simp
    · refine h1.bind fun c => setState_go hR hF .halted c fun s' t e q => ?_
      refine .kept ⟨q.state, q.pid.trans e.pid, q.block.trans e.block, q.dirty.trans e.dirty⟩ ?_
      simp only [muS, hs, hz, muT]
      split <;> simp
  · exact (Go.refl h).imp fun t e => .inl (by rw [e])

theorem stepCleanup_go (hR : EndR E rank M L R) (hF : fuelOf M L r ≤ R.fuel) {w : World}
    (h : Ck E rank M L k r (· = s) w) (hk : w.svc k = s) (hs : s.state = .cleanup) :
    Go E rank M L k r (Down can on s) w (stepCleanup R k w) := by
  unfold stepCleanup
  split
  · rename_i hz
    rw [hk] at hz
    refine setState_go hR hF .halted h fun s' t e q => ?_
    subst e
    refine .kept q ?_
    simp only [muS, hs, hz, muT]
    split <;> simp
  · exact (Go.refl h).imp fun t e => .inl (by rw [e])

theorem stepDone_go (hR : EndR E rank M L R) (hF : fuelOf M L r ≤ R.fuel) {w : World}
    (h : Ck E rank M L k r (· = s) w) (hs : s.state = .done) :
    Go E rank M L k r (Down can on s) w (stepDone R k (can && decide (s.block = .none)) w) := by
  unfold stepDone
  extract_lets w1
  have h1 : Go E rank M L k r (fun t => Kept .done s t ∨ Kept .halted s t) w w1 := by
    simp only [w1]; split
    · exact setState_go hR hF .halted h fun s' t e q => by subst e; exact .inr q
    · exact (Go.refl h).imp fun t e => by subst e; exact .inl (hs ▸ .refl _)
  split
  · rename_i he
    have he := ((Bool.and_eq_true _ _).mp he).2
    refine h1.bind fun c => setState_go hR hF .waiting c fun s' t e q => ?_
    have q' : Kept .waiting s t := by
      rcases e with e | e
      · exact ⟨q.state, q.pid.trans e.pid, q.block.trans e.block, q.dirty.trans e.dirty⟩
      · exact ⟨q.state, q.pid.trans e.pid, q.block.trans e.block, q.dirty.trans e.dirty⟩
    refine .kept q' ?_
    simp only [muS, hs, he, muT]; decide
  · refine h1.imp fun t e => ?_
    rcases e with e | e
    · exact .inl (e.state.trans hs.symm)
    · refine .kept e ?_
      simp only [muS, hs, muT]
      split <;> simp

theorem stepStopping_go (hR : EndR E rank M L R) (hF : fuelOf M L r ≤ R.fuel) {w : World}
    (h : Ck E rank M L k r (· = s) w) (hk : w.svc k = s) (hs : s.state = .stopping) :
    Go E rank M L k r (Down can on s) w (stepStopping E R k w) := by
  unfold stepStopping
  split
  · rename_i hz
    rw [hk] at hz
    extract_lets w1 w2 w3 w4 w5 w6
    have h1 : Go E rank M L k r (Kept s.state s) w w1 := mod_go h rfl fun e => by
      rw [e]; exact ⟨rfl, rfl, rfl, rfl⟩
    have h2 : Go E rank M L k r (Kept s.state s) w w2 := h1.bind fun c => timerCancel_go c fun s' t e q =>
      ⟨q.state.trans e.state, q.pid.trans e.pid, q.block.trans e.block, q.dirty.trans e.dirty⟩
    have h3 : Go E rank M L k r (Kept s.state s) w w3 := h2.bind fun c => condClear_go hR hF c (mem_pidCond _)
    have fk : ∀ {v u : World} (new : SState) (role : Role) (tmo : Svc → Int), new = .teardown ∨ new = .cleanup →
        Go E rank M L k r (Kept s.state s) w v →
        Go E rank M L k r (Down can on s) w (scriptFork E k role tmo (setState R k new v)) := by
      intro v u new role tmo hn g
      have g2 : Go E rank M L k r (fun t => t.state = new) w (setState R k new v) :=
        g.bind fun c => setState_go hR hF new c fun s' t e q => q.state
      refine g2.bind fun c => scriptFork_go _ _ c fun s' t e q => .inr ?_
      have e1 : t.state = new := q.1.trans e
      have e2 : decide (t.pid = 0) = false := decide_eq_false q.2.1
      rcases hn with rfl | rfl
      all_goals
        simp only [muS, e1, e2, hs, hz, muT]
        cases (can && decide (s.block = .none)) <;> simp
    split
    · have h4 : Go E rank M L k r (fun t => Kept .stopping s t ∨ (t.state = .stopping ∧ t.block = .user)) w w4 := by
        simp only [w4]; split
        · exact h3.bind fun c => mod_go c rfl fun e => .inr ⟨e.state.trans hs, rfl⟩
        · exact h3.imp fun t e => .inl (hs ▸ e)
      refine h4.bind fun c => setState_go hR hF .done c fun s' t e q => ?_
      rcases e with e | e
      · refine .kept ⟨q.state, q.pid.trans e.pid, q.block.trans e.block, q.dirty.trans e.dirty⟩ ?_
        simp only [muS, hs, hz, muT]
        cases (can && decide (s.block = .none)) <;> simp
      · refine .inr ?_
        have e1 : t.block = .user := q.block.trans e.2
        simp only [muS, q.state, e1, hs, hz, muT]
        cases (can && decide (s.block = .none)) <;> simp
    split
    · exact fk (u := w) .teardown _ _ (.inl rfl) h3
    split
    · exact fk (u := w) .cleanup _ _ (.inr rfl) h3
    · refine h3.bind fun c => setState_go hR hF .halted c fun s' t e q => ?_
      refine .kept ⟨q.state, q.pid.trans e.pid, q.block.trans e.block, q.dirty.trans e.dirty⟩ ?_
      simp only [muS, hs, hz, muT]
      split <;> simp
  · exact (Go.refl h).imp fun t e => .inl (by rw [e])

theorem stepSetup_go (hR : EndR E rank M L R) (hF : fuelOf M L r ≤ R.fuel) {w : World}
    (h : Ck E rank M L k r (· = s) w) (hk : w.svc k = s) (hs : s.state = .setup) :
    Go E rank M L k r (Down can on s) w (stepSetup E R k (can && decide (s.block = .none)) w) := by
  unfold stepSetup
  split
  · rename_i he
    have he : (can && decide (s.block = .none)) = false := Bool.not_eq_true' _ ▸ he
    refine (serviceStop_go hR hF h.eq_kept).imp fun t e => .stopped e ?_ ?_
    · simp only [muS, hs, he, muT]; simp
    · rw [he]; exact fun x => nomatch x
  rename_i he
  have he : (can && decide (s.block = .none)) = true := by simpa using he
  split
  · rename_i hz
    rw [hk] at hz
    split
    · extract_lets w1
      have h1 : Go E rank M L k r (fun t => t.state = .stopping) w w1 :=
        setState_go hR hF .stopping h fun s' t e q => q.state
      refine h1.bind fun c => mod_go c rfl fun e => .inr ?_
      simp only [muS, e, hs, he, hz, muT]
      simp
      split <;> split <;> omega
    · refine setState_go hR hF .starting h fun s' t e q => ?_
      subst e
      refine .kept q ?_
      simp only [muS, hs, he, hz, muT]
      cases on <;> simp
  · exact (Go.refl h).imp fun t e => .inl (by rw [e])

theorem stepWaiting_go (hR : EndR E rank M L R) (hF : fuelOf M L r ≤ R.fuel) {w : World}
    (h : Ck E rank M L k r (· = s) w) (hs : s.state = .waiting) (hon : on = decide (aggCond w.toCore k = .on)) :
    Go E rank M L k r (Down can on s) w (stepWaiting E R k (can && decide (s.block = .none)) w) := by
  unfold stepWaiting
  split
  · rename_i he
    have he : (can && decide (s.block = .none)) = false := Bool.not_eq_true' _ ▸ he
    refine setState_go hR hF .halted h fun s' t e q => ?_
    subst e
    refine .kept q ?_
    simp only [muS, hs, he, muT]; simp
  rename_i he
  have he : (can && decide (s.block = .none)) = true := by simpa using he
  split
  · rename_i hagg
    have hon : on = true := by rw [hon]; exact decide_eq_true hagg
    split
    · exact (Go.refl h).imp fun t e => .inl (by rw [e])
    extract_lets q x w1 w2
    have h1 : Go E rank M L k r (· = s) w w1 := glob_go h (askB_nest _) (askB_fr _) rfl
    split
    · exact h1.imp fun t e => .inl (by rw [e])
    split
    · have h2 : Go E rank M L k r (fun t => t.block = .conflict) w (mod k (fun s => { s with block := .conflict }) w1) :=
        h1.bind fun c => mod_go c rfl fun e => rfl
      refine h2.bind fun c => setState_go hR hF .halted c fun s' t e q => .inr ?_
      have e1 : t.block = .conflict := q.block.trans e
      simp only [muS, q.state, e1, hs, he, muT]
      simp
    split
    · have h2 : Go E rank M L k r (fun t => t.state = .setup ∧ t.block = s.block) w w2 :=
        h1.bind fun c => setState_go hR hF .setup c fun s' t e q => by subst e; exact ⟨q.state, q.block⟩
      refine h2.bind fun c => scriptFork_go _ _ c fun s' t e q => .inr ?_
      have e1 : t.state = .setup := q.1.trans e.1
      have e2 : decide (t.pid = 0) = false := decide_eq_false q.2.1
      have e3 : t.block = s.block := q.2.2.trans e.2
      simp only [muS, e1, e2, e3, hs, he, muT]
      simp
    · refine h1.bind fun c => setState_go hR hF .starting c fun s' t e q => ?_
      subst e
      refine .kept q ?_
      simp only [muS, hs, he, hon, muT]; simp
  · exact (Go.refl h).imp fun t e => .inl (by rw [e])

theorem startParent_kept (k : Key) (p : Int) (x : Bool) (w : World) :
    ((startParent k p x w).svc k).state = (w.svc k).state ∧
    ((startParent k p x w).svc k).block = (w.svc k).block ∧ ((startParent k p x w).svc k).pid = p := by
  unfold startParent
  extract_lets w1
  have : (w1.svc k).state = (w.svc k).state ∧ (w1.svc k).block = (w.svc k).block ∧ (w1.svc k).pid = p := by
    simp [w1, Sup.mod]
  split <;> exact this

theorem serviceStart_kept (k : Key) (w : World) :
    ((serviceStart E k w).2.svc k).state = (w.svc k).state ∧
    ((serviceStart E k w).1 = true →
      ((serviceStart E k w).2.svc k).block = (w.svc k).block ∧ ((serviceStart E k w).2.svc k).pid ≠ 0) := by
  unfold serviceStart
  extract_lets q w1 q2 w2 q3 w3 wants bad w4 f
  split
  · exact ⟨rfl, fun h => nomatch h⟩
  split
  · exact ⟨rfl, fun h => nomatch h⟩
  split
  · exact ⟨by simp [Sup.mod, w2, w1, q2, q, askB], fun h => nomatch h⟩
  have e4 : (w4.svc k).state = (w.svc k).state ∧ (w4.svc k).block = (w.svc k).block := by
    simp [w4, Sup.mod, w3, q3, w2, w1, q2, q, askB]
  have e5 : f.2.svc = w4.svc := fork_svc _ _ _
  split
  · exact ⟨by rw [e5]; exact e4.1, fun h => nomatch h⟩
  · have := startParent_kept k f.1 (wants && !bad) f.2
    refine ⟨this.1.trans (by rw [e5]; exact e4.1), fun _ => ⟨this.2.1.trans (by rw [e5]; exact e4.2), ?_⟩⟩
    rw [this.2.2]
    exact fork_nz _ _ _

theorem stepStarting_go (hR : EndR E rank M L R) (hF : fuelOf M L r ≤ R.fuel) {w : World}
    (h : Ck E rank M L k r (· = s) w) (hk : w.svc k = s) (hs : s.state = .starting) :
    Go E rank M L k r (Down can on s) w (stepStarting E R k (can && decide (s.block = .none)) w) := by
  unfold stepStarting
  split
  · rename_i he
    have he : (can && decide (s.block = .none)) = false := Bool.not_eq_true' _ ▸ he
    refine setState_go hR hF .halted h fun s' t e q => ?_
    subst e
    refine .kept q ?_
    simp only [muS, hs, he, muT]; simp
  rename_i he
  have he : (can && decide (s.block = .none)) = true := by simpa using he
  extract_lets q ok w1 w2
  have hq := serviceStart_kept (E := E) k w
  rw [hk] at hq
  have h1 : Go E rank M L k r (fun t => t = w1.svc k) w w1 :=
    .base h (serviceStart_nest _ _) serviceStart_fr fun _ => rfl
  have hst : (w1.svc k).state = s.state := hq.1
  split
  · split
    · exact h1.imp fun t e => .inl (by rw [e]; exact hst)
    split
    · rename_i hb
      refine h1.bind fun c => setState_go hR hF .halted c fun s' t e q => .inr ?_
      subst e
      have e1 : t.block = .missing := q.block.trans hb
      simp only [muS, q.state, e1, hs, he, muT]
      cases on <;> simp
    · have h2 : Go E rank M L k r (fun t => t = w1.svc k) w (emit (.bump k) w1) :=
        h1.bind fun c => glob_go c (.emit _ _) (emit_fr _ _) rfl
      exact h2.bind fun c => mod_go c rfl fun e => .inl hst
  · rename_i hok
    have hok : (serviceStart E k w).1 = true := by simpa [ok, q] using hok
    obtain ⟨hb, hp⟩ := hq.2 hok
    have h2 : Go E rank M L k r (fun t => t.block = s.block ∧ t.pid ≠ 0 ∧ t.dirty = false) w w2 :=
      h1.bind fun c => mod_go c rfl fun e => ⟨hb, hp, rfl⟩
    refine h2.bind fun c => setState_go hR hF .running c fun s' t e q => .inr ?_
    have e1 : t.block = s.block := q.block.trans e.1
    have e2 : decide (t.pid = 0) = false := decide_eq_false (by rw [q.pid]; exact e.2.1)
    have e3 : t.dirty = false := q.dirty.trans e.2.2
    simp only [muS, q.state, e1, e2, e3, hs, he, muT]
    cases on <;> simp

theorem agg_cancel (k : Key) (w : World) : aggCond (timerCancel k w).toCore k = aggCond w.toCore k := by
  obtain ⟨a, e⟩ := timerCancel_eq k w
  rw [e]
  simp [aggCond]

theorem stepRunning_go (hR : EndR E rank M L R) (hF : fuelOf M L r ≤ R.fuel) {w : World}
    (h : Ck E rank M L k r (· = s) w) (hk : w.svc k = s) (hs : s.state = .running)
    (hc : can = Sup.can w.toCore k) (hon : on = decide (aggCond w.toCore k = .on)) :
    Go E rank M L k r (fun t => (stepRunning E R k (can && decide (s.block = .none)) w).1 = true ∨ Down can on s t) w
      (stepRunning E R k (can && decide (s.block = .none)) w).2 := by
  have hen : (can && decide (s.block = .none)) = enabled w.toCore k := by rw [enabled_can, hk, hc]
  unfold stepRunning
  split
  · rename_i he
    have he : (can && decide (s.block = .none)) = false := Bool.not_eq_true' _ ▸ he
    refine (serviceStop_go hR hF h.eq_kept).imp fun t e => .inr (.stopped e ?_ ?_)
    · simp only [muS, hs, he, muT]; simp
    · rw [he]; exact fun x => nomatch x
  rename_i he
  have he : (can && decide (s.block = .none)) = true := by simpa using he
  rw [he] at hen
  have hcan : can = true := ((Bool.and_eq_true _ _).mp he).1
  split
  · rename_i hz
    have hz := hz.1
    rw [hk] at hz
    extract_lets w1 w2
    have h1 : Go E rank M L k r (fun _ => True) w w1 := mod_go h rfl fun _ => trivial
    have h2 : Go E rank M L k r (fun t => t.state = .halted) w w2 :=
      h1.bind fun c => setState_go hR hF .halted c fun s' t _ q => q.state
    split
    · exact h2.bind fun c => timerAfter_go c fun _ _ _ _ => .inl rfl
    · have h3 : Go E rank M L k r (Down can on s) w (mod k (fun s => { s with block := .none }) w2) := by
        refine h2.bind fun c => mod_go c rfl fun e => .inr ?_
        have hb : decide (s.block = .none) = true := ((Bool.and_eq_true _ _).mp he).2
        simp only [muS, e, hs, hb, hz, hcan, muT]
        cases on <;> simp
      exact h3.imp fun t e => .inr e
  split
  · rename_i hz
    rw [hk] at hz
    extract_lets w1
    have h1 : Go E rank M L k r (Kept .stopping s) w w1 :=
      setState_go hR hF .stopping h fun s' t e q => by subst e; exact q
    have h2 : Go E rank M L k r (Down can on s) w (mod k (fun s =>
        { s with restartTot := s.restartTot + 1, once := (s.once + 1) % 256 }) w1) := by
      refine h1.bind fun c => mod_go c rfl fun e => .kept (new := .stopping) ⟨e.state, e.pid, e.block, e.dirty⟩ ?_
      simp only [muS, hs, he, hz, muT]
      cases on <;> simp
    exact h2.imp fun t e => .inr e
  rename_i hz
  rw [hk] at hz
  have hz : decide (s.pid = 0) = false := decide_eq_false hz
  extract_lets w1 wk w2 w3
  have h1 : Go E rank M L k r (Kept s.state s) w w1 := timerCancel_go h fun s' t e q => by subst e; exact q
  have en1 : enabled w1.toCore k = true := enabled_cancel hen.symm
  have ea : aggCond w1.toCore k = aggCond w.toCore k := agg_cancel k w
  have hd : w1.svc k = w1.svc k := rfl
  have k1 : Kept s.state s (w1.svc k) := by
    have := timerCancel_kept k w
    rw [hk] at this; exact this
  clear_value w1
  have toK : ∀ {v : World}, Go E rank M L k r (Kept s.state s) w v →
      Go E rank M L k r (fun t => t.state = s.state ∧ t.block = s.block) w v :=
    fun g => g.imp fun t e => ⟨e.state, e.block⟩
  split
  · rename_i hagg
    have hon : on = false := by rw [hon]; rw [ea] at hagg; rw [hagg]; rfl
    refine (toK h1).bind fun c => (serviceStop_go hR hF c).imp fun t e => .inr (.stopped e ?_ ?_)
    · simp only [muS, hs, he, hon, muT]; simp
    · intro _; simp only [muS, hs, he, hon, muT]; simp
  · rename_i hagg
    have hon : on = false := by rw [hon]; rw [ea] at hagg; rw [hagg]; rfl
    have h2 : Go E rank M L k r (Kept s.state s) w (kill E (w1.svc k).pid 19 .pause k w1).2 :=
      h1.bind fun c => glob_go c (kill_nest _ _ _ _ _) (kill_fr _ _ _ _ _) rfl
    refine h2.bind fun c => setState_go hR hF .paused c fun s' t e q => .inr (.kept
      ⟨q.state, q.pid.trans e.pid, q.block.trans e.block, q.dirty.trans e.dirty⟩ ?_)
    simp only [muS, hs, he, hon, muT]; simp
  · rename_i hagg
    have hon : on = true := by rw [hon]; rw [ea] at hagg; rw [hagg]; rfl
    split
    · exact h1.imp fun t e => .inr (.inl e.state)
    have h3 : Go E rank M L k r (fun t => t.state = s.state ∨ (s.dirty = true ∧ Stopped s t)) w w3 := by
      simp only [w3]; split
      · rename_i hd
        have hd : s.dirty = true := k1.dirty.symm.trans hd
        have h2 : Go E rank M L k r (Stopped s) w w2 := by
          simp only [w2]; split
          · exact (toK h1).bind fun c => serviceStop_go hR hF c
          · exact (toK h1).bind fun c => (serviceReload_go hR c en1).imp fun t e => ⟨e.2, .inl e.1⟩
        exact h2.bind fun c => mod_go c rfl fun e => .inr ⟨hd, e⟩
      · exact h1.imp fun t e => .inl e.state
    have fin : ∀ t, (t.state = s.state ∨ (s.dirty = true ∧ Stopped s t)) →
        (false = true ∨ Down can on s t) := by
      rintro t (e | ⟨hd, e⟩)
      · exact .inr (.inl e)
      · refine .inr (.stopped e ?_ ?_)
        · simp only [muS, hs, he, hon, hd, muT]; simp
        · intro _; simp only [muS, hs, he, hon, hd, muT]; simp
    split
    · refine (h3.bind fun c => serviceReady_go hR hF _ c fun s' t e q => ?_).imp fin
      rcases e with e | ⟨hd, e⟩
      · exact .inl (q.state.trans e)
      · exact .inr ⟨hd, q.block.trans e.1, by rw [q.state]; exact e.2⟩
    · exact h3.imp fin

theorem stepPaused_go (hR : EndR E rank M L R) (hF : fuelOf M L r ≤ R.fuel) {w : World}
    (h : Ck E rank M L k r (· = s) w) (hk : w.svc k = s) (hs : s.state = .paused)
    (hon : on = decide (aggCond w.toCore k = .on)) :
    Go E rank M L k r (Down can on s) w (stepPaused E R k (can && decide (s.block = .none)) w) := by
  unfold stepPaused
  split
  · rename_i he
    have he : (can && decide (s.block = .none)) = false := Bool.not_eq_true' _ ▸ he
    extract_lets w1
    have h1 : Go E rank M L k r (· = s) w w1 := glob_go h (kill_nest _ _ _ _ _) (kill_fr _ _ _ _ _) rfl
    refine h1.bind fun c => (serviceStop_go hR hF c.eq_kept).imp fun t e => .stopped e ?_ ?_
    · simp only [muS, hs, he, muT]; simp
    · rw [he]; exact fun x => nomatch x
  rename_i he
  have he : (can && decide (s.block = .none)) = true := by simpa using he
  split
  · have h1 : Go E rank M L k r (· = s) w (emit (.bump k) w) := glob_go h (.emit _ _) (emit_fr _ _) rfl
    have h2 : Go E rank M L k r (Kept s.state s) w (mod k (fun s => { s with restartCnt := schar (s.restartCnt + 1) })
        (emit (.bump k) w)) := h1.bind fun c => mod_go c rfl fun e => by rw [e]; exact ⟨rfl, rfl, rfl, rfl⟩
    refine h2.bind fun c => setState_go hR hF .waiting c fun s' t e q => .kept
      ⟨q.state, q.pid.trans e.pid, q.block.trans e.block, q.dirty.trans e.dirty⟩ ?_
    simp only [muS, hs, he, muT]
    cases on <;> simp
  split
  · rename_i hagg
    have hon : on = true := by rw [hon, hagg]; rfl
    extract_lets w1 w2 w3
    have h1 : Go E rank M L k r (· = s) w w1 := glob_go h (kill_nest _ _ _ _ _) (kill_fr _ _ _ _ _) rfl
    have h2 : Go E rank M L k r (Kept .running s) w w2 :=
      h1.bind fun c => setState_go hR hF .running c fun s' t e q => by subst e; exact q
    have fin : ∀ t, Kept .running s t → Down can on s t := fun t e => .kept e (by
      simp only [muS, hs, he, hon, muT]
      cases s.dirty <;> cases decide (s.pid = 0) <;> simp)
    split
    · have h3 : Go E rank M L k r (Kept .running s) w w3 := by
        simp only [w3]; split
        · refine h2.bind fun c => ?_
          refine own_go c (mem_pidCond (w2.svc k)) (fun _ m => ⟨.glob rfl rfl rfl rfl rfl,
            .inr (.conds rfl (setOn_rgen _ _) ?_ rfl rfl rfl rfl rfl rfl rfl rfl rfl rfl)⟩) (.glob rfl rfl rfl rfl rfl)
          exact fun b0 p hp => (setOn_look ((m b0).ne hp).1).1
        · exact h2
      exact (h3.bind fun c => serviceReady_go hR hF _ c fun s' t e q =>
        ⟨q.state.trans e.state, q.pid.trans e.pid, q.block.trans e.block, q.dirty.trans e.dirty⟩).imp fin
    · exact h2.imp fin
  · rename_i hagg
    have hon : on = false := by rw [hon, hagg]; rfl
    extract_lets w1
    have h1 : Go E rank M L k r (· = s) w w1 := glob_go h (kill_nest _ _ _ _ _) (kill_fr _ _ _ _ _) rfl
    refine h1.bind fun c => (serviceStop_go hR hF c.eq_kept).imp fun t e => .stopped e ?_ ?_
    · simp only [muS, hs, he, hon, muT]; simp
    · intro _; simp only [muS, hs, he, hon, muT]; simp
  · exact (Go.refl h).imp fun t e => .inl (by rw [e])

/-- How often `service_step` may still go round. -/
def mu (c : Core) (k : Key) : Nat := muS (Sup.can c k) (decide (aggCond c k = .on)) (c.svc k)

theorem stepBranch_go (hR : EndR E rank M L R) (hF : fuelOf M L r ≤ R.fuel) {w : World}
    (h : Cx E rank M L (TopR rank k r) w) :
    Go E rank M L k r (fun t => (stepBranch E R k w).1 = true ∨
      Down (Sup.can w.toCore k) (decide (aggCond w.toCore k = .on)) (w.svc k) t) w (stepBranch E R k w).2 := by
  have h : Ck E rank M L k r (· = w.svc k) w := h.of (h.ctx.imp fun _ x => ⟨x, rfl⟩)
  unfold stepBranch
  extract_lets en
  have hen : en = (Sup.can w.toCore k && decide ((w.svc k).block = .none)) := enabled_can _ _
  clear_value en
  subst hen
  split <;> rename_i hs
  · exact (stepHalted_go hR hF h hs).imp fun _ e => .inr e
  · exact (stepTeardown_go hR hF h rfl hs).imp fun _ e => .inr e
  · exact (stepCleanup_go hR hF h rfl hs).imp fun _ e => .inr e
  · exact (Go.refl h).imp fun _ e => .inr (.inl (by rw [e]))
  · exact (stepDone_go hR hF h hs).imp fun _ e => .inr e
  · exact (stepStopping_go hR hF h rfl hs).imp fun _ e => .inr e
  · exact (stepSetup_go hR hF h rfl hs).imp fun _ e => .inr e
  · exact (stepWaiting_go hR hF h hs rfl).imp fun _ e => .inr e
  · exact (stepStarting_go hR hF h rfl hs).imp fun _ e => .inr e
  · exact stepRunning_go hR hF h rfl hs rfl rfl
  · exact (stepPaused_go hR hF h rfl hs rfl).imp fun _ e => .inr e

/-- What is assumed of the rest of the loop. -/
def LoopR (E : Env) (rank : CStr → Nat) (M L : Nat) (R : Rec) : Prop :=
  ∀ k r w, Cx E rank M L (TopR rank k r) w → 1 + mu w.toCore k + fuelOf M L r ≤ R.fuel →
    InTime E rank r r w (R.loop k w)

theorem stepLoop_ends (hR : EndR E rank M L R) (hL : LoopR E rank M L R) {w : World}
    (h : Cx E rank M L (TopR rank k r) w) (hF : mu w.toCore k + fuelOf M L r ≤ R.fuel) :
    InTime E rank r r w (stepLoop E R k w) := by
  have hN := stepLoop_nest hR.nest (h.ctx.imp fun _ h => h.1)
  rcases h.ctx with hl | hq
  · exact ⟨hN, .inl (hl.mono (s := hN.ext))⟩
  rcases h.ok with hl | ho
  · exact ⟨hN, .inl (hl.mono (s := hN.ext))⟩
  have hb := stepBranch_go hR (by omega : fuelOf M L r ≤ R.fuel) h
  clear hN
  unfold stepLoop
  extract_lets old q x w1
  have h1 : InTime E rank r r w w1 := hb.ends
  split
  · exact h1
  rename_i hx
  split
  · rename_i hne
    have cx := h.next h1
    have hn := hR.nest.loop k w1 (cx.ctx.imp fun _ h => h.1)
    have hlost : ∀ hl : Lost E rank w1.trace, InTime E rank r r w (schedule (R.loop k w1)) := fun hl =>
      ⟨(h1.nest.trans hn).trans (schedule_nest _), .inl (hl.mono (s := hn.ext.trans (schedule_nest (E := E) (rank := rank) _).ext))⟩
    rcases h1.out with hl | f
    · exact hlost hl
    rcases hb.cx.ctx with hl | hd
    · exact hlost hl
    have hr : rank (w.svc k).ident = r := hq.2.2.2
    have hd := hd.2.2.2
    have hd : Down (Sup.can w.toCore k) (decide (aggCond w.toCore k = .on)) (w.svc k) (w1.svc k) := by
      rcases hd with hd | hd
      · exact absurd hd hx
      · exact hd
    have hmu : mu w1.toCore k < mu w.toCore k := by
      unfold mu
      rw [f.can ho.1 (Nat.le_of_eq hr), f.agg ho.1 (Nat.le_of_eq hr)]
      rcases hd with hd | hd
      · exact absurd hd hne
      · exact hd
    have h2 := hL k r w1 cx (by omega)
    exact (h1.trans h2).trans ⟨schedule_nest _, .inr (schedule_fr _)⟩
  split
  · exact h1.trans ⟨schedule_nest _, .inr (schedule_fr _)⟩
  · exact h1

theorem mu_le (c : Core) (k : Key) : mu c k ≤ 70 := muS_le _ _ _

theorem serviceStep_ends (hR : EndR E rank M L R) (hL : LoopR E rank M L R) {w : World}
    (h : Cx E rank M L (Below rank k) w) (hr : rank (w.svc k).ident = r) (hF : 70 + fuelOf M L r ≤ R.fuel) :
    InTime E rank r r w (serviceStep E R k w) := by
  have hN := serviceStep_nest hR.nest h.ctx
  refine ⟨hN, ?_⟩
  rcases h.ctx with hl | hq
  · exact .inl (hl.mono (s := hN.ext))
  rcases h.ok with hl | ho
  · exact .inl (hl.mono (s := hN.ext))
  clear hN
  unfold serviceStep
  split
  · exact .inr (.refl w)
  have hk : k ∉ w.stack := fun hk => Nat.lt_irrefl _ (hq.2.2 k hk)
  have e1 : touch k w = w := by unfold touch; rw [if_neg hk]
  rw [e1]
  extract_lets st w0 w2 w3
  have c1 : Ctx E rank (Top rank k) w := by
    refine .inr ⟨hq.1, hq.2.1, fun s hs => Nat.le_of_lt (hq.2.2 s hs), fun hk => ?_⟩
    exact Nat.lt_irrefl _ (hq.2.2 k (hq.1.2 k hk))
  have f2 : Fr rank r r w w2 := .glob rfl rfl rfl rfl rfl rfl rfl rfl rfl rfl rfl rfl
  have c2 : Cx E rank M L (TopR rank k r) w2 :=
    ⟨(show Ctx E rank (Top rank k) w2 from c1.push).imp fun _ x => ⟨x, hr⟩,
      .inr ⟨ho.1.congr f2.cfg, ho.2.next f2⟩⟩
  have h3 : InTime E rank r r w2 w3 := stepLoop_ends hR hL c2 (by have := mu_le w2.toCore k; omega)
  rcases h3.out with g | g
  · exact .inl g
  · exact .inr ((f2.trans g).trans (.glob rfl rfl rfl rfl rfl rfl rfl rfl rfl rfl rfl rfl))

theorem endR_zero (hE : Ranked E rank) : EndR E rank M L (mkRec E 0) ∧ LoopR E rank M L (mkRec E 0) :=
  ⟨⟨mkRec_nest hE 0, fun k w _ h => by (unfold mkRec at h; unfold fuelOf at h; simp at h)⟩,
    fun k r w _ h => by (unfold mkRec at h; simp at h)⟩

theorem mkRec_ends (hE : Ranked E rank) : ∀ n, EndR E rank M L (mkRec E n) ∧ LoopR E rank M L (mkRec E n) := by
  intro n
  induction n with
  | zero => exact endR_zero hE
  | succ n ih =>
    have hn : (mkRec E n).fuel = n := by cases n <;> rfl
    refine ⟨⟨mkRec_nest hE _, fun k w h hF => ?_⟩, fun k r w h hF => ?_⟩
    · have hF : 72 + fuelOf M L (rank (w.svc k).ident) ≤ n + 1 := hF
      exact serviceStep_ends ih.1 ih.2 h rfl (by rw [hn]; omega)
    · have hF : 1 + mu w.toCore k + fuelOf M L r ≤ n + 1 := hF
      exact stepLoop_ends ih.1 ih.2 h (by rw [hn]; omega)

end

end Verif.Sup
