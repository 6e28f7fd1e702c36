import Verif.Sup.Prim
import Verif.Sup.Eqs

/-!
# Supervisor model: no service is stepped while it is being stepped

`service_step` changes the state of a service, that changes conditions, and `cond_update` steps the
services that wait for those conditions, on top of the call that is going on.  The ghost field
`reent` records that a service was reached again in this way.  Here: if the configuration orders
the services so that each waits only for conditions of services before it, this happens only if
`service_reload` is told that the process it sends SIGHUP does not exist (`Lost`).
-/

namespace Verif.Sup

open Verif (CStr CondStore)

/-! ### The configuration -/

/-- The name under which a stanza registers its service: `name` or `name:id`. -/
def Stanza.full (z : Stanza) : CStr := if z.id = [] then z.name else z.name ++ ':' :: z.id

/-- The conditions finit itself sets and clears for the service registered as `i`:
    src/cond-w.c:139-146, src/service.c:2563-2606,2632. -/
def condsOf (i : CStr) : List CStr :=
  ("pid/".toList ++ i) :: ("service/".toList ++ i ++ "/".toList) ::
  (["ready", "halted", "missing", "crashed", "stopped", "busy", "restart", "conflict", "running",
    "unknown"].map (fun s => "service/".toList ++ i ++ "/".toList ++ s.toList) ++
   [SType.service, .task, .run, .tty, .sysv].flatMap (fun t =>
    [t.str ++ '/' :: i ++ "/success".toList, t.str ++ '/' :: i ++ "/failure".toList]))

/-- The condition `n` may be touched on behalf of the service registered as `i`: it is one of its
    conditions, or lies below one of them in the directory of conditions (clearing a condition
    that is a directory clears everything below it). -/
def Told (i n : CStr) : Prop := n ∈ condsOf i ∨ ∃ m ∈ condsOf i, under (condPath m) n = true

instance (i n : CStr) : Decidable (Told i n) := inferInstanceAs (Decidable (_ ∨ _))

/-- The conditions a stanza waits for. -/
def Stanza.waits (z : Stanza) : List CStr :=
  match z.cond with
  | none => []
  | some a => tokens isComma ((if a.head? = some '!' then a.tail else a).takeWhile (· ≠ '>'))

/-- The stanza `z` applies to the service registered as `i`.  A tty is found by its device. -/
def Applies (E : Env) (z : Stanza) (i : CStr) : Prop :=
  i = z.full ∨ (z.type = .tty ∧ ∃ t, ∃ y ∈ E.conf t, y.type = .tty ∧ y.dev = z.dev ∧ i = y.full)

/-- Each service waits only for conditions of services of lower rank. -/
def Ranked (E : Env) (rank : CStr → Nat) : Prop :=
  ∀ t, ∀ z ∈ E.conf t, ∀ i, Applies E z i → ∀ n ∈ z.waits, ∀ j, Told j n → rank j < rank i

/-- The stanza makes its service one that is told of changes by SIGHUP. -/
def Stanza.hups (z : Stanza) : Bool :=
  z.type.isDaemon || (z.type.isRuntask && (z.cond.getD []).head? == some '!')

/-- Levels that are S or none. -/
def bootMask (l : Nat) : Prop := l &&& (2 ^ 32 - 1 - 2 ^ 10) = 0

instance (l : Nat) : Decidable (bootMask l) := inferInstanceAs (Decidable (_ = _))

/-! ### What is known of the registered services -/

section
variable (E : Env) (rank : CStr → Nat)

/-- What registration establishes. -/
structure CfgOk (c : Core) : Prop where
  waits : ∀ j n, condAffects n (c.svc j).cond = true → ∀ i, Told i n → rank i < rank (c.svc j).ident
  tty : ∀ j, (c.svc j).type = .tty → ∃ t, ∃ y ∈ E.conf t, y.type = .tty ∧ y.dev = (c.svc j).dev ∧
    (c.svc j).ident = y.full
  hup : ∀ j, (c.svc j).sighup = true → ∃ t, ∃ z ∈ E.conf t, z.hups = true ∧ z.full = (c.svc j).ident
  lev : ∀ j, (c.svc j).levels ≠ 0 → ∃ t, ∃ z ∈ E.conf t, z.levels = (c.svc j).levels ∧
    (z.type ≠ .tty → z.full = (c.svc j).ident)

theorem cfg_ident {s t : Svc} (e : s.cfg = t.cfg) : s.ident = t.ident := by
  have := congrArg Svc.ident e; exact this

theorem cfg_cond {s t : Svc} (e : s.cfg = t.cfg) : s.cond = t.cond := by
  have := congrArg Svc.cond e; exact this

theorem cfg_type {s t : Svc} (e : s.cfg = t.cfg) : s.type = t.type := by
  have := congrArg Svc.type e; exact this

theorem cfg_dev {s t : Svc} (e : s.cfg = t.cfg) : s.dev = t.dev := by
  have := congrArg Svc.dev e; exact this

theorem cfg_sighup {s t : Svc} (e : s.cfg = t.cfg) : s.sighup = t.sighup := by
  have := congrArg Svc.sighup e; exact this

theorem cfg_lev {s t : Svc} (e : s.cfg = t.cfg) : s.levels = t.levels := by
  have := congrArg Svc.levels e; exact this

theorem CfgOk.congr {c d : Core} (h : CfgOk E rank c) (e : ∀ j, (d.svc j).cfg = (c.svc j).cfg) :
    CfgOk E rank d := by
  have i : ∀ j, (d.svc j).ident = (c.svc j).ident := fun j => cfg_ident (e j)
  have q : ∀ j, (d.svc j).cond = (c.svc j).cond := fun j => cfg_cond (e j)
  have t : ∀ j, (d.svc j).type = (c.svc j).type := fun j => cfg_type (e j)
  have v : ∀ j, (d.svc j).dev = (c.svc j).dev := fun j => cfg_dev (e j)
  have u : ∀ j, (d.svc j).sighup = (c.svc j).sighup := fun j => cfg_sighup (e j)
  have l : ∀ j, (d.svc j).levels = (c.svc j).levels := fun j => cfg_lev (e j)
  constructor
  · intro j n; rw [i, q]; exact h.waits j n
  · intro j; rw [i, t, v]; exact h.tty j
  · intro j; rw [i, u]; exact h.hup j
  · intro j; rw [i, l]; exact h.lev j

/-- SIGHUP is sent to a process that does not exist, on behalf of a service that may run. -/
def LostHup (c : Core) (e : Eff) : Prop :=
  ∃ k, e = .kill (c.svc k).pid 1 .hup k ∧ c.reent = false ∧ 1 < (c.svc k).pid ∧
    (c.svc k).pid ∉ c.live ∧ enabled c k = true ∧ (c.svc k).sighup = true ∧ CfgOk E rank c

/-- That has happened. -/
def Lost (t : List (Core × Eff)) : Prop := ∃ x ∈ t, LostHup E rank x.1 x.2

theorem Lost.mono {t t' : List (Core × Eff)} (h : Lost E rank t) (s : t <:+ t') : Lost E rank t' := by
  obtain ⟨x, hx, h⟩ := h
  exact ⟨x, s.subset hx, h⟩

/-- The services whose state is being published. -/
def keys (w : World) : List Key := w.mids.map (·.key)

/-- No service has been stepped while it was being stepped, and none has changed its state while
    its state was being published. -/
def Fine (w : World) : Prop := w.reent = false ∧ w.twice = false

/-- Nothing that matters here has changed. -/
structure Same (w v : World) : Prop where
  reent : Fine w → Fine v
  stack : v.stack = w.stack
  keys : keys v = keys w
  inSm : v.inSm = w.inSm
  cfg : ∀ j, (v.svc j).cfg = (w.svc j).cfg

/-- What a function of the state machine does, as far as it matters here. -/
structure Nest (w v : World) : Prop where
  ext : w.trace <:+ v.trace
  out : Lost E rank v.trace ∨ Same w v

/-- The same for functions that may read the configuration. -/
structure NestSm (w v : World) : Prop where
  ext : w.trace <:+ v.trace
  out : Lost E rank v.trace ∨ ((Fine w → Fine v) ∧ (v.stack = w.stack ∧ keys v = keys w) ∧
    v.inSm = w.inSm ∧ (CfgOk E rank w.toCore → CfgOk E rank v.toCore))

/-- In which situation a function is called. -/
def Ctx (Q : World → Prop) (w : World) : Prop :=
  Lost E rank w.trace ∨ ((Fine w ∧ ∀ s ∈ keys w, s ∈ w.stack) ∧ CfgOk E rank w.toCore ∧ Q w)

/-- A situation that depends only on the services being stepped. -/
class Stable (Q : World → Prop) : Prop where
  next : ∀ {w v : World}, Same w v → Q w → Q v

/-- Everything that is being stepped comes before `k`. -/
def Below (k : Key) (w : World) : Prop := ∀ s ∈ w.stack, rank (w.svc s).ident < rank (w.svc k).ident

/-- Nothing that is being stepped comes after `k`. -/
def Head (k : Key) (w : World) : Prop := ∀ s ∈ w.stack, rank (w.svc s).ident ≤ rank (w.svc k).ident

/-- Neither does anything that is being stepped come after `k`, nor is the state of `k` being
    published. -/
def Top (k : Key) (w : World) : Prop := Head rank k w ∧ k ∉ keys w

/-- Whoever waits for `n` comes after everything that is being stepped. -/
def Pub1 (n : CStr) (w : World) : Prop :=
  ∀ j, condAffects n (w.svc j).cond = true → Below rank j w

/-- The same for `n` and everything below it. -/
def Pub (n : CStr) (w : World) : Prop :=
  ∀ m, (m = n ∨ under (condPath n) m = true) → Pub1 rank m w

/-- Nothing is being stepped. -/
def Idle (w : World) : Prop := w.stack = [] ∧ keys w = []

/-- Nothing at all is going on. -/
def Resting (w : World) : Prop := Idle w ∧ w.inSm = false

instance (k : Key) : Stable (Below rank k) where
  next h hb := by
    intro s hs
    rw [h.stack] at hs
    have := hb s hs
    rw [← cfg_ident (h.cfg s), ← cfg_ident (h.cfg k)] at this
    exact this

instance (k : Key) : Stable (Head rank k) where
  next h hb := by
    intro s hs
    rw [h.stack] at hs
    have := hb s hs
    rw [← cfg_ident (h.cfg s), ← cfg_ident (h.cfg k)] at this
    exact this

instance (k : Key) : Stable (Top rank k) where
  next h hb := ⟨Stable.next h hb.1, by rw [h.keys]; exact hb.2⟩

instance (n : CStr) : Stable (Pub1 rank n) where
  next h hb := by
    intro j hj
    rw [cfg_cond (h.cfg j)] at hj
    exact Stable.next h (hb j hj)

instance (n : CStr) : Stable (Pub rank n) where
  next h hb := fun m hm => Stable.next h (hb m hm)

instance : Stable Idle where
  next h hb := ⟨h.stack.trans hb.1, h.keys.trans hb.2⟩

instance : Stable Resting where
  next h hb := ⟨Stable.next h hb.1, h.inSm.trans hb.2⟩

end

section
variable {E : Env} {rank : CStr → Nat} {Q : World → Prop}

theorem Same.refl (w : World) : Same w w := ⟨id, rfl, rfl, rfl, fun _ => rfl⟩

theorem Same.trans {a b c : World} (h1 : Same a b) (h2 : Same b c) : Same a c :=
  ⟨h2.reent ∘ h1.reent, h2.stack.trans h1.stack, h2.keys.trans h1.keys, h2.inSm.trans h1.inSm,
    fun j => (h2.cfg j).trans (h1.cfg j)⟩

theorem Nest.refl (w : World) : Nest E rank w w := ⟨List.suffix_refl _, .inr (.refl w)⟩

theorem Nest.trans {a b c : World} (h1 : Nest E rank a b) (h2 : Nest E rank b c) : Nest E rank a c := by
  refine ⟨h1.ext.trans h2.ext, ?_⟩
  rcases h2.out with h | h
  · exact .inl h
  · rcases h1.out with g | g
    · exact .inl (g.mono (s := h2.ext))
    · exact .inr (g.trans h)

theorem NestSm.trans {a b c : World} (h1 : NestSm E rank a b) (h2 : NestSm E rank b c) : NestSm E rank a c := by
  refine ⟨h1.ext.trans h2.ext, ?_⟩
  rcases h2.out with h | h
  · exact .inl h
  · rcases h1.out with g | g
    · exact .inl (g.mono (s := h2.ext))
    · exact .inr ⟨h.1 ∘ g.1, ⟨h.2.1.1.trans g.2.1.1, h.2.1.2.trans g.2.1.2⟩, h.2.2.1.trans g.2.2.1, h.2.2.2 ∘ g.2.2.2⟩

theorem Nest.sm {a b : World} (h : Nest E rank a b) : NestSm E rank a b :=
  ⟨h.ext, h.out.imp_right fun g => ⟨g.reent, ⟨g.stack, g.keys⟩, g.inSm, fun c => c.congr (e := g.cfg)⟩⟩

theorem NestSm.refl (w : World) : NestSm E rank w w := (Nest.refl w).sm

/-- Once the signal has been lost, nothing more is claimed. -/
theorem NestSm.lost {a b : World} (h : NestSm E rank a b) (hl : Lost E rank a.trace) : Nest E rank a b :=
  ⟨h.ext, .inl (hl.mono (s := h.ext))⟩

theorem Ctx.next [Stable Q] {w v : World} (h : Ctx E rank Q w) (n : Nest E rank w v) :
    Ctx E rank Q v := by
  rcases h with h | ⟨h1, h2, h3⟩
  · exact .inl (h.mono (s := n.ext))
  · rcases n.out with g | g
    · exact .inl g
    · refine .inr ⟨⟨g.reent h1.1, ?_⟩, h2.congr (e := g.cfg), Stable.next g h3⟩
      rw [g.keys, g.stack]; exact h1.2

theorem Ctx.imp {Q' : World → Prop} {w : World} (h : Ctx E rank Q w)
    (hi : CfgOk E rank w.toCore → Q w → Q' w) : Ctx E rank Q' w :=
  h.imp_right fun ⟨h1, h2, h3⟩ => ⟨h1, h2, hi h2 h3⟩

theorem Ctx.nextSm {w v : World} (h : Ctx E rank Idle w) (n : NestSm E rank w v) :
    Ctx E rank Idle v := by
  rcases h with h | ⟨h1, h2, h3⟩
  · exact .inl (h.mono (s := n.ext))
  · rcases n.out with g | g
    · exact .inl g
    · refine .inr ⟨⟨g.1 h1.1, ?_⟩, g.2.2.2 h2, g.2.1.1.trans h3.1, g.2.1.2.trans h3.2⟩
      rw [g.2.1.1, g.2.1.2]; exact h1.2

theorem Ctx.nextRest {w v : World} (h : Ctx E rank Resting w) (n : NestSm E rank w v) :
    Ctx E rank Resting v := by
  rcases h with h | ⟨h1, h2, h3⟩
  · exact .inl (h.mono (s := n.ext))
  · rcases n.out with g | g
    · exact .inl g
    · refine .inr ⟨⟨g.1 h1.1, ?_⟩, g.2.2.2 h2, ⟨g.2.1.1.trans h3.1.1, g.2.1.2.trans h3.1.2⟩, g.2.2.1.trans h3.2⟩
      rw [g.2.1.1, g.2.1.2]; exact h1.2

theorem Ctx.idle {w : World} (h : Ctx E rank Resting w) : Ctx E rank Idle w := h.imp fun _ h => h.1

theorem Ctx.below {w : World} (h : Ctx E rank Idle w) (k : Key) : Ctx E rank (Below rank k) w :=
  h.imp fun _ h s hs => by rw [h.1] at hs; cases hs

theorem Ctx.top {w : World} (h : Ctx E rank Idle w) (k : Key) : Ctx E rank (Top rank k) w :=
  h.imp fun _ h => ⟨fun s hs => by (rw [h.1] at hs; cases hs), by (rw [h.2]; exact List.not_mem_nil)⟩

theorem Ctx.pub {w : World} (h : Ctx E rank Idle w) (n : CStr) : Ctx E rank (Pub rank n) w :=
  h.imp fun _ h m _ j _ s hs => by rw [h.1] at hs; cases hs

theorem Ctx.pub1 {w : World} {n : CStr} (h : Ctx E rank (Pub rank n) w) : Ctx E rank (Pub1 rank n) w :=
  h.imp fun _ h => h n (.inl rfl)

theorem Ctx.pubBelow {w : World} {n m : CStr} (h : Ctx E rank (Pub rank n) w)
    (hm : under (condPath n) m = true) : Ctx E rank (Pub1 rank m) w :=
  h.imp fun _ h => h m (.inr hm)

/-- A service may change its own conditions. -/
theorem Ctx.own {w : World} {k : Key} {n : CStr} (h : Ctx E rank (Head rank k) w)
    (hn : n ∈ condsOf (w.svc k).ident) : Ctx E rank (Pub rank n) w := by
  refine h.imp fun hc h m hm j hj s hs => ?_
  refine Nat.lt_of_le_of_lt (h s hs) (hc.waits j m hj _ ?_)
  rcases hm with rfl | hm
  · exact .inl hn
  · exact .inr ⟨n, hn, hm⟩

theorem Ctx.head {w : World} {k : Key} (h : Ctx E rank (Top rank k) w) : Ctx E rank (Head rank k) w :=
  h.imp fun _ h => h.1

/-! ### Simple updates -/

theorem Nest.pure {w v : World} (hr : v.reent = w.reent) (hs : v.stack = w.stack)
    (hi : v.inSm = w.inSm) (ht : w.trace <:+ v.trace) (hc : ∀ j, (v.svc j).cfg = (w.svc j).cfg)
    (hm : keys v = keys w := by rfl) (h2 : v.twice = w.twice := by rfl) :
    Nest E rank w v := ⟨ht, .inr ⟨fun h => ⟨hr.trans h.1, h2.trans h.2⟩, hs, hm, hi, hc⟩⟩

theorem Nest.mod {w : World} {k : Key} {f : Svc → Svc} (hf : (f (w.svc k)).cfg = (w.svc k).cfg) :
    Nest E rank w (mod k f w) := by
  refine .pure rfl rfl rfl (List.suffix_refl _) fun j => ?_
  simp only [Sup.mod]
  by_cases hj : j = k
  · subst hj; rw [upd_same]; exact hf
  · rw [upd_other _ _ _ _ hj]

theorem Nest.glob {w v : World} (hr : v.reent = w.reent) (hs : v.stack = w.stack)
    (hi : v.inSm = w.inSm) (ht : v.trace = w.trace) (hc : v.svc = w.svc)
    (hm : keys v = keys w := by rfl) (h2 : v.twice = w.twice := by rfl) :
    Nest E rank w v := .pure hr hs hi (ht ▸ List.suffix_refl _) (fun j => by rw [hc]) hm h2

theorem Nest.emit (e : Eff) (w : World) : Nest E rank w (emit e w) :=
  .pure rfl rfl rfl (List.suffix_cons _ _) fun _ => rfl

theorem timerCancel_nest (k : Key) (w : World) : Nest E rank w (timerCancel k w) := by
  unfold timerCancel; split
  · exact .mod rfl
  · exact .refl w

theorem timerAfter_nest (k : Key) (t : Int) (cb : Cb) (w : World) : Nest E rank w (timerAfter k t cb w) := by
  unfold timerAfter; split
  · exact .refl w
  · split
    · exact .refl w
    · exact .mod rfl

theorem askB_nest (w : World) : Nest E rank w (askB E w).2 := .glob rfl rfl rfl rfl rfl

theorem procExists_nest (p : Int) (w : World) : Nest E rank w (procExists E p w).2 :=
  .glob rfl rfl rfl rfl rfl

theorem kill_nest (t : Int) (s : Nat) (y : Why) (k : Key) (w : World) :
    Nest E rank w (kill E t s y k w).2 :=
  .pure rfl rfl rfl (List.suffix_cons _ _) fun _ => rfl

theorem fork_nest (k : Key) (role : Role) (w : World) : Nest E rank w (fork E k role w).2 := by
  unfold fork
  extract_lets p w1
  split
  · exact .pure rfl rfl rfl (List.suffix_cons _ _) fun _ => rfl
  · exact .glob rfl rfl rfl rfl rfl

theorem reap_nest (p : Int) (st : Option WStatus) (w : World) : Nest E rank w (reap p st w) :=
  .pure rfl rfl rfl (List.suffix_cons _ _) fun _ => rfl

theorem schedule_nest (w : World) : Nest E rank w (schedule w) := .glob rfl rfl rfl rfl rfl

theorem runScript_nest (k : Key) (role : Role) (w : World) : Nest E rank w (runScript E k role w).2 := by
  unfold runScript
  extract_lets f
  split
  · exact fork_nest k role w
  · exact ((fork_nest k role w).trans (reap_nest _ _ _)).trans (.glob rfl rfl rfl rfl rfl)

theorem serviceCleanup_nest (k : Key) (w : World) : Nest E rank w (serviceCleanup k w) :=
  (timerCancel_nest k w).trans (.mod rfl)

theorem stopAct_nest (k : Key) (w : World) : Nest E rank w (stopAct E k w).2 := by
  unfold stopAct
  split
  · exact runScript_nest _ _ _
  · split
    · exact kill_nest _ _ _ _ _
    · exact fork_nest _ _ _

theorem scriptFork_nest (k : Key) (role : Role) (tmo : Svc → Int) (w : World) :
    Nest E rank w (scriptFork E k role tmo w) := by
  unfold scriptFork
  extract_lets r p w1 w2
  have h : Nest E rank w w2 := (fork_nest k role w).trans (.mod rfl)
  split
  · exact h
  · exact h.trans (timerAfter_nest _ _ _ _)

theorem readyScript_nest (k : Key) (w : World) : Nest E rank w (readyScript E k w) := by
  unfold readyScript
  extract_lets r x w1 r2 p w2 w3
  have h1 : Nest E rank w w1 := askB_nest w
  split
  · exact h1
  · have h2 : Nest E rank w w2 := h1.trans (fork_nest _ _ _)
    split
    · exact h2
    · have h3 : Nest E rank w w3 := h2.trans (.glob rfl rfl rfl rfl rfl)
      exact h3.trans (timerAfter_nest _ _ _ _)

theorem startParent_nest (k : Key) (p : Int) (x : Bool) (w : World) : Nest E rank w (startParent k p x w) := by
  unfold startParent
  extract_lets w1
  have h1 : Nest E rank w w1 := .mod rfl
  split
  · exact h1.trans (.glob rfl rfl rfl rfl rfl)
  · exact h1

theorem serviceStart_nest (k : Key) (w : World) : Nest E rank w (serviceStart E k w).2 := by
  unfold serviceStart
  extract_lets r w1 r2 w2 r3 w3 wants bad w4 f
  have h1 : Nest E rank w w1 := askB_nest w
  split
  · exact h1
  split
  · exact h1
  have h2 : Nest E rank w w2 := h1.trans (askB_nest _)
  split
  · have h3 : Nest E rank w (mod k (fun s => { s with block := .missing }) w2) := h2.trans (.mod rfl)
    exact h3
  have h4 : Nest E rank w w4 := (h2.trans (askB_nest _)).trans (.mod rfl)
  have h5 : Nest E rank w f.2 := h4.trans (fork_nest _ _ _)
  split
  · exact h5
  · exact h5.trans (startParent_nest _ _ _ _)

theorem svcDel_nest (k : Key) (w : World) : Nest E rank w (svcDel k w) :=
  .pure rfl rfl rfl (List.suffix_cons _ _) fun _ => rfl

theorem cleanBootstrap_nest (k : Key) (w : World) : Nest E rank w (cleanBootstrap k w) := by
  unfold cleanBootstrap; split
  · exact (Nest.mod rfl).trans (svcDel_nest _ _)
  · exact .refl w

theorem monitorHead_nest (k : Key) (st : WStatus) (w : World) : Nest E rank w (monitorHead E k st w) := by
  unfold monitorHead
  extract_lets x w1
  have h1 : Nest E rank w w1 := kill_nest _ _ _ _ _
  split
  · exact (h1.trans (timerCancel_nest _ _)).trans (.mod rfl)
  split
  · exact .mod rfl
  split
  · exact ((h1.trans (.mod rfl)).trans (serviceCleanup_nest _ _)).trans (.mod rfl)
  · exact h1.trans (.mod rfl)

theorem scriptDel_nest (p : Int) (w : World) : Nest E rank w (scriptDel E p w) := by
  unfold scriptDel
  split
  · exact .refl w
  · extract_lets w1 w2 w3
    have h1 : Nest E rank w w1 := by
      simp only [w1]; split
      · exact .glob rfl rfl rfl rfl rfl
      · exact .refl w
    exact ((h1.trans (timerCancel_nest _ _)).trans (kill_nest _ _ _ _ _)).trans (.glob rfl rfl rfl rfl rfl)

theorem scriptKill_go_nest (k : Key) : ∀ (l : List (Int × Key)) (w : World),
    Nest E rank w (scriptKill.go E k l w) := by
  intro l
  induction l with
  | nil => exact fun w => .refl w
  | cons a rest ih =>
    intro w
    rw [scriptKill.go]
    split
    · exact ih w
    · extract_lets w1
      have h1 : Nest E rank w w1 := kill_nest _ _ _ _ _
      have h2 : Nest E rank w { w1 with assoc := w1.assoc.erase a } := h1.trans (.glob rfl rfl rfl rfl rfl)
      exact h2.trans (ih _)

theorem scriptKill_nest (k : Key) (w : World) : Nest E rank w (scriptKill E k w) :=
  scriptKill_go_nest k _ w

theorem midHead_keys {f : Mid → Mid} (hf : ∀ m, (f m).key = m.key) (w : World) :
    keys (midHead f w) = keys w := by
  unfold midHead keys
  cases w.mids with
  | nil => rfl
  | cons m ms => simp only [List.map_cons, hf]

theorem makeMid_keys (p : CStr) (w : World) : keys (midHead (Mid.make p) w) = keys w :=
  midHead_keys (f := Mid.make p) (fun _ => rfl) w

theorem dropMid_keys (g : CStr → Bool) (w : World) : keys (midHead (Mid.drop g) w) = keys w :=
  midHead_keys (f := Mid.drop g) (fun _ => rfl) w

theorem timer_state (k : Key) (t : Int) (cb : Cb) (w : World) :
    ((timerAfter k t cb (timerCancel k w)).svc k).state = (w.svc k).state := by
  have h1 : ((timerCancel k w).svc k).state = (w.svc k).state := by
    unfold timerCancel; split
    · simp [Sup.mod]
    · rfl
  rw [← h1]
  unfold timerAfter; split
  · rfl
  split
  · rfl
  · simp [Sup.mod]

theorem midHead_nest {f : Mid → Mid} (hf : ∀ m, (f m).key = m.key) (w : World) :
    Nest E rank w (midHead f w) :=
  .glob rfl rfl rfl rfl rfl (midHead_keys hf w) rfl


/-! ### Stepping others -/

/-- What is assumed of the mutually recursive functions. -/
structure NestR (E : Env) (rank : CStr → Nat) (R : Rec) : Prop where
  step : ∀ k w, Ctx E rank (Below rank k) w → Nest E rank w (R.step k w)
  loop : ∀ k w, Ctx E rank (Top rank k) w → Nest E rank w (R.loop k w)
  sm : ∀ w, Ctx E rank Resting w → NestSm E rank w (R.sm w)
  smLoop : ∀ w, Ctx E rank Idle w → NestSm E rank w (R.smLoop w)

variable {R : Rec}

theorem iter_nest [Stable Q] {f : Key → World → World}
    (hf : ∀ k w, Ctx E rank Q w → Nest E rank w (f k w)) :
    ∀ (n : Nat) (o : Option Key) (w : World), Ctx E rank Q w → Nest E rank w (iter f n o w) := by
  intro n
  induction n with
  | zero =>
    intro o w _
    cases o with
    | none => exact .refl w
    | some k => exact .glob rfl rfl rfl rfl rfl
  | succ n ih =>
    intro o w h
    cases o with
    | none => exact .refl w
    | some k =>
      have h1 := hf k w h
      exact h1.trans (ih _ _ (h.next h1))

theorem forAll_nest [Stable Q] {f : Key → World → World}
    (hf : ∀ k w, Ctx E rank Q w → Nest E rank w (f k w)) {w : World} (h : Ctx E rank Q w) :
    Nest E rank w (forAll R f w) := iter_nest hf _ _ _ h

theorem stepAll_nest (hR : NestR E rank R) (p : SType → Bool) {w : World} (h : Ctx E rank Idle w) :
    Nest E rank w (stepAll R p w) := by
  refine forAll_nest (Q := Idle) (fun k w h => ?_) h
  split
  · exact hR.step k w (h.below k)
  · exact .refl w

theorem touch_nest {k : Key} {w : World} (h : Ctx E rank (Below rank k) w) :
    Nest E rank w (touch k w) := by
  rcases h with h | ⟨_, _, h⟩
  · refine ⟨?_, ?_⟩
    · unfold touch; split <;> exact List.suffix_refl _
    · refine .inl ?_
      unfold touch; split <;> exact h
  · have : k ∉ w.stack := fun hk => Nat.lt_irrefl _ (h k hk)
    unfold touch; rw [if_neg this]; exact .refl w

theorem condUpdateOne_nest (hR : NestR E rank R) {n : CStr} (k : Key) {w : World}
    (h : Ctx E rank (Pub1 rank n) w) : Nest E rank w (condUpdateOne R n k w) := by
  unfold condUpdateOne
  extract_lets s w1 w2
  split
  · rename_i hc
    have hc : condAffects n (w.svc k).cond = true := (Bool.and_eq_true _ _ ▸ hc).2
    have hb : Ctx E rank (Below rank k) w := h.imp fun _ h => h k hc
    have h1 : Nest E rank w w1 := touch_nest hb
    have h2 : Nest E rank w w2 := by
      simp only [w2]; split
      · exact ((h1.trans (.emit _ _)).trans (timerCancel_nest _ _)).trans (.mod rfl)
      · exact h1
    exact h2.trans (hR.step k w2 (hb.next h2))
  · exact .refl w

theorem condUpdate_nest (hR : NestR E rank R) {n : CStr} {w : World}
    (h : Ctx E rank (Pub1 rank n) w) : Nest E rank w (condUpdate R n w) :=
  forAll_nest (fun k _ h => condUpdateOne_nest hR k h) h

theorem condSet_nest (hR : NestR E rank R) {n : CStr} {w : World}
    (h : Ctx E rank (Pub1 rank n) w) : Nest E rank w (condSet R n w) := by
  unfold condSet
  extract_lets r w1
  have h1 : Nest E rank w w1 := .glob rfl rfl rfl rfl rfl
  split
  · exact h1.trans (condUpdate_nest hR (h.next h1))
  · exact h1

theorem condOneshot_nest (hR : NestR E rank R) {n : CStr} {w : World}
    (h : Ctx E rank (Pub1 rank n) w) : Nest E rank w (condOneshot R n w) := by
  unfold condOneshot
  extract_lets r w1
  have h1 : Nest E rank w w1 := .glob rfl rfl rfl rfl rfl
  split
  · exact h1.trans (condUpdate_nest hR (h.next h1))
  · exact h1

theorem condOneshotMid_nest (hR : NestR E rank R) {n : CStr} {w : World}
    (h : Ctx E rank (Pub1 rank n) w) : Nest E rank w (condOneshotMid R n w) := by
  unfold condOneshotMid
  extract_lets r w1
  have h1 : Nest E rank w w1 := .glob rfl rfl rfl rfl rfl (makeMid_keys _ _) rfl
  split
  · exact h1.trans (condUpdate_nest hR (h.next h1))
  · exact h1

theorem condDelBelow_nest (hR : NestR E rank R) {n : CStr} : ∀ (l : List CStr),
    (∀ m ∈ l, under (condPath n) m = true) → ∀ (w : World), Ctx E rank (Pub rank n) w →
    Nest E rank w (condDelBelow R l w) := by
  intro l
  induction l with
  | nil => exact fun _ w _ => .refl w
  | cons m ms ih =>
    intro hl w h
    unfold condDelBelow
    extract_lets w1 w2
    have h1 : Nest E rank w w1 := .glob rfl rfl rfl rfl rfl
    have h2 : Nest E rank w w2 := by
      simp only [w2]; split
      · exact h1
      · exact h1.trans (condUpdate_nest hR ((h.pubBelow (hl m (.head _))).next h1))
    exact h2.trans (ih (fun m hm => hl m (.tail _ hm)) _ (h.next h2))

theorem condDelBelowMid_nest (hR : NestR E rank R) {n : CStr} : ∀ (l : List CStr),
    (∀ m ∈ l, under (condPath n) m = true) → ∀ (w : World), Ctx E rank (Pub rank n) w →
    Nest E rank w (condDelBelowMid R l w) := by
  intro l
  induction l with
  | nil => exact fun _ w _ => .refl w
  | cons m ms ih =>
    intro hl w h
    unfold condDelBelowMid
    extract_lets w1 w2
    have h1 : Nest E rank w w1 := .glob rfl rfl rfl rfl rfl (dropMid_keys _ _) rfl
    have h2 : Nest E rank w w2 := by
      simp only [w2]; split
      · exact h1
      · exact h1.trans (condUpdate_nest hR ((h.pubBelow (hl m (.head _))).next h1))
    exact h2.trans (ih (fun m hm => hl m (.tail _ hm)) _ (h.next h2))

theorem below_isUnder {st : CondStore} {p m : CStr} (h : m ∈ st.below p) : under p m = true := by
  unfold CondStore.below at h
  obtain ⟨e, he, rfl⟩ := List.mem_map.mp h
  exact (List.mem_filter.mp he).2

theorem condClear_nest (hR : NestR E rank R) {n : CStr} {w : World}
    (h : Ctx E rank (Pub rank n) w) : Nest E rank w (condClear R n w) := by
  unfold condClear
  split
  · exact .refl w
  extract_lets p prev w1
  have h1 : Nest E rank w w1 := by
    simp only [w1]; split
    · exact .glob rfl rfl rfl rfl rfl
    · exact condDelBelow_nest hR _ (fun m hm => below_isUnder hm) w h
  split
  · exact h1
  · exact h1.trans (condUpdate_nest hR (h.next h1).pub1)

theorem condClearMid_nest (hR : NestR E rank R) {n : CStr} {w : World}
    (h : Ctx E rank (Pub rank n) w) : Nest E rank w (condClearMid R n w) := by
  unfold condClearMid
  split
  · exact .refl w
  extract_lets p prev w1
  have h1 : Nest E rank w w1 := by
    simp only [w1]; split
    · exact .glob rfl rfl rfl rfl rfl (dropMid_keys _ _) rfl
    · have h0 : Nest E rank w (midHead (Mid.drop (fun q => decide (q = p))) w) :=
        midHead_nest (f := Mid.drop _) (fun _ => rfl) _
      exact h0.trans (condDelBelowMid_nest hR _ (fun m hm => below_isUnder hm) _ (h.next h0))
  split
  · exact h1
  · exact h1.trans (condUpdate_nest hR (h.next h1).pub1)

/-! ### A service's own conditions -/

theorem mem_pidCond (s : Svc) : s.pidCond ∈ condsOf s.ident := .head _

theorem mem_svcDir (s : Svc) : s.svcDir ∈ condsOf s.ident := .tail _ (.head _)

theorem mem_svcStatus (s : Svc) {t : String}
    (ht : t ∈ ["ready", "halted", "missing", "crashed", "stopped", "busy", "restart", "conflict", "running",
    "unknown"]) : s.svcDir ++ t.toList ∈ condsOf s.ident := by
  refine .tail _ (.tail _ (List.mem_append_left _ ?_))
  exact List.mem_map.mpr ⟨t, ht, rfl⟩

theorem mem_readyCond (s : Svc) : s.readyCond ∈ condsOf s.ident := by
  have := mem_svcStatus s (t := "ready") (.head _)
  have e : s.readyCond = s.svcDir ++ "ready".toList := by
    unfold Svc.readyCond Svc.svcDir
    rw [List.append_assoc ("service/".toList ++ s.ident)]
    rfl
  rw [e]; exact this

theorem mem_outcome (s : Svc) : s.successCond ∈ condsOf s.ident ∧ s.failureCond ∈ condsOf s.ident := by
  have : ∀ t : SType, t ∈ [SType.service, .task, .run, .tty, .sysv] := by
    intro t; cases t <;> decide
  constructor
  · refine .tail _ (.tail _ (List.mem_append_right _ ?_))
    exact List.mem_flatMap.mpr ⟨s.type, this _, .head _⟩
  · refine .tail _ (.tail _ (List.mem_append_right _ ?_))
    exact List.mem_flatMap.mpr ⟨s.type, this _, .tail _ (.head _)⟩

theorem mem_status (s t : Svc) : s.svcDir ++ t.statusStr ∈ condsOf s.ident := by
  unfold Svc.statusStr
  split
  · split <;> exact mem_svcStatus s (by decide)
  · exact mem_svcStatus s (by decide)
  · exact mem_svcStatus s (by decide)

theorem publish_nest (hR : NestR E rank R) {k : Key} (old new : SState) {w : World}
    (h : Ctx E rank (Head rank k) w) : Nest E rank w (publish R k old new w) := by
  unfold publish
  extract_lets s w1 w2 s2 w3
  have hs := h.own (mem_outcome s).1
  have hf := h.own (mem_outcome s).2
  have h2 : Nest E rank w w2 := by
    simp only [w2]; split
    · have h1 : Nest E rank w w1 := by
        simp only [w1]; split
        · split
          · exact condOneshotMid_nest hR hs.pub1
          · exact condOneshotMid_nest hR hf.pub1
        · exact .refl w
      split
      · have h3 := h1.trans (condClearMid_nest hR (hs.next h1))
        exact h3.trans (condClearMid_nest hR (hf.next h3))
      · exact h1
    · exact .refl w
  split
  · have c2 := h.next h2
    have h3 : Nest E rank w2 w3 := by
      simp only [w3]; split
      · exact .refl _
      split
      · exact .glob rfl rfl rfl rfl rfl (dropMid_keys _ _) rfl
      · exact condClearMid_nest hR (c2.own (mem_svcDir s2))
    split
    · refine h2.trans (h3.trans (condOneshotMid_nest hR ?_))
      exact ((c2.own (mem_status s2 _)).next h3).pub1
    · exact h2.trans h3
  · exact h2

/-- A step of a service that is put on the stack. -/
theorem Nest.push {w v : World} {k : Key}
    (h : Nest E rank { w with stack := k :: w.stack } v) :
    Nest E rank w { v with stack := w.stack } :=
  ⟨h.ext, h.out.imp_right fun g => ⟨g.reent, rfl, g.keys, g.inSm, g.cfg⟩⟩

theorem Ctx.push {w : World} {k : Key} (h : Ctx E rank (Top rank k) w) :
    Ctx E rank (Top rank k) { w with stack := k :: w.stack } := by
  rcases h with h | ⟨h1, h2, h3⟩
  · exact .inl h
  · refine .inr ⟨⟨h1.1, fun s hs => .tail _ (h1.2 s hs)⟩, h2.congr (e := fun _ => rfl), ?_, h3.2⟩
    intro s hs
    rcases List.mem_cons.mp hs with rfl | hs
    · exact Nat.le_refl _
    · exact h3.1 s hs

theorem setState_nest (hR : NestR E rank R) {k : Key} (new : SState) {w : World}
    (h : Ctx E rank (Top rank k) w) : Nest E rank w (setState R k new w) := by
  unfold setState setStateRaw
  extract_lets old s w1 m tw w3 w2
  have h1 : Nest E rank w w1 := by
    simp only [w1]; split
    · exact (timerCancel_nest _ _).trans (timerAfter_nest _ _ _ _)
    · exact .refl w
  have e1 : (w1.svc k).state = old := by
    simp only [w1]; split
    · exact timer_state _ _ _ _
    · rfl
  simp only [w2, e1]
  by_cases hs : old = new
  · rw [if_pos hs, if_pos hs]; exact h1
  rw [if_neg hs, if_neg hs]
  refine h1.trans ?_
  have c1 := h.next h1
  clear_value w1
  unfold setStateConds
  extract_lets st v
  let u : World := { mod k (fun s => { s with state := new }) (emit (.trans k (w1.svc k).state new) w1) with
    mids := m :: w1.mids, twice := tw, stack := k :: w1.stack }
  have e2 : w1.trace <:+ u.trace := List.suffix_cons _ _
  have ec : ∀ j, (u.svc j).cfg = (w1.svc j).cfg := by
    intro j
    by_cases hj : j = k
    · subst hj; simp only [u, Sup.mod, Sup.emit, upd_same]; rfl
    · simp only [u, Sup.mod, Sup.emit, upd_other _ _ _ _ hj]
  have c2 : Ctx E rank (Head rank k) u := by
    rcases c1 with g | ⟨g1, g2, g3⟩
    · exact .inl (g.mono (s := e2))
    · refine .inr ⟨⟨⟨g1.1.1, ?_⟩, ?_⟩, g2.congr (e := ec), ?_⟩
      · show tw = false
        simp only [tw, g1.1.2, Bool.false_or, decide_eq_false_iff_not]
        exact g3.2
      · intro s hs
        rcases List.mem_cons.mp hs with rfl | hs
        · exact .head _
        · exact .tail _ (g1.2 s hs)
      · intro s hs
        rw [cfg_ident (ec s), cfg_ident (ec k)]
        rcases List.mem_cons.mp hs with rfl | hs
        · exact Nat.le_refl _
        · exact g3.1 s hs
  have h2 : Nest E rank u v := publish_nest hR _ _ c2
  refine ⟨e2.trans h2.ext, h2.out.elim .inl fun g => ?_⟩
  rcases c2 with g' | c2
  · exact .inl (g'.mono (s := h2.ext))
  refine .inr ⟨fun _ => g.reent c2.1.1, rfl, ?_, g.inSm, fun j => (g.cfg j).trans (ec j)⟩
  have := g.keys
  show v.mids.tail.map (·.key) = _
  rw [List.map_tail]
  have e3 : v.mids.map (·.key) = k :: keys w1 := this
  rw [e3]; rfl

theorem serviceStop_nest (hR : NestR E rank R) {k : Key} {w : World}
    (h : Ctx E rank (Top rank k) w) : Nest E rank w (serviceStop E R k w) := by
  unfold serviceStop
  split
  · exact .refl w
  extract_lets w1 plain r w2 w3 r2 w4 r3 w5
  have h1 : Nest E rank w w1 := timerCancel_nest _ _
  split
  · exact h1
  have h2 : Nest E rank w w2 := h1.trans (procExists_nest _ _)
  split
  · have := h2.trans (serviceCleanup_nest k w2)
    exact this.trans (setState_nest hR _ (h.next this))
  have h3 : Nest E rank w w3 := h2.trans (.mod rfl)
  have h4 : Nest E rank w w4 := h3.trans (procExists_nest _ _)
  split
  · exact h4.trans (.mod rfl)
  have h5 : Nest E rank w w5 := h4.trans (stopAct_nest _ _)
  split
  · have := h5.trans (serviceCleanup_nest k w5)
    exact this.trans (setState_nest hR _ (h.next this))
  · exact h5.trans (setState_nest hR _ (h.next h5))

theorem monitorTail_nest (hR : NestR E rank R) {k : Key} (lost : Int) {w : World}
    (h : Ctx E rank Resting w) : NestSm E rank w (monitorTail R k lost w) := by
  unfold monitorTail
  extract_lets w0 w1 w2 w3
  have h1 : Nest E rank w w1 := by
    simp only [w1]; split
    · have h0 : Nest E rank w w0 := .mod rfl
      exact h0.trans (.glob rfl rfl rfl rfl rfl)
    · exact .refl w
  have h2 : Nest E rank w w2 := h1.trans (hR.step k w1 ((h.next h1).idle.below k))
  have h3 : Nest E rank w w3 := h2.trans (cleanBootstrap_nest k w2)
  exact h3.sm.trans (hR.sm w3 (h.next h3))

theorem monitor_nest (hR : NestR E rank R) (lost : Int) (st : WStatus) {w : World}
    (h : Ctx E rank Resting w) : NestSm E rank w (monitor E R lost st w) := by
  unfold monitor
  split
  · exact .refl w
  extract_lets w1
  have h1 : Nest E rank w w1 := by
    simp only [w1]
    rcases h with h | ⟨_, _, h⟩
    · split
      · exact ⟨List.suffix_refl _, .inl h⟩
      · exact .refl w
    · rw [if_neg (by rw [h.1.1]; exact fun h => h rfl)]; exact .refl w
  clear_value w1
  split
  · exact (h1.trans (scriptDel_nest _ _)).sm
  · rename_i k _
    have h2 := h1.trans (monitorHead_nest k st w1)
    exact h2.sm.trans (monitorTail_nest hR _ (h.next h2))

theorem serviceReload_nest (hR : NestR E rank R) {k : Key} {w : World}
    (h : Ctx E rank (Top rank k) w) (he : enabled w.toCore k = true) :
    Nest E rank w (serviceReload E R k w) := by
  unfold serviceReload
  extract_lets r x w1 s r2 rc w2 r3 esrch w3
  have h1 : Nest E rank w w1 := askB_nest w
  split
  · exact h1
  split
  · have h2 : Nest E rank w w2 := h1.trans (runScript_nest _ _ _)
    split
    · exact h2.trans (.mod rfl)
    · exact h2
  split
  · rename_i hsig
    split
    · exact h1.trans (.mod rfl)
    rename_i hp
    have h3 : Nest E rank w w3 := h1.trans (kill_nest _ _ _ _ _)
    split
    · rename_i hes
      have hl : Lost E rank w3.trace := by
        rcases h.next h1 with g | ⟨g1, g2, g3⟩
        · exact g.mono (s := (kill_nest (E := E) (rank := rank) s.pid 1 .hup k w1).ext)
        · refine ⟨(w1.toCore, .kill s.pid 1 .hup k), .head _, k, rfl, g1.1.1, ?_, ?_, he, hsig, g2⟩
          · exact Int.not_le.mp hp
          · have : esrch = true := hes
            have := ((Bool.and_eq_true _ _).mp this).2
            have := of_decide_eq_false (Bool.not_eq_true' _ ▸ this)
            exact this
      exact h3.trans ((monitor_nest hR _ _ (.inl hl)).lost hl)
    · exact h3.trans (.mod rfl)
  · exact h1

theorem serviceReady_nest (hR : NestR E rank R) {k : Key} (on : Bool) {w : World}
    (h : Ctx E rank (Top rank k) w) : Nest E rank w (serviceReady E R k on w) := by
  unfold serviceReady
  split
  · exact .refl w
  split
  · extract_lets w1
    have h1 : Nest E rank w w1 := condSet_nest hR (h.head.own (mem_readyCond _)).pub1
    split
    · exact h1.trans (readyScript_nest _ _)
    · exact h1
  · exact condClear_nest hR (h.head.own (mem_readyCond _))

/-! ### `service_step` -/

theorem stepHalted_nest (hR : NestR E rank R) {k : Key} (en : Bool) {w : World}
    (h : Ctx E rank (Top rank k) w) : Nest E rank w (stepHalted R k en w) := by
  unfold stepHalted
  split
  · exact setState_nest hR _ h
  split
  · exact setState_nest hR _ h
  split
  · split
    · exact .mod rfl
    · exact .refl w
  · exact .refl w

theorem stepTeardown_nest (hR : NestR E rank R) {k : Key} {w : World}
    (h : Ctx E rank (Top rank k) w) : Nest E rank w (stepTeardown E R k w) := by
  unfold stepTeardown
  split
  · extract_lets w1 w2
    have h1 : Nest E rank w w1 := timerCancel_nest _ _
    split
    · exact (h1.trans (setState_nest hR _ (h.next h1))).trans (scriptFork_nest _ _ _ _)
    · exact h1.trans (setState_nest hR _ (h.next h1))
  · exact .refl w

theorem stepCleanup_nest (hR : NestR E rank R) {k : Key} {w : World}
    (h : Ctx E rank (Top rank k) w) : Nest E rank w (stepCleanup R k w) := by
  unfold stepCleanup
  split
  · exact setState_nest hR _ h
  · exact .refl w

theorem stepDone_nest (hR : NestR E rank R) {k : Key} (en : Bool) {w : World}
    (h : Ctx E rank (Top rank k) w) : Nest E rank w (stepDone R k en w) := by
  unfold stepDone
  extract_lets w1
  have h1 : Nest E rank w w1 := by
    simp only [w1]; split
    · exact setState_nest hR _ h
    · exact .refl w
  split
  · exact h1.trans (setState_nest hR _ (h.next h1))
  · exact h1

theorem stepStopping_nest (hR : NestR E rank R) {k : Key} {w : World}
    (h : Ctx E rank (Top rank k) w) : Nest E rank w (stepStopping E R k w) := by
  unfold stepStopping
  split
  · extract_lets w1 w2 w3 w4 w5 w6
    have h2 : Nest E rank w w2 := (Nest.mod rfl).trans (timerCancel_nest _ _)
    have h3 : Nest E rank w w3 := h2.trans (condClear_nest hR ((h.next h2).head.own (mem_pidCond _)))
    have c3 := h.next h3
    split
    · have h4 : Nest E rank w w4 := by
        simp only [w4]; split
        · exact h3.trans (.mod rfl)
        · exact h3
      exact h4.trans (setState_nest hR _ (h.next h4))
    split
    · exact (h3.trans (setState_nest hR _ c3)).trans (scriptFork_nest _ _ _ _)
    split
    · exact (h3.trans (setState_nest hR _ c3)).trans (scriptFork_nest _ _ _ _)
    · exact h3.trans (setState_nest hR _ c3)
  · exact .refl w

theorem stepSetup_nest (hR : NestR E rank R) {k : Key} (en : Bool) {w : World}
    (h : Ctx E rank (Top rank k) w) : Nest E rank w (stepSetup E R k en w) := by
  unfold stepSetup
  split
  · exact serviceStop_nest hR h
  split
  · split
    · exact (setState_nest hR _ h).trans (.mod rfl)
    · exact setState_nest hR _ h
  · exact .refl w

theorem stepWaiting_nest (hR : NestR E rank R) {k : Key} (en : Bool) {w : World}
    (h : Ctx E rank (Top rank k) w) : Nest E rank w (stepWaiting E R k en w) := by
  unfold stepWaiting
  split
  · exact setState_nest hR _ h
  split
  · split
    · exact .refl w
    extract_lets r x w1 w2
    have h1 : Nest E rank w w1 := askB_nest w
    split
    · exact h1
    split
    · have : Nest E rank w (mod k (fun s => { s with block := .conflict }) w1) := h1.trans (.mod rfl)
      exact this.trans (setState_nest hR _ (h.next this))
    split
    · exact (h1.trans (setState_nest hR _ (h.next h1))).trans (scriptFork_nest _ _ _ _)
    · exact h1.trans (setState_nest hR _ (h.next h1))
  · exact .refl w

theorem stepStarting_nest (hR : NestR E rank R) {k : Key} (en : Bool) {w : World}
    (h : Ctx E rank (Top rank k) w) : Nest E rank w (stepStarting E R k en w) := by
  unfold stepStarting
  split
  · exact setState_nest hR _ h
  extract_lets r ok w1 w2
  have h1 : Nest E rank w w1 := serviceStart_nest _ _
  split
  · split
    · exact h1
    split
    · exact h1.trans (setState_nest hR _ (h.next h1))
    · exact (h1.trans (.emit _ _)).trans (.mod rfl)
  · have h2 : Nest E rank w w2 := h1.trans (.mod rfl)
    exact h2.trans (setState_nest hR _ (h.next h2))

theorem enabled_cancel {k : Key} {w : World} (h : enabled w.toCore k = true) :
    enabled (timerCancel k w).toCore k = true := by
  obtain ⟨a, e⟩ := timerCancel_eq k w
  rw [e]
  simpa [enabled] using h

theorem stepRunning_nest (hR : NestR E rank R) {k : Key} {en : Bool} {w : World}
    (h : Ctx E rank (Top rank k) w) (he : en = enabled w.toCore k) :
    Nest E rank w (stepRunning E R k en w).2 := by
  unfold stepRunning
  split
  · exact serviceStop_nest hR h
  rename_i hen
  have hen : enabled w.toCore k = true := by rw [← he]; simpa using hen
  split
  · extract_lets w1 w2
    have h1 : Nest E rank w w1 := .mod rfl
    have h2 : Nest E rank w w2 := h1.trans (setState_nest hR _ (h.next h1))
    split
    · exact h2.trans (timerAfter_nest _ _ _ _)
    · have h3 : Nest E rank w (mod k (fun s => { s with block := .none }) w2) := h2.trans (.mod rfl)
      exact h3
  split
  · extract_lets w1
    have h1 : Nest E rank w w1 := setState_nest hR _ h
    have h2 : Nest E rank w (mod k (fun s =>
      { s with restartTot := s.restartTot + 1, once := (s.once + 1) % 256 }) w1) := h1.trans (.mod rfl)
    exact h2
  extract_lets w1 wk w2 w3
  have h1 : Nest E rank w w1 := timerCancel_nest _ _
  have en1 : enabled w1.toCore k = true := enabled_cancel hen
  have c1 := h.next h1
  clear_value w1
  split
  · exact h1.trans (serviceStop_nest hR c1)
  · have h2 := h1.trans (kill_nest (w1.svc k).pid 19 .pause k w1)
    exact h2.trans (setState_nest hR _ (h.next h2))
  · split
    · exact h1
    have h3 : Nest E rank w w3 := by
      simp only [w3]; split
      · have h2 : Nest E rank w w2 := by
          simp only [w2]; split
          · exact h1.trans (serviceStop_nest hR c1)
          · exact h1.trans (serviceReload_nest hR c1 en1)
        exact h2.trans (.mod rfl)
      · exact h1
    split
    · exact h3.trans (serviceReady_nest hR _ (h.next h3))
    · exact h3

theorem stepPaused_nest (hR : NestR E rank R) {k : Key} (en : Bool) {w : World}
    (h : Ctx E rank (Top rank k) w) : Nest E rank w (stepPaused E R k en w) := by
  unfold stepPaused
  split
  · extract_lets w1
    have h1 : Nest E rank w w1 := kill_nest _ _ _ _ _
    exact h1.trans (serviceStop_nest hR (h.next h1))
  split
  · have h1 : Nest E rank w (mod k (fun s => { s with restartCnt := schar (s.restartCnt + 1) })
        (emit (.bump k) w)) := (Nest.emit _ _).trans (.mod rfl)
    exact h1.trans (setState_nest hR _ (h.next h1))
  split
  · extract_lets w1 w2 w3
    have h1 : Nest E rank w w1 := kill_nest _ _ _ _ _
    have h2 : Nest E rank w w2 := h1.trans (setState_nest hR _ (h.next h1))
    split
    · have h3 : Nest E rank w w3 := by
        simp only [w3]; split
        · exact h2.trans (.glob rfl rfl rfl rfl rfl)
        · exact h2
      exact h3.trans (serviceReady_nest hR _ (h.next h3))
    · exact h2
  · extract_lets w1
    have h1 : Nest E rank w w1 := kill_nest _ _ _ _ _
    exact h1.trans (serviceStop_nest hR (h.next h1))
  · exact .refl w

theorem stepBranch_nest (hR : NestR E rank R) {k : Key} {w : World}
    (h : Ctx E rank (Top rank k) w) : Nest E rank w (stepBranch E R k w).2 := by
  unfold stepBranch
  extract_lets en
  split
  · exact stepHalted_nest hR _ h
  · exact stepTeardown_nest hR h
  · exact stepCleanup_nest hR h
  · exact .refl w
  · exact stepDone_nest hR _ h
  · exact stepStopping_nest hR h
  · exact stepSetup_nest hR _ h
  · exact stepWaiting_nest hR _ h
  · exact stepStarting_nest hR _ h
  · exact stepRunning_nest hR h rfl
  · exact stepPaused_nest hR _ h

theorem stepLoop_nest (hR : NestR E rank R) {k : Key} {w : World}
    (h : Ctx E rank (Top rank k) w) : Nest E rank w (stepLoop E R k w) := by
  unfold stepLoop
  extract_lets old r x w1
  have h1 : Nest E rank w w1 := stepBranch_nest hR h
  split
  · exact h1
  split
  · exact (h1.trans (hR.loop k w1 (h.next h1))).trans (schedule_nest _)
  split
  · exact h1.trans (schedule_nest _)
  · exact h1

theorem serviceStep_nest (hR : NestR E rank R) {k : Key} {w : World}
    (h : Ctx E rank (Below rank k) w) : Nest E rank w (serviceStep E R k w) := by
  unfold serviceStep
  split
  · exact .refl w
  extract_lets st w1 w2 w3
  have h1 : Nest E rank w w1 := touch_nest h
  have c1 : Ctx E rank (Top rank k) w1 := by
    rcases h.next h1 with g | ⟨g1, g2, g3⟩
    · exact .inl g
    · refine .inr ⟨g1, g2, fun s hs => Nat.le_of_lt (g3 s hs), fun hk => ?_⟩
      exact Nat.lt_irrefl _ (g3 k (g1.2 k hk))
  have e1 : w1.stack = st := by simp only [w1, touch]; split <;> rfl
  have h3 : Nest E rank { w1 with stack := k :: w1.stack } w3 := by
    have : w2 = { w1 with stack := k :: w1.stack } := by simp only [w2, e1]
    rw [← this]
    exact stepLoop_nest hR (this ▸ c1.push)
  have := Nest.push h3
  rw [e1] at this
  exact h1.trans this

end

end Verif.Sup
