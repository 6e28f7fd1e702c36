import Verif.Sup.Ends
import Verif.Sup.NestFree

/-!
# Supervisor model: the handling of an event ends (continued)

Registration, `sm_step`, and the events.
-/

namespace Verif.Sup

open Verif (CStr CondStore)

section
variable {E : Env} {rank : CStr → Nat} {Q : World → Prop} {R : Rec} {M L a b : Nat}

/-- Each service of the configuration waits for, and tests with `if:`, only conditions of services
    before it; ranks start at 1. -/
def Sound (E : Env) (rank : CStr → Nat) : Prop :=
  (∀ i, 0 < rank i) ∧ ∀ t, ∀ z ∈ E.conf t, ∀ i, Applies E z i → ∀ n ∈ z.waits ++ testsOf z.ifstmt,
    ∀ j, Hits j (condPath n) → rank j < rank i

/-- No configuration has more than `L0` services, and none is of a rank above `M`. -/
def Within (E : Env) (rank : CStr → Nat) (M L0 : Nat) : Prop :=
  ∀ t, (E.conf t).length ≤ L0 ∧ ∀ z ∈ E.conf t, rank z.full ≤ M

/-! ### Registration -/

theorem parseCond_tokens (z : Stanza) (s : Svc) {n : CStr}
    (h : n ∈ tokens isComma (parseCond z.cond s).cond) : n ∈ z.waits ∨ n ∈ tokens isComma s.cond := by
  unfold Stanza.waits
  have join : ∀ body : CStr, tokens isComma (List.intercalate [','] (tokens isComma body)) = tokens isComma body :=
    fun body => tokens_joined _ fun c hc => by
      have := (mem_tokens_iff _ _ _).mp hc
      exact ⟨this.1, this.2.1⟩
  cases hz : z.cond with
  | none => rw [hz] at h; cases h
  | some a =>
    rw [hz] at h
    dsimp only
    have e1 : (if s.type.isDaemon then { s with sighup := true } else s).cond = s.cond := by
      split <;> rfl
    by_cases hb : a.head? = some '!'
    · obtain ⟨r, rfl⟩ : ∃ r, a = '!' :: r := by
        cases a with
        | nil => cases hb
        | cons c r => rw [List.head?_cons, Option.some.injEq] at hb; exact ⟨r, by rw [hb]⟩
      rw [parseCond_bang] at h
      rw [if_pos hb]
      extract_lets s1 s2 at h
      have e2 : s2.cond = s.cond := by
        rw [← e1]; simp only [s2]; split <;> rfl
      split at h
      · rw [e2] at h; exact .inr h
      · left
        have h : n ∈ tokens isComma (List.intercalate [','] (tokens isComma (r.takeWhile (· ≠ '>')))) := h
        rw [join] at h; exact h
    · rw [parseCond_plain hb] at h
      rw [if_neg hb]
      extract_lets s1 at h
      split at h
      · rw [e1] at h; exact .inr h
      · left
        have h : n ∈ tokens isComma (List.intercalate [','] (tokens isComma (a.takeWhile (· ≠ '>')))) := h
        rw [join] at h; exact h

theorem applyStanza_ifstmt (z : Stanza) (x y : Bool) (s : Svc) : (applyStanza z x y s).ifstmt = z.ifstmt := by
  unfold applyStanza
  extract_lets s1 s2 s3 s4 ad s5
  have e4 : s4.ifstmt = s3.ifstmt := by
    by_cases hc : s3.type.isDaemon = true ∧ s3.restartTmo = 0
    · simp only [s4]; rw [if_pos hc]
    · simp only [s4]; rw [if_neg hc]
  have e5 : s5.ifstmt = s4.ifstmt := by
    by_cases hc : (y || ad) = true
    · simp only [s5]; rw [if_pos hc]
    · simp only [s5]; rw [if_neg hc]
  show s5.ifstmt = _
  rw [e5, e4]

theorem applyStanza_zs (z : Stanza) (x y : Bool) (s : Svc) : (applyStanza z x y s).zs = s.zs := by
  unfold applyStanza
  obtain ⟨c, h, o, e⟩ := parseCond_eq z.cond { s with levels := z.levels }
  extract_lets s1 s2 s3 s4 ad s5
  have e2 : s2.zs = s.zs := by
    have : s2 = { s with levels := z.levels, cond := c, sighup := h, once := o } := e
    rw [this]
  have e4 : s4.zs = s3.zs := by
    by_cases hc : s3.type.isDaemon = true ∧ s3.restartTmo = 0
    · simp only [s4]; rw [if_pos hc]
    · simp only [s4]; rw [if_neg hc]
  have e5 : s5.zs = s4.zs := by
    by_cases hc : (y || ad) = true
    · simp only [s5]; rw [if_pos hc]
    · simp only [s5]; rw [if_neg hc]
  show s5.zs = _
  rw [e5, e4]
  exact e2

/-- What a service looks at after a stanza has been applied. -/
theorem apply_reads (hS : Sound E rank) {z : Stanza} {t : Nat} (hz : z ∈ E.conf t) {s : Svc} (x y : Bool)
    (ha : Applies E z s.ident)
    (h : ∀ n ∈ s.reads, ∀ i, Hits i (condPath n) → rank i < rank s.ident) :
    ∀ n ∈ (applyStanza z x y s).reads, ∀ i, Hits i (condPath n) → rank i < rank (applyStanza z x y s).ident := by
  obtain ⟨f1, _, _, _, f5, _⟩ := applyStanza_fields z x y s
  intro n hn i hi
  rw [f1]
  unfold Svc.reads at hn
  rw [f5, applyStanza_ifstmt] at hn
  rcases List.mem_append.mp hn with g | g
  · rcases parseCond_tokens z _ g with g | g
    · exact hS.2 t z hz _ ha n (List.mem_append_left _ g) i hi
    · exact h n (List.mem_append_left _ g) i hi
  · exact hS.2 t z hz _ ha n (List.mem_append_right _ g) i hi

/-- What is known of a service at any time. -/
structure Known (E : Env) (rank : CStr → Nat) (s : Svc) : Prop where
  zs : ∀ z ∈ s.zs, Applies E z s.ident
  tty : s.type = .tty → s.dev = [] ∨ ∃ t, ∃ y ∈ E.conf t, y.type = .tty ∧ y.dev = s.dev ∧ s.ident = y.full
  reads : ∀ n ∈ s.reads, ∀ i, Hits i (condPath n) → rank i < rank s.ident

theorem Known.same {s t : Svc} (h : Known E rank s) (e1 : t.zs = s.zs) (e2 : t.ident = s.ident)
    (e3 : t.type = s.type) (e4 : t.dev = s.dev) (e5 : t.reads = s.reads) : Known E rank t := by
  constructor
  · rw [e1, e2]; exact h.zs
  · rw [e3, e4, e2]; exact h.tty
  · rw [e5, e2]; exact h.reads

theorem findByTty_some {c : Core} {d : CStr} {k : Key} (h : findByTty c d = some k) : d ≠ [] := by
  rintro rfl
  unfold findByTty at h
  simp at h

theorem Known.prim (hS : Sound E rank) {lab : Lab} {a b : World} (p : Prim E lab a b)
    (h : ∀ j, Known E rank (a.svc j)) (j : Key) : Known E rank (b.svc j) := by
  have g := h j
  cases p.view j with
  | same e => rw [e]; exact g
  | mod s' hm e =>
    rw [e]
    cases hm with
    | minor _ hm => rw [hm]; exact g.same rfl rfl rfl rfl rfl
    | apply z x y ho ht hb hk hz hh hs hf hr hc =>
      obtain ⟨t, _, hzt⟩ := hc
      obtain ⟨f1, f2, f3, f4, f5, f6⟩ := applyStanza_fields z x y (a.svc j)
      have ha := g.zs z hz
      have ez : (applyStanza z x y (a.svc j)).zs = (a.svc j).zs := by
        exact applyStanza_zs z x y _
      refine ⟨?_, ?_, apply_reads hS hzt x y ha g.reads⟩
      · rw [ez, f1]; exact g.zs
      · rw [f2, f4, f1]
        intro htt
        have hzt' : z.type = .tty := ht ▸ htt
        by_cases hd : z.dev = []
        · rw [if_neg fun h => h.2 hd]; exact g.tty htt
        · rw [if_pos ⟨hzt', hd⟩]
          right
          rcases ha with ha | ⟨_, t', y, hy, y1, y2, y3⟩
          · exact ⟨t, z, hzt, hzt', rfl, ha⟩
          · exact ⟨t', y, hy, y1, y2, y3⟩
    | _ => exact g.same rfl rfl rfl rfl rfl
  | state new t x hm ht e => rw [e]; exact g.same rfl rfl rfl rfl rfl
  | force _ _ _ _ _ _ e => rw [e]; exact g.same rfl rfl rfl rfl rfl
  | respawn _ _ _ _ e => rw [e]; exact g.same rfl rfl rfl rfl rfl
  | giveUp _ _ _ _ _ _ _ _ e => rw [e]; exact g.same rfl rfl rfl rfl rfl
  | again _ _ _ _ _ _ _ _ _ e => rw [e]; exact g.same rfl rfl rfl rfl rfl
  | age _ _ e => rw [e]; exact g.same rfl rfl rfl rfl rfl
  | bump _ e => rw [e]; exact g.same rfl rfl rfl rfl rfl
  | marks r d hr hp hs e => rw [e]; exact g.same rfl rfl rfl rfl rfl
  | start _ _ _ _ _ _ _ e => rw [e]; exact g.same rfl rfl rfl rfl rfl
  | startBad _ _ _ _ _ _ _ _ e => rw [e]; exact g.same rfl rfl rfl rfl rfl
  | script _ _ _ _ _ _ e => rw [e]; exact g.same rfl rfl rfl rfl rfl
  | exit s' _ _ hs ht e => rw [e, hs]; exact g.same rfl rfl rfl rfl rfl
  | delBoot _ _ e => rw [e]; exact g.same rfl rfl rfl rfl rfl
  | reg z hf hz hs ht e =>
    obtain ⟨t, hz⟩ := hz
    rw [e]
    refine ⟨?_, ?_, g.reads⟩
    · intro y hy
      rcases List.mem_cons.mp hy with rfl | hy
      · by_cases hn : y.type = .tty
        · obtain ⟨e1, e2⟩ := regFind_tty hf hn
          have hd : y.dev ≠ [] := by
            unfold regFind at hf; rw [if_pos hn] at hf; exact findByTty_some hf
          rcases g.tty e1 with g | ⟨t', x, hx, x1, x2, x3⟩
          · exact absurd (e2.symm.trans g) hd
          · exact .inr ⟨hn, t', x, hx, x1, x2.trans e2, x3⟩
        · left
          obtain ⟨e1, e2⟩ := regFind_name hf hn
          show (a.svc j).ident = _
          unfold Svc.ident Stanza.full; rw [e1, e2]
      · exact g.zs y hy
    · intro hn
      exact g.tty (regFind_tty hf hn).1
  | new z hn hlt hz hs ht e =>
    rw [e]
    refine ⟨?_, fun _ => .inl rfl, ?_⟩
    · intro y hy
      cases List.mem_singleton.mp hy
      exact .inl rfl
    · intro n hn; cases hn

theorem Reach.readOk (hS : Sound E rank) {w : World} (h : Reach E w) : ReadOk rank w.toCore := by
  have : ∀ j, Known E rank (w.svc j) := Reach.inv (P := fun w => ∀ j, Known E rank (w.svc j))
    (fun _ _ j => ⟨fun _ hz => (nomatch hz), fun h => (nomatch h), fun _ hn => (nomatch hn)⟩)
    (fun _ _ _ _ p h => Known.prim hS p h) h
  exact fun j => ⟨hS.1 _, (this j).reads⟩

/-! ### What the functions of `sm_step` do -/

/-- A situation that depends only on what is being done. -/
class StableSm (Q : World → Prop) : Prop where
  next : ∀ {w v : World}, v.stack = w.stack ∧ keys v = keys w → v.inSm = w.inSm → Q w → Q v

instance : StableSm Idle where
  next e _ h := ⟨e.1.trans h.1, e.2.trans h.2⟩

instance : StableSm Resting where
  next e i h := ⟨⟨e.1.trans h.1.1, e.2.trans h.1.2⟩, i.trans h.2⟩

theorem Ctx.nextQ [StableSm Q] {w v : World} (h : Ctx E rank Q w) (n : NestSm E rank w v) : Ctx E rank Q v := by
  rcases h with h | ⟨h1, h2, h3⟩
  · exact .inl (h.mono (s := n.ext))
  · rcases n.out with g | g
    · exact .inl g
    · refine .inr ⟨⟨g.1 h1.1, ?_⟩, g.2.2.2 h2, StableSm.next g.2.1 g.2.2.1 h3⟩
      rw [g.2.1.1, g.2.1.2]; exact h1.2

/-- A statement on the state of the state machine, the runlevel asked for and whether a reload has
    been asked for. -/
abbrev CtlP := SmSt → Int → Bool → Prop

/-- In which situation a function is called; `l` bounds the number of services. -/
structure Cs (E : Env) (rank : CStr → Nat) (M l : Nat) (Q : World → Prop) (C : CtlP) (w : World) : Prop where
  ctx : Ctx E rank Q w
  ok : Lost E rank w.trace ∨ (ReadOk rank w.toCore ∧ Bnd rank M l w ∧ C w.sm w.newlevel w.reload)

/-- What a function does. -/
structure Gs (E : Env) (rank : CStr → Nat) (M l : Nat) (C : CtlP) (w v : World) : Prop where
  nest : NestSm E rank w v
  out : Lost E rank v.trace ∨
    (v.oof = w.oof ∧ ReadOk rank v.toCore ∧ Bnd rank M l v ∧ C v.sm v.newlevel v.reload)

variable {l l' : Nat} {C C' : CtlP}

theorem Cs.go [StableSm Q] {w v : World} (h : Cs E rank M l Q C w) (g : Gs E rank M l' C' w v) :
    Cs E rank M l' Q C' v := ⟨h.ctx.nextQ g.nest, g.out.imp_right fun x => x.2⟩

theorem Cs.refl {w : World} (h : Cs E rank M l Q C w) : Gs E rank M l C w w :=
  ⟨.refl w, h.ok.imp_right fun x => ⟨rfl, x⟩⟩

theorem Gs.trans {u v w : World} (h1 : Gs E rank M l C u v) (h2 : Gs E rank M l' C' v w) :
    Gs E rank M l' C' u w := by
  refine ⟨h1.nest.trans h2.nest, ?_⟩
  rcases h2.out with g | g
  · exact .inl g
  · rcases h1.out with f | f
    · exact .inl (f.mono (s := h2.nest.ext))
    · exact .inr ⟨g.1.trans f.1, g.2⟩

theorem Bnd.mono {w : World} {M' : Nat} (h : Bnd rank M l w) (hl : l ≤ l') (hM : M ≤ M') : Bnd rank M' l' w :=
  ⟨h.ord, Nat.le_trans h.len hl, fun j hj => Nat.le_trans (h.rank j hj) hM⟩

theorem Gs.mono {w v : World} (h : Gs E rank M l C w v) (hl : l ≤ l') (hc : ∀ s n r, C s n r → C' s n r) :
    Gs E rank M l' C' w v :=
  ⟨h.nest, h.out.imp_right fun x => ⟨x.1, x.2.1, x.2.2.1.mono hl (Nat.le_refl _), hc _ _ _ x.2.2.2⟩⟩

theorem Cs.mono {w : World} (h : Cs E rank M l Q C w) (hl : l ≤ l') (hc : ∀ s n r, C s n r → C' s n r) :
    Cs E rank M l' Q C' w :=
  ⟨h.ctx, h.ok.imp_right fun x => ⟨x.1, x.2.1.mono hl (Nat.le_refl _), hc _ _ _ x.2.2⟩⟩

theorem Cs.cx {w : World} (h : Cs E rank M l Q C w) (hl : l ≤ L) : Cx E rank M L Q w :=
  ⟨h.ctx, h.ok.imp_right fun x => ⟨x.1, x.2.1.mono hl (Nat.le_refl _)⟩⟩

theorem Cs.idle {w : World} (h : Cs E rank M l Resting C w) : Cs E rank M l Idle C w := ⟨h.ctx.idle, h.ok⟩

/-- A function that reads no configuration and deletes no service. -/
theorem Cs.ends {w v : World} (h : Cs E rank M l Q C w) (e : InTime E rank a b w v) : Gs E rank M l C w v := by
  refine ⟨e.nest.sm, ?_⟩
  rcases h.ok with g | g
  · exact .inl (g.mono (s := e.nest.ext))
  · refine e.out.imp_right fun f => ⟨f.oof, g.1.congr f.cfg, g.2.1.next f, ?_⟩
    rw [f.sm, f.newlevel, f.reload]; exact g.2.2

theorem Cs.lost {w v : World} (h : Lost E rank w.trace) (n : NestSm E rank w v) : Gs E rank M l C w v :=
  ⟨n, .inl (h.mono (s := n.ext))⟩

/-- An update of services that leaves alone what they look at. -/
theorem Cs.svcs {w v : World} (h : Cs E rank M l Q C w) (n : NestSm E rank w v) (ho : v.order = w.order)
    (hk : v.nextKey = w.nextKey) (hf : v.oof = w.oof)
    (hs : ∀ j, (v.svc j).ident = (w.svc j).ident ∧ (v.svc j).reads = (w.svc j).reads)
    (hc : C w.sm w.newlevel w.reload → C' v.sm v.newlevel v.reload) : Gs E rank M l C' w v := by
  refine ⟨n, ?_⟩
  rcases h.ok with g | g
  · exact .inl (g.mono (s := n.ext))
  · refine .inr ⟨hf, ?_, ⟨⟨?_, ?_⟩, ?_, ?_⟩, hc g.2.2⟩
    · intro j
      rw [(hs j).1, (hs j).2]; exact g.1 j
    · rw [ho]; exact g.2.1.ord.1
    · rw [ho, hk]; exact g.2.1.ord.2
    · rw [ho]; exact g.2.1.len
    · rw [ho]; intro j hj; rw [(hs j).1]; exact g.2.1.rank j hj

theorem Cs.glob {w v : World} (h : Cs E rank M l Q C w) (n : NestSm E rank w v) (hs : v.svc = w.svc)
    (ho : v.order = w.order) (hk : v.nextKey = w.nextKey) (hf : v.oof = w.oof)
    (hc : C w.sm w.newlevel w.reload → C' v.sm v.newlevel v.reload) : Gs E rank M l C' w v :=
  h.svcs n ho hk hf (fun j => by rw [hs]; exact ⟨rfl, rfl⟩) hc

/-- A frame for functions that may delete services. -/
theorem Cs.del {w v : World} (h : Cs E rank M l Q C w) (n : NestSm E rank w v) {p : Key → Bool}
    (ho : v.order = w.order.filter p)
    (hk : v.nextKey = w.nextKey) (hf : v.oof = w.oof) (hs : ∀ j, (v.svc j).cfg = (w.svc j).cfg)
    (hc : v.sm = w.sm ∧ v.newlevel = w.newlevel ∧ v.reload = w.reload) : Gs E rank M l C w v := by
  refine ⟨n, ?_⟩
  rcases h.ok with g | g
  · exact .inl (g.mono (s := n.ext))
  · refine .inr ⟨hf, g.1.congr hs, ⟨⟨?_, ?_⟩, ?_, ?_⟩, ?_⟩
    · rw [ho]; exact g.2.1.ord.1.filter _
    · rw [ho, hk]; intro j hj; exact g.2.1.ord.2 j (List.mem_filter.mp hj).1
    · rw [ho]; exact Nat.le_trans (List.length_filter_le _ _) g.2.1.len
    · rw [ho]; intro j hj; rw [cfg_ident (hs j)]; exact g.2.1.rank j (List.mem_filter.mp hj).1
    · rw [hc.1, hc.2.1, hc.2.2]; exact g.2.2

/-! ### Registration, continued -/

theorem register_gs (hE : Ranked E rank) (hS : Sound E rank) {z : Stanza} {t : Nat} (hz : z ∈ E.conf t)
    (hM : rank z.full ≤ M) {w : World} (h : Cs E rank M l Q C w) :
    Gs E rank M (l + 1) C w (register E z w) := by
  have hN := register_nest hE hz w
  refine ⟨hN, ?_⟩
  rcases h.ctx with g | ⟨_, hcfg, _⟩
  · exact .inl (g.mono (s := hN.ext))
  rcases h.ok with g | ⟨g1, g2, g3⟩
  · exact .inl (g.mono (s := hN.ext))
  right
  clear hN h
  have same : ∀ v : World, v.svc = w.svc → v.order = w.order → v.nextKey = w.nextKey → v.oof = w.oof →
      v.sm = w.sm → v.newlevel = w.newlevel → v.reload = w.reload →
      v.oof = w.oof ∧ ReadOk rank v.toCore ∧ Bnd rank M (l + 1) v ∧ C v.sm v.newlevel v.reload := by
    intro v e1 e2 e3 e4 e5 e6 e7
    refine ⟨e4, g1.congr (fun j => by rw [e1]), ⟨⟨?_, ?_⟩, ?_, ?_⟩, ?_⟩
    · rw [e2]; exact g2.ord.1
    · rw [e2, e3]; exact g2.ord.2
    · rw [e2]; exact Nat.le_succ_of_le g2.len
    · rw [e2, e1]; exact g2.rank
    · rw [e5, e6, e7]; exact g3
  unfold register
  split
  · exact same _ rfl rfl rfl rfl rfl rfl rfl
  split
  · exact same _ rfl rfl rfl rfl rfl rfl rfl
  extract_lets r w1 k w2 ra rc
  split
  · exact same _ rfl rfl rfl rfl rfl rfl rfl
  have e1 : w1.toCore.svc = w.svc ∧ w1.order = w.order ∧ w1.nextKey = w.nextKey ∧ w1.oof = w.oof ∧
    w1.sm = w.sm ∧ w1.newlevel = w.newlevel ∧ w1.reload = w.reload := ⟨rfl, rfl, rfl, rfl, rfl, rfl, rfl⟩
  have key : ∃ s0 : Svc, w2.svc = upd w1.svc k s0 ∧ Applies E z s0.ident ∧
      (∀ n ∈ s0.reads, ∀ i, Hits i (condPath n) → rank i < rank s0.ident) ∧ w2.oof = w1.oof ∧
      ((w2.order = w1.order ∧ w2.nextKey = w1.nextKey ∧ s0.ident = (w1.svc k).ident) ∨
        (w2.order = w1.order ++ [k] ∧ w2.nextKey = w1.nextKey + 1 ∧ k = w1.nextKey ∧ s0.ident = z.full)) ∧
      w2.sm = w1.sm ∧ w2.newlevel = w1.newlevel ∧ w2.reload = w1.reload := by
    simp only [w2, k]
    cases hf : regFind z w1.toCore with
    | some j =>
      rw [regObj_some hf, Option.getD_some]
      refine ⟨_, rfl, ?_, (g1 j).2, rfl, .inl ⟨rfl, rfl, rfl⟩, rfl, rfl, rfl⟩
      by_cases hn : z.type = .tty
      · obtain ⟨e1, e2⟩ := regFind_tty hf hn
        obtain ⟨t', y, hy, y1, y2, y3⟩ := hcfg.tty j e1
        exact .inr ⟨hn, t', y, hy, y1, y2.trans e2, y3⟩
      · left
        obtain ⟨e1, e2⟩ := regFind_name hf hn
        show (w1.svc j).ident = _
        unfold Svc.ident Stanza.full; rw [e1, e2]
    | none =>
      rw [regObj_none hf, Option.getD_none]
      exact ⟨_, rfl, .inl rfl, fun _ hn => (nomatch hn), rfl, .inr ⟨rfl, rfl, rfl, rfl⟩, rfl, rfl, rfl⟩
  obtain ⟨s0, e0, ha, hr, ho, hor, hc⟩ := key
  clear_value w2 k w1
  obtain ⟨f1, _⟩ := applyStanza_fields z ra.1 rc.1 s0
  have hsvc : (mod k (applyStanza z ra.1 rc.1) rc.2).svc = upd w1.svc k (applyStanza z ra.1 rc.1 s0) := by
    show upd w2.svc k _ = _
    rw [show rc.2.svc k = s0 by show w2.svc k = s0; rw [e0, upd_same], e0]
    funext j
    by_cases hj : j = k
    · subst hj; simp
    · rw [upd_other _ _ _ _ hj, upd_other _ _ _ _ hj, upd_other _ _ _ _ hj]
  have hord : (mod k (applyStanza z ra.1 rc.1) rc.2).order = w2.order := rfl
  have hnx : (mod k (applyStanza z ra.1 rc.1) rc.2).nextKey = w2.nextKey := rfl
  have hof : (mod k (applyStanza z ra.1 rc.1) rc.2).oof = w2.oof := rfl
  have hsm : (mod k (applyStanza z ra.1 rc.1) rc.2).sm = w2.sm := rfl
  have hnl : (mod k (applyStanza z ra.1 rc.1) rc.2).newlevel = w2.newlevel := rfl
  have hrl : (mod k (applyStanza z ra.1 rc.1) rc.2).reload = w2.reload := rfl
  have hread := apply_reads hS hz ra.1 rc.1 ha hr
  revert hsvc hord hnx hof hsm hnl hrl
  generalize mod k (applyStanza z ra.1 rc.1) rc.2 = v
  intro hsvc hord hnx hof hsm hnl hrl
  refine ⟨by rw [hof, ho, e1.2.2.2.1], ?_, ⟨⟨?_, ?_⟩, ?_, ?_⟩, ?_⟩
  · intro j
    refine ⟨hS.1 _, ?_⟩
    rw [hsvc]
    by_cases hj : j = k
    · subst hj; rw [upd_same]; exact hread
    · rw [upd_other _ _ _ _ hj, e1.1]; exact (g1 j).2
  · rw [hord]
    rcases hor with x | x
    · rw [x.1, e1.2.1]; exact g2.ord.1
    · rw [x.1, e1.2.1]
      refine List.nodup_append.mpr ⟨g2.ord.1, List.nodup_cons.mpr ⟨List.not_mem_nil, List.nodup_nil⟩, ?_⟩
      intro p hp q hq
      rw [List.mem_singleton.mp hq, x.2.2.1, e1.2.2.1]
      exact Nat.ne_of_lt (g2.ord.2 p hp)
  · rw [hord, hnx]
    rcases hor with x | x
    · rw [x.1, x.2.1, e1.2.1, e1.2.2.1]; exact g2.ord.2
    · rw [x.1, x.2.1, e1.2.1, e1.2.2.1]
      intro p hp
      rcases List.mem_append.mp hp with hp | hp
      · exact Nat.lt_succ_of_lt (g2.ord.2 p hp)
      · rw [List.mem_singleton.mp hp, x.2.2.1, e1.2.2.1]; exact Nat.lt_succ_self _
  · rw [hord]
    have := g2.len
    rcases hor with x | x
    · rw [x.1, e1.2.1]; omega
    · rw [x.1, e1.2.1, List.length_append, List.length_singleton]; omega
  · rw [hord, hsvc]
    intro j hj
    by_cases hk : j = k
    · subst hk
      rw [upd_same, f1]
      rcases hor with x | x
      · rw [x.2.2, e1.1]; rw [x.1, e1.2.1] at hj; exact g2.rank j hj
      · rw [x.2.2.2]; exact hM
    · rw [upd_other _ _ _ _ hk, e1.1]
      refine g2.rank j ?_
      rcases hor with x | x
      · rw [x.1, e1.2.1] at hj; exact hj
      · rw [x.1, e1.2.1] at hj
        rcases List.mem_append.mp hj with hj | hj
        · exact hj
        · exact absurd (List.mem_singleton.mp hj) hk
  · rw [hsm, hnl, hrl, hc.1, hc.2.1, hc.2.2, e1.2.2.2.2.1, e1.2.2.2.2.2.1, e1.2.2.2.2.2.2]; exact g3

theorem registerAll_gs [StableSm Q] (hE : Ranked E rank) (hS : Sound E rank) {t : Nat} :
    ∀ (zs : List Stanza), (∀ z ∈ zs, z ∈ E.conf t ∧ rank z.full ≤ M) →
    ∀ (l : Nat) (w : World), Cs E rank M l Q C w → Gs E rank M (l + zs.length) C w (registerAll E zs w) := by
  intro zs
  induction zs with
  | nil => exact fun _ l w h => h.refl
  | cons z zs ih =>
    intro hz l w h
    have h1 := register_gs hE hS (hz z (.head _)).1 (hz z (.head _)).2 h
    have h2 := ih (fun z hm => hz z (.tail _ hm)) (l + 1) _ (h.go h1)
    have e : l + 1 + zs.length = l + (z :: zs).length := by simp; omega
    rw [e] at h2
    exact h1.trans h2

theorem markAffected_gs (n : CStr) {w : World} (h : Cs E rank M l Q C w) :
    Gs E rank M l C w (markAffected n w) := by
  refine h.svcs (markAffected_nest n w).sm rfl rfl rfl (fun j => ?_) id
  unfold markAffected; dsimp only; split <;> exact ⟨rfl, rfl⟩

theorem updateRdeps_gs [StableSm Q] : ∀ (ks : List Key) (w : World), Cs E rank M l Q C w →
    Gs E rank M l C w (updateRdeps ks w) := by
  intro ks
  induction ks with
  | nil => exact fun w h => h.refl
  | cons k ks ih =>
    intro w h
    unfold updateRdeps; split
    · have h1 := markAffected_gs (w.svc k).pidCond h
      exact h1.trans (ih _ (h.go h1))
    · exact ih w h

theorem confReload_gs [StableSm Q] (hE : Ranked E rank) (hS : Sound E rank) {L0 : Nat}
    (hW : Within E rank M L0) {w : World} (h : Cs E rank M l Q C w) :
    Gs E rank M (l + L0) C w (confReload E w) := by
  unfold confReload
  extract_lets w1 zs w2 w3 w4 w5
  have h0 : Gs E rank M l C w (emit (.conf w.tick) w) := h.glob (Nest.emit _ w).sm rfl rfl rfl rfl id
  have h1 : Gs E rank M l C w w1 := by
    refine h0.trans ((h.go h0).svcs (markDynamic_nest _) rfl rfl rfl (fun j => ?_) id)
    simp only [w1]; unfold markDynamic; dsimp only; split <;> exact ⟨rfl, rfl⟩
  have h2 : Gs E rank M l C w w2 := h1.trans ((h.go h1).glob (.glob rfl rfl rfl rfl rfl) rfl rfl rfl rfl id)
  have h3 : Gs E rank M (l + L0) C w w3 := by
    have := registerAll_gs hE hS (t := w1.tick) zs (fun z hz => ⟨hz, (hW w1.tick).2 z hz⟩) l w2 (h.go h2)
    exact h2.trans (this.mono (Nat.add_le_add_left (hW w1.tick).1 _) fun _ _ _ x => x)
  have h4 : Gs E rank M (l + L0) C w w4 := h3.trans (updateRdeps_gs _ _ (h.go h3))
  have h4' : Gs E rank M (l + L0) C w (emit .confEnd w4) :=
    h4.trans ((h.go h4).glob (Nest.emit _ w4).sm rfl rfl rfl rfl id)
  have h5 : Gs E rank M (l + L0) C w w5 := by
    refine h4'.trans ((h.go h4').svcs (markUnavail_nest _) rfl rfl rfl (fun j => ?_) id)
    simp only [w5]; unfold markUnavail; dsimp only; split <;> exact ⟨rfl, rfl⟩
  exact h5.trans ((h.go h5).glob (.glob rfl rfl rfl rfl rfl) rfl rfl rfl rfl id)

/-! ### Changing a service from outside -/

theorem fuel_any (r : Nat) (hF : 72 + fuelOf M L 0 ≤ R.fuel) : 72 + fuelOf M L r ≤ R.fuel := by
  unfold fuelOf at *; omega

theorem fuel_le (hF : 72 + fuelOf M L 0 ≤ R.fuel) : L ≤ R.fuel := by
  unfold fuelOf at *; omega

theorem Cx.ck {w : World} (h : Cx E rank M L Idle w) (k : Key) :
    Ck E rank M L k (rank (w.svc k).ident) (fun t => t.state = (w.svc k).state ∧ t.block = (w.svc k).block) w :=
  h.of ((h.ctx.top k).imp fun _ x => ⟨⟨x, rfl⟩, rfl, rfl⟩)

theorem Go.zero {w v : World} {k : Key} {r : Nat} {P : Svc → Prop} (h : Go E rank M L k r P w v) :
    InTime E rank 0 0 w v := h.ends.mono (Nat.zero_le _) (Nat.zero_le _)

theorem step_ends (hR : EndR E rank M L R) (hF : 72 + fuelOf M L 0 ≤ R.fuel) (k : Key) {w : World}
    (h : Cx E rank M L Idle w) : InTime E rank 0 0 w (R.step k w) :=
  (hR.step k w (h.of (h.ctx.below k)) (fuel_any _ hF)).mono (Nat.zero_le _) (Nat.zero_le _)

theorem setState_ends (hR : EndR E rank M L R) (hF : 72 + fuelOf M L 0 ≤ R.fuel) (k : Key) (new : SState) {w : World}
    (h : Cx E rank M L Idle w) : InTime E rank 0 0 w (setState R k new w) :=
  (setState_go (P' := fun _ => True) hR (Nat.le_trans (Nat.le_add_left _ _) (fuel_any _ hF)) new (h.ck k)
    fun _ _ _ _ => trivial).zero

theorem serviceStop_ends (hR : EndR E rank M L R) (hF : 72 + fuelOf M L 0 ≤ R.fuel) (k : Key) {w : World}
    (h : Cx E rank M L Idle w) : InTime E rank 0 0 w (serviceStop E R k w) :=
  (serviceStop_go hR (Nat.le_trans (Nat.le_add_left _ _) (fuel_any _ hF)) (h.ck k)).zero

theorem serviceReady_ends (hR : EndR E rank M L R) (hF : 72 + fuelOf M L 0 ≤ R.fuel) (k : Key) (on : Bool) {w : World}
    (h : Cx E rank M L Idle w) : InTime E rank 0 0 w (serviceReady E R k on w) :=
  (serviceReady_go hR (Nat.le_trans (Nat.le_add_left _ _) (fuel_any _ hF)) on (h.ck k)
    fun _ _ p e => ⟨e.state.trans p.1, e.block.trans p.2⟩).zero

theorem InTime.mod {w : World} {k : Key} {f : Svc → Svc} (hf : (f (w.svc k)).cfg = (w.svc k).cfg) :
    InTime E rank 0 0 w (Sup.mod k f w) := ⟨.mod hf, .inr (.mod (Nat.zero_le _) hf)⟩

theorem InTime.touch {w : World} (h : Cx E rank M L Idle w) (k : Key) : InTime E rank 0 0 w (Sup.touch k w) :=
  touch_ends (h.ctx.below k)

theorem InTime.emit (e : Eff) (w : World) : InTime E rank a b w (Sup.emit e w) := ⟨.emit _ _, .inr (emit_fr _ _)⟩

theorem InTime.cancel (k : Key) (w : World) : InTime E rank 0 0 w (timerCancel k w) :=
  ⟨timerCancel_nest _ _, .inr (timerCancel_fr (Nat.zero_le _))⟩

/-! ### `sm_step` -/

theorem runtaskClean_ends (hR : EndR E rank M L R) (hF : 72 + fuelOf M L 0 ≤ R.fuel) {w : World}
    (h : Cx E rank M L Idle w) : InTime E rank 0 0 w (runtaskClean R w) := by
  have body : ∀ k (w : World), Cx E rank M L Idle w → InTime E rank 0 0 w
      (if (w.svc k).type.isRuntask then
        let w := touch k w
        let w := mod k (fun s => { s with once := if s.sighup then 1 else 0 }) w
        if (w.svc k).state = .done then setState R k .halted w else w
      else w) := by
    intro k w h
    split
    · extract_lets w1 w2
      have h1 : InTime E rank 0 0 w w1 := .touch h k
      have h2 : InTime E rank 0 0 w w2 := h1.trans (.mod rfl)
      split
      · exact h2.trans (setState_ends hR hF _ _ (h.next h2))
      · exact h2
    · exact .refl w
  refine forAll_ends (Q := Idle) (fun k w h => ?_) (fun k w h _ => (body k w h).out) h (fuel_le hF)
  split
  · extract_lets w1 w2
    have h1 : Nest E rank w w1 := touch_nest (h.below k)
    have h2 : Nest E rank w w2 := h1.trans (.mod rfl)
    split
    · exact h2.trans (setState_nest hR.nest _ ((h.next h2).top k))
    · exact h2
  · exact .refl w

theorem hookWrites_ends : ∀ (ns : List CStr) (w : World), InTime E rank 0 0 w (hookWrites ns w) := by
  intro ns
  induction ns with
  | nil => exact fun w => .refl w
  | cons n ns ih =>
    intro w
    unfold hookWrites
    refine InTime.trans ?_ (ih _)
    split
    · exact ⟨.glob rfl rfl rfl rfl rfl, .inr (.conds rfl (setOn_rgen _ _) (fun h => absurd rfl h)
        rfl rfl rfl rfl rfl rfl rfl rfl rfl rfl)⟩
    · exact .refl w

theorem runHook_ends (hR : EndR E rank M L R) (hF : 72 + fuelOf M L 0 ≤ R.fuel) (n : CStr) {w : World}
    (h : Cx E rank M L Idle w) : InTime E rank 0 0 w (runHook E R n w) := by
  unfold runHook
  extract_lets w1 w2
  have h0 : InTime E rank 0 0 w { w with tick := w.tick + 1 } :=
    ⟨.glob rfl rfl rfl rfl rfl, .inr (.glob rfl rfl rfl rfl rfl rfl rfl rfl rfl rfl rfl rfl)⟩
  have h1 : InTime E rank 0 0 w w1 := h0.trans (hookWrites_ends _ _)
  have h2 : InTime E rank 0 0 w w2 := h1.trans (condOneshot_ends hR (fun _ => hF) (fuel_le hF) (Nat.le_refl _)
    (fun h => absurd rfl h) ((h.next h1).pub n).pub1)
  exact h2.trans (stepAll_ends hR hF _ (h.next h2))

theorem pidfileReconf_ends (hR : EndR E rank M L R) (hF : 72 + fuelOf M L 0 ≤ R.fuel) {w : World}
    (h : Cx E rank M L Idle w) : InTime E rank 0 0 w (pidfileReconf E R w) := by
  unfold pidfileReconf
  extract_lets w1
  have h1 : InTime E rank 0 0 w w1 := by
    refine forAll_ends (Q := Idle) (fun k w h => ?_) (fun k w h _ => ?_) h (fuel_le hF)
    · extract_lets s v1 v2
      split
      · have g1 : Nest E rank w v1 := touch_nest (h.below k)
        have g2 : Nest E rank w v2 := by
          simp only [v2]; split
          · exact g1.trans (serviceReady_nest hR.nest _ ((h.next g1).top k))
          · exact g1
        split
        · exact g2
        · exact g2.trans (.glob rfl rfl rfl rfl rfl)
      · exact .refl w
    · refine InTime.out (E := E) (rank := rank) (a := 0) (b := 0) ?_
      extract_lets s v1 v2
      split
      · have g1 : InTime E rank 0 0 w v1 := .touch h k
        have g2 : InTime E rank 0 0 w v2 := by
          simp only [v2]; split
          · exact g1.trans (serviceReady_ends hR hF _ _ (h.next g1))
          · exact g1
        split
        · exact g2
        · exact g2.trans ⟨.glob rfl rfl rfl rfl rfl, .inr (.conds rfl (setOn_rgen _ _) (fun h => absurd rfl h)
            rfl rfl rfl rfl rfl rfl rfl rfl rfl rfl)⟩
      · exact .refl w
  exact h1.trans (stepAll_ends hR hF _ (h.next h1))

theorem notifyReconf_ends (hR : EndR E rank M L R) (hF : 72 + fuelOf M L 0 ≤ R.fuel) {w : World}
    (h : Cx E rank M L Idle w) : InTime E rank 0 0 w (notifyReconf E R w) := by
  refine forAll_ends (Q := Idle) (fun k w h => ?_) (fun k w h _ => ?_) h (fuel_le hF)
  · extract_lets s
    split
    · exact .refl w
    · have g1 : Nest E rank w (touch k w) := touch_nest (h.below k)
      exact g1.trans (serviceReady_nest hR.nest _ ((h.next g1).top k))
  · refine InTime.out (E := E) (rank := rank) (a := 0) (b := 0) ?_
    extract_lets s
    split
    · exact .refl w
    · have g1 : InTime E rank 0 0 w (touch k w) := .touch h k
      exact g1.trans (serviceReady_ends hR hF _ _ (h.next g1))

/-- Going through the services when the one at hand may be deleted. -/
theorem iter_gs {f : Key → World → World} (hn : ∀ k w, Ctx E rank Idle w → Nest E rank w (f k w))
    (hf : ∀ k w, Cs E rank M l Idle C w → Gs E rank M l C w (f k w) ∧
      (Lost E rank (f k w).trace ∨ (f k w).order = w.order ∨ (f k w).order = w.order.filter (· ≠ k))) :
    ∀ (n : Nat) (pre ks : List Key) (w : World), Cs E rank M l Idle C w → w.order = pre ++ ks → ks.length ≤ n →
    Gs E rank M l C w (iter f n ks.head? w) := by
  intro n
  induction n with
  | zero =>
    intro pre ks w h _ hl
    cases ks with
    | nil => exact h.refl
    | cons k ks => simp at hl
  | succ n ih =>
    intro pre ks w h ho hl
    cases ks with
    | nil => exact h.refl
    | cons k ks =>
      obtain ⟨h1, h2⟩ := hf k w h
      show Gs E rank M l C w (iter f n (nextOf w.toCore k) (f k w))
      have c1 := h.go h1
      have hN := iter_nest hn n (nextOf w.toCore k) _ c1.ctx
      rcases h2 with g | g
      · exact h1.trans (Cs.lost g hN.sm)
      rcases h.ok with g' | g'
      · exact h1.trans (Cs.lost (g'.mono (s := h1.nest.ext)) hN.sm)
      have hnd := g'.2.1.ord.1
      rw [nextOf_mid ho hnd]
      have : ∃ pre', (f k w).order = pre' ++ ks := by
        rcases g with g | g
        · exact ⟨pre ++ [k], by rw [g, ho]; simp⟩
        · refine ⟨pre, ?_⟩
          rw [g, ho]
          rw [ho] at hnd
          have hx := List.nodup_append.mp hnd
          have e1 : pre.filter (· ≠ k) = pre := List.filter_eq_self.mpr fun x hx' => by
            simpa using hx.2.2 x hx' k (.head _)
          have e2 : ks.filter (· ≠ k) = ks := List.filter_eq_self.mpr fun x hx' => by
            have := (List.nodup_cons.mp hx.2.1).1
            simp only [decide_eq_true_eq]
            rintro rfl
            exact this hx'
          rw [List.filter_append, List.filter_cons_of_neg (by simp), e1, e2]
      obtain ⟨pre', hp⟩ := this
      exact h1.trans (ih pre' ks _ c1 hp (by simp at hl; omega))

theorem forAll_gs {f : Key → World → World} (hn : ∀ k w, Ctx E rank Idle w → Nest E rank w (f k w))
    (hf : ∀ k w, Cs E rank M l Idle C w → Gs E rank M l C w (f k w) ∧
      (Lost E rank (f k w).trace ∨ (f k w).order = w.order ∨ (f k w).order = w.order.filter (· ≠ k)))
    {w : World} (h : Cs E rank M l Idle C w) (hl : l ≤ R.fuel) : Gs E rank M l C w (forAll R f w) := by
  rcases h.ok with g | g
  · exact Cs.lost g (forAll_nest hn h.ctx).sm
  · exact iter_gs hn hf R.fuel [] w.order w h rfl (Nat.le_trans g.2.1.len hl)

theorem unregister_gs (hR : EndR E rank M L R) (hF : 72 + fuelOf M L 0 ≤ R.fuel) (hl : l ≤ L) (k : Key) {w : World}
    (h : Cs E rank M l Idle C w) : Gs E rank M l C w (unregister E R k w) ∧
      (Lost E rank (unregister E R k w).trace ∨ (unregister E R k w).order = w.order ∨
        (unregister E R k w).order = w.order.filter (· ≠ k)) := by
  unfold unregister
  extract_lets w1 w2
  have h1 : InTime E rank 0 0 w w1 := .touch (h.cx hl) k
  have h2 : InTime E rank 0 0 w w2 := h1.trans (serviceStop_ends hR hF k ((h.cx hl).next h1))
  have h3 : InTime E rank 0 0 w (timerCancel k w2) := h2.trans (.cancel _ _)
  have g3 := h.ends h3
  generalize timerCancel k w2 = v at h3 g3
  refine ⟨g3.trans ((h.go g3).del (svcDel_nest k v).sm (p := (· ≠ k)) rfl rfl rfl (fun _ => rfl) ⟨rfl, rfl, rfl⟩), ?_⟩
  rcases h3.out with x | x
  · exact .inl (x.mono (s := (svcDel_nest (E := E) (rank := rank) k v).ext))
  · right; right
    show v.order.filter _ = _
    rw [x.order]

theorem cleanDynamic_gs (hR : EndR E rank M L R) (hF : 72 + fuelOf M L 0 ≤ R.fuel) (hl : l ≤ L) {w : World}
    (h : Cs E rank M l Idle C w) : Gs E rank M l C w (cleanDynamic E R w) := by
  refine forAll_gs (fun k w h => ?_) (fun k w h => ?_) h (Nat.le_trans hl (fuel_le hF))
  · split
    · exact unregister_nest hR.nest k h
    · exact .refl w
  · split
    · exact unregister_gs hR hF hl k h
    · exact ⟨h.refl, .inr (.inl rfl)⟩

theorem cleanBootstrap_gs (k : Key) {w : World}
    (h : Cs E rank M l Q C w) : Gs E rank M l C w (cleanBootstrap k w) ∧
      ((cleanBootstrap k w).order = w.order ∨ (cleanBootstrap k w).order = w.order.filter (· ≠ k)) := by
  have hN := cleanBootstrap_nest (E := E) (rank := rank) k w
  revert hN
  unfold cleanBootstrap
  split
  · intro hN
    refine ⟨h.del hN.sm (p := (· ≠ k)) rfl rfl rfl (fun j => ?_) ⟨rfl, rfl, rfl⟩, .inr rfl⟩
    show (upd w.svc k _ j).cfg = _
    by_cases hj : j = k
    · subst hj; rw [upd_same]; rfl
    · rw [upd_other _ _ _ _ hj]
  · intro _; exact ⟨h.refl, .inl rfl⟩

theorem pruneBootstrap_gs (hl : l ≤ R.fuel) {w : World}
    (h : Cs E rank M l Idle C w) : Gs E rank M l C w (pruneBootstrap R w) := by
  refine forAll_gs (fun k w h => ?_) (fun k w h => ?_) h hl
  · split
    · exact cleanBootstrap_nest _ _
    · exact .refl w
  · split
    · exact ⟨(cleanBootstrap_gs k h).1, .inr (cleanBootstrap_gs k h).2⟩
    · exact ⟨h.refl, .inr (.inl rfl)⟩

theorem nologinUpdate_gs {w : World} (h : Cs E rank M l Q C w) : Gs E rank M l C w (nologinUpdate w) := by
  have hN := nologinUpdate_nest (E := E) (rank := rank) w
  revert hN
  unfold nologinUpdate
  extract_lets w1
  intro hN
  refine h.glob hN.sm ?_ ?_ ?_ ?_ ?_
  all_goals simp only [w1]
  all_goals (split <;> split <;> first | rfl | exact id)

theorem stepAll_gs (hR : EndR E rank M L R) (hF : 72 + fuelOf M L 0 ≤ R.fuel) (hl : l ≤ L) (p : SType → Bool)
    {w : World} (h : Cs E rank M l Idle C w) : Gs E rank M l C w (stepAll R p w) :=
  h.ends (stepAll_ends hR hF p (h.cx hl))

theorem runHook_gs (hR : EndR E rank M L R) (hF : 72 + fuelOf M L 0 ≤ R.fuel) (hl : l ≤ L) (n : CStr)
    {w : World} (h : Cs E rank M l Idle C w) : Gs E rank M l C w (runHook E R n w) :=
  h.ends (runHook_ends hR hF n (h.cx hl))

theorem condOneshot_gs (hR : EndR E rank M L R) (hF : 72 + fuelOf M L 0 ≤ R.fuel) (hl : l ≤ L) (n : CStr)
    {w : World} (h : Cs E rank M l Idle C w) : Gs E rank M l C w (condOneshot R n w) :=
  h.ends (condOneshot_ends (a := 0) (b := 0) hR (fun _ => hF) (fuel_le hF) (Nat.le_refl _)
    (fun h => absurd rfl h) ((h.cx hl).pub n).pub1)

/-- How often `sm_step` may still go round. -/
def nu (s : SmSt) (n : Int) (r : Bool) : Nat :=
  let x := (if 0 ≤ n ∧ n ≤ 9 then 10 else 0) + (if r then 10 else 0)
  match s with
  | .bootstrap => 40
  | .bootstrapWait => 30
  | .running => x
  | .rlChange => 3 + (if r then 10 else 0)
  | .rlWait => 2 + x
  | .rlClean => 1 + x
  | .reloadChange => 3 + x
  | .reloadWait => 2 + x
  | .reloadClean => 1 + x

theorem nu_le (s : SmSt) (n : Int) (r : Bool) : nu s n r ≤ 40 := by
  unfold nu
  extract_lets x
  have hx : x ≤ 20 := by simp only [x]; split <;> split <;> omega
  cases s <;> dsimp only <;> (try split) <;> omega

/-- The control of `sm_step` is as given. -/
def At (s0 : SmSt) (n0 : Int) (r0 : Bool) : CtlP := fun s n r => s = s0 ∧ n = n0 ∧ r = r0

/-- `sm_step` stays, or goes round less often from here. -/
def Onward (s0 : SmSt) (n0 : Int) (r0 : Bool) : CtlP := fun s n r => s = s0 ∨ nu s n r < nu s0 n0 r0

/-- Where the configuration is read. -/
def reads : SmSt → Nat
  | .rlChange => 1
  | .reloadChange => 1
  | _ => 0

theorem At.stay {s0 : SmSt} {n0 : Int} {r0 : Bool} (s : SmSt) (n : Int) (r : Bool) (h : At s0 n0 r0 s n r) :
    Onward s0 n0 r0 s n r := .inl h.1

variable {n0 : Int} {r0 : Bool} {L0 : Nat}

theorem smBootWait_gs (hR : EndR E rank M L R) (hF : 72 + fuelOf M L 0 ≤ R.fuel) (hl : l ≤ L) {w : World}
    (h : Cs E rank M l Idle (At .bootstrapWait n0 r0) w) :
    Gs E rank M l (Onward .bootstrapWait n0 r0) w (smBootWait E R w) := by
  unfold smBootWait
  extract_lets w1 w2 w3 w4 w5 w6
  have h1 : Gs E rank M l (At .bootstrapWait n0 r0) w w1 := stepAll_gs hR hF hl _ h
  have h2 : Gs E rank M l (At .bootstrapWait n0 r0) w w2 := h1.trans (condOneshot_gs hR hF hl _ (h.go h1))
  split
  · exact h2.mono (Nat.le_refl _) At.stay
  have h3 : Gs E rank M l (At .bootstrapWait n0 r0) w w3 := h2.trans (runHook_gs hR hF hl _ (h.go h2))
  have h4 : Gs E rank M l (At .bootstrapWait n0 r0) w w4 := h3.trans (stepAll_gs hR hF hl _ (h.go h3))
  have h5 : Gs E rank M l (At .bootstrapWait n0 r0) w w5 :=
    h4.trans ((h.go h4).glob (.glob rfl rfl rfl rfl rfl) rfl rfl rfl rfl id)
  have h6 : Gs E rank M l (At .bootstrapWait n0 r0) w w6 := h5.trans (stepAll_gs hR hF hl _ (h.go h5))
  refine h6.trans ((h.go h6).glob (.glob rfl rfl rfl rfl rfl) rfl rfl rfl rfl ?_)
  rintro ⟨_, e2, e3⟩
  right
  show nu .running w6.newlevel w6.reload < 30
  unfold nu; dsimp only
  split <;> split <;> omega

theorem smRunning_gs (hR : EndR E rank M L R) (hF : 72 + fuelOf M L 0 ≤ R.fuel) (hl : l ≤ L) {w : World}
    (h : Cs E rank M l Idle (At .running n0 r0) w) :
    Gs E rank M l (Onward .running n0 r0) w (smRunning R w) := by
  unfold smRunning
  extract_lets w1
  have h1 : Gs E rank M l (At .running n0 r0) w w1 := stepAll_gs hR hF hl _ h
  have c1 := h.go h1
  split
  · rename_i hn
    split
    · exact h1.trans (c1.glob (.glob rfl rfl rfl rfl rfl) rfl rfl rfl rfl fun e => .inl e.1)
    · refine h1.trans (c1.glob (.glob rfl rfl rfl rfl rfl) rfl rfl rfl rfl ?_)
      rintro ⟨_, e2, e3⟩
      right
      show nu .rlChange w1.newlevel w1.reload < _
      rw [e2, e3]
      rw [e2] at hn
      unfold nu; dsimp only
      rw [if_pos hn]; omega
  rename_i hn
  split
  · rename_i hr
    refine h1.trans (c1.glob (.glob rfl rfl rfl rfl rfl) rfl rfl rfl rfl ?_)
    rintro ⟨_, e2, e3⟩
    right
    show nu .reloadChange w1.newlevel false < _
    rw [e2]
    rw [e2] at hn
    rw [e3] at hr
    unfold nu; dsimp only
    rw [if_neg hn, hr, if_pos rfl]; decide
  · exact h1.mono (Nat.le_refl _) At.stay

theorem smRlChange_gs (hE : Ranked E rank) (hS : Sound E rank) (hW : Within E rank M L0) (hR : EndR E rank M L R)
    (hF : 72 + fuelOf M L 0 ≤ R.fuel) (hl : l + L0 ≤ L) {w : World}
    (h : Cs E rank M l Idle (At .rlChange n0 r0) w) :
    Gs E rank M (l + L0) (Onward .rlChange n0 r0) w (smRlChange E R w) := by
  have hl0 : l ≤ L := by omega
  unfold smRlChange
  extract_lets w1 w2 w3 w4 w5 w6 w7 w8
  have h1 : Gs E rank M l (At .rlChange n0 r0) w w1 := h.ends (a := 0) (b := 0) (.emit _ _)
  have h2 : Gs E rank M l (At .rlChange (-1) r0) w w2 :=
    h1.trans ((h.go h1).glob (.glob rfl rfl rfl rfl rfl) rfl rfl rfl rfl fun e => ⟨e.1, rfl, e.2.2⟩)
  have h3 : Gs E rank M l (At .rlChange (-1) r0) w w3 := by
    simp only [w3]; split
    · exact h2.trans (runHook_gs hR hF hl0 _ (h.go h2))
    · exact h2
  have h4 : Gs E rank M l (At .rlChange (-1) r0) w w4 := h3.trans (nologinUpdate_gs (h.go h3))
  have h5 : Gs E rank M (l + L0) (At .rlChange (-1) r0) w w5 := by
    simp only [w5]; split
    · exact h4.trans (confReload_gs hE hS hW (h.go h4))
    · exact h4.mono (Nat.le_add_right _ _) fun _ _ _ x => x
  have h6 : Gs E rank M (l + L0) (At .rlChange (-1) r0) w w6 :=
    h5.trans ((h.go h5).ends (runtaskClean_ends hR hF ((h.go h5).cx hl)))
  have h7 : Gs E rank M (l + L0) (At .rlChange (-1) r0) w w7 :=
    h6.trans ((h.go h6).glob (.glob rfl rfl rfl rfl rfl) rfl rfl rfl rfl id)
  have h7' : Gs E rank M (l + L0) (At .rlChange (-1) r0) w (emit .sweep w7) :=
    h7.trans ((h.go h7).ends (a := 0) (b := 0) (.emit _ _))
  have h8 : Gs E rank M (l + L0) (At .rlChange (-1) r0) w w8 := h7'.trans (stepAll_gs hR hF hl _ (h.go h7'))
  refine h8.trans ((h.go h8).glob (.glob rfl rfl rfl rfl rfl) rfl rfl rfl rfl ?_)
  rintro ⟨_, e2, e3⟩
  right
  show nu .rlWait w8.newlevel w8.reload < _
  rw [e2, e3]
  unfold nu; dsimp only
  rw [if_neg (by decide)]; omega

theorem smRlWait_gs (hR : EndR E rank M L R) (hF : 72 + fuelOf M L 0 ≤ R.fuel) (hl : l ≤ L) {w : World}
    (h : Cs E rank M l Idle (At .rlWait n0 r0) w) :
    Gs E rank M l (Onward .rlWait n0 r0) w (smRlWait E R w) := by
  unfold smRlWait
  split
  · exact h.refl.mono (Nat.le_refl _) At.stay
  extract_lets w1 w2 w3 w4
  have h1 : Gs E rank M l (At .rlWait n0 r0) w w1 := h.ends (a := 0) (b := 0) (.emit _ _)
  have h2 : Gs E rank M l (At .rlWait n0 r0) w w2 := h1.trans (runHook_gs hR hF hl _ (h.go h1))
  have h3 : Gs E rank M l (At .rlWait n0 r0) w w3 :=
    h2.trans ((h.go h2).glob (.glob rfl rfl rfl rfl rfl) rfl rfl rfl rfl id)
  have h4 : Gs E rank M l (At .rlWait n0 r0) w w4 := h3.trans (stepAll_gs hR hF hl _ (h.go h3))
  refine h4.trans ((h.go h4).glob (.glob rfl rfl rfl rfl rfl) rfl rfl rfl rfl ?_)
  rintro ⟨_, e2, e3⟩
  right
  show nu .rlClean w4.newlevel w4.reload < _
  rw [e2, e3]
  unfold nu; dsimp only; omega

theorem smRlClean_gs (hR : EndR E rank M L R) (hF : 72 + fuelOf M L 0 ≤ R.fuel) (hl : l ≤ L) {w : World}
    (h : Cs E rank M l Idle (At .rlClean n0 r0) w) :
    Gs E rank M l (Onward .rlClean n0 r0) w (smRlClean E R w) := by
  unfold smRlClean
  split
  · exact h.refl.mono (Nat.le_refl _) At.stay
  extract_lets w1
  have h1 : Gs E rank M l (At .rlClean n0 r0) w w1 := cleanDynamic_gs hR hF hl h
  split
  · exact h1.trans ((h.go h1).glob (doShutdown_nest _).sm rfl rfl rfl rfl (At.stay _ _ _))
  · refine h1.trans ((h.go h1).glob (.glob rfl rfl rfl rfl rfl) rfl rfl rfl rfl ?_)
    rintro ⟨_, e2, e3⟩
    right
    show nu .running w1.newlevel w1.reload < _
    rw [e2, e3]
    unfold nu; dsimp only; omega

theorem smReloadChange_gs (hE : Ranked E rank) (hS : Sound E rank) (hW : Within E rank M L0) (hR : EndR E rank M L R)
    (hF : 72 + fuelOf M L 0 ≤ R.fuel) (hl : l + L0 ≤ L) {w : World}
    (h : Cs E rank M l Idle (At .reloadChange n0 r0) w) :
    Gs E rank M (l + L0) (Onward .reloadChange n0 r0) w (smReloadChange E R w) := by
  unfold smReloadChange
  extract_lets w1 w2 w3 w4
  have h1 : Gs E rank M l (At .reloadChange n0 r0) w w1 :=
    h.glob (.glob rfl rfl rfl rfl rfl) rfl rfl rfl rfl id
  have h2 : Gs E rank M (l + L0) (At .reloadChange n0 r0) w w2 := h1.trans (confReload_gs hE hS hW (h.go h1))
  have h2' : Gs E rank M (l + L0) (At .reloadChange n0 r0) w (emit .sweep w2) :=
    h2.trans ((h.go h2).ends (a := 0) (b := 0) (.emit _ _))
  have h3 : Gs E rank M (l + L0) (At .reloadChange n0 r0) w w3 := h2'.trans (stepAll_gs hR hF hl _ (h.go h2'))
  have h4 : Gs E rank M (l + L0) (At .reloadChange n0 r0) w w4 :=
    h3.trans ((h.go h3).glob (.glob rfl rfl rfl rfl rfl) rfl rfl rfl rfl id)
  refine h4.trans ((h.go h4).glob (.glob rfl rfl rfl rfl rfl) rfl rfl rfl rfl ?_)
  rintro ⟨_, e2, e3⟩
  right
  show nu .reloadWait w4.newlevel w4.reload < _
  rw [e2, e3]
  unfold nu; dsimp only; omega

theorem smReloadWait_gs (hR : EndR E rank M L R) (hF : 72 + fuelOf M L 0 ≤ R.fuel) (hl : l ≤ L) {w : World}
    (h : Cs E rank M l Idle (At .reloadWait n0 r0) w) :
    Gs E rank M l (Onward .reloadWait n0 r0) w (smReloadWait R w) := by
  unfold smReloadWait
  split
  · exact h.refl.mono (Nat.le_refl _) At.stay
  extract_lets w1 w2 w3
  have h1 : Gs E rank M l (At .reloadWait n0 r0) w w1 := h.ends (a := 0) (b := 0) (.emit _ _)
  have h2 : Gs E rank M l (At .reloadWait n0 r0) w w2 :=
    h1.trans ((h.go h1).glob (.glob rfl rfl rfl rfl rfl) rfl rfl rfl rfl id)
  have h3 : Gs E rank M l (At .reloadWait n0 r0) w w3 := h2.trans (stepAll_gs hR hF hl _ (h.go h2))
  refine h3.trans ((h.go h3).glob (.glob rfl rfl rfl rfl rfl) rfl rfl rfl rfl ?_)
  rintro ⟨_, e2, e3⟩
  right
  show nu .reloadClean w3.newlevel w3.reload < _
  rw [e2, e3]
  unfold nu; dsimp only; omega

theorem smReloadClean_gs (hR : EndR E rank M L R) (hF : 72 + fuelOf M L 0 ≤ R.fuel) (hl : l ≤ L) {w : World}
    (h : Cs E rank M l Idle (At .reloadClean n0 r0) w) :
    Gs E rank M l (Onward .reloadClean n0 r0) w (smReloadClean E R w) := by
  unfold smReloadClean
  split
  · exact h.refl.mono (Nat.le_refl _) At.stay
  extract_lets w1 w2 w3 w4
  have h1 : Gs E rank M l (At .reloadClean n0 r0) w w1 := cleanDynamic_gs hR hF hl h
  have h2 : Gs E rank M l (At .reloadClean n0 r0) w w2 :=
    h1.trans ((h.go h1).ends (pidfileReconf_ends hR hF ((h.go h1).cx hl)))
  have h3 : Gs E rank M l (At .reloadClean n0 r0) w w3 := h2.trans (runHook_gs hR hF hl _ (h.go h2))
  have h4 : Gs E rank M l (At .reloadClean n0 r0) w w4 :=
    h3.trans ((h.go h3).ends (notifyReconf_ends hR hF ((h.go h3).cx hl)))
  refine h4.trans ((h.go h4).glob (.glob rfl rfl rfl rfl rfl) rfl rfl rfl rfl ?_)
  rintro ⟨_, e2, e3⟩
  right
  show nu .running w4.newlevel w4.reload < _
  rw [e2, e3]
  unfold nu; dsimp only; omega

theorem smBranch_gs (hE : Ranked E rank) (hS : Sound E rank) (hW : Within E rank M L0) (hR : EndR E rank M L R)
    (hF : 72 + fuelOf M L 0 ≤ R.fuel) {w : World} (hl : l + L0 * reads w.sm ≤ L)
    (h : Cs E rank M l Idle (At w.sm w.newlevel w.reload) w) :
    Gs E rank M (l + L0 * reads w.sm) (Onward w.sm w.newlevel w.reload) w (smBranch E R w) := by
  have hl0 : l ≤ L := by omega
  unfold smBranch
  generalize w.newlevel = n0 at h ⊢
  generalize w.reload = r0 at h ⊢
  generalize w.sm = s at hl h ⊢
  cases s with
  | bootstrap =>
    have h1 := stepAll_gs hR hF hl0 (fun t => t.isRuntask || t.isDaemon) h
    refine h1.trans ((h.go h1).glob (.glob rfl rfl rfl rfl rfl) rfl rfl rfl rfl ?_)
    intro _
    right
    show 30 < 40
    omega
  | bootstrapWait => exact smBootWait_gs hR hF hl0 h
  | running => exact smRunning_gs hR hF hl0 h
  | rlChange =>
    have := smRlChange_gs hE hS hW hR hF (by simpa [reads] using hl) h
    simpa [reads] using this
  | rlWait => exact smRlWait_gs hR hF hl0 h
  | rlClean => exact smRlClean_gs hR hF hl0 h
  | reloadChange =>
    have := smReloadChange_gs hE hS hW hR hF (by simpa [reads] using hl) h
    simpa [reads] using this
  | reloadWait => exact smReloadWait_gs hR hF hl0 h
  | reloadClean => exact smReloadClean_gs hR hF hl0 h

/-- Any control. -/
def Any : CtlP := fun _ _ _ => True

/-- There is room for the configurations that may yet be read. -/
def Room (L0 L l : Nat) (w : World) : Prop := l + L0 * nu w.sm w.newlevel w.reload ≤ L

/-- What is known of the recursive calls of `sm_step`. -/
structure EndSm (E : Env) (rank : CStr → Nat) (M L L0 : Nat) (R : Rec) : Prop where
  sm : ∀ l w, Cs E rank M l Resting Any w → Room L0 L l w →
    74 + fuelOf M L 0 + nu w.sm w.newlevel w.reload ≤ R.fuel → Gs E rank M L Any w (R.sm w)
  smLoop : ∀ l w, Cs E rank M l Idle Any w → Room L0 L l w →
    73 + fuelOf M L 0 + nu w.sm w.newlevel w.reload ≤ R.fuel → Gs E rank M L Any w (R.smLoop w)

theorem Cs.here {w : World} (h : Cs E rank M l Q C w) : Cs E rank M l Q (At w.sm w.newlevel w.reload) w :=
  ⟨h.ctx, h.ok.imp_right fun x => ⟨x.1, x.2.1, rfl, rfl, rfl⟩⟩

theorem nu_reads (s : SmSt) (n : Int) (r : Bool) : reads s ≤ nu s n r := by
  unfold nu reads
  cases s <;> dsimp only <;> omega

theorem smLoopBody_gs (hE : Ranked E rank) (hS : Sound E rank) (hW : Within E rank M L0) (hR : EndR E rank M L R)
    (hM : EndSm E rank M L L0 R) {w : World} (hr : Room L0 L l w)
    (hF : 72 + fuelOf M L 0 + nu w.sm w.newlevel w.reload ≤ R.fuel) (h : Cs E rank M l Idle Any w) :
    Gs E rank M L Any w (smLoopBody E R w) := by
  have hN := smLoopBody_nest hE hR.nest h.ctx
  have hr' : l + L0 * reads w.sm ≤ L :=
    Nat.le_trans (Nat.add_le_add_left (Nat.mul_le_mul_left _ (nu_reads w.sm w.newlevel w.reload)) _) hr
  have h1 := smBranch_gs hE hS hW hR (by omega) hr' h.here
  revert hN
  unfold smLoopBody
  extract_lets old w1
  intro hN
  have h1 : Gs E rank M (l + L0 * reads w.sm) (Onward w.sm w.newlevel w.reload) w w1 := h1
  have done : Gs E rank M L Any w w1 := h1.mono hr' fun _ _ _ _ => trivial
  split
  · exact done
  split
  · rename_i hs
    rcases h1.out with x | x
    · exact ⟨done.nest.trans (hR.nest.smLoop _ (h.ctx.nextSm h1.nest)), .inl (x.mono
        (s := (hR.nest.smLoop _ (h.ctx.nextSm h1.nest)).ext))⟩
    · have hlt : nu w1.sm w1.newlevel w1.reload < nu w.sm w.newlevel w.reload := by
        rcases x.2.2.2 with e | e
        · exact absurd e hs
        · exact e
      refine h1.trans (hM.smLoop (l + L0 * reads w.sm) w1 ((h.go h1).mono (Nat.le_refl _) fun _ _ _ _ => trivial) ?_ ?_)
      · unfold Room at hr ⊢
        have : reads w.sm ≤ 1 := by unfold reads; split <;> omega
        have h2 : reads w.sm + nu w1.sm w1.newlevel w1.reload ≤ nu w.sm w.newlevel w.reload := by omega
        have h3 := Nat.mul_le_mul_left L0 h2
        rw [Nat.mul_add] at h3
        omega
      · omega
  · exact done

theorem smStep_gs (hE : Ranked E rank) (hS : Sound E rank) (hW : Within E rank M L0) (hR : EndR E rank M L R)
    (hM : EndSm E rank M L L0 R) {w : World} (hr : Room L0 L l w)
    (hF : 72 + fuelOf M L 0 + nu w.sm w.newlevel w.reload ≤ R.fuel) (h : Cs E rank M l Resting Any w) :
    Gs E rank M L Any w (smStep E R w) := by
  have hN := smStep_nest hE hR.nest h.ctx
  refine ⟨hN, ?_⟩
  rcases h.ctx with g | g
  · exact .inl (g.mono (s := hN.ext))
  clear hN
  have hl : l ≤ L := by unfold Room at hr; omega
  unfold smStep
  split
  · exact (h.refl.mono hl fun _ _ _ x => x).out
  rw [if_neg (by rw [g.2.2.1.1, g.2.2.2]; simp)]
  extract_lets wx was w2 w3
  have c2 : Cs E rank M l Idle Any w2 := by
    refine ⟨.inr ⟨g.1, g.2.1.congr (e := fun _ => rfl), g.2.2.1⟩, ?_⟩
    exact h.ok.imp_right fun x => ⟨x.1.congr (fun _ => rfl),
      ⟨x.2.1.ord, x.2.1.len, x.2.1.rank⟩, trivial⟩
  have h3 : Gs E rank M L Any w2 w3 := smLoopBody_gs hE hS hW hR hM hr hF c2
  refine h3.out.imp_right fun x => ⟨x.1, x.2.1.congr (fun _ => rfl),
    ⟨x.2.2.1.ord, x.2.2.1.len, x.2.2.1.rank⟩, trivial⟩

theorem mkRec_endSm (hE : Ranked E rank) (hS : Sound E rank) (hW : Within E rank M L0) :
    ∀ n, EndSm E rank M L L0 (mkRec E n) := by
  intro n
  induction n with
  | zero =>
    refine ⟨fun l w _ _ h => ?_, fun l w _ _ h => ?_⟩ <;> (unfold mkRec at h; simp at h)
  | succ n ih =>
    have hn : (mkRec E n).fuel = n := by cases n <;> rfl
    have hR := (mkRec_ends (M := M) (L := L) hE n).1
    refine ⟨fun l w h hr hF => ?_, fun l w h hr hF => ?_⟩
    · have hF : 74 + fuelOf M L 0 + nu w.sm w.newlevel w.reload ≤ n + 1 := hF
      exact smStep_gs hE hS hW hR ih hr (by rw [hn]; omega) h
    · have hF : 73 + fuelOf M L 0 + nu w.sm w.newlevel w.reload ≤ n + 1 := hF
      exact smLoopBody_gs hE hS hW hR ih hr (by rw [hn]; omega) h

/-! ### Events -/

/-- What is known of the recursive calls when an event is handled. -/
structure EndAll (E : Env) (rank : CStr → Nat) (M L L0 : Nat) (R : Rec) : Prop where
  step : EndR E rank M L R
  sm : EndSm E rank M L L0 R
  fuel : 114 + fuelOf M L 0 ≤ R.fuel

theorem EndAll.f {R : Rec} (h : EndAll E rank M L L0 R) : 72 + fuelOf M L 0 ≤ R.fuel := by
  have := h.fuel; omega

theorem EndAll.call (hR : EndAll E rank M L L0 R) {w : World} (hl : l + L0 * 40 ≤ L)
    (h : Cs E rank M l Resting Any w) : Gs E rank M L Any w (R.sm w) := by
  have hn := nu_le w.sm w.newlevel w.reload
  refine hR.sm.sm l w h ?_ ?_
  · have := Nat.mul_le_mul_left L0 hn
    unfold Room; omega
  · have := hR.fuel; omega

theorem monitorTail_gs (hR : EndAll E rank M L L0 R) (hl : l + L0 * 40 ≤ L) (k : Key) (lost : Int) {w : World}
    (h : Cs E rank M l Resting Any w) : Gs E rank M L Any w (monitorTail R k lost w) := by
  unfold monitorTail
  extract_lets w0 w1 w2 w3
  have h1 : Gs E rank M l Any w w1 := by
    simp only [w1]; split
    · have g1 : Gs E rank M l Any w (mod k (fun s => { s with dirty := false, argsDirty := false }) w) :=
        h.ends (.mod rfl)
      exact g1.trans ((h.go g1).glob (.glob rfl rfl rfl rfl rfl) rfl rfl rfl rfl id)
    · exact h.refl
  have h2 : Gs E rank M l Any w w2 :=
    h1.trans ((h.go h1).ends (step_ends hR.step hR.f k ((h.go h1).idle.cx (by omega))))
  have h3 : Gs E rank M l Any w w3 := h2.trans (cleanBootstrap_gs k (h.go h2)).1
  exact h3.trans (hR.call hl (h.go h3))

theorem monitor_gs (hR : EndAll E rank M L L0 R) (hl : l + L0 * 40 ≤ L) (lost : Int) (st : WStatus) {w : World}
    (h : Cs E rank M l Resting Any w) : Gs E rank M L Any w (monitor E R lost st w) := by
  have hN := monitor_nest hR.step.nest lost st h.ctx
  have hl' : l ≤ L := by omega
  rcases h.ctx with g | g
  · exact Cs.lost g hN
  clear hN
  unfold monitor
  split
  · exact h.refl.mono hl' fun _ _ _ x => x
  rw [if_neg (by rw [g.2.2.1.1]; exact fun h => h rfl)]
  extract_lets w1
  split
  · exact (h.ends ⟨scriptDel_nest _ _, .inr (scriptDel_fr (b := 0) _ _)⟩).mono hl' fun _ _ _ x => x
  · rename_i k _
    have h2 : Gs E rank M l Any w (monitorHead E k st w) :=
      h.ends ⟨monitorHead_nest k st w, .inr (monitorHead_fr (a := 0) (b := 0) st (Nat.zero_le _))⟩
    exact h2.trans (monitorTail_gs hR hl k _ (h.go h2))

theorem serviceKill_gs (hR : EndAll E rank M L L0 R) (hl : l + L0 * 40 ≤ L) (k : Key) {w : World}
    (h : Cs E rank M l Resting Any w) : Gs E rank M L Any w (serviceKill E R k w) := by
  have hl' : l ≤ L := by omega
  unfold serviceKill
  extract_lets w1 p r nm w2
  have h1 : Gs E rank M l Any w w1 := h.ends (.cancel _ _)
  split
  · exact h1.mono hl' fun _ _ _ x => x
  have h2 : Gs E rank M l Any w w2 :=
    h1.trans ((h.go h1).ends ⟨procExists_nest _ _, .inr (procExists_fr (a := 0) (b := 0) _ _)⟩)
  split
  · exact h2.trans (monitor_gs hR hl _ _ (h.go h2))
  · refine (h2.trans ((h.go h2).ends ⟨kill_nest _ _ _ _ _, .inr (kill_fr (a := 0) (b := 0) _ _ _ _ _)⟩)).mono hl' ?_
    exact fun _ _ _ x => x

theorem serviceRetry_ends (hR : EndR E rank M L R) (hF : 72 + fuelOf M L 0 ≤ R.fuel) (k : Key) {w : World}
    (h : Cx E rank M L Idle w) : InTime E rank 0 0 w (serviceRetry E R k w) := by
  unfold serviceRetry
  extract_lets svc0 w1 r nr w2 src w3 w4 w5 w6 w7 w8 w9
  have h1 : InTime E rank 0 0 w w1 := .cancel _ _
  have h2 : InTime E rank 0 0 w w2 := h1.trans ⟨askB_nest _, .inr (askB_fr _)⟩
  split
  · exact h2
  split
  · have h3 : InTime E rank 0 0 w (mod k (fun s => { s with block := .none }) w2) := h2.trans (.mod rfl)
    exact h3.trans (step_ends hR hF _ (h.next h3))
  split
  · have h3 : InTime E rank 0 0 w w3 :=
      h2.trans ⟨.pure rfl rfl rfl (List.suffix_cons _ _) fun _ => rfl,
        .inr (.glob rfl rfl rfl rfl rfl rfl rfl rfl rfl rfl rfl rfl)⟩
    have h4 : InTime E rank 0 0 w (mod k (fun s => { s with restartTmo := s.restartSaved }) w3) := h3.trans (.mod rfl)
    exact h4.trans (setState_ends hR hF _ _ (h.next h4))
  split
  · have h5 : InTime E rank 0 0 w w5 := (h2.trans (.emit _ _)).trans (.mod rfl)
    have h6 : InTime E rank 0 0 w w6 := by
      simp only [w6]; split
      · exact h5.trans (.emit _ _)
      · split
        · exact h5.trans ⟨scriptFork_nest _ _ _ _, .inr (scriptFork_fr _ _ (Nat.zero_le _))⟩
        · exact h5
      · exact h5
    exact h6.trans (step_ends hR hF _ (h.next h6))
  · have h8 : InTime E rank 0 0 w w8 := (h2.trans (.emit _ _)).trans (.mod rfl)
    have h9 : InTime E rank 0 0 w w9 := h8.trans (step_ends hR hF _ (h.next h8))
    exact h9.trans ⟨timerAfter_nest _ _ _ _, .inr (timerAfter_fr _ _ (Nat.zero_le _))⟩

theorem timerFire_gs (hR : EndAll E rank M L L0 R) (hl : l + L0 * 40 ≤ L) (k : Key) {w : World}
    (h : Cs E rank M l Resting Any w) : Gs E rank M L Any w (timerFire E R k w) := by
  have hl' : l ≤ L := by omega
  have up : ∀ {v : World}, Gs E rank M l Any w v → Gs E rank M L Any w v := fun g => g.mono hl' fun _ _ _ x => x
  unfold timerFire
  split
  · exact up h.refl
  extract_lets w1 w2
  have h1 : Gs E rank M l Any w w1 := by
    simp only [w1]; split
    · exact h.glob (.glob rfl rfl rfl rfl rfl) rfl rfl rfl rfl id
    · exact h.refl
  have h2 : Gs E rank M l Any w w2 := h1.trans ((h.go h1).ends (.mod rfl))
  have c2 := h.go h2
  split
  · exact up h2
  · exact h2.trans (serviceKill_gs hR hl k c2)
  · exact up (h2.trans (c2.ends (serviceRetry_ends hR.step hR.f k (c2.idle.cx hl'))))
  · refine up (h2.trans (c2.ends (a := 0) (b := 0) ?_))
    unfold serviceKillScript
    extract_lets p
    split
    · exact .refl _
    · exact ⟨kill_nest _ _ _ _ _, .inr (kill_fr _ _ _ _ _)⟩
  · exact up (h2.trans (c2.ends (a := 0) (b := 0) ⟨scriptKill_nest _ _, .inr (scriptKill_fr _ _)⟩))

theorem confFlush_gs {w : World} (h : Cs E rank M l Q C w) : Gs E rank M l C w (confFlush E w) := by
  have hN := confFlush_nest (E := E) (rank := rank) w
  revert hN
  unfold confFlush
  extract_lets r
  intro hN
  refine h.glob hN.sm ?_ ?_ ?_ ?_ ?_
  all_goals (split <;> first | rfl | exact id)

theorem smRunlevel_gs (hR : EndAll E rank M L L0 R) (hl : l + L0 * 40 ≤ L) (lv : Nat) {w : World}
    (h : Cs E rank M l Resting Any w) : Gs E rank M L Any w (smRunlevel E R lv w) := by
  unfold smRunlevel
  have h0 : Gs E rank M l Any w { w with newlevel := (lv : Int) } :=
    h.glob (.glob rfl rfl rfl rfl rfl) rfl rfl rfl rfl fun _ => trivial
  have h1 := h0.trans (confFlush_gs (h.go h0))
  exact h1.trans (hR.call hl (h.go h1))

theorem smReload_gs (hR : EndAll E rank M L L0 R) (hl : l + L0 * 40 ≤ L) {w : World}
    (h : Cs E rank M l Resting Any w) : Gs E rank M L Any w (smReload E R w) := by
  unfold smReload
  have h0 : Gs E rank M l Any w { w with reload := true } :=
    h.glob (.glob rfl rfl rfl rfl rfl) rfl rfl rfl rfl fun _ => trivial
  have h1 := h0.trans (confFlush_gs (h.go h0))
  exact h1.trans (hR.call hl (h.go h1))

theorem bootCheck_gs (hR : EndAll E rank M L L0 R) (hl : l + L0 * 40 ≤ L) {w : World}
    (h : Cs E rank M l Resting Any w) : Gs E rank M L Any w (bootCheck E R w) := by
  have hl' : l ≤ L := by omega
  unfold bootCheck
  extract_lets w1 w2 done t w3 w4 w5 w6
  have h1 : Gs E rank M l Any w w1 := h.glob (.glob rfl rfl rfl rfl rfl) rfl rfl rfl rfl id
  have h2 : Gs E rank M l Any w w2 := h1.trans (stepAll_gs hR.step hR.f hl' _ (h.go h1).idle)
  have h3 : Gs E rank M l Any w w3 := h2.trans ((h.go h2).glob (.glob rfl rfl rfl rfl rfl) rfl rfl rfl rfl id)
  split
  · have h3' : Gs E rank M l Any w { w3 with bootWork := true } :=
      h3.trans ((h.go h3).glob (.glob rfl rfl rfl rfl rfl) rfl rfl rfl rfl id)
    exact h3'.mono hl' fun _ _ _ x => x
  have h4 : Gs E rank M l Any w w4 := h3.trans (confFlush_gs (h.go h3))
  have h5 : Gs E rank M L Any w w5 := h4.trans (smRunlevel_gs hR hl _ (h.go h4))
  split
  · exact h5
  have h6 : Gs E rank M L Any w w6 := h5.trans (pruneBootstrap_gs (fuel_le hR.f) (h.go h5).idle)
  exact h6.trans (runHook_gs hR.step hR.f (Nat.le_refl _) _ (h.go h6).idle)

theorem apiStop_ends (hR : EndR E rank M L R) (hF : 72 + fuelOf M L 0 ≤ R.fuel) (k : Key) {w : World}
    (h : Cx E rank M L Idle w) : InTime E rank 0 0 w (apiStop R k w) := by
  unfold apiStop
  extract_lets w1 w2
  have h2 : InTime E rank 0 0 w w2 := (InTime.cancel _ _).trans (.mod rfl)
  have h3 := h2.trans (step_ends hR hF k (h.next h2))
  exact h3.trans (stepAll_ends hR hF _ (h.next h3))

theorem apiStart_ends (hR : EndR E rank M L R) (hF : 72 + fuelOf M L 0 ≤ R.fuel) (k : Key) {w : World}
    (h : Cx E rank M L Idle w) : InTime E rank 0 0 w (apiStart R k w) := by
  unfold apiStart
  extract_lets w1 w2
  have h2 : InTime E rank 0 0 w w2 := (InTime.cancel _ _).trans (.mod rfl)
  have h3 := h2.trans (step_ends hR hF k (h.next h2))
  exact h3.trans (stepAll_ends hR hF _ (h.next h3))

theorem apiRestart_ends (hR : EndR E rank M L R) (hF : 72 + fuelOf M L 0 ≤ R.fuel) (k : Key) {w : World}
    (h : Cx E rank M L Idle w) : InTime E rank 0 0 w (apiRestart E R k w) := by
  unfold apiRestart
  split
  · exact apiStart_ends hR hF k h
  · have h1 : InTime E rank 0 0 w (timerCancel k w) := .cancel _ _
    have h2 := h1.trans (serviceStop_ends hR hF k (h.next h1))
    exact h2.trans (step_ends hR hF _ (h.next h2))

theorem apiReload_ends (hR : EndR E rank M L R) (hF : 72 + fuelOf M L 0 ≤ R.fuel) (k : Key) {w : World}
    (h : Cx E rank M L Idle w) : InTime E rank 0 0 w (apiReload R k w) := by
  unfold apiReload
  extract_lets w1
  have h1 : InTime E rank 0 0 w w1 := by
    simp only [w1]; split
    · exact .mod rfl
    · exact .cancel _ _
  have h2 : InTime E rank 0 0 w (mod k (fun s => { s with dirty := true }) w1) := h1.trans (.mod rfl)
  exact h2.trans (step_ends hR hF _ (h.next h2))

theorem condClear0 (hR : EndR E rank M L R) (hF : 72 + fuelOf M L 0 ≤ R.fuel) (n : CStr) {w : World}
    (h : Cx E rank M L Idle w) : InTime E rank 0 0 w (condClear R n w) :=
  condClear_ends hR (fun _ => hF) (fuel_le hF) (Nat.le_refl _) (fun h => absurd rfl h) (h.pub n)

theorem condSet0 (hR : EndR E rank M L R) (hF : 72 + fuelOf M L 0 ≤ R.fuel) (n : CStr) {w : World}
    (h : Cx E rank M L Idle w) : InTime E rank 0 0 w (condSet R n w) :=
  condSet_ends hR (fun _ => hF) (fuel_le hF) (Nat.le_refl _) (fun h => absurd rfl h) (h.pub n).pub1

theorem pidfileGone_ends (hR : EndR E rank M L R) (hF : 72 + fuelOf M L 0 ≤ R.fuel) (k : Key) {w : World}
    (h : Cx E rank M L Idle w) : InTime E rank 0 0 w (pidfileGone E R k w) := by
  unfold pidfileGone
  extract_lets w1
  have h1 : InTime E rank 0 0 w w1 := condClear0 hR hF _ h
  split
  · exact h1.trans (serviceReady_ends hR hF _ _ (h.next h1))
  · exact h1

theorem pidfileSet_ends (hR : EndR E rank M L R) (hF : 72 + fuelOf M L 0 ≤ R.fuel) (k : Key) {w : World}
    (h : Cx E rank M L Idle w) : InTime E rank 0 0 w (pidfileSet E R k w) := by
  unfold pidfileSet
  extract_lets w1
  have h1 : InTime E rank 0 0 w w1 := by
    simp only [w1]; split
    · exact condSet0 hR hF _ h
    · exact .refl w
  split
  · exact h1.trans (serviceReady_ends hR hF _ _ (h.next h1))
  · exact h1

theorem serviceForked_ends (hR : EndR E rank M L R) (hF : 72 + fuelOf M L 0 ≤ R.fuel) (k : Key) {w : World}
    (h : Cx E rank M L Idle w) : InTime E rank 0 0 w (serviceForked R k w) := by
  unfold serviceForked
  extract_lets w1 w2
  have h2 : InTime E rank 0 0 w w2 := (InTime.cancel _ _).trans (.mod rfl)
  exact h2.trans (setState_ends hR hF _ _ (h.next h2))

theorem pidfileWrite_ends (hR : EndR E rank M L R) (hF : 72 + fuelOf M L 0 ≤ R.fuel) (k : Key) (p : Int)
    (there : Bool) {w : World} (h : Cx E rank M L Idle w) : InTime E rank 0 0 w (pidfileWrite E R k p there w) := by
  unfold pidfileWrite
  extract_lets st w1 w2 w3
  split
  · exact .refl w
  split
  · exact pidfileGone_ends hR hF k h
  have h1 : InTime E rank 0 0 w w1 := by
    simp only [w1]; split
    · exact .mod rfl
    · exact .refl w
  split
  · split
    · split
      · exact h1
      · exact h1.trans (condClear0 hR hF _ (h.next h1))
    · have h2 : InTime E rank 0 0 w w2 := h1.trans (serviceForked_ends hR hF k (h.next h1))
      have h3 : InTime E rank 0 0 w w3 := h2.trans (.mod rfl)
      exact h3.trans (pidfileSet_ends hR hF k (h.next h3))
  · exact h1.trans (pidfileSet_ends hR hF k (h.next h1))

theorem pidfileRemove_ends (hR : EndR E rank M L R) (hF : 72 + fuelOf M L 0 ≤ R.fuel) (k : Key) {w : World}
    (h : Cx E rank M L Idle w) : InTime E rank 0 0 w (pidfileRemove E R k w) := by
  unfold pidfileRemove
  extract_lets st
  split
  · exact .refl w
  · exact pidfileGone_ends hR hF k h

theorem notifyReady_ends (hR : EndR E rank M L R) (hF : 72 + fuelOf M L 0 ≤ R.fuel) (k : Key) {w : World}
    (h : Cx E rank M L Idle w) : InTime E rank 0 0 w (notifyReady E R k w) := by
  unfold notifyReady
  extract_lets w1 w2 w3
  have h1 : InTime E rank 0 0 w w1 := by
    simp only [w1]; split
    · exact ⟨.glob rfl rfl rfl rfl rfl, .inr (.glob rfl rfl rfl rfl rfl rfl rfl rfl rfl rfl rfl rfl)⟩
    · exact .refl w
  have h2 : InTime E rank 0 0 w w2 := h1.trans (.mod rfl)
  have h3 : InTime E rank 0 0 w w3 := h2.trans (serviceReady_ends hR hF _ _ (h.next h2))
  split
  · exact h3.trans (.mod rfl)
  · exact h3

theorem ageAll_ends : ∀ (ks : List Key) (w : World), InTime E rank 0 0 w (ageAll ks w) := by
  intro ks
  induction ks with
  | nil => exact fun w => .refl w
  | cons k ks ih =>
    intro w
    unfold ageAll
    refine InTime.trans ?_ (ih _)
    split
    · exact (InTime.emit _ _).trans (.mod rfl)
    · exact .refl w

theorem gcOne_ends (hR : EndR E rank M L R) (hF : 72 + fuelOf M L 0 ≤ R.fuel) (k : Key) {w : World}
    (h : Cx E rank M L Idle w) : InTime E rank 0 0 w (gcOne R k w) := by
  unfold gcOne
  extract_lets w1 w2
  have h1 : InTime E rank 0 0 w w1 :=
    ⟨.glob rfl rfl rfl rfl rfl, .inr (.glob rfl rfl rfl rfl rfl rfl rfl rfl rfl rfl rfl rfl)⟩
  have h2 : InTime E rank 0 0 w w2 := by
    simp only [w2]; split
    · exact h1
    · exact h1.trans (condClear0 hR hF _ (h.next h1))
  exact h2.trans ⟨.glob rfl rfl rfl rfl rfl, .inr (.glob rfl rfl rfl rfl rfl rfl rfl rfl rfl rfl rfl rfl)⟩

theorem handle_gs (hE : Ranked E rank) (hS : Sound E rank) (hW : Within E rank M L0) (n : Nat) (ev : Ev)
    {w : World} (hl : l + L0 * 41 ≤ L) (hF : 114 + fuelOf M L 0 ≤ n) (h : Cs E rank M l Resting Any w) :
    Gs E rank M L Any w (handle E n ev w) := by
  have hR : EndAll E rank M L L0 (mkRec E n) := by
    have hn : (mkRec E n).fuel = n := by cases n <;> rfl
    exact ⟨(mkRec_ends hE n).1, mkRec_endSm hE hS hW n, by rw [hn]; exact hF⟩
  have hl1 : l + L0 * 40 ≤ L := by omega
  have hl' : l ≤ L := by omega
  have hi := h.idle
  have hx : Cx E rank M L Idle w := hi.cx hl'
  have up : ∀ {v : World}, Gs E rank M l Any w v → Gs E rank M L Any w v := fun g => g.mono hl' fun _ _ _ x => x
  have ends : ∀ {v : World}, InTime E rank 0 0 w v → Gs E rank M L Any w v := fun g => up (h.ends g)
  unfold handle
  extract_lets R
  have hR : EndAll E rank M L L0 R := hR
  have stay : Gs E rank M L Any w w := up h.refl
  split
  · exact stay
  split
  · split
    · have h1 : Gs E rank M l Any w { w with booted := true, bootWork := true } :=
        h.glob (.glob rfl rfl rfl rfl rfl) rfl rfl rfl rfl id
      have h2 := h1.trans (confReload_gs hE hS hW (h.go h1))
      exact h2.trans (hR.call (by omega) (h.go h2))
    · exact stay
  split
  · exact stay
  · rename_i p st
    split
    · have h1 : Gs E rank M l Any w (reap p (some st) w) :=
        h.ends ⟨reap_nest _ _ _, .inr (reap_fr (a := 0) (b := 0) _ _ _)⟩
      exact h1.trans (monitor_gs hR hl1 _ _ (h.go h1))
    · exact stay
  · split
    · exact up (h.glob (.glob rfl rfl rfl rfl rfl) rfl rfl rfl rfl id)
    · exact stay
  · exact timerFire_gs hR hl1 _ h
  · split
    · have h1 : Gs E rank M l Any w { w with work := false } :=
        h.glob (.glob rfl rfl rfl rfl rfl) rfl rfl rfl rfl id
      exact up (h1.trans (stepAll_gs hR.step hR.f hl' _ (h.go h1).idle))
    · exact stay
  · split
    · exact bootCheck_gs hR hl1 h
    · exact stay
  · rename_i k
    split
    · have h1 : InTime E rank 0 0 w (emit (.asked k) w) := .emit _ _
      exact ends (h1.trans (apiStart_ends hR.step hR.f _ (hx.next h1)))
    · exact stay
  · rename_i k
    split
    · have h1 : InTime E rank 0 0 w (emit (.asked k) w) := .emit _ _
      exact ends (h1.trans (apiStop_ends hR.step hR.f _ (hx.next h1)))
    · exact stay
  · rename_i k
    split
    · have h1 : InTime E rank 0 0 w (emit (.asked k) w) := .emit _ _
      exact ends (h1.trans (apiRestart_ends hR.step hR.f _ (hx.next h1)))
    · exact stay
  · rename_i k
    split
    · have h1 : InTime E rank 0 0 w (emit (.asked k) w) := .emit _ _
      exact ends (h1.trans (apiReload_ends hR.step hR.f _ (hx.next h1)))
    · exact stay
  · split
    · exact ends ⟨kill_nest _ _ _ _ _, .inr (kill_fr _ _ _ _ _)⟩
    · exact stay
  · split
    · exact stay
    split
    · exact up (h.glob (.glob rfl rfl rfl rfl rfl) rfl rfl rfl rfl id)
    · exact smRunlevel_gs hR hl1 _ h
  · split
    · exact smReload_gs hR hl1 h
    · exact stay
  · rename_i six limit
    split
    · have h1 : Gs E rank M l Any w (if limit then { w with emerg := true } else w) := by
        split
        · exact h.glob (.glob rfl rfl rfl rfl rfl) rfl rfl rfl rfl id
        · exact h.refl
      exact h1.trans (smRunlevel_gs hR hl1 _ (h.go h1))
    · exact stay
  · split
    · exact up (h.glob (doShutdown_nest w).sm rfl rfl rfl rfl id)
    · exact stay
  · split
    · split
      · exact ends (condSet0 hR.step hR.f _ hx)
      · exact up (h.glob (.glob rfl rfl rfl rfl rfl) rfl rfl rfl rfl id)
    · exact stay
  · split
    · split
      · exact up (condOneshot_gs hR.step hR.f hl' _ hi)
      · exact up (h.glob (.glob rfl rfl rfl rfl rfl) rfl rfl rfl rfl id)
    · exact stay
  · split
    · split
      · exact ends (condClear0 hR.step hR.f _ hx)
      · exact up (h.glob (.glob rfl rfl rfl rfl rfl) rfl rfl rfl rfl id)
    · exact stay
  · split
    · exact ends (condUpdate_ends hR.step (fun _ => hR.f) (fuel_le hR.f) (hx.pub _).pub1)
    · exact stay
  · split
    · exact ends (pidfileWrite_ends hR.step hR.f _ _ _ hx)
    · exact stay
  · split
    · exact ends (pidfileRemove_ends hR.step hR.f _ hx)
    · exact stay
  · split
    · exact ends (notifyReady_ends hR.step hR.f _ hx)
    · exact stay
  · exact ends (ageAll_ends _ w)
  · split
    · exact ends (gcOne_ends hR.step hR.f _ hx)
    · exact stay
  · exact up (h.glob (.glob rfl rfl rfl rfl rfl) rfl rfl rfl rfl id)

theorem rank_bound (w : World) (M0 : Nat) : ∃ M, M0 ≤ M ∧ ∀ j ∈ w.order, rank (w.svc j).ident ≤ M := by
  generalize w.order = o
  induction o with
  | nil => exact ⟨M0, Nat.le_refl _, fun j hj => nomatch hj⟩
  | cons k o ih =>
    obtain ⟨M, h1, h2⟩ := ih
    refine ⟨M + rank (w.svc k).ident, by omega, fun j hj => ?_⟩
    rcases List.mem_cons.mp hj with rfl | hj
    · omega
    · have := h2 j hj; omega

/-- There is a bound on the recursion for every event in every reachable state. -/
theorem Reach.ends (hE : Ranked E rank) (hS : Sound E rank) {M0 : Nat} (hW : Within E rank M0 L0)
    (hP : PlainEnv E) (hB : BootOk E) {w : World} (h : Reach E w) :
    ∃ n, ∀ m, n ≤ m → ∀ ev, (handle E m ev w).oof = w.oof := by
  obtain ⟨M, hM, hO⟩ := rank_bound (rank := rank) w M0
  have hW' : Within E rank M L0 := fun t => ⟨(hW t).1, fun z hz => Nat.le_trans ((hW t).2 z hz) hM⟩
  refine ⟨114 + fuelOf M (w.order.length + L0 * 41) 0, fun m hm ev => ?_⟩
  have c : Cs E rank M w.order.length Resting Any w :=
    ⟨h.rest hE, .inr ⟨h.readOk hS, ⟨h.basic.1, Nat.le_refl _, hO⟩, trivial⟩⟩
  have g := handle_gs hE hS hW' m ev (Nat.le_refl _) hm c
  rcases g.out with x | x
  · exact absurd x ((h.event m ev).notLost hP hB)
  · exact x.1

end

end Verif.Sup
