import Verif.Sup.Nest
import Verif.Sup.Tomb
import Verif.Sup.Reload
import Verif.Sup.Proc
import Verif.CStrLemmas

/-!
# Supervisor model: no service is stepped while it is being stepped (continued)

Registration, `sm_step`, and the events.
-/

namespace Verif.Sup

open Verif (CStr CondStore)

section
variable {E : Env} {rank : CStr → Nat} {Q : World → Prop} {R : Rec}

/-! ### Registration -/

theorem intercalate_length (a : CStr) (l : List CStr) :
    (List.intercalate [','] (a :: l)).length ≤ a.length + 1 + (List.intercalate [','] l).length := by
  cases l with
  | nil => simp [List.intercalate]
  | cons b l =>
    have e : List.intercalate [','] (a :: b :: l) = a ++ ',' :: List.intercalate [','] (b :: l) := by
      simp [List.intercalate]
    rw [e, List.length_append, List.length_cons]; omega

theorem tokensAux_length (p : Char → Bool) : ∀ (s acc : CStr),
    (List.intercalate [','] (tokensAux p acc s)).length ≤ acc.length + s.length := by
  intro s
  induction s with
  | nil =>
    intro acc
    unfold tokensAux; split
    · simp [List.intercalate]
    · simp [List.intercalate]
  | cons c cs ih =>
    intro acc
    unfold tokensAux
    split
    · split
      · have := ih []; simp only [List.length_nil, List.length_cons] at this ⊢; omega
      · have h1 := intercalate_length acc.reverse (tokensAux p [] cs)
        have h2 := ih []
        simp only [List.length_nil, List.length_cons, List.length_reverse] at *; omega
    · have := ih (c :: acc); simp only [List.length_cons] at *; omega

/-- Joining tokens with commas and splitting them again gives the tokens. -/
theorem tokens_joined : ∀ (cs : List CStr), (∀ c ∈ cs, c ≠ [] ∧ ∀ x ∈ c, isComma x = false) →
    tokens isComma (List.intercalate [','] cs) = cs
  | [], _ => rfl
  | [c], h => by
    have hc := h c List.mem_cons_self
    have e : List.intercalate [','] [c] = c := by simp [List.intercalate]
    rw [e]
    have := tokensAux_append_nosep isComma c [] [] hc.2
    rw [List.append_nil] at this
    rw [tokens, this]
    simp [tokensAux, hc.1]
  | c :: d :: cs, h => by
    have hc := h c List.mem_cons_self
    have ih := tokens_joined (d :: cs) (fun x hx => h x (List.mem_cons_of_mem _ hx))
    have e : List.intercalate [','] (c :: d :: cs) = c ++ ',' :: List.intercalate [','] (d :: cs) := by
      simp [List.intercalate]
    rw [e, tokens, tokensAux_append_nosep isComma c [] _ hc.2]
    simp only [tokensAux, show isComma ',' = true from rfl, if_true, List.append_nil]
    rw [if_neg (by simp [hc.1]), List.reverse_reverse]
    rw [tokens] at ih
    rw [ih]

theorem affects_joined {n body : CStr} (hl : body.length < 192)
    (h : condAffects n (List.intercalate [','] (tokens isComma body)) = true) : n ∈ tokens isComma body := by
  unfold condAffects strlcpy at h
  rw [List.take_of_length_le (by
    have := tokensAux_length isComma body []
    simp only [tokens, List.length_nil] at this ⊢; omega)] at h
  rw [tokens_joined _ (fun c hc => by
    have := (mem_tokens_iff _ _ _).mp hc
    exact ⟨this.1, this.2.1⟩)] at h
  obtain ⟨c, hc, e⟩ := List.any_eq_true.mp h
  rw [of_decide_eq_true e] at hc
  exact hc

theorem affects_nil (n : CStr) : condAffects n [] = false := by
  unfold condAffects strlcpy; simp [tokens_nil]

theorem parseCond_plain {a : CStr} (h : a.head? ≠ some '!') (s : Svc) :
    parseCond (some a) s =
      (let s := if s.type.isDaemon then { s with sighup := true } else s
       if (a.takeWhile (· ≠ '>')).length ≥ 192 then s
       else { s with cond := List.intercalate [','] (tokens isComma (a.takeWhile (· ≠ '>'))) }) := by
  unfold parseCond
  dsimp only
  split
  · exact absurd rfl h
  · rfl

theorem parseCond_bang (r : CStr) (s : Svc) :
    parseCond (some ('!' :: r)) s =
      (let s := if s.type.isDaemon then { s with sighup := true } else s
       let s := if s.type.isRuntask then { s with sighup := true, once := 1 } else { s with sighup := false }
       if (r.takeWhile (· ≠ '>')).length ≥ 192 then s
       else { s with cond := List.intercalate [','] (tokens isComma (r.takeWhile (· ≠ '>'))) }) := rfl

/-- What the condition field of a service is after the condition of a stanza has been read. -/
theorem parseCond_waits (z : Stanza) (s : Svc) {n : CStr}
    (h : condAffects n (parseCond z.cond s).cond = true) :
    n ∈ z.waits ∨ condAffects n s.cond = true := by
  unfold Stanza.waits
  cases hz : z.cond with
  | none =>
    rw [hz] at h
    have : condAffects n [] = true := h
    rw [affects_nil] at this; cases this
  | some a =>
    rw [hz] at h
    dsimp only
    have e1 : (if s.type.isDaemon then { s with sighup := true } else s).cond = s.cond := by
      split <;> rfl
    by_cases hb : a.head? = some '!'
    · obtain ⟨r, rfl⟩ : ∃ r, a = '!' :: r := by
        cases a with
        | nil => cases hb
        | cons c r => rw [List.head?_cons, Option.some.injEq] at hb; exact ⟨r, by rw [hb]⟩
      rw [parseCond_bang] at h
      rw [if_pos hb]
      extract_lets s1 s2 at h
      have e2 : s2.cond = s.cond := by
        rw [← e1]; simp only [s2]; split <;> rfl
      split at h
      · rw [e2] at h; exact .inr h
      · rename_i hl; exact .inl (affects_joined (Nat.not_le.mp hl) h)
    · rw [parseCond_plain hb] at h
      rw [if_neg hb]
      extract_lets s1 at h
      split at h
      · rw [e1] at h; exact .inr h
      · rename_i hl; exact .inl (affects_joined (Nat.not_le.mp hl) h)

/-- When a service comes to be told of changes by SIGHUP. -/
theorem parseCond_hups (z : Stanza) (s : Svc) (ht : s.type = z.type)
    (h : (parseCond z.cond s).sighup = true) : z.hups = true ∨ s.sighup = true := by
  by_cases hd : z.type.isDaemon = true
  · left; unfold Stanza.hups; rw [hd]; rfl
  have hd' : s.type.isDaemon = false := by rw [ht]; simpa using hd
  cases hz : z.cond with
  | none =>
    rw [hz] at h
    have : (if s.type.isDaemon then { s with sighup := true } else s).sighup = true := h
    rw [hd'] at this; exact .inr this
  | some a =>
    rw [hz] at h
    by_cases hb : a.head? = some '!'
    · by_cases hr : z.type.isRuntask = true
      · left; unfold Stanza.hups; rw [hr, hz]; simp [hb]
      · obtain ⟨r, rfl⟩ : ∃ r, a = '!' :: r := by
          cases a with
          | nil => cases hb
          | cons c r => rw [List.head?_cons, Option.some.injEq] at hb; exact ⟨r, by rw [hb]⟩
        rw [parseCond_bang, hd'] at h
        extract_lets s1 s2 at h
        have e2 : s2.sighup = false := by
          simp only [s2, s1, Bool.false_eq_true, if_false]
          rw [ht, if_neg hr]
        split at h
        · rw [e2] at h; cases h
        · have : s2.sighup = true := h
          rw [e2] at this; cases this
    · rw [parseCond_plain hb, hd'] at h
      dsimp only at h
      right
      split at h <;> exact h

theorem applyStanza_fields (z : Stanza) (x y : Bool) (s : Svc) :
    (applyStanza z x y s).ident = s.ident ∧ (applyStanza z x y s).type = s.type ∧
    (applyStanza z x y s).levels = z.levels ∧
    (applyStanza z x y s).dev = (if z.type = .tty ∧ z.dev ≠ [] then z.dev else s.dev) ∧
    (applyStanza z x y s).cond = (parseCond z.cond { s with levels := z.levels }).cond ∧
    (applyStanza z x y s).sighup = (parseCond z.cond { s with levels := z.levels }).sighup := by
  unfold applyStanza
  obtain ⟨c, h, o, e⟩ := parseCond_eq z.cond { s with levels := z.levels }
  extract_lets s1 s2 s3 s4 ad s5
  have e2 : s2 = { s with levels := z.levels, cond := c, sighup := h, once := o } := e
  have e4 : ∃ rt, s4 = { s3 with restartTmo := rt } := by
    by_cases hc : s3.type.isDaemon = true ∧ s3.restartTmo = 0
    · exact ⟨_, if_pos hc⟩
    · exact ⟨s3.restartTmo, if_neg hc⟩
  have e5 : ∃ d ad, s5 = { s4 with dirty := d, argsDirty := ad } := by
    by_cases hc : (y || ad) = true
    · exact ⟨_, _, if_pos hc⟩
    · exact ⟨_, _, if_neg hc⟩
  obtain ⟨rt, e4⟩ := e4
  obtain ⟨d, ad', e5⟩ := e5
  rw [e5, e4]
  clear e4 e5
  rw [e]
  refine ⟨?_, ?_, ?_, ?_, ?_, ?_⟩
  all_goals simp only [s3, e2]
  all_goals rfl

theorem regFind_tty {z : Stanza} {c : Core} {k : Key} (h : regFind z c = some k) (ht : z.type = .tty) :
    (c.svc k).type = .tty ∧ (c.svc k).dev = z.dev := by
  unfold regFind at h
  rw [if_pos ht] at h
  unfold findByTty at h
  split at h
  · cases h
  · have := List.find?_some h
    simpa using this

theorem CfgOk.fields {c d : Core} (h : CfgOk E rank c)
    (i : ∀ j, (d.svc j).ident = (c.svc j).ident) (q : ∀ j, (d.svc j).cond = (c.svc j).cond)
    (t : ∀ j, (d.svc j).type = (c.svc j).type) (v : ∀ j, (d.svc j).dev = (c.svc j).dev)
    (u : ∀ j, (d.svc j).sighup = (c.svc j).sighup) (l : ∀ j, (d.svc j).levels = (c.svc j).levels) :
    CfgOk E rank d := by
  constructor
  · intro j n; rw [i, q]; exact h.waits j n
  · intro j; rw [i, t, v]; exact h.tty j
  · intro j; rw [i, u]; exact h.hup j
  · intro j; rw [i, l]; exact h.lev j

/-- Changing one service. -/
theorem CfgOk.one {c d : Core} (h : CfgOk E rank c) {k : Key} {s : Svc} (e : d.svc = upd c.svc k s)
    (hw : ∀ n, condAffects n s.cond = true → ∀ i, Told i n → rank i < rank s.ident)
    (ht : s.type = .tty → ∃ t, ∃ y ∈ E.conf t, y.type = .tty ∧ y.dev = s.dev ∧ s.ident = y.full)
    (hh : s.sighup = true → ∃ t, ∃ z ∈ E.conf t, z.hups = true ∧ z.full = s.ident)
    (hl : s.levels ≠ 0 → ∃ t, ∃ z ∈ E.conf t, z.levels = s.levels ∧ (z.type ≠ .tty → z.full = s.ident)) :
    CfgOk E rank d := by
  constructor
  all_goals
    intro j
    rw [e]
    by_cases hj : j = k
    · subst hj; rw [upd_same]; assumption
    · rw [upd_other _ _ _ _ hj]
      first | exact h.waits j | exact h.tty j | exact h.hup j | exact h.lev j

theorem hups_not_tty {z : Stanza} (h : z.hups = true) : z.type ≠ .tty := by
  intro ht; unfold Stanza.hups at h; rw [ht] at h; revert h; simp [SType.isDaemon, SType.isRuntask]

theorem register_cfgOk (hE : Ranked E rank) {z : Stanza} {t : Nat} (hz : z ∈ E.conf t) {w : World}
    (h : CfgOk E rank w.toCore) : CfgOk E rank (register E z w).toCore := by
  unfold register
  split
  · exact h
  split
  · exact h
  extract_lets r w1 k w2 ra rc
  split
  · exact h.congr (e := fun _ => rfl)
  have hw1 : CfgOk E rank w1.toCore := h.congr (e := fun _ => rfl)
  clear_value w1
  -- the object before the stanza is applied
  have key : ∃ s0 : Svc, w2.svc = upd w1.svc k s0 ∧ s0.type = z.type ∧
      (z.type ≠ .tty → s0.ident = z.full) ∧ Applies E z s0.ident ∧
      (∀ n, condAffects n s0.cond = true → ∀ i, Told i n → rank i < rank s0.ident) ∧
      (s0.sighup = true → ∃ t, ∃ z ∈ E.conf t, z.hups = true ∧ z.full = s0.ident) ∧
      (z.type = .tty → ∃ t, ∃ y ∈ E.conf t, y.type = .tty ∧
        y.dev = (if z.type = .tty ∧ z.dev ≠ [] then z.dev else s0.dev) ∧ s0.ident = y.full) := by
    simp only [w2, k]
    cases hf : regFind z w1.toCore with
    | some j =>
      rw [regObj_some hf, Option.getD_some]
      refine ⟨_, rfl, rfl, ?_, ?_, hw1.waits j, hw1.hup j, ?_⟩
      · intro hn
        obtain ⟨e1, e2⟩ := regFind_name hf hn
        show (w1.svc j).ident = _
        unfold Svc.ident Stanza.full; rw [e1, e2]
      · by_cases hn : z.type = .tty
        · obtain ⟨e1, e2⟩ := regFind_tty hf hn
          obtain ⟨t', y, hy, y1, y2, y3⟩ := hw1.tty j e1
          exact .inr ⟨hn, t', y, hy, y1, y2.trans e2, y3⟩
        · left
          obtain ⟨e1, e2⟩ := regFind_name hf hn
          show (w1.svc j).ident = _
          unfold Svc.ident Stanza.full; rw [e1, e2]
      · intro hn
        obtain ⟨e1, e2⟩ := regFind_tty hf hn
        obtain ⟨t', y, hy, y1, y2, y3⟩ := hw1.tty j e1
        refine ⟨t', y, hy, y1, ?_, y3⟩
        split
        · exact y2.trans e2
        · exact y2
    | none =>
      rw [regObj_none hf, Option.getD_none]
      refine ⟨_, rfl, rfl, fun _ => rfl, .inl rfl, ?_, ?_, ?_⟩
      · intro n hn; rw [affects_nil] at hn; cases hn
      · intro hs; cases hs
      · intro hn
        refine ⟨t, z, hz, hn, ?_, rfl⟩
        by_cases hd : z.dev = []
        · rw [if_neg (fun h => h.2 hd), hd]
        · rw [if_pos ⟨hn, hd⟩]
  obtain ⟨s0, e0, ht, hi, ha, hc, hh, hd⟩ := key
  clear_value w2 k
  obtain ⟨f1, f2, f3, f4, f5, f6⟩ := applyStanza_fields z ra.1 rc.1 s0
  refine CfgOk.one hw1 (k := k) (s := applyStanza z ra.1 rc.1 s0) ?_ ?_ ?_ ?_ ?_
  · show upd w2.svc k _ = _
    rw [show rc.2.svc k = s0 by show w2.svc k = s0; rw [e0, upd_same], e0]
    funext j
    by_cases hj : j = k
    · subst hj; simp
    · rw [upd_other _ _ _ _ hj, upd_other _ _ _ _ hj, upd_other _ _ _ _ hj]
  · intro n hn i hni
    rw [f5] at hn
    rw [f1]
    rcases parseCond_waits z _ hn with g | g
    · exact hE t z hz _ ha n g i hni
    · exact hc n g i hni
  · intro h1
    rw [f2, ht] at h1
    rw [f4, f1]
    exact hd h1
  · intro h1
    rw [f6] at h1
    rw [f1]
    rcases parseCond_hups z _ (by exact ht) h1 with g | g
    · exact ⟨t, z, hz, g, (hi (hups_not_tty g)).symm⟩
    · exact hh g
  · intro _
    rw [f3, f1]
    exact ⟨t, z, hz, rfl, fun hn => (hi hn).symm⟩

/-- An update that reads the configuration. -/
theorem NestSm.pure {w v : World} (hr : v.reent = w.reent) (hs : v.stack = w.stack)
    (hi : v.inSm = w.inSm) (ht : w.trace <:+ v.trace) (hc : CfgOk E rank w.toCore → CfgOk E rank v.toCore)
    (hm : keys v = keys w := by rfl) (h2 : v.twice = w.twice := by rfl) :
    NestSm E rank w v := ⟨ht, .inr ⟨fun h => ⟨hr.trans h.1, h2.trans h.2⟩, ⟨hs, hm⟩, hi, hc⟩⟩

theorem NestSm.glob {w v : World} (hr : v.reent = w.reent) (hs : v.stack = w.stack)
    (hi : v.inSm = w.inSm) (ht : v.trace = w.trace) (hc : v.svc = w.svc)
    (hm : keys v = keys w := by rfl) (h2 : v.twice = w.twice := by rfl) :
    NestSm E rank w v := (Nest.glob hr hs hi ht hc hm h2).sm

theorem register_nest (hE : Ranked E rank) {z : Stanza} {t : Nat} (hz : z ∈ E.conf t) (w : World) :
    NestSm E rank w (register E z w) := by
  have h : (register E z w).reent = w.reent ∧ (register E z w).stack = w.stack ∧
      (register E z w).inSm = w.inSm ∧ keys (register E z w) = keys w ∧
      (register E z w).twice = w.twice ∧ w.trace <:+ (register E z w).trace := by
    unfold register
    split
    · exact ⟨rfl, rfl, rfl, rfl, rfl, List.suffix_refl _⟩
    split
    · exact ⟨rfl, rfl, rfl, rfl, rfl, List.suffix_refl _⟩
    extract_lets r w1 k w2 ra rc
    split
    · exact ⟨rfl, rfl, rfl, rfl, rfl, List.suffix_refl _⟩
    simp only [rc, ra, w2]
    cases hf : regFind z w1.toCore with
    | some j => rw [regObj_some hf]; exact ⟨rfl, rfl, rfl, rfl, rfl, List.suffix_cons _ _⟩
    | none => rw [regObj_none hf]; exact ⟨rfl, rfl, rfl, rfl, rfl, List.suffix_cons _ _⟩
  exact .pure h.1 h.2.1 h.2.2.1 h.2.2.2.2.2 (register_cfgOk hE hz) h.2.2.2.1 h.2.2.2.2.1

theorem registerAll_nest (hE : Ranked E rank) {t : Nat} : ∀ (zs : List Stanza), (∀ z ∈ zs, z ∈ E.conf t) →
    ∀ (w : World), NestSm E rank w (registerAll E zs w) := by
  intro zs
  induction zs with
  | nil => exact fun _ w => .refl w
  | cons z zs ih =>
    intro h w
    exact (register_nest hE (h z (.head _)) w).trans (ih (fun z hz => h z (.tail _ hz)) _)

theorem markAffected_nest (n : CStr) (w : World) : Nest E rank w (markAffected n w) := by
  refine .pure rfl rfl rfl (List.suffix_refl _) fun j => ?_
  unfold markAffected; dsimp only; split <;> rfl

theorem updateRdeps_nest : ∀ (ks : List Key) (w : World), Nest E rank w (updateRdeps ks w) := by
  intro ks
  induction ks with
  | nil => exact fun w => .refl w
  | cons k ks ih =>
    intro w
    unfold updateRdeps; split
    · exact (markAffected_nest _ w).trans (ih _)
    · exact ih w

theorem markDynamic_nest (w : World) : NestSm E rank w (markDynamic w) := by
  refine .pure rfl rfl rfl (List.suffix_refl _) fun h => ?_
  refine h.fields ?_ ?_ ?_ ?_ ?_ ?_ <;> intro j <;> (unfold markDynamic; dsimp only; split <;> rfl)

theorem markUnavail_nest (w : World) : NestSm E rank w (markUnavail w) := by
  refine .pure rfl rfl rfl (List.suffix_refl _) fun h => ?_
  refine h.fields ?_ ?_ ?_ ?_ ?_ ?_ <;> intro j <;> (unfold markUnavail; dsimp only; split <;> rfl)

theorem confReload_nest (hE : Ranked E rank) (w : World) : NestSm E rank w (confReload E w) := by
  unfold confReload
  extract_lets w1 zs w2 w3 w4 w5
  have h1 : NestSm E rank w w1 := (Nest.emit _ w).sm.trans (markDynamic_nest _)
  have h2 : NestSm E rank w w2 := h1.trans (.glob rfl rfl rfl rfl rfl)
  have h3 : NestSm E rank w w3 := h2.trans (registerAll_nest hE (t := w1.tick) zs (fun _ h => h) w2)
  have h4 : NestSm E rank w w4 := h3.trans (updateRdeps_nest _ _).sm
  have h5 : NestSm E rank w w5 := (h4.trans (Nest.emit _ w4).sm).trans (markUnavail_nest _)
  exact h5.trans (.glob rfl rfl rfl rfl rfl)

/-! ### `sm_step` -/

theorem runtaskClean_nest (hR : NestR E rank R) {w : World} (h : Ctx E rank Idle w) :
    Nest E rank w (runtaskClean R w) := by
  refine forAll_nest (Q := Idle) (fun k w h => ?_) h
  split
  · extract_lets w1 w2
    have h1 : Nest E rank w w1 := touch_nest (h.below k)
    have h2 : Nest E rank w w2 := h1.trans (.mod rfl)
    split
    · exact h2.trans (setState_nest hR _ ((h.next h2).top k))
    · exact h2
  · exact .refl w

theorem unregister_nest (hR : NestR E rank R) (k : Key) {w : World} (h : Ctx E rank Idle w) :
    Nest E rank w (unregister E R k w) := by
  unfold unregister
  extract_lets w1 w2
  have h1 : Nest E rank w w1 := touch_nest (h.below k)
  have h2 : Nest E rank w w2 := h1.trans (serviceStop_nest hR ((h.next h1).top k))
  exact (h2.trans (timerCancel_nest _ _)).trans (svcDel_nest _ _)

theorem cleanDynamic_nest (hR : NestR E rank R) {w : World} (h : Ctx E rank Idle w) :
    Nest E rank w (cleanDynamic E R w) := by
  refine forAll_nest (Q := Idle) (fun k w h => ?_) h
  split
  · exact unregister_nest hR k h
  · exact .refl w

theorem hookWrites_nest : ∀ (ns : List CStr) (w : World), Nest E rank w (hookWrites ns w) := by
  intro ns
  induction ns with
  | nil => exact fun w => .refl w
  | cons n ns ih =>
    intro w
    unfold hookWrites
    refine Nest.trans ?_ (ih _)
    split
    · exact .glob rfl rfl rfl rfl rfl
    · exact .refl w

theorem runHook_nest (hR : NestR E rank R) (n : CStr) {w : World} (h : Ctx E rank Idle w) :
    Nest E rank w (runHook E R n w) := by
  unfold runHook
  extract_lets w1 w2
  have h0 : Nest E rank w { w with tick := w.tick + 1 } := .glob rfl rfl rfl rfl rfl
  have h1 : Nest E rank w w1 := h0.trans (hookWrites_nest _ _)
  have h2 : Nest E rank w w2 := h1.trans (condOneshot_nest hR ((h.next h1).pub n).pub1)
  exact h2.trans (stepAll_nest hR _ (h.next h2))

theorem pidfileReconf_nest (hR : NestR E rank R) {w : World} (h : Ctx E rank Idle w) :
    Nest E rank w (pidfileReconf E R w) := by
  unfold pidfileReconf
  extract_lets w1
  have h1 : Nest E rank w w1 := by
    refine forAll_nest (Q := Idle) (fun k w h => ?_) h
    extract_lets s v1 v2
    split
    · have g1 : Nest E rank w v1 := touch_nest (h.below k)
      have g2 : Nest E rank w v2 := by
        simp only [v2]; split
        · exact g1.trans (serviceReady_nest hR _ ((h.next g1).top k))
        · exact g1
      split
      · exact g2
      · exact g2.trans (.glob rfl rfl rfl rfl rfl)
    · exact .refl w
  exact h1.trans (stepAll_nest hR _ (h.next h1))

theorem notifyReconf_nest (hR : NestR E rank R) {w : World} (h : Ctx E rank Idle w) :
    Nest E rank w (notifyReconf E R w) := by
  refine forAll_nest (Q := Idle) (fun k w h => ?_) h
  extract_lets s
  split
  · exact .refl w
  · have g1 : Nest E rank w (touch k w) := touch_nest (h.below k)
    exact g1.trans (serviceReady_nest hR _ ((h.next g1).top k))

theorem nologinUpdate_nest (w : World) : Nest E rank w (nologinUpdate w) := by
  unfold nologinUpdate
  extract_lets w1
  have h1 : Nest E rank w w1 := by
    simp only [w1]; split
    · exact .glob rfl rfl rfl rfl rfl
    · exact .refl w
  split
  · exact h1.trans (.glob rfl rfl rfl rfl rfl)
  · exact h1

theorem doShutdown_nest (w : World) : Nest E rank w (doShutdown w) :=
  .pure rfl rfl rfl (List.suffix_cons _ _) fun _ => rfl

theorem smBootWait_nest (hR : NestR E rank R) {w : World} (h : Ctx E rank Idle w) :
    Nest E rank w (smBootWait E R w) := by
  unfold smBootWait
  extract_lets w1 w2 w3 w4 w5 w6
  have h1 : Nest E rank w w1 := stepAll_nest hR _ h
  have h2 : Nest E rank w w2 := h1.trans (condOneshot_nest hR ((h.next h1).pub _).pub1)
  split
  · exact h2
  have h3 : Nest E rank w w3 := h2.trans (runHook_nest hR _ (h.next h2))
  have h4 : Nest E rank w w4 := h3.trans (stepAll_nest hR _ (h.next h3))
  have h5 : Nest E rank w w5 := h4.trans (.glob rfl rfl rfl rfl rfl)
  have h6 : Nest E rank w w6 := h5.trans (stepAll_nest hR _ (h.next h5))
  exact h6.trans (.glob rfl rfl rfl rfl rfl)

theorem smRunning_nest (hR : NestR E rank R) {w : World} (h : Ctx E rank Idle w) :
    Nest E rank w (smRunning R w) := by
  unfold smRunning
  extract_lets w1
  have h1 : Nest E rank w w1 := stepAll_nest hR _ h
  split
  · split
    · exact h1.trans (.glob rfl rfl rfl rfl rfl)
    · exact h1.trans (.glob rfl rfl rfl rfl rfl)
  split
  · exact h1.trans (.glob rfl rfl rfl rfl rfl)
  · exact h1

theorem smRlChange_nest (hE : Ranked E rank) (hR : NestR E rank R) {w : World} (h : Ctx E rank Idle w) :
    NestSm E rank w (smRlChange E R w) := by
  unfold smRlChange
  extract_lets w1 w2 w3 w4 w5 w6 w7 w8
  have h2 : Nest E rank w w2 := (Nest.emit _ w).trans (.glob rfl rfl rfl rfl rfl)
  have h3 : Nest E rank w w3 := by
    simp only [w3]; split
    · exact h2.trans (runHook_nest hR _ (h.next h2))
    · exact h2
  have h4 : Nest E rank w w4 := h3.trans (nologinUpdate_nest _)
  have h5 : NestSm E rank w w5 := by
    simp only [w5]; split
    · exact h4.sm.trans (confReload_nest hE _)
    · exact h4.sm
  have c5 := h.nextSm h5
  have h6 : Nest E rank w5 w6 := runtaskClean_nest hR c5
  have h7 : Nest E rank w5 w7 := h6.trans (.glob rfl rfl rfl rfl rfl)
  have h7' : Nest E rank w5 (emit .sweep w7) := h7.trans (.emit _ _)
  have h8 : Nest E rank w5 w8 := h7'.trans (stepAll_nest hR _ (c5.next h7'))
  exact (h5.trans h8.sm).trans (.glob rfl rfl rfl rfl rfl)

theorem smRlWait_nest (hR : NestR E rank R) {w : World} (h : Ctx E rank Idle w) :
    Nest E rank w (smRlWait E R w) := by
  unfold smRlWait
  split
  · exact .refl w
  extract_lets w1 w2 w3 w4
  have h1 : Nest E rank w w1 := .emit _ _
  have h2 : Nest E rank w w2 := h1.trans (runHook_nest hR _ (h.next h1))
  have h3 : Nest E rank w w3 := h2.trans (.glob rfl rfl rfl rfl rfl)
  have h4 : Nest E rank w w4 := h3.trans (stepAll_nest hR _ (h.next h3))
  exact h4.trans (.glob rfl rfl rfl rfl rfl)

theorem smRlClean_nest (hR : NestR E rank R) {w : World} (h : Ctx E rank Idle w) :
    Nest E rank w (smRlClean E R w) := by
  unfold smRlClean
  split
  · exact .refl w
  extract_lets w1
  have h1 : Nest E rank w w1 := cleanDynamic_nest hR h
  split
  · exact h1.trans (doShutdown_nest _)
  · exact h1.trans (.glob rfl rfl rfl rfl rfl)

theorem smReloadChange_nest (hE : Ranked E rank) (hR : NestR E rank R) {w : World} (h : Ctx E rank Idle w) :
    NestSm E rank w (smReloadChange E R w) := by
  unfold smReloadChange
  extract_lets w1 w2 w3 w4
  have h1 : Nest E rank w w1 := .glob rfl rfl rfl rfl rfl
  have h2 : NestSm E rank w w2 := h1.sm.trans (confReload_nest hE _)
  have c2 := h.nextSm h2
  have h2' : Nest E rank w2 (emit .sweep w2) := .emit _ _
  have h3 : Nest E rank w2 w3 := h2'.trans (stepAll_nest hR _ (c2.next h2'))
  have h4 : Nest E rank w2 w4 := h3.trans (.glob rfl rfl rfl rfl rfl)
  exact (h2.trans h4.sm).trans (.glob rfl rfl rfl rfl rfl)

theorem smReloadWait_nest (hR : NestR E rank R) {w : World} (h : Ctx E rank Idle w) :
    Nest E rank w (smReloadWait R w) := by
  unfold smReloadWait
  split
  · exact .refl w
  extract_lets w1 w2 w3
  have h1 : Nest E rank w w1 := .emit _ _
  have h2 : Nest E rank w w2 := h1.trans (.glob rfl rfl rfl rfl rfl)
  have h3 : Nest E rank w w3 := h2.trans (stepAll_nest hR _ (h.next h2))
  exact h3.trans (.glob rfl rfl rfl rfl rfl)

theorem smReloadClean_nest (hR : NestR E rank R) {w : World} (h : Ctx E rank Idle w) :
    Nest E rank w (smReloadClean E R w) := by
  unfold smReloadClean
  split
  · exact .refl w
  extract_lets w1 w2 w3 w4
  have h1 : Nest E rank w w1 := cleanDynamic_nest hR h
  have h2 : Nest E rank w w2 := h1.trans (pidfileReconf_nest hR (h.next h1))
  have h3 : Nest E rank w w3 := h2.trans (runHook_nest hR _ (h.next h2))
  have h4 : Nest E rank w w4 := h3.trans (notifyReconf_nest hR (h.next h3))
  exact h4.trans (.glob rfl rfl rfl rfl rfl)

theorem smBranch_nest (hE : Ranked E rank) (hR : NestR E rank R) {w : World} (h : Ctx E rank Idle w) :
    NestSm E rank w (smBranch E R w) := by
  unfold smBranch
  split
  · exact (stepAll_nest hR _ h).sm.trans (.glob rfl rfl rfl rfl rfl)
  · exact (smBootWait_nest hR h).sm
  · exact (smRunning_nest hR h).sm
  · exact smRlChange_nest hE hR h
  · exact (smRlWait_nest hR h).sm
  · exact (smRlClean_nest hR h).sm
  · exact smReloadChange_nest hE hR h
  · exact (smReloadWait_nest hR h).sm
  · exact (smReloadClean_nest hR h).sm

theorem smLoopBody_nest (hE : Ranked E rank) (hR : NestR E rank R) {w : World} (h : Ctx E rank Idle w) :
    NestSm E rank w (smLoopBody E R w) := by
  unfold smLoopBody
  extract_lets old w1
  have h1 : NestSm E rank w w1 := smBranch_nest hE hR h
  split
  · exact h1
  split
  · exact h1.trans (hR.smLoop _ (h.nextSm h1))
  · exact h1

theorem smStep_nest (hE : Ranked E rank) (hR : NestR E rank R) {w : World} (h : Ctx E rank Resting w) :
    NestSm E rank w (smStep E R w) := by
  unfold smStep
  split
  · exact .refl w
  extract_lets w1 was w2 w3
  have h1 : Nest E rank w w1 := by
    simp only [w1]
    rcases h with h | ⟨_, _, h⟩
    · split
      · exact ⟨List.suffix_refl _, .inl h⟩
      · exact .refl w
    · rw [if_neg (by rw [h.1.1, h.2]; simp)]; exact .refl w
  have c1 := h.next h1
  clear_value w1
  have c2 : Ctx E rank Idle w2 := by
    rcases c1 with g | ⟨g1, g2, g3⟩
    · exact .inl g
    · exact .inr ⟨g1, g2.congr (e := fun _ => rfl), g3.1⟩
  have h3 : NestSm E rank w2 w3 := smLoopBody_nest hE hR c2
  refine h1.sm.trans ⟨h3.ext, h3.out.imp_right fun g => ⟨g.1, g.2.1, rfl, fun c => ?_⟩⟩
  exact (g.2.2.2 (c.congr (e := fun _ => rfl))).congr (e := fun _ => rfl)

theorem mkRec_nest (hE : Ranked E rank) : ∀ n, NestR E rank (mkRec E n) := by
  intro n
  induction n with
  | zero =>
    exact ⟨fun _ _ _ => .glob rfl rfl rfl rfl rfl, fun _ _ _ => .glob rfl rfl rfl rfl rfl,
      fun _ _ => .glob rfl rfl rfl rfl rfl, fun _ _ => .glob rfl rfl rfl rfl rfl⟩
  | succ n ih =>
    exact ⟨fun _ _ h => serviceStep_nest ih h, fun _ _ h => stepLoop_nest ih h,
      fun _ h => smStep_nest hE ih h, fun _ h => smLoopBody_nest hE ih h⟩

/-! ### Events -/

theorem serviceKill_nest (hR : NestR E rank R) (k : Key) {w : World} (h : Ctx E rank Resting w) :
    NestSm E rank w (serviceKill E R k w) := by
  unfold serviceKill
  extract_lets w1 p r nm w2
  have h1 : Nest E rank w w1 := timerCancel_nest _ _
  split
  · exact h1.sm
  have h2 : Nest E rank w w2 := h1.trans (procExists_nest _ _)
  split
  · exact h2.sm.trans (monitor_nest hR _ _ (h.next h2))
  · exact (h2.trans (kill_nest _ _ _ _ _)).sm

theorem serviceRetry_nest (hR : NestR E rank R) (k : Key) {w : World} (h : Ctx E rank Idle w) :
    Nest E rank w (serviceRetry E R k w) := by
  unfold serviceRetry
  extract_lets svc0 w1 r nr w2 src w3 w4 w5 w6 w7 w8 w9
  have h1 : Nest E rank w w1 := timerCancel_nest _ _
  have h2 : Nest E rank w w2 := h1.trans (askB_nest _)
  split
  · exact h2
  split
  · have h3 : Nest E rank w (mod k (fun s => { s with block := .none }) w2) := h2.trans (.mod rfl)
    exact h3.trans (hR.step _ _ ((h.next h3).below k))
  split
  · have h3 : Nest E rank w w3 := h2.trans (.pure rfl rfl rfl (List.suffix_cons _ _) fun _ => rfl)
    have h4 : Nest E rank w (mod k (fun s => { s with restartTmo := s.restartSaved }) w3) := h3.trans (.mod rfl)
    exact h4.trans (setState_nest hR _ ((h.next h4).top k))
  split
  · have h5 : Nest E rank w w5 := (h2.trans (.emit _ _)).trans (.mod rfl)
    have h6 : Nest E rank w w6 := by
      simp only [w6]; split
      · exact h5.trans (.emit _ _)
      · split
        · exact h5.trans (scriptFork_nest _ _ _ _)
        · exact h5
      · exact h5
    exact h6.trans (hR.step _ _ ((h.next h6).below k))
  · have h8 : Nest E rank w w8 := (h2.trans (.emit _ _)).trans (.mod rfl)
    have h9 : Nest E rank w w9 := h8.trans (hR.step _ _ ((h.next h8).below k))
    exact h9.trans (timerAfter_nest _ _ _ _)

theorem timerFire_nest (hR : NestR E rank R) (k : Key) {w : World} (h : Ctx E rank Resting w) :
    NestSm E rank w (timerFire E R k w) := by
  unfold timerFire
  split
  · exact .refl w
  extract_lets w1 w2
  have h1 : Nest E rank w w1 := by
    simp only [w1]; split
    · exact .glob rfl rfl rfl rfl rfl
    · exact .refl w
  have h2 : Nest E rank w w2 := h1.trans (.mod rfl)
  have c2 := h.next h2
  split
  · exact h2.sm
  · exact h2.sm.trans (serviceKill_nest hR k c2)
  · exact h2.sm.trans (serviceRetry_nest hR k c2.idle).sm
  · refine (h2.trans ?_).sm
    unfold serviceKillScript
    extract_lets p
    split
    · exact .refl _
    · exact kill_nest _ _ _ _ _
  · exact (h2.trans (scriptKill_nest _ _)).sm

theorem confFlush_nest (w : World) : Nest E rank w (confFlush E w) := by
  unfold confFlush
  extract_lets r
  split
  · exact .glob rfl rfl rfl rfl rfl
  · exact .glob rfl rfl rfl rfl rfl

theorem smRunlevel_nest (hR : NestR E rank R) (l : Nat) {w : World} (h : Ctx E rank Resting w) :
    NestSm E rank w (smRunlevel E R l w) := by
  unfold smRunlevel
  have h0 : Nest E rank w { w with newlevel := (l : Int) } := .glob rfl rfl rfl rfl rfl
  have h1 := h0.trans (confFlush_nest _)
  exact h1.sm.trans (hR.sm _ (h.next h1))

theorem smReload_nest (hR : NestR E rank R) {w : World} (h : Ctx E rank Resting w) :
    NestSm E rank w (smReload E R w) := by
  unfold smReload
  have h0 : Nest E rank w { w with reload := true } := .glob rfl rfl rfl rfl rfl
  have h1 := h0.trans (confFlush_nest _)
  exact h1.sm.trans (hR.sm _ (h.next h1))

theorem pruneBootstrap_nest {w : World} (h : Ctx E rank Idle w) : Nest E rank w (pruneBootstrap R w) := by
  refine forAll_nest (Q := Idle) (fun k w _ => ?_) h
  split
  · exact cleanBootstrap_nest _ _
  · exact .refl w

theorem bootCheck_nest (hR : NestR E rank R) {w : World} (h : Ctx E rank Resting w) :
    NestSm E rank w (bootCheck E R w) := by
  unfold bootCheck
  extract_lets w1 w2 done t w3 w4 w5 w6
  have h1 : Nest E rank w w1 := .glob rfl rfl rfl rfl rfl
  have h2 : Nest E rank w w2 := h1.trans (stepAll_nest hR _ (h.next h1).idle)
  have h3 : Nest E rank w w3 := h2.trans (.glob rfl rfl rfl rfl rfl)
  split
  · exact h3.sm.trans (.glob rfl rfl rfl rfl rfl)
  have h4 : Nest E rank w w4 := h3.trans (confFlush_nest _)
  have h5 : NestSm E rank w w5 := h4.sm.trans (smRunlevel_nest hR _ (h.next h4))
  have c5 := (h.nextRest h5).idle
  split
  · exact h5
  have h6 : Nest E rank w5 w6 := pruneBootstrap_nest c5
  exact h5.trans (h6.trans (runHook_nest hR _ (c5.next h6))).sm

theorem apiStop_nest (hR : NestR E rank R) (k : Key) {w : World} (h : Ctx E rank Idle w) :
    Nest E rank w (apiStop R k w) := by
  unfold apiStop
  extract_lets w1 w2
  have h2 : Nest E rank w w2 := (timerCancel_nest _ _).trans (.mod rfl)
  have h3 := h2.trans (hR.step k w2 ((h.next h2).below k))
  exact h3.trans (stepAll_nest hR _ (h.next h3))

theorem apiStart_nest (hR : NestR E rank R) (k : Key) {w : World} (h : Ctx E rank Idle w) :
    Nest E rank w (apiStart R k w) := by
  unfold apiStart
  extract_lets w1 w2
  have h2 : Nest E rank w w2 := (timerCancel_nest _ _).trans (.mod rfl)
  have h3 := h2.trans (hR.step k w2 ((h.next h2).below k))
  exact h3.trans (stepAll_nest hR _ (h.next h3))

theorem apiRestart_nest (hR : NestR E rank R) (k : Key) {w : World} (h : Ctx E rank Idle w) :
    Nest E rank w (apiRestart E R k w) := by
  unfold apiRestart
  split
  · exact apiStart_nest hR k h
  · have h1 : Nest E rank w (timerCancel k w) := timerCancel_nest _ _
    have h2 := h1.trans (serviceStop_nest hR ((h.next h1).top k))
    exact h2.trans (hR.step _ _ ((h.next h2).below k))

theorem apiReload_nest (hR : NestR E rank R) (k : Key) {w : World} (h : Ctx E rank Idle w) :
    Nest E rank w (apiReload R k w) := by
  unfold apiReload
  extract_lets w1
  have h1 : Nest E rank w w1 := by
    simp only [w1]; split
    · exact .mod rfl
    · exact timerCancel_nest _ _
  have h2 : Nest E rank w (mod k (fun s => { s with dirty := true }) w1) := h1.trans (.mod rfl)
  exact h2.trans (hR.step _ _ ((h.next h2).below k))

theorem pidfileGone_nest (hR : NestR E rank R) (k : Key) {w : World} (h : Ctx E rank Idle w) :
    Nest E rank w (pidfileGone E R k w) := by
  unfold pidfileGone
  extract_lets w1
  have h1 : Nest E rank w w1 := condClear_nest hR (h.pub _)
  split
  · exact h1.trans (serviceReady_nest hR _ ((h.next h1).top k))
  · exact h1

theorem pidfileSet_nest (hR : NestR E rank R) (k : Key) {w : World} (h : Ctx E rank Idle w) :
    Nest E rank w (pidfileSet E R k w) := by
  unfold pidfileSet
  extract_lets w1
  have h1 : Nest E rank w w1 := by
    simp only [w1]; split
    · exact condSet_nest hR (h.pub _).pub1
    · exact .refl w
  split
  · exact h1.trans (serviceReady_nest hR _ ((h.next h1).top k))
  · exact h1

theorem serviceForked_nest (hR : NestR E rank R) (k : Key) {w : World} (h : Ctx E rank Idle w) :
    Nest E rank w (serviceForked R k w) := by
  unfold serviceForked
  extract_lets w1 w2
  have h2 : Nest E rank w w2 := (timerCancel_nest _ _).trans (.mod rfl)
  exact h2.trans (setState_nest hR _ ((h.next h2).top k))

theorem pidfileWrite_nest (hR : NestR E rank R) (k : Key) (p : Int) (there : Bool) {w : World}
    (h : Ctx E rank Idle w) : Nest E rank w (pidfileWrite E R k p there w) := by
  unfold pidfileWrite
  extract_lets st w1 w2 w3
  split
  · exact .refl w
  split
  · exact pidfileGone_nest hR k h
  have h1 : Nest E rank w w1 := by
    simp only [w1]; split
    · exact .mod rfl
    · exact .refl w
  split
  · split
    · split
      · exact h1
      · exact h1.trans (condClear_nest hR ((h.next h1).pub _))
    · have h2 : Nest E rank w w2 := h1.trans (serviceForked_nest hR k (h.next h1))
      have h3 : Nest E rank w w3 := h2.trans (.mod rfl)
      exact h3.trans (pidfileSet_nest hR k (h.next h3))
  · exact h1.trans (pidfileSet_nest hR k (h.next h1))

theorem pidfileRemove_nest (hR : NestR E rank R) (k : Key) {w : World}
    (h : Ctx E rank Idle w) : Nest E rank w (pidfileRemove E R k w) := by
  unfold pidfileRemove
  extract_lets st
  split
  · exact .refl w
  · exact pidfileGone_nest hR k h

theorem notifyReady_nest (hR : NestR E rank R) (k : Key) {w : World}
    (h : Ctx E rank Idle w) : Nest E rank w (notifyReady E R k w) := by
  unfold notifyReady
  extract_lets w1 w2 w3
  have h1 : Nest E rank w w1 := by
    simp only [w1]; split
    · exact .glob rfl rfl rfl rfl rfl
    · exact .refl w
  have h2 : Nest E rank w w2 := h1.trans (.mod rfl)
  have h3 : Nest E rank w w3 := h2.trans (serviceReady_nest hR _ ((h.next h2).top k))
  split
  · exact h3.trans (.mod rfl)
  · exact h3

theorem ageAll_nest : ∀ (ks : List Key) (w : World), Nest E rank w (ageAll ks w) := by
  intro ks
  induction ks with
  | nil => exact fun w => .refl w
  | cons k ks ih =>
    intro w
    unfold ageAll
    refine Nest.trans ?_ (ih _)
    split
    · exact (Nest.emit _ _).trans (.mod rfl)
    · exact .refl w

theorem gcOne_nest (hR : NestR E rank R) (k : Key) {w : World}
    (h : Ctx E rank Idle w) : Nest E rank w (gcOne R k w) := by
  unfold gcOne
  extract_lets w1 w2
  have h1 : Nest E rank w w1 := .glob rfl rfl rfl rfl rfl
  have h2 : Nest E rank w w2 := by
    simp only [w2]; split
    · exact h1
    · exact h1.trans (condClear_nest hR ((h.next h1).pub _))
  exact h2.trans (.glob rfl rfl rfl rfl rfl)

theorem handle_nest (hE : Ranked E rank) (n : Nat) (ev : Ev) {w : World} (h : Ctx E rank Resting w) :
    NestSm E rank w (handle E n ev w) := by
  have hR := mkRec_nest hE n
  have hi := h.idle
  unfold handle
  extract_lets R
  have hR : NestR E rank R := hR
  split
  · exact .refl w
  split
  · split
    · have h1 : Nest E rank w { w with booted := true, bootWork := true } := .glob rfl rfl rfl rfl rfl
      have h2 := h1.sm.trans (confReload_nest hE _)
      exact h2.trans (hR.sm _ (h.nextRest h2))
    · exact .refl w
  split
  · exact .refl w
  · rename_i p st
    split
    · have h1 : Nest E rank w (reap p (some st) w) := reap_nest _ _ _
      exact h1.sm.trans (monitor_nest hR _ _ (h.next h1))
    · exact .refl w
  · split
    · exact .glob rfl rfl rfl rfl rfl
    · exact .refl w
  · exact timerFire_nest hR _ h
  · split
    · have h1 : Nest E rank w { w with work := false } := .glob rfl rfl rfl rfl rfl
      exact (h1.trans (stepAll_nest hR _ (hi.next h1))).sm
    · exact .refl w
  · split
    · exact bootCheck_nest hR h
    · exact .refl w
  · rename_i k
    split
    · have h1 : Nest E rank w (emit (.asked k) w) := .emit _ _
      exact (h1.trans (apiStart_nest hR _ (hi.next h1))).sm
    · exact .refl w
  · rename_i k
    split
    · have h1 : Nest E rank w (emit (.asked k) w) := .emit _ _
      exact (h1.trans (apiStop_nest hR _ (hi.next h1))).sm
    · exact .refl w
  · rename_i k
    split
    · have h1 : Nest E rank w (emit (.asked k) w) := .emit _ _
      exact (h1.trans (apiRestart_nest hR _ (hi.next h1))).sm
    · exact .refl w
  · rename_i k
    split
    · have h1 : Nest E rank w (emit (.asked k) w) := .emit _ _
      exact (h1.trans (apiReload_nest hR _ (hi.next h1))).sm
    · exact .refl w
  · split
    · exact (kill_nest _ _ _ _ _).sm
    · exact .refl w
  · split
    · exact .refl w
    split
    · exact .glob rfl rfl rfl rfl rfl
    · exact smRunlevel_nest hR _ h
  · split
    · exact smReload_nest hR h
    · exact .refl w
  · rename_i six limit
    split
    · have h1 : Nest E rank w (if limit then { w with emerg := true } else w) := by
        split
        · exact .glob rfl rfl rfl rfl rfl
        · exact .refl w
      exact h1.sm.trans (smRunlevel_nest hR _ (h.next h1))
    · exact .refl w
  · split
    · exact (doShutdown_nest w).sm
    · exact .refl w
  · split
    · split
      · exact (condSet_nest hR (hi.pub _).pub1).sm
      · exact .glob rfl rfl rfl rfl rfl
    · exact .refl w
  · split
    · split
      · exact (condOneshot_nest hR (hi.pub _).pub1).sm
      · exact .glob rfl rfl rfl rfl rfl
    · exact .refl w
  · split
    · split
      · exact (condClear_nest hR (hi.pub _)).sm
      · exact .glob rfl rfl rfl rfl rfl
    · exact .refl w
  · split
    · exact (condUpdate_nest hR (hi.pub _).pub1).sm
    · exact .refl w
  · split
    · exact (pidfileWrite_nest hR _ _ _ hi).sm
    · exact .refl w
  · split
    · exact (pidfileRemove_nest hR _ hi).sm
    · exact .refl w
  · split
    · exact (notifyReady_nest hR _ hi).sm
    · exact .refl w
  · exact (ageAll_nest _ w).sm
  · split
    · exact (gcOne_nest hR _ hi).sm
    · exact .refl w
  · exact .glob rfl rfl rfl rfl rfl

/-- With ranked services, a service is stepped while it is being stepped, or changes its state while
    its state is being published, only after SIGHUP was sent to a process that does not exist. -/
theorem Reach.rest (hE : Ranked E rank) {w : World} (h : Reach E w) : Ctx E rank Resting w := by
  induction h with
  | start cfg cmd =>
    refine .inr ⟨⟨⟨rfl, rfl⟩, fun s hs => nomatch hs⟩, ⟨?_, ?_, ?_, ?_⟩, ⟨rfl, rfl⟩, rfl⟩
    · intro j n hn
      have : condAffects n [] = true := hn
      rw [affects_nil] at this; cases this
    · intro j h; cases h
    · intro j h; cases h
    · intro j h; exact absurd rfl h
  | event n ev h ih => exact ih.nextRest (handle_nest hE n ev ih)

end

end Verif.Sup
