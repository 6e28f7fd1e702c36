import Verif.Sup.Ctl
import Verif.Sup.Later

/-!
# Supervisor model: runlevels

Consequences of `Verif.Sup.handle_moved` for the runlevel, the bootstrap phase and the file that
keeps users from logging in.
-/

namespace Verif.Sup

open Verif (CStr CondStore)

section
variable {E : Env}

theorem Run.inv {P : Ctl → Prop} (hP : ∀ c d, Move c d → P c → P d) {b : Bool} {c d : Ctl}
    (h : Run b c d) (hc : P c) : P d := by
  induction h with
  | cut c => exact hc
  | halt h _ => exact hP _ _ h hc
  | go h _ _ _ ih => exact ih (hP _ _ h hc)

/-! ### Runlevels 0 and 6 -/

/-- In runlevel 0 and 6 the machine waits for everything to stop. -/
def Ending (c : Ctl) : Prop := c.runlevel = 0 ∨ c.runlevel = 6 → c.sm = .rlWait ∨ c.sm = .rlClean

theorem Move.ending {c d : Ctl} (h : Move c d) (hc : Ending c) : Ending d := by
  unfold Ending at *
  cases h with
  | runlevel => intro _; exact .inl rfl
  | rlStopped => intro _; exact .inr rfl
  | _ => first
    | exact hc
    | (intro hr; exact hc hr)
    | (intro hr; rcases hc hr with e | e <;> simp_all)

theorem Move.fixed {c d : Ctl} (h : Move c d) (he : Ending c) (hc : c.runlevel = 0 ∨ c.runlevel = 6) :
    d.runlevel = c.runlevel ∧ d.nextKey = c.nextKey ∧ d.cfg = c.cfg := by
  have := he hc
  cases h <;> first | exact ⟨rfl, rfl, rfl⟩ | (rcases this with e | e <;> simp_all)

theorem Run.fixed {b : Bool} {c d : Ctl} (h : Run b c d) (he : Ending c)
    (hc : c.runlevel = 0 ∨ c.runlevel = 6) :
    d.runlevel = c.runlevel ∧ d.nextKey = c.nextKey ∧ d.cfg = c.cfg :=
  (h.inv (P := fun x => Ending x ∧ x.runlevel = c.runlevel ∧ x.nextKey = c.nextKey ∧ x.cfg = c.cfg)
    (fun a b m ⟨h1, h2, h3, h4⟩ => by
      obtain ⟨e2, e3, e4⟩ := m.fixed h1 (by rw [h2]; exact hc)
      exact ⟨m.ending h1, e2.trans h2, e3.trans h3, e4.trans h4⟩) ⟨he, rfl, rfl, rfl⟩).2

theorem Run.ending {b : Bool} {c d : Ctl} (h : Run b c d) (he : Ending c) : Ending d :=
  h.inv (fun _ _ m => m.ending) he

theorem Moved.ending {b : Bool} {ev : Ev} {c d : Ctl} (h : Moved b ev c d)
    (h0 : c.booted = false → c.runlevel = 10) (hc : Ending c) : Ending d := by
  cases h with
  | none => exact hc
  | boot _ _ _ _ hd hb h =>
    refine h.ending ?_
    intro hr
    have := h0 hb
    change c.runlevel = 0 ∨ c.runlevel = 6 at hr
    omega
  | exit _ _ _ _ hd hb h => exact h.ending hc
  | timer _ _ _ hd hb h => exact h.ending hc
  | poll => exact hc
  | pollDone _ _ hd hb hw h => exact h.ending hc
  | runlevel l _ _ hd hb hl hr h => exact h.ending hc
  | cfglevel l _ hb hl hr => exact hc
  | reload _ _ hd hb hr h => exact h.ending hc
  | reboot six limit _ _ hd hb hr h => exact h.ending hc
  | emergency => exact hc

theorem Moved.fixed {b : Bool} {ev : Ev} {c d : Ctl} (h : Moved b ev c d)
    (h0 : c.booted = false → c.runlevel = 10) (he : Ending c) (hc : c.runlevel = 0 ∨ c.runlevel = 6) :
    d.runlevel = c.runlevel ∧ d.nextKey = c.nextKey ∧ d.cfg = c.cfg := by
  cases h with
  | none => exact ⟨rfl, rfl, rfl⟩
  | boot _ _ _ _ hd hb h => have := h0 hb; omega
  | exit _ _ _ _ hd hb h => exact h.fixed he hc
  | timer _ _ _ hd hb h => exact h.fixed he hc
  | poll => exact ⟨rfl, rfl, rfl⟩
  | pollDone _ _ hd hb hw h => exact h.fixed he hc
  | runlevel l _ _ hd hb hl hr h => exact h.fixed he hc
  | cfglevel l _ hb hl hr => exact ⟨rfl, rfl, rfl⟩
  | reload _ _ hd hb hr h => exact h.fixed he hc
  | reboot six limit _ _ hd hb hr h => exact h.fixed he hc
  | emergency => exact ⟨rfl, rfl, rfl⟩

theorem Reach.unbooted {w : World} (h : Reach E w) (hb : w.booted = false) :
    ∃ cfg cmd, w = World.start cfg cmd := h.basic.2.2 hb

theorem Reach.moved {w : World} (h : Reach E w) (n : Nat) (ev : Ev)
    (hr : (handle E n ev w).reent = false) :
    Moved (handle E n ev w).oof ev (ctl w) (ctl (handle E n ev w)) :=
  handle_moved n ev h.basic.1 hr

/-- Invariants of the control state. -/
theorem Reach.ctl_inv {P : Ctl → Prop} (h0 : ∀ cfg cmd, P (ctl (World.start cfg cmd)))
    (hP : ∀ b ev w w', Reach E w → Moved b ev (ctl w) (ctl w') → P (ctl w) → P (ctl w'))
    {w : World} (h : Reach E w) (hr : w.reent = false) : P (ctl w) := by
  induction h with
  | start cfg cmd => exact h0 cfg cmd
  | event n ev h ih => exact hP _ ev _ _ h (h.moved n ev hr) (ih (h.reent n ev hr))

theorem Reach.ending {w : World} (h : Reach E w) (hr : w.reent = false) : Ending (ctl w) := by
  refine h.ctl_inv (P := Ending) ?_ ?_ hr
  · intro cfg cmd hc; rcases hc with hc | hc <;> exact absurd hc (by show ¬ ((10 : Nat) = _); decide)
  · intro b ev w w' hw m hc
    refine m.ending (fun hb => ?_) hc
    obtain ⟨cfg, cmd, rfl⟩ := hw.unbooted hb
    rfl

/-- Fuel, once out, stays out. -/
theorem Reach.oof_of {w : World} (h : Reach E w) {n : Nat} {ev : Ev}
    (hf : (handle E n ev w).oof = false) : w.oof = false := by
  cases e : w.oof with
  | false => rfl
  | true =>
    have := (h.steps n ev).inv (P := fun w => w.oof = true) (fun _ _ p => p.oof) e
    rw [this] at hf; cases hf

/-! ### Bootstrap -/

/-- What a move never touches. -/
theorem Move.rest {c d : Ctl} (h : Move c d) :
    d.booted = c.booted ∧ d.bootWork = c.bootWork ∧ d.cfglevel = c.cfglevel ∧ d.cmdlevel = c.cmdlevel ∧
    d.bootTmo = c.bootTmo ∧ d.emerg = c.emerg := by
  cases h <;> exact ⟨rfl, rfl, rfl, rfl, rfl, rfl⟩

theorem Run.rest {b : Bool} {c d : Ctl} (h : Run b c d) :
    d.booted = c.booted ∧ d.bootWork = c.bootWork ∧ d.cfglevel = c.cfglevel ∧ d.cmdlevel = c.cmdlevel ∧
    d.bootTmo = c.bootTmo ∧ d.emerg = c.emerg :=
  h.inv (P := fun x => x.booted = c.booted ∧ x.bootWork = c.bootWork ∧ x.cfglevel = c.cfglevel ∧
      x.cmdlevel = c.cmdlevel ∧ x.bootTmo = c.bootTmo ∧ x.emerg = c.emerg)
    (fun a b m ⟨h1, h2, h3, h4, h5, h6⟩ => by
      obtain ⟨e1, e2, e3, e4, e5, e6⟩ := m.rest
      exact ⟨e1.trans h1, e2.trans h2, e3.trans h3, e4.trans h4, e5.trans h5, e6.trans h6⟩)
    ⟨rfl, rfl, rfl, rfl, rfl, rfl⟩

theorem Move.low {c d : Ctl} (h : Move c d) (hc : c.runlevel ≤ 9 ∧ c.newlevel ≤ 9) :
    d.runlevel ≤ 9 ∧ d.newlevel ≤ 9 := by
  cases h <;> first | exact hc | (refine ⟨?_, ?_⟩ <;> simp only <;> omega)

theorem Run.low {b : Bool} {c d : Ctl} (h : Run b c d) (hc : c.runlevel ≤ 9 ∧ c.newlevel ≤ 9) :
    d.runlevel ≤ 9 ∧ d.newlevel ≤ 9 := h.inv (P := fun x => x.runlevel ≤ 9 ∧ x.newlevel ≤ 9) (fun _ _ m => m.low) hc

/-- While nobody asked for a runlevel, bootstrap goes on. -/
theorem Run.wait {c d : Ctl} (h : Run false c d) (hs : c.sm = .bootstrapWait) (hn : c.newlevel = -1) :
    d = c := by
  cases h with
  | halt m hd => cases m <;> simp_all
  | go m hd hs' hr => cases m <;> simp_all

theorem Run.first {c d : Ctl} (h : Run false c d) (hs : c.sm = .bootstrap) (hn : c.newlevel = -1)
    (hd : c.down = false) : d = { c with sm := .bootstrapWait } := by
  cases h with
  | halt m hd => cases m <;> simp_all
  | go m hd hs' hr =>
    cases m <;> first | (simp_all; done) | skip
    exact hr.wait rfl hn

/-- Once a runlevel is asked for at the end of bootstrap, it is entered. -/
theorem Run.up {c d : Ctl} (h : Run false c d) (hs : c.sm = .bootstrapWait) (hc : c.runlevel = 10)
    (hn : 0 ≤ c.newlevel ∧ c.newlevel ≤ 9) (hd : c.down = false) :
    d.runlevel ≤ 9 ∧ d.newlevel ≤ 9 := by
  cases h with
  | halt m hd => cases m <;> simp_all
  | go m _ _ h =>
    cases m <;> first | (simp_all; done) | skip
    cases h with
    | halt m hd => cases m <;> simp_all <;> omega
    | go m _ _ h =>
      cases m <;> first | (simp_all; done) | skip
      cases h with
      | halt m hd => cases m <;> simp_all
      | go m _ _ h =>
        cases m <;> first | (simp_all; done) | skip
        refine h.low ⟨?_, ?_⟩ <;> simp only <;> omega

/-- State of bootstrap. -/
structure Boots (c : Ctl) : Prop where
  new : c.newlevel ≤ 9
  cfg : c.cfglevel ≤ 9
  cmd : c.cmdlevel ≤ 9
  st : c.booted = true →
    (c.bootWork = true ∧ c.runlevel = 10 ∧ c.newlevel = -1 ∧ c.sm = .bootstrapWait ∧ c.down = false ∧
      c.emerg = false ∧ 0 ≤ c.bootTmo ∧ c.bootTmo ≤ 120) ∨
    (c.bootWork = false ∧ c.runlevel ≤ 9)

theorem Boots.keepRun {c d : Ctl} (h : Boots c) (r : Run false c d) (hb : c.booted = true) : Boots d := by
  obtain ⟨e1, e2, e3, e4, e5, e6⟩ := r.rest
  rcases h.st hb with hh | hh
  · rw [r.wait hh.2.2.2.1 hh.2.2.1]; exact h
  · have := r.low ⟨hh.2, h.new⟩
    exact ⟨this.2, by rw [e3]; exact h.cfg, by rw [e4]; exact h.cmd,
      fun _ => .inr ⟨by rw [e2]; exact hh.1, this.1⟩⟩

theorem reserved_false {l : Nat} (h : reserved l = false) : l ≠ 0 ∧ l ≠ 6 ∧ l ≠ 10 := by
  simp [reserved] at h; omega

theorem Moved.boots {ev : Ev} {c d : Ctl} (h : Moved false ev c d)
    (h0 : c.booted = false → c.runlevel = 10 ∧ c.newlevel = -1 ∧ c.sm = .bootstrap ∧ c.down = false ∧
      c.emerg = false ∧ c.bootTmo = 120) (hc : Boots c) : Boots d := by
  cases h with
  | none => exact hc
  | boot _ _ nk cf hd hb h =>
    obtain ⟨a1, a2, a3, a4, a5, a6⟩ := h0 hb
    have e := h.first a3 a2 a4
    subst e
    refine ⟨hc.new, hc.cfg, hc.cmd, fun _ => .inl ⟨rfl, a1, a2, rfl, a4, a5, ?_, ?_⟩⟩
    · show 0 ≤ c.bootTmo; omega
    · show c.bootTmo ≤ 120; omega
  | exit _ _ _ _ hd hb h => exact hc.keepRun h hb
  | timer _ _ _ hd hb h => exact hc.keepRun h hb
  | poll _ hb hw ht =>
    refine ⟨hc.new, hc.cfg, hc.cmd, fun _ => ?_⟩
    rcases hc.st hb with hh | hh
    · refine .inl ⟨hh.1, hh.2.1, hh.2.2.1, hh.2.2.2.1, hh.2.2.2.2.1, hh.2.2.2.2.2.1, ?_, ?_⟩
      · show 0 ≤ c.bootTmo - 1; omega
      · show c.bootTmo - 1 ≤ 120; omega
    · exact absurd hw (by rw [hh.1]; decide)
  | pollDone _ _ hd hb hw h =>
    obtain ⟨e1, e2, e3, e4, e5, e6⟩ := h.rest
    rcases hc.st hb with hh | hh
    · have := h.up hh.2.2.2.1 hh.2.1 (by
        have := hc.cfg; have := hc.cmd
        dsimp only; split <;> omega) hh.2.2.2.2.1
      exact ⟨this.2, by rw [e3]; exact hc.cfg, by rw [e4]; exact hc.cmd, fun _ => .inr ⟨e2, this.1⟩⟩
    · exact absurd hw (by rw [hh.1]; decide)
  | runlevel l _ _ hd hb hl hr h =>
    obtain ⟨e1, e2, e3, e4, e5, e6⟩ := h.rest
    have hr := reserved_false hr
    rcases hc.st hb with hh | hh
    · omega
    · have := h.low ⟨hh.2, by dsimp only; omega⟩
      exact ⟨this.2, by rw [e3]; exact hc.cfg, by rw [e4]; exact hc.cmd,
        fun _ => .inr ⟨by rw [e2]; exact hh.1, this.1⟩⟩
  | cfglevel l _ hb hl hr => exact ⟨hc.new, hl, hc.cmd, hc.st⟩
  | reload _ _ hd hb hr h =>
    have hr := reserved_false hr
    refine Boots.keepRun ?_ h hb
    exact ⟨hc.new, hc.cfg, hc.cmd, hc.st⟩
  | reboot six limit _ _ hd hb hr h =>
    obtain ⟨e1, e2, e3, e4, e5, e6⟩ := h.rest
    have hr := reserved_false hr
    rcases hc.st hb with hh | hh
    · omega
    · have := h.low ⟨hh.2, by dsimp only; split <;> decide⟩
      exact ⟨this.2, by rw [e3]; exact hc.cfg, by rw [e4]; exact hc.cmd,
        fun _ => .inr ⟨by rw [e2]; exact hh.1, this.1⟩⟩
  | emergency _ hb he =>
    refine ⟨hc.new, hc.cfg, hc.cmd, fun _ => ?_⟩
    rcases hc.st hb with hh | hh
    · exact absurd he (by rw [hh.2.2.2.2.2.1]; decide)
    · exact .inr hh

theorem Reach.start_ctl {w : World} (h : Reach E w) (hb : (ctl w).booted = false) :
    (ctl w).runlevel = 10 ∧ (ctl w).newlevel = -1 ∧ (ctl w).sm = .bootstrap ∧ (ctl w).down = false ∧
      (ctl w).emerg = false ∧ (ctl w).bootTmo = 120 := by
  obtain ⟨cfg, cmd, rfl⟩ := h.unbooted hb
  exact ⟨rfl, rfl, rfl, rfl, rfl, rfl⟩

/-- Bootstrap from `w` on. -/
theorem Later.boots {ok : World → Ev → Prop} {w v : World} (h : Later E ok w v) (hw : Reach E w)
    (hb : Boots (ctl w)) (hr : v.reent = false) (hf : v.oof = false) : Boots (ctl v) := by
  induction h with
  | refl => exact hb
  | event n ev h _ ih =>
    have hv := h.reach hw
    have m := hv.moved n ev hr
    rw [hf] at m
    exact m.boots hv.start_ctl (ih (hv.reent n ev hr) (hv.oof_of hf))

theorem Boots.start {cfg cmd : Nat} (h1 : cfg ≤ 9) (h2 : cmd ≤ 9) : Boots (ctl (World.start cfg cmd)) :=
  ⟨by show (-1 : Int) ≤ 9; decide, h1, h2, fun h => nomatch h⟩

/-! ### Logins -/

/-- Where the machine may rest. -/
theorem Run.settled {c d : Ctl} (h : Run false c d) (hd : c.down = false) : d.sm ≠ .rlChange := by
  generalize hb : false = b at h
  induction h with
  | cut c => cases hb
  | halt m hh => cases m <;> simp_all
  | go _ h1 _ _ ih => exact ih h1 hb

theorem Moved.settled {ev : Ev} {c d : Ctl} (h : Moved false ev c d) (hc : c.sm ≠ .rlChange) :
    d.sm ≠ .rlChange := by
  cases h with
  | none => exact hc
  | boot _ _ nk cf hd hb h => exact h.settled hd
  | exit _ _ _ _ hd hb h => exact h.settled hd
  | timer _ _ _ hd hb h => exact h.settled hd
  | poll _ hb hw ht => exact hc
  | pollDone _ _ hd hb hw h => exact h.settled hd
  | runlevel l _ _ hd hb hl hr h => exact h.settled hd
  | cfglevel l _ hb hl hr => exact hc
  | reload _ _ hd hb hr h => exact h.settled hd
  | reboot six limit _ _ hd hb hr h => exact h.settled hd
  | emergency _ hb he => exact hc

/-- At most one runlevel change so far since `c`. -/
structure Once (c x : Ctl) : Prop where
  before : x.runlevel = c.runlevel → x.nologin = c.nologin ∧
    (x.sm = .rlChange → 0 ≤ x.newlevel ∧ x.newlevel ≤ 9 ∧ (x.runlevel : Int) ≠ x.newlevel)
  after : x.runlevel ≠ c.runlevel →
    x.nologin = nologinAfter c.runlevel x.runlevel c.nologin ∧ x.newlevel = -1 ∧ x.sm ≠ .rlChange

theorem Move.once {c x y : Ctl} (h : Move x y) (hc : Once c x) : Once c y := by
  cases h with
  | runlevel nk cf hs hx =>
    by_cases e : x.runlevel = c.runlevel
    · obtain ⟨h1, h2⟩ := hc.before e
      have := h2 hs
      refine ⟨fun he => ?_, fun _ => ⟨?_, rfl, by simp⟩⟩
      · dsimp only at he; omega
      · show nologinAfter x.runlevel _ x.nologin = _
        rw [e, h1]
    · exact absurd hs (hc.after e).2.2
  | change hs hn e =>
    refine ⟨fun he => ⟨(hc.before he).1, fun _ => ⟨hn.1, hn.2, e⟩⟩, fun he => ?_⟩
    have := (hc.after he).2.1
    omega
  | same hs hn e =>
    exact ⟨fun he => ⟨(hc.before he).1, fun h => by simp_all⟩,
      fun he => ⟨(hc.after he).1, rfl, (hc.after he).2.2⟩⟩
  | _ => first
    | exact hc
    | exact ⟨fun he => ⟨(hc.before he).1, fun h => by simp_all⟩,
        fun he => ⟨(hc.after he).1, (hc.after he).2.1, by simp_all⟩⟩

theorem Run.once {b : Bool} {c d : Ctl} (h : Run b c d) (hs : c.sm ≠ .rlChange) : Once c d :=
  h.inv (P := Once c) (fun _ _ m => m.once) ⟨fun _ => ⟨rfl, fun h => absurd h hs⟩, fun h => absurd rfl h⟩

/-- What an event does to the file. -/
theorem Moved.nologin {ev : Ev} {b : Bool} {c d : Ctl} (h : Moved b ev c d) (hs : c.sm ≠ .rlChange) :
    (d.runlevel = c.runlevel → d.nologin = c.nologin) ∧
    (d.runlevel ≠ c.runlevel → d.nologin = nologinAfter c.runlevel d.runlevel c.nologin) := by
  have key : ∀ {b : Bool} {x : Ctl}, Run b x d → x.sm = c.sm → x.runlevel = c.runlevel → x.nologin = c.nologin →
      (d.runlevel = c.runlevel → d.nologin = c.nologin) ∧
      (d.runlevel ≠ c.runlevel → d.nologin = nologinAfter c.runlevel d.runlevel c.nologin) := by
    intro b x r e1 e2 e3
    have o := r.once (by rw [e1]; exact hs)
    rw [← e2, ← e3]
    exact ⟨fun h => (o.before h).1, fun h => (o.after h).1⟩
  cases h with
  | none => exact ⟨fun _ => rfl, fun h => absurd rfl h⟩
  | boot _ _ nk cf hd hb h => exact key h rfl rfl rfl
  | exit _ _ _ _ hd hb h => exact key h rfl rfl rfl
  | timer _ _ _ hd hb h => exact key h rfl rfl rfl
  | poll _ hb hw ht => exact ⟨fun _ => rfl, fun h => absurd rfl h⟩
  | pollDone _ _ hd hb hw h => exact key h rfl rfl rfl
  | runlevel l _ _ hd hb hl hr h => exact key h rfl rfl rfl
  | cfglevel l _ hb hl hr => exact ⟨fun _ => rfl, fun h => absurd rfl h⟩
  | reload _ _ hd hb hr h => exact key h rfl rfl rfl
  | reboot six limit _ _ hd hb hr h => exact key h rfl rfl rfl
  | emergency _ hb he => exact ⟨fun _ => rfl, fun h => absurd rfl h⟩

theorem Reach.settled {w : World} (h : Reach E w) (hr : w.reent = false) (hf : w.oof = false) :
    (ctl w).sm ≠ .rlChange := by
  induction h with
  | start cfg cmd => intro h; cases h
  | event n ev h ih =>
    have m := h.moved n ev hr
    rw [hf] at m
    exact m.settled (ih (h.reent n ev hr) (h.oof_of hf))

end

end Verif.Sup
