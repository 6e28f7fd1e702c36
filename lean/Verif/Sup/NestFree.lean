import Verif.Sup.NestEv

/-!
# Supervisor model: when no service is ever stepped while it is being stepped
-/

namespace Verif.Sup

open Verif (CStr CondStore)

section
variable {E : Env} {rank : CStr → Nat}

/-- An object off the list is marked removed, or belongs to runlevel S only. -/
def OffList (w : World) : Prop := ∀ k, k ∉ w.order → (w.svc k).removed = true ∨ bootMask (w.svc k).levels

theorem OffList.start (cfg cmd : Nat) : OffList (World.start cfg cmd) := by
  intro k _; exact .inr (show bootMask 0 by decide)

theorem OffList.prim {lab : Lab} {a b : World} (p : Prim E lab a b) (h : OffList a) : OffList b := by
  intro j hj
  by_cases ha : j ∈ a.order
  · cases p.lists with
    | same ho => rw [ho] at hj; exact absurd ha hj
    | freeUp _ _ ho => rw [ho] at hj; exact absurd ha hj
    | free _ _ _ ho => rw [ho] at hj; exact absurd ha hj
    | new ho => rw [ho] at hj; exact absurd (List.mem_append_left _ ha) hj
    | del k c _ ho _ _ _ _ _ _ hd =>
      by_cases hk : j = k
      · subst hk
        rcases hd with hd | hd
        · exact .inl hd.2.1
        · exact .inr hd
      · rw [ho] at hj
        exact absurd (List.mem_filter.2 ⟨ha, by simpa using hk⟩) hj
  · have g := h j ha
    cases p.view j with
    | same e => rw [e]; exact g
    | mod s' hm e =>
      rw [e]
      cases hm with
      | minor _ hm => rw [hm]; exact g
      | apply z x y ho ht hb hk => exact absurd hk ha
      | _ => exact g
    | state new t x hm ht e => rw [e]; exact g
    | force _ _ _ _ _ _ e => rw [e]; exact g
    | respawn _ _ _ _ e => rw [e]; exact g
    | giveUp _ _ _ _ _ _ _ _ e => rw [e]; exact g
    | again _ _ _ _ _ _ _ _ _ e => rw [e]; exact g
    | age _ _ e => rw [e]; exact g
    | bump _ e => rw [e]; exact g
    | marks r d hr hp hs e => rw [e]; exact g.imp hr id
    | start _ _ _ _ _ _ _ e => rw [e]; exact g
    | startBad _ _ _ _ _ _ _ _ e => rw [e]; exact g
    | script _ _ _ _ _ _ e => rw [e]; exact g
    | exit s' _ _ hs ht e =>
      have e2 : s'.removed = (a.svc j).removed := by rw [hs]
      have e3 : s'.levels = (a.svc j).levels := by rw [hs]
      rw [e, e2, e3]; exact g
    | delBoot _ _ e => rw [e]; exact g
    | reg z hf => exact absurd (regFind_mem hf) ha
    | new z hn hlt =>
      subst hn
      cases p.lists with
      | same _ hn => rw [hn] at hlt; exact absurd hlt (Nat.lt_irrefl _)
      | del _ _ _ _ hn => rw [hn] at hlt; exact absurd hlt (Nat.lt_irrefl _)
      | freeUp _ _ _ hn => rw [hn] at hlt; exact absurd hlt (Nat.lt_irrefl _)
      | free _ _ _ _ hn => rw [hn] at hlt; exact absurd hlt (Nat.lt_irrefl _)
      | new ho => rw [ho] at hj; simp at hj

/-- What runs in runlevel S only is a run or task that is not told of changes by SIGHUP. -/
def BootOk (E : Env) : Prop :=
  ∀ t, ∀ z ∈ E.conf t, bootMask z.levels → z.type.isRuntask = true ∧
    ∀ t', ∀ y ∈ E.conf t', y.full = z.full → y.hups = false

/-- SIGHUP is never sent to a process that does not exist. -/
theorem Reach.notLost (hP : PlainEnv E) (hB : BootOk E) {w : World} (h : Reach E w) :
    ¬ Lost E rank w.trace := by
  rintro ⟨⟨c, e⟩, hx, k, he, hr, hp, hl, hen, hs, hc⟩
  dsimp only at he hr hp hl hen hs hc
  obtain ⟨l1, l2, hx⟩ := List.append_of_mem hx
  obtain ⟨a, ⟨hg, ho⟩, _, hsn⟩ := Reach.at (P := fun w => OffList w ∧ OwnOk w)
    (fun cfg cmd => ⟨.start cfg cmd, .start cfg cmd⟩)
    (fun _ _ _ ho p ih => ⟨OffList.prim p ih.1, ih.2.prim hP ho p⟩) h
    (c := c) (e := e) (tl := l2) ⟨l1, hx.symm⟩ (by rw [he]; rintro ⟨⟩)
  have f : c.reent = a.reent ∧ c.live = a.live ∧ c.order = a.order ∧
      (c.svc k).pid = (a.svc k).pid ∧ (c.svc k).removed = (a.svc k).removed ∧
      (c.svc k).levels = (a.svc k).levels := by
    rcases hsn with rfl | ⟨j, t, x, r, rfl⟩
    · exact ⟨rfl, rfl, rfl, rfl, rfl, rfl⟩
    · refine ⟨rfl, rfl, rfl, ?_⟩
      by_cases hj : k = j
      · subst hj; simp
      · simp [upd_other _ _ _ _ hj]
  obtain ⟨f1, f2, f3, f4, f5, f6⟩ := f
  by_cases hk : k ∈ a.order
  · have := (ho.owns (f1 ▸ hr) k hk (f4 ▸ hp)).1
    rw [f4, f2] at hl
    exact hl this
  · obtain ⟨hal, hrm⟩ := enabled_allowed hen
    have hm : bootMask (c.svc k).levels := by
      rcases hg k hk with g | g
      · rw [f5] at hrm; rw [g] at hrm; cases hrm
      · rw [f6]; exact g
    have hne : (c.svc k).levels ≠ 0 := by
      intro e; rw [e] at hal; simp at hal
    obtain ⟨t, z, hz, hzl, hzf⟩ := hc.lev k hne
    obtain ⟨hrt, hno⟩ := hB t z hz (hzl ▸ hm)
    have hnt : z.type ≠ .tty := by intro e; rw [e] at hrt; cases hrt
    obtain ⟨t', y, hy, hyh, hyf⟩ := hc.hup k hs
    rw [hno t' y hy (hyf.trans (hzf hnt).symm)] at hyh
    cases hyh

/-- No service is ever stepped while it is being stepped, and none changes its state while its state
    is being published. -/
theorem Reach.fine (hP : PlainEnv E) (hB : BootOk E) (hR : Ranked E rank) {w : World}
    (h : Reach E w) : w.reent = false ∧ w.twice = false := by
  rcases h.rest hR with hl | hl
  · exact absurd hl (h.notLost hP hB)
  · exact hl.1.1

end

end Verif.Sup
