import Verif.Sup.Later

/-!
# Supervisor model: atomic updates and the part of the trace about one service
-/

namespace Verif.Sup

open Verif (CStr CondStore)

section
variable {E : Env}

/-- The service an entry of the trace is about (of forks only those of the command itself;
    signals, scripts and collected processes are looked at separately). -/
def Eff.key : Eff → Option Key
  | .trans k _ _ => some k
  | .new k => some k
  | .reg k => some k
  | .del k => some k
  | .retry k => some k
  | .giveUp k => some k
  | .age k => some k
  | .bump k => some k
  | .forced k => some k
  | .lifted k => some k
  | .asked k => some k
  | .spawn _ k .main => some k
  | _ => none

theorem Eff.key_script {p : Int} {k : Key} {r : Role} (h : r ≠ .main) : (Eff.spawn p k r).key = none := by
  cases r <;> first | rfl | exact absurd rfl h

/-- The entries about `k`. -/
def mine (k : Key) (t : List (Core × Eff)) : List (Core × Eff) :=
  t.filter (fun x => decide (x.2.key = some k))

theorem mine_skip {k : Key} {x : Core × Eff} {t : List (Core × Eff)} (h : x.2.key ≠ some k) :
    mine k (x :: t) = mine k t := by
  simp [mine, h]

theorem mine_keep {k : Key} {x : Core × Eff} {t : List (Core × Eff)} (h : x.2.key = some k) :
    mine k (x :: t) = x :: mine k t := by
  simp [mine, h]

theorem mine_head {k : Key} {t : List (Core × Eff)} {e : Eff} (h : t.head?.map (·.2) = some e)
    (hk : e.key = some k) : ∃ c tl, mine k t = (c, e) :: tl := by
  cases t with
  | nil => cases h
  | cons x t =>
    simp only [List.head?_cons, Option.map_some, Option.some.injEq] at h
    subst h
    exact ⟨x.1, mine k t, mine_keep hk⟩

theorem mem_mine {k : Key} {x : Core × Eff} {t : List (Core × Eff)} :
    x ∈ mine k t ↔ x ∈ t ∧ x.2.key = some k := by
  simp [mine]

/-- How one atomic update changes the record of service `j` and the entries about it. -/
inductive Turn (E : Env) (lab : Lab) (a b : World) (j : Key) : Prop
  | same (h : b.svc j = a.svc j) (hm : mine j b.trace = mine j a.trace)
  | mod (s' : Svc) (h : SvcMod E lab a j s') (e : b.svc j = s') (hm : mine j b.trace = mine j a.trace)
  | state (new : SState) (t : Option Cb) (x : Bool) (n : Nat) (h : StateMod lab a j new)
      (ht : stTimer new (a.svc j) t x)
      (e : b.svc j = { a.svc j with state := new, timer := t, armed := x })
      (hm : mine j b.trace = if (a.svc j).state = new then mine j a.trace else
        ({ a.toCore with svc := upd a.svc j { a.svc j with timer := t, armed := x }, tick := n },
          .trans j (a.svc j).state new) :: mine j a.trace)
  | force (x y : Bool) (h : lab = .retry j) (ht : (a.svc j).timer = some .retry)
      (hr : (a.svc j).respawn = false)
      (hs : (a.svc j).state ≠ .halted ∨ (a.svc j).block ≠ .restarting)
      (hf : ∃ c tl, a.trace = (c, .forced j) :: tl ∧ c.svc j = a.svc j)
      (e : b.svc j = { a.svc j with
        state := .running, timer := none, armed := x, restartTmo := (a.svc j).restartSaved })
      (hm : mine j b.trace = if (a.svc j).state = .running then mine j a.trace else
        ({ a.toCore with svc := upd a.svc j { a.svc j with
            timer := none, armed := y, restartTmo := (a.svc j).restartSaved } },
          .trans j (a.svc j).state .running) :: mine j a.trace)
  | respawn (x : Bool) (h : lab = .retry j) (ht : (a.svc j).timer = some .retry)
      (hr : (a.svc j).respawn = true)
      (e : b.svc j = { a.svc j with timer := none, armed := x, block := .none })
      (hm : mine j b.trace = mine j a.trace)
  | giveUp (x : Bool) (h : lab = .retry j) (ht : (a.svc j).timer = some .retry)
      (hr : (a.svc j).respawn = false) (hs : (a.svc j).state = .halted)
      (hb : (a.svc j).block = .restarting) (hmx : (a.svc j).restartMax ≠ -1)
      (hc : (a.svc j).restartCnt ≥ (a.svc j).restartMax)
      (e : b.svc j = { a.svc j with
        timer := none, armed := x, block := .crashing, restartCnt := 0
        restartTmo := (a.svc j).restartSaved })
      (hm : ∃ c, mine j b.trace = (c, .giveUp j) :: mine j a.trace)
  | again (x : Bool) (sv tm : Int) (h : lab = .retry j) (ht : (a.svc j).timer = some .retry)
      (hr : (a.svc j).respawn = false) (hs : (a.svc j).state = .halted)
      (hb : (a.svc j).block = .restarting)
      (hc : ¬ ((a.svc j).restartMax ≠ -1 ∧ (a.svc j).restartCnt ≥ (a.svc j).restartMax))
      (e : b.svc j = { a.svc j with
        timer := none, armed := x, restartCnt := schar ((a.svc j).restartCnt + 1)
        restartSaved := sv, restartTmo := tm, block := .none })
      (hm : ∃ c, mine j b.trace = (c, .retry j) :: mine j a.trace ∧
        (c.svc j).restartMax = (a.svc j).restartMax)
  | age (h : 0 < (a.svc j).restartCnt) (hs : (a.svc j).state = .running)
      (e : b.svc j = { a.svc j with restartCnt := (a.svc j).restartCnt - 1 })
      (hm : mine j b.trace = (a.toCore, .age j) :: mine j a.trace)
  | bump (h : (a.svc j).state = .starting ∨ (a.svc j).state = .paused)
      (e : b.svc j = { a.svc j with restartCnt := schar ((a.svc j).restartCnt + 1) })
      (hm : mine j b.trace = (a.toCore, .bump j) :: mine j a.trace)
  | forced (h : lab = .retry j) (ht : (a.svc j).timer = some .retry)
      (hs : (a.svc j).state ≠ .halted ∨ (a.svc j).block ≠ .restarting) (e : b.svc j = a.svc j)
      (hm : mine j b.trace = (a.toCore, .forced j) :: mine j a.trace)
  | lifted (h : (a.svc j).block = .restarting) (ha : aggCond a.toCore j = .off)
      (e : b.svc j = a.svc j) (hm : mine j b.trace = (a.toCore, .lifted j) :: mine j a.trace)
  | asked (e : b.svc j = a.svc j) (hm : mine j b.trace = (a.toCore, .asked j) :: mine j a.trace)
  | marks (r d : Bool) (hr : (a.svc j).removed = true → r = true)
      (hp : r ≠ (a.svc j).removed → j ∈ a.order ∧ (a.svc j).protect = false)
      (hs : Soft a (a.sm = .bootstrap ∨ a.sm = .rlChange ∨ a.sm = .reloadChange))
      (e : b.svc j = { a.svc j with removed := r, dirty := d })
      (hm : mine j b.trace = mine j a.trace)
  | start (p : Int) (x : Bool) (c : Core) (hp : 1 < p) (hl : p ∉ a.live) (hb : a.runBlock = 0)
      (he : enabled a.toCore j = true) (hs : (a.svc j).state = .starting)
      (e : b.svc j = { a.svc j with
        state := .running, pid := p, watch := x, dirty := false, argsDirty := false })
      (hm : mine j b.trace =
        (c, .trans j .starting .running) :: (a.toCore, .spawn p j .main) :: mine j a.trace)
  | startBad (p : Int) (x : Bool) (hp : 1 < p) (hl : p ∉ a.live) (hb : a.runBlock = 0)
      (he : enabled a.toCore j = true) (hs : (a.svc j).state = .starting)
      (hn : (a.svc j).notify = .systemd ∨ (a.svc j).notify = .s6)
      (e : b.svc j = { a.svc j with pid := p, watch := x })
      (hm : mine j b.trace = (a.toCore, .spawn p j .main) :: mine j a.trace)
  | script (p : Int) (role : Role) (hp : 1 < p) (hl : p ∉ a.live) (hr : role ≠ .main)
      (h : Soft a (ScriptState lab j role (a.svc j))) (e : b.svc j = { a.svc j with pid := p })
      (hm : mine j b.trace = mine j a.trace)
  | exit (s' : Svc) (hp : 1 < (a.svc j).pid)
      (hs : s' = { a.svc j with
        pid := 0, status := s'.status, started := s'.started, starting := s'.starting
        watch := s'.watch, timer := s'.timer, armed := s'.armed })
      (ht : (s'.timer = (a.svc j).timer ∧ s'.armed = (a.svc j).armed) ∨ s'.timer = none)
      (e : b.svc j = s') (hm : mine j b.trace = mine j a.trace)
  | del (e : b.svc j = a.svc j) (hr : (a.svc j).removed = true) (hb : j ∉ b.order)
      (hs : (a.svc j).state = .dead ∨ (a.svc j).state = .done)
      (hm : ∃ c, mine j b.trace = (c, .del j) :: mine j a.trace) (ha : Soft a (j ∈ a.order))
  | delBoot (h : (a.svc j).levels &&& (2 ^ 32 - 1 - 2 ^ 10) = 0) (hb : j ∉ b.order)
      (e : b.svc j = { a.svc j with pid := 0 })
      (hm : ∃ c, mine j b.trace = (c, .del j) :: mine j a.trace) (ha : Soft a (j ∈ a.order))
  | reg (z : Stanza) (h : regFind z a.toCore = some j) (hz : ∃ t, z ∈ E.conf t)
      (hs : Soft a (a.sm = .bootstrap ∨ a.sm = .rlChange ∨ a.sm = .reloadChange))
      (e : b.svc j = { a.svc j with
        type := z.type, block := if z.manual then (a.svc j).block else .none
        odd := (a.svc j).odd || z.odd, zs := z :: (a.svc j).zs, removed := false })
      (hm : mine j b.trace = (a.toCore, .reg j) :: mine j a.trace)
  | new (z : Stanza) (h : j = a.nextKey) (hb : j < b.nextKey) (hz : ∃ t, z ∈ E.conf t)
      (hs : Soft a (a.sm = .bootstrap ∨ a.sm = .rlChange ∨ a.sm = .reloadChange))
      (e : b.svc j = { name := z.name, id := z.id, type := z.type, odd := z.odd, zs := [z],
                       block := if z.manual then .user else .none, levels := z.levels })
      (hm : mine j b.trace = (a.toCore, .new j) :: mine j a.trace)

theorem Prim.turn {lab : Lab} {a b : World} (h : Prim E lab a b) (j : Key) : Turn E lab a b j := by
  have same : b.svc = a.svc → mine j b.trace = mine j a.trace → Turn E lab a b j :=
    fun h1 h2 => .same (by rw [h1]) h2
  have other : ∀ {k s}, b.svc = upd a.svc k s → j ≠ k → mine j b.trace = mine j a.trace →
      Turn E lab a b j := by
    intro k s e hj hm; exact .same (by rw [e]; exact upd_other _ _ _ _ hj) hm
  have ne : ∀ {k : Key} (x : Core × Eff) (t : List (Core × Eff)), j ≠ k → x.2.key = some k →
      mine j (x :: t) = mine j t := by
    intro k x t hj hx
    exact mine_skip (by rw [hx]; exact fun h => hj (Option.some.inj h).symm)
  have nk : ∀ (x : Core × Eff) (t : List (Core × Eff)), x.2.key = none → mine j (x :: t) = mine j t :=
    fun x t hx => mine_skip (by rw [hx]; simp)
  cases h with
  | glob _ h => apply same <;> rw [h.1]
  | ub => exact same rfl rfl
  | svc k s' h =>
    by_cases hj : j = k
    · subst hj; exact .mod s' h (by simp) rfl
    · exact other rfl hj rfl
  | state k new h =>
    obtain ⟨t, x, ht, e⟩ := setStateRaw_eq k new a
    rw [e] at other ⊢
    by_cases hj : j = k
    · subst hj
      refine .state new t x a.tick h ht (by simp) ?_
      dsimp only
      split
      · rfl
      · exact mine_keep rfl
    · refine other rfl hj ?_
      dsimp only
      split
      · rfl
      · exact ne _ _ hj rfl
  | pause k h hp he ha =>
    obtain ⟨t, x, ht, e⟩ := setStateRaw_eq k .paused (Sup.kill E (a.svc k).pid 19 .pause k a).2
    rw [e] at other ⊢
    by_cases hj : j = k
    · subst hj
      refine .state .paused t x (a.tick + 1) (.pause h hp he ha) ht (upd_same _ _ _) ?_
      dsimp only
      rw [show ((Sup.kill E (a.svc j).pid 19 .pause j a).2.svc j).state = (a.svc j).state from rfl]
      split
      · exact nk _ _ rfl
      · exact (mine_keep rfl).trans (congrArg _ (nk _ _ rfl))
    · refine other rfl hj ?_
      dsimp only
      split
      · exact nk _ _ rfl
      · exact (ne _ _ hj rfl).trans (nk _ _ rfl)
  | retryForce k h ht hr hs hf =>
    obtain ⟨y, e2⟩ := timerCancel_eq k a
    rw [e2] at other ⊢
    simp only [Sup.mod, upd_same, upd_upd] at other ⊢
    obtain ⟨t, x, h5, e⟩ := setStateRaw_eq k .running
      { a with svc := upd a.svc k { a.svc k with timer := none, armed := y,
                                                 restartTmo := (a.svc k).restartSaved } }
    rw [e] at other ⊢
    simp only [upd_same, upd_upd] at other ⊢
    by_cases hj : j = k
    · subst hj
      have := (h5.1 (by decide)).1
      simp only [upd_same] at this
      subst this
      refine .force x x h ht hr hs hf (by simp) ?_
      dsimp only
      split
      · rfl
      · exact mine_keep rfl
    · refine other rfl hj ?_
      split
      · rfl
      · exact ne _ _ hj rfl
  | retryRespawn k h ht hr =>
    obtain ⟨y, e2⟩ := timerCancel_eq k a
    rw [e2] at other ⊢
    simp only [Sup.mod, upd_same, upd_upd] at other ⊢
    by_cases hj : j = k
    · subst hj; exact .respawn y h ht hr (by simp) rfl
    · exact other rfl hj trivial
  | retryGiveUp k h ht hr hs hb hm hc =>
    obtain ⟨y, e2⟩ := timerCancel_eq k a
    rw [e2] at other ⊢
    simp only [Sup.mod, emit, upd_same, upd_upd] at other ⊢
    by_cases hj : j = k
    · subst hj; exact .giveUp y h ht hr hs hb hm hc (by simp) ⟨_, mine_keep rfl⟩
    · exact other rfl hj (ne _ _ hj rfl)
  | retryAgain k sv tm h ht hr hs hb hc =>
    obtain ⟨y, e2⟩ := timerCancel_eq k a
    rw [e2] at other ⊢
    simp only [Sup.mod, emit, upd_same, upd_upd] at other ⊢
    by_cases hj : j = k
    · subst hj; exact .again y sv tm h ht hr hs hb hc (by simp) ⟨_, mine_keep rfl, by simp⟩
    · exact other rfl hj (ne _ _ hj rfl)
  | age k h hs =>
    by_cases hj : j = k
    · subst hj; exact .age h hs (by simp [Sup.mod, emit]) (mine_keep rfl)
    · exact other rfl hj (ne _ _ hj rfl)
  | bump k h =>
    by_cases hj : j = k
    · subst hj; exact .bump h (by simp [Sup.mod, emit]) (mine_keep rfl)
    · exact other rfl hj (ne _ _ hj rfl)
  | dirty d hs => exact .marks (a.svc j).removed (d j) id (fun h => absurd rfl h) hs rfl rfl
  | confRead hs =>
    refine .marks _ (a.svc j).dirty ?_ ?_ hs (markDynamic_svc j (emit (.conf a.tick) a)) (nk _ _ rfl)
    · exact fun h => mark_keep h
    · exact fun h => mark_new h
  | confEnd hs =>
    refine .marks _ (a.svc j).dirty ?_ ?_ hs (markUnavail_svc j (emit .confEnd a)) (nk _ _ rfl)
    · exact fun h => mark_keep h
    · exact fun h => have g := mark_new h; ⟨g.1, g.2.2.2⟩
  | forced k h ht hs =>
    by_cases hj : j = k
    · subst hj; exact .forced h ht hs rfl (mine_keep rfl)
    · exact same rfl (ne _ _ hj rfl)
  | asked k h =>
    by_cases hj : j = k
    · subst hj; exact .asked rfl (mine_keep rfl)
    · exact same rfl (ne _ _ hj rfl)
  | lifted k h ha =>
    by_cases hj : j = k
    · subst hj; exact .lifted h ha rfl (mine_keep rfl)
    · exact same rfl (ne _ _ hj rfl)
  | kill k tgt sig why h => exact same rfl (nk _ _ rfl)
  | rebootSelf k h hb ho => exact same rfl (nk _ _ rfl)
  | start k p x hp hl hb he hs =>
    have e := start_eq k p x a hs
    dsimp only at e
    rw [e] at other ⊢
    by_cases hj : j = k
    · subst hj
      exact .start p _ _ hp hl hb he hs (by simp only [upd_same]; rfl)
        ((mine_keep rfl).trans (by rw [mine_keep rfl]))
    · exact other rfl hj ((ne _ _ hj rfl).trans (ne _ _ hj rfl))
  | startBad k p hp hl hb he hs hn =>
    rw [startParent_eq] at other ⊢
    by_cases hj : j = k
    · subst hj; exact .startBad p _ hp hl hb he hs hn (by simp only [upd_same]; rfl) (mine_keep rfl)
    · exact other rfl hj (ne _ _ hj rfl)
  | script k p role hp hl hr h =>
    by_cases hj : j = k
    · subst hj; exact .script p role hp hl hr h (by simp [Sup.mod, spawned, emit])
        (nk _ _ (Eff.key_script hr))
    · exact other rfl hj (nk _ _ (Eff.key_script hr))
  | readyScript k p hp hl h => exact same rfl (nk _ _ rfl)
  | sysvStop k p hp hl h => exact same rfl (nk _ _ rfl)
  | scriptRun k p role hp hl hr => exact same rfl ((nk _ _ rfl).trans (nk _ _ (Eff.key_script (by rcases hr with rfl | rfl <;> decide))))
  | collect k p st hl hf hp h1 h =>
    obtain ⟨s', tr, t, e, es, et, etr⟩ := monitorHead_eq (E := E) k st (reap p (some st) a)
    have hm : mine j tr = mine j a.trace := by
      rcases etr with etr | etr <;> rw [etr]
      · exact nk _ _ rfl
      · exact (nk _ _ rfl).trans (nk _ _ rfl)
    rw [e] at other ⊢
    by_cases hj : j = k
    · subst hj
      exact .exit s' (by rw [hp]; exact h1) es et (by simp) hm
    · exact other rfl hj hm
  | collectOther p st => exact same rfl (nk _ _ rfl)
  | lost k st hl h1 =>
    obtain ⟨s', tr, t, e, es, et, etr⟩ := monitorHead_eq (E := E) k st a
    have hm : mine j tr = mine j a.trace := by
      rcases etr with etr | etr <;> rw [etr]
      exact nk _ _ rfl
    rw [e] at other ⊢
    by_cases hj : j = k
    · subst hj
      exact .exit s' h1 es et (by simp) hm
    · exact other rfl hj hm
  | assoc => exact same rfl rfl
  | adopt => exact same rfl rfl
  | unblock => exact same rfl rfl
  | conds => exact same rfl rfl
  | mid => exact same rfl rfl
  | del k ht hr hs hk =>
    by_cases hj : j = k
    · subst hj; exact .del rfl hr (by simp [svcDel, emit]) hs ⟨_, mine_keep rfl⟩ (fun _ => hk)
    · exact same rfl (ne _ _ hj rfl)
  | delBoot k h hk =>
    by_cases hj : j = k
    · subst hj
      refine .delBoot h ?_ (by simp [Sup.mod, svcDel, emit]) ⟨_, mine_keep rfl⟩ hk
      simp [svcDel, emit, Sup.mod]
    · exact other rfl hj (ne _ _ hj rfl)
  | regOld z k h hz hs =>
    unfold regObj at other ⊢; rw [h] at other ⊢
    by_cases hj : j = k
    · subst hj
      exact .reg z h (hz.imp fun _ h => h.2) hs (by simp [Sup.mod, emit]) (mine_keep rfl)
    · exact other rfl hj (ne _ _ hj rfl)
  | regNew z h hz hs =>
    unfold regObj at other ⊢; rw [h] at other ⊢
    by_cases hj : j = a.nextKey
    · subst hj
      exact .new z rfl (Nat.lt_succ_self _) (hz.imp fun _ h => h.2) hs (by simp [emit]) (mine_keep rfl)
    · exact other rfl hj (ne _ _ hj rfl)
  | sm => exact same rfl rfl
  | runlevel h => exact same rfl (nk _ _ rfl)
  | reloadOn => exact same rfl rfl
  | stopped | sweep => exact same rfl (nk _ _ rfl)
  | reloadOff => exact same rfl rfl
  | bootDone => exact same rfl rfl
  | freeUp => exact same rfl rfl
  | free => exact same rfl rfl
  | shutdown h => exact same rfl (nk _ _ rfl)

end

end Verif.Sup
