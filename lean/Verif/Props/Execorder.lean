import Verif.Execorder

/-!
# C109: the record of what is started at bootstrap
-/

namespace Verif

/-! ## Specification -/

/-- The keyword of the configuration -/
def xeWord (t : XeType) : CStr :=
  if t = .service then "service".toList else if t = .task then "task".toList else if t = .run then "run".toList
  else if t = .tty then "tty".toList else "sysv".toList

theorem xeWord_eq (t : XeType) : xeWord t = xeTypeStr t := by cases t <;> rfl

/-- The line for something that was started -/
def xeLine (s : XeSvc) (cmdline : CStr) (ok : Bool) : CStr :=
  (if ok then "[ OK ]".toList else "[FAIL]".toList) ++ "  ".toList ++
    (xeWord s.type ++ List.replicate (7 - (xeWord s.type).length) ' ') ++ "  ".toList ++
    (cmdline ++ List.replicate (64 - cmdline.length) ' ') ++ " (".toList ++ s.desc ++ ")".toList

/-- What is to be recorded, in order, and whether it went well.  `busy` is the `run` that is waited for, its process and
    whether it was started at bootstrap: nothing else is started meanwhile. -/
def xeShould : Option (XeSvc × Nat × Bool) → Bool → List XeEv → List (XeSvc × Bool)
  | _, _, [] => []
  | some b, boot, .start _ _ :: r => xeShould (some b) boot r
  | none, boot, .start s how :: r =>
    match how with
    | .refused => xeShould none boot r
    | .started p _ =>
      if s.type = .run then xeShould (some (s, p, boot)) boot r
      else (if boot then [(s, true)] else []) ++ xeShould none boot r
    | _ => (if boot then [(s, false)] else []) ++ xeShould none boot r
  | none, boot, .ends _ _ _ :: r => xeShould none boot r
  | some (s, p, b), boot, .ends _ q w :: r =>
    if q = p then (if b then [(s, decide (w % 128 = 0 ∧ w / 256 % 256 = 0))] else []) ++ xeShould none boot r
    else xeShould (some (s, p, b)) boot r
  | busy, _, .up :: r => xeShould busy false r

/-- The process of the `run` that is waited for -/
def xeNext (busy : Option Nat) : XeEv → Option Nat
  | .start s (.started p _) => if busy = none ∧ s.type = .run then some p else busy
  | .ends _ p _ => if busy = some p then none else busy
  | _ => busy

/-- Processes have numbers greater than 1. -/
def XePids (evs : List XeEv) : Prop := ∀ s p w, XeEv.start s (.started p w) ∈ evs → 1 < p

/-- The lines of the file after its two lines of heading -/
def xeBody (st : XeSt) : List CStr := (st.file.getD []).drop 2

/-- The claim: the file has one line for everything that is started at bootstrap, in that order, with the whole command
    line, and whether it could be started or, for a `run`, succeeded. -/
def C109_full : Prop := ∀ evs, XePids evs →
  xeBody (xeRun evs) =
    (xeShould none true evs).map fun x => xeLine x.1 (" ".toList.intercalate (x.1.cmd :: x.1.args)) x.2

/-- Everything that is to be started can be. -/
def XeFine (evs : List XeEv) : Prop := ∀ s how, XeEv.start s how ∈ evs → how = .refused ∨ ∃ p, how = .started p true

/-- Bootstrap does not end while a `run` is waited for. -/
def XeWaits (busy : Option Nat) (evs : List XeEv) : Prop :=
  ∀ a b, evs = a ++ .up :: b → a.foldl xeNext busy = none

/-- The command line fits. -/
def XeShort (s : XeSvc) : Prop :=
  s.args.length ≤ 63 ∧ [] ∉ s.args ∧ (" ".toList.intercalate (s.cmd :: s.args)).length < 1024

/-! ## Lemmas -/

theorem xeLine_eq (s : XeSvc) (r : Int) (c : CStr) :
    xeMark r ++ "  ".toList ++ xeRest s (some c) = xeLine s c (decide (r = 0)) := by
  unfold xeMark xeRest xeLine xePad xeOr
  by_cases h : r = 0 <;> simp [xeWord_eq, h]

theorem xeDrop (x : CStr) : (List.replicate 8 ' ' ++ x).drop 6 = "  ".toList ++ x := rfl

/-- How the state and what is expected go together -/
structure XeRel (st : XeSt) (busy : Option (XeSvc × Nat × Bool)) : Prop where
  head : st.file = none ∨ ∃ l, st.file = some (xeHead ++ l)
  free : busy = none → st.block = 0
  held : ∀ s p b, busy = some (s, p, b) → st.block = p ∧ 1 < p ∧ (st.boot = true → b = true) ∧
    (b = true → st.prepared = some (List.replicate 8 ' ' ++ xeRest s (some (xeCmdline s))))

theorem xeBody_head {st : XeSt} (h : st.file = none ∨ ∃ l, st.file = some (xeHead ++ l)) :
    st.file.getD xeHead = xeHead ++ xeBody st := by
  unfold xeBody
  rcases h with h | ⟨l, h⟩ <;> rw [h] <;> simp [xeHead]

/-- Preparing -/
theorem xePrepare_spec {st : XeSt} (h : st.file = none ∨ ∃ l, st.file = some (xeHead ++ l)) (s : XeSvc) :
    ((xePrepare st s).file = none ∨ ∃ l, (xePrepare st s).file = some (xeHead ++ l)) ∧
    xeBody (xePrepare st s) = xeBody st ∧ (xePrepare st s).boot = st.boot ∧ (xePrepare st s).block = st.block ∧
    (st.boot = true → (xePrepare st s).prepared = some (List.replicate 8 ' ' ++ xeRest s (some (xeCmdline s)))) := by
  unfold xePrepare
  split
  · rename_i hb
    unfold xeSave
    rw [if_pos rfl]
    refine ⟨Or.inr ⟨xeBody st, ?_⟩, ?_, rfl, rfl, fun _ => rfl⟩
    · dsimp only; rw [xeBody_head h]
    · show List.drop 2 (st.file.getD xeHead) = _
      rw [xeBody_head h]; rfl
  · rename_i hb
    exact ⟨h, rfl, rfl, rfl, fun e => absurd e hb⟩

/-- Writing a line that was prepared -/
theorem xeSave_prepared {st : XeSt} (h : st.file = none ∨ ∃ l, st.file = some (xeHead ++ l)) (t s : XeSvc) (c : CStr)
    (hp : st.prepared = some (List.replicate 8 ' ' ++ xeRest s (some c))) (o : Option CStr) (r : Int) (hr : r ≠ -1) :
    (∃ l, (xeSave st t o r).file = some (xeHead ++ l)) ∧
    xeBody (xeSave st t o r) = xeBody st ++ [xeLine s c (decide (r = 0))] ∧
    (xeSave st t o r).boot = st.boot ∧ (xeSave st t o r).block = st.block := by
  have e : xeSave st t o r = { st with
      file := some (xeHead ++ (xeBody st ++ [xeLine s c (decide (r = 0))])), prepared := none } := by
    unfold xeSave
    rw [if_neg hr, hp]
    dsimp only
    rw [xeBody_head h, xeDrop, ← List.append_assoc (xeMark r), xeLine_eq, List.append_assoc]
  rw [e]
  exact ⟨⟨_, rfl⟩, rfl, rfl, rfl⟩

/-- Not writing -/
theorem xeSave_not {st : XeSt} (h : st.file = none ∨ ∃ l, st.file = some (xeHead ++ l)) (s : XeSvc) (o : Option CStr) :
    (∃ l, (xeSave st s o (-1)).file = some (xeHead ++ l)) ∧ xeBody (xeSave st s o (-1)) = xeBody st ∧
    (xeSave st s o (-1)).boot = st.boot ∧ (xeSave st s o (-1)).block = st.block := by
  have e : xeSave st s o (-1) = { st with
      file := some (xeHead ++ xeBody st), prepared := some (List.replicate 8 ' ' ++ xeRest s o) } := by
    unfold xeSave
    rw [if_pos rfl, xeBody_head h]
  rw [e]
  exact ⟨⟨_, rfl⟩, rfl, rfl, rfl⟩

theorem xeFinish_not {st : XeSt} (h : st.file = none ∨ ∃ l, st.file = some (xeHead ++ l)) (s : XeSvc) :
    ((xeFinish st s (-1)).file = none ∨ ∃ l, (xeFinish st s (-1)).file = some (xeHead ++ l)) ∧
    xeBody (xeFinish st s (-1)) = xeBody st ∧
    (xeFinish st s (-1)).boot = st.boot ∧ (xeFinish st s (-1)).block = st.block := by
  unfold xeFinish
  split
  · have := xeSave_not h s none
    exact ⟨Or.inr this.1, this.2⟩
  · exact ⟨h, rfl, rfl, rfl⟩

def xeOf (x : XeSvc × Bool) : CStr := xeLine x.1 (xeCmdline x.1) x.2

/-- Everything: what is written is part of what should be, and all of it if nothing fails. -/
theorem xeAll (evs : List XeEv) : ∀ st busy, XeRel st busy → XePids evs →
    ∃ L, L.Sublist (xeShould busy st.boot evs) ∧
      xeBody (evs.foldl xeStep st) = xeBody st ++ L.map xeOf ∧
      ((evs.foldl xeStep st).file = none ∨ ∃ l, (evs.foldl xeStep st).file = some (xeHead ++ l)) ∧
      (XeFine evs → XeWaits (busy.map fun b => b.2.1) evs → (∀ s p b, busy = some (s, p, b) → b = st.boot) →
        L = xeShould busy st.boot evs) := by
  induction evs with
  | nil =>
    intro st busy R _
    refine ⟨[], ?_, by simp, R.head, fun _ _ _ => ?_⟩ <;> cases busy <;> simp [xeShould]
  | cons ev r ih =>
    intro st busy R hp
    have hp' : XePids r := fun s p w hm => hp s p w (List.mem_cons_of_mem _ hm)
    have waits : ∀ {b b'}, XeWaits b (ev :: r) → xeNext b ev = b' → XeWaits b' r := by
      intro b b' hw e x y hxy
      have := hw (ev :: x) y (by rw [hxy]; rfl)
      rw [← e]; exact this
    have fine : XeFine (ev :: r) → XeFine r := fun hf s how hm => hf s how (List.mem_cons_of_mem _ hm)
    -- going on with `busy'` and the lines `M` written by this step, of the lines `N` that should be
    have go : ∀ (busy' : Option (XeSvc × Nat × Bool)) (M N : List (XeSvc × Bool)),
        XeRel (xeStep st ev) busy' →
        xeShould busy st.boot (ev :: r) = N ++ xeShould busy' (xeStep st ev).boot r → M.Sublist N →
        xeBody (xeStep st ev) = xeBody st ++ M.map xeOf →
        (XeFine (ev :: r) → XeWaits (busy.map fun b => b.2.1) (ev :: r) →
          (∀ s p b, busy = some (s, p, b) → b = st.boot) →
          M = N ∧ XeWaits (busy'.map fun b => b.2.1) r ∧
          (∀ s p b, busy' = some (s, p, b) → b = (xeStep st ev).boot)) →
        ∃ L, L.Sublist (xeShould busy st.boot (ev :: r)) ∧
          xeBody ((ev :: r).foldl xeStep st) = xeBody st ++ L.map xeOf ∧
          (((ev :: r).foldl xeStep st).file = none ∨ ∃ l, ((ev :: r).foldl xeStep st).file = some (xeHead ++ l)) ∧
          (XeFine (ev :: r) → XeWaits (busy.map fun b => b.2.1) (ev :: r) →
            (∀ s p b, busy = some (s, p, b) → b = st.boot) → L = xeShould busy st.boot (ev :: r)) := by
      intro busy' M N R' e hMN hb hfin
      obtain ⟨L, h1, h2, h3, h4⟩ := ih _ _ R' hp'
      refine ⟨M ++ L, ?_, ?_, h3, ?_⟩
      · rw [e]; exact hMN.append h1
      · show xeBody (r.foldl xeStep (xeStep st ev)) = _
        rw [h2, hb, List.map_append, List.append_assoc]
      · intro hf hw hbt
        obtain ⟨e1, e2, e3⟩ := hfin hf hw hbt
        rw [e, e1, h4 (fine hf) e2 e3]
    cases ev with
    | up =>
      refine go busy [] [] ⟨R.head, R.free, ?_⟩ ?_ (List.Sublist.refl _) (by simp [xeStep, xeBody]) ?_
      · intro s p b hb
        obtain ⟨a1, a2, a3, a4⟩ := R.held s p b hb
        exact ⟨a1, a2, fun h => by simp [xeStep] at h, a4⟩
      · cases busy <;> simp [xeShould, xeStep]
      · intro hf hw hbt
        have hn : (busy.map fun b => b.2.1) = none := hw [] r rfl
        refine ⟨rfl, waits hw rfl, ?_⟩
        intro s p b hb
        rw [hb] at hn
        cases hn
    | ends t q w =>
      cases busy with
      | none =>
        have hs : xeStep st (.ends t q w) = st := by
          show xeEnds st t q w = st
          unfold xeEnds
          have := R.free rfl
          split
          · rfl
          · rw [if_neg (by omega)]
        refine go none [] [] (by rw [hs]; exact R) (by rw [hs]; simp [xeShould]) (List.Sublist.refl _)
          (by rw [hs]; simp) ?_
        intro hf hw hbt
        exact ⟨rfl, waits hw (by simp [xeNext]), by intro s p b h; cases h⟩
      | some b0 =>
        obtain ⟨s, p, b⟩ := b0
        obtain ⟨a1, a2, a3, a4⟩ := R.held s p b rfl
        by_cases hq : q = p
        · have hs : xeStep st (.ends t q w) =
              if st.boot then xeSave { st with block := 0 } t none (if ptExited w then (ptExitStatus w : Nat) else 1)
              else { st with block := 0 } := by
            show xeEnds st t q w = _
            unfold xeEnds
            rw [if_neg (by omega), if_pos (by omega)]
          have hr : (if ptExited w then ((ptExitStatus w : Nat) : Int) else 1) ≠ -1 := by split <;> omega
          have hz : decide ((if ptExited w then ((ptExitStatus w : Nat) : Int) else 1) = 0) =
              decide (w % 128 = 0 ∧ w / 256 % 256 = 0) := by
            unfold ptExited ptExitStatus
            by_cases hx : w % 128 = 0 <;> simp [hx]
            omega
          cases hbt : st.boot with
          | true =>
            have hb := a3 hbt
            rw [if_pos hbt] at hs
            have sp := xeSave_prepared (st := { st with block := 0 }) R.head t s (xeCmdline s) (a4 hb) none _ hr
            rw [← hs] at sp
            have hbt' : (xeStep st (.ends t q w)).boot = true := by rw [sp.2.2.1]; exact hbt
            have := go none [(s, decide (w % 128 = 0 ∧ w / 256 % 256 = 0))] [(s, decide (w % 128 = 0 ∧ w / 256 % 256 = 0))]
              ⟨Or.inr sp.1, fun _ => sp.2.2.2, by intro s p b h; cases h⟩
              (by rw [hbt']; simp only [xeShould, if_pos hq, hb, hbt]; rfl) (List.Sublist.refl _)
              (by rw [sp.2.1, hz]; rfl)
              (fun hf hw _ => ⟨rfl, waits hw (by simp [xeNext, hq]), by intro s p b h; cases h⟩)
            rw [hbt] at this
            exact this
          | false =>
            have hs' : xeStep st (.ends t q w) = { st with block := 0 } := by rw [hs, if_neg (by rw [hbt]; simp)]
            have := go none [] (if b then [(s, decide (w % 128 = 0 ∧ w / 256 % 256 = 0))] else [])
              (by rw [hs']; exact ⟨R.head, fun _ => rfl, by intro s p b h; cases h⟩)
              (by rw [hs']; simp only [xeShould, if_pos hq, hbt]) (List.nil_sublist _)
              (by rw [hs']; simp [xeBody])
              (fun hf hw hbb => ⟨by rw [hbb s p b rfl, hbt]; rfl, waits hw (by simp [xeNext, hq]),
                by intro s p b h; cases h⟩)
            rw [hbt] at this
            exact this
        · have hs : xeStep st (.ends t q w) = st := by
            show xeEnds st t q w = st
            unfold xeEnds
            split
            · rfl
            · rw [if_neg (by omega)]
          refine go (some (s, p, b)) [] [] (by rw [hs]; exact R) (by rw [hs]; simp [xeShould, if_neg hq])
            (List.Sublist.refl _) (by rw [hs]; simp) ?_
          intro hf hw hbt
          refine ⟨rfl, waits hw ?_, by rw [hs]; exact hbt⟩
          simp only [xeNext, Option.map]
          rw [if_neg (by intro h; injection h with h; exact hq h.symm)]
    | start t how =>
      cases busy with
      | some b0 =>
        obtain ⟨s, p, b⟩ := b0
        obtain ⟨a1, a2, a3, a4⟩ := R.held s p b rfl
        have hs : xeStep st (.start t how) = st := by
          show xeStart st t how = st
          unfold xeStart
          rw [if_pos (by omega)]
        refine go (some (s, p, b)) [] [] (by rw [hs]; exact R) (by rw [hs]; simp [xeShould]) (List.Sublist.refl _)
          (by rw [hs]; simp) ?_
        intro hf hw hbt
        refine ⟨rfl, waits hw ?_, by rw [hs]; exact hbt⟩
        cases how <;> simp [xeNext]
      | none =>
        have h0 := R.free rfl
        have pr := xePrepare_spec R.head t
        cases how with
        | refused =>
          have hs : xeStep st (.start t .refused) = st := by
            show xeStart st t .refused = st
            unfold xeStart
            rw [if_neg (by omega)]
          refine go none [] [] (by rw [hs]; exact R) (by rw [hs]; simp [xeShould]) (List.Sublist.refl _)
            (by rw [hs]; simp) ?_
          intro hf hw hbt
          exact ⟨rfl, waits hw (by simp [xeNext]), by intro s p b h; cases h⟩
        | noChannel =>
          have hs : xeStep st (.start t .noChannel) = xePrepare st t := by
            show xeStart st t .noChannel = _
            unfold xeStart
            rw [if_neg (by omega)]
          refine go none [] (if st.boot then [(t, false)] else [])
            (by rw [hs]; exact ⟨pr.1, fun _ => by rw [pr.2.2.2.1]; exact h0, by intro s p b h; cases h⟩)
            (by rw [hs, pr.2.2.1]; simp [xeShould]) (List.nil_sublist _) (by rw [hs, pr.2.1]; simp) ?_
          intro hf hw hbt
          rcases hf _ _ (List.mem_cons_self) with h | ⟨p, h⟩ <;> cases h
        | noFork =>
          have hs : xeStep st (.start t .noFork) = xeFinish (xePrepare st t) t (-1) := by
            show xeStart st t .noFork = _
            unfold xeStart
            rw [if_neg (by omega)]
          have fn := xeFinish_not pr.1 t
          refine go none [] (if st.boot then [(t, false)] else [])
            (by rw [hs]; exact ⟨fn.1, fun _ => by rw [fn.2.2.2, pr.2.2.2.1]; exact h0, by intro s p b h; cases h⟩)
            (by rw [hs, fn.2.2.1, pr.2.2.1]; simp [xeShould]) (List.nil_sublist _)
            (by rw [hs, fn.2.1, pr.2.1]; simp) ?_
          intro hf hw hbt
          rcases hf _ _ (List.mem_cons_self) with h | ⟨p, h⟩ <;> cases h
        | started p w =>
          have hpp : 1 < p := hp t p w List.mem_cons_self
          by_cases ht : t.type = .run
          · have hs : xeStep st (.start t (.started p w)) = { xePrepare st t with block := p } := by
              show xeStart st t (.started p w) = _
              unfold xeStart
              rw [if_neg (by omega)]
              dsimp only
              rw [if_pos ht]
              unfold xeFinish
              rw [if_neg (by simp; omega)]
            refine go (some (t, p, st.boot)) [] []
              (by
                rw [hs]
                refine ⟨pr.1, (fun h => by cases h), ?_⟩
                intro s q b h
                cases h
                exact ⟨rfl, hpp, fun h => pr.2.2.1 ▸ h, fun h => pr.2.2.2.2 h⟩)
              (by rw [hs]; simp only [xeShould, if_pos ht, pr.2.2.1]; rfl) (List.Sublist.refl _)
              (by rw [hs]; show xeBody (xePrepare st t) = _; rw [pr.2.1]; simp) ?_
            intro hf hw hbt
            refine ⟨rfl, waits hw (by simp [xeNext, ht]), ?_⟩
            intro s q b h
            cases h
            rw [hs]; exact pr.2.2.1.symm
          · have hs : xeStep st (.start t (.started p w)) = xeFinish (xePrepare st t) t (if w then 0 else -1) := by
              show xeStart st t (.started p w) = _
              unfold xeStart
              rw [if_neg (by omega)]
              dsimp only
              rw [if_neg ht]
            cases w with
            | false =>
              have fn := xeFinish_not pr.1 t
              refine go none [] (if st.boot then [(t, true)] else [])
                (by rw [hs]; exact ⟨fn.1, fun _ => by
                      show (xeFinish (xePrepare st t) t (-1)).block = 0
                      rw [fn.2.2.2, pr.2.2.2.1]; exact h0, by intro s p b h; cases h⟩)
                (by
                  rw [hs]
                  show _ = _ ++ xeShould none (xeFinish (xePrepare st t) t (-1)).boot r
                  rw [fn.2.2.1, pr.2.2.1]; simp [xeShould, ht]) (List.nil_sublist _)
                (by rw [hs]; show xeBody (xeFinish (xePrepare st t) t (-1)) = _; rw [fn.2.1, pr.2.1]; simp) ?_
              intro hf hw hbt
              rcases hf _ _ (List.mem_cons_self) with h | ⟨p, h⟩ <;> cases h
            | true =>
              cases hbt : st.boot with
              | true =>
                have hs' : xeStep st (.start t (.started p true)) = xeSave (xePrepare st t) t none 0 := by
                  rw [hs]
                  unfold xeFinish
                  rw [if_pos (by rw [pr.2.2.1, pr.2.2.2.1, h0, hbt]; rfl)]
                  rfl
                have sp := xeSave_prepared pr.1 t t (xeCmdline t) (pr.2.2.2.2 hbt) none 0 (by omega)
                rw [← hs'] at sp
                have hb' : (xeStep st (.start t (.started p true))).boot = true := by
                  rw [sp.2.2.1, pr.2.2.1]; exact hbt
                have := go none [(t, true)] [(t, true)]
                  ⟨Or.inr sp.1, fun _ => by rw [sp.2.2.2, pr.2.2.2.1]; exact h0, by intro s p b h; cases h⟩
                  (by rw [hb', hbt]; simp [xeShould, ht]) (List.Sublist.refl _)
                  (by rw [sp.2.1, pr.2.1]; rfl)
                  (fun hf hw _ => ⟨rfl, waits hw (by simp [xeNext, ht]), by intro s p b h; cases h⟩)
                rw [hbt] at this
                exact this
              | false =>
                have hs' : xeStep st (.start t (.started p true)) = xePrepare st t := by
                  rw [hs]
                  unfold xeFinish
                  rw [if_neg (by rw [pr.2.2.1, hbt]; simp)]
                have := go none [] []
                  (by rw [hs']; exact ⟨pr.1, fun _ => by rw [pr.2.2.2.1]; exact h0, by intro s p b h; cases h⟩)
                  (by rw [hs', pr.2.2.1, hbt]; simp [xeShould, ht]) (List.Sublist.refl _)
                  (by rw [hs', pr.2.1]; simp)
                  (fun hf hw _ => ⟨rfl, waits hw (by simp [xeNext, ht]), by intro s p b h; cases h⟩)
                rw [hbt] at this
                exact this

theorem xeInit_rel : XeRel xeInit none :=
  ⟨Or.inl rfl, fun _ => rfl, by intro s p b h; cases h⟩

/-- The arguments are put together if they fit. -/
theorem xeArgs_fit (args : List CStr) : ∀ n buf, args.length ≤ n → [] ∉ args →
    buf.length + (args.flatMap (' ' :: ·)).length < 1024 → xeArgs n buf args = buf ++ args.flatMap (' ' :: ·) := by
  induction args with
  | nil => intro n buf _ _ _; cases n <;> simp [xeArgs]
  | cons a r ih =>
    intro n buf hn he hl
    cases n with
    | zero => simp at hn
    | succ n =>
      have ha : a ≠ [] := fun h => he (h ▸ List.mem_cons_self)
      simp only [List.flatMap_cons, List.length_append, List.length_cons] at hl
      have e1 : strlcat 1024 buf [' '] = buf ++ [' '] := by
        unfold strlcat; rw [List.take_of_length_le (by simp; omega)]
      have e2 : strlcat 1024 (buf ++ [' ']) a = buf ++ ' ' :: a := by
        unfold strlcat; rw [List.take_of_length_le (by simp; omega)]; simp
      simp only [xeArgs]
      rw [if_neg ha, e1, e2, ih n _ (by simpa using hn) (fun h => he (List.mem_cons_of_mem _ h))
        (by simp only [List.length_append, List.length_cons]; omega)]
      simp

theorem xe_intercalate (c : CStr) (args : List CStr) :
    [' '].intercalate (c :: args) = c ++ args.flatMap (' ' :: ·) := by
  induction args generalizing c with
  | nil => simp [List.intercalate]
  | cons a r ih =>
    have := ih a
    simp only [List.intercalate, List.intersperse, List.flatten_cons, List.flatMap_cons] at this ⊢
    rw [this]; simp

theorem xeCmdline_short {s : XeSvc} (h : XeShort s) : xeCmdline s = " ".toList.intercalate (s.cmd :: s.args) := by
  obtain ⟨h1, h2, h3⟩ := h
  have e : " ".toList.intercalate (s.cmd :: s.args) = s.cmd ++ s.args.flatMap (' ' :: ·) := xe_intercalate _ _
  rw [e] at h3 ⊢
  rw [List.length_append] at h3
  unfold xeCmdline strlcpy
  rw [List.take_of_length_le (by omega)]
  exact xeArgs_fit _ _ _ h1 h2 h3

/-- What should be recorded was to be started. -/
theorem xeShould_mem (evs : List XeEv) : ∀ busy boot x, x ∈ xeShould busy boot evs →
    (∃ how, XeEv.start x.1 how ∈ evs) ∨ ∃ p b, busy = some (x.1, p, b) := by
  induction evs with
  | nil => intro busy boot x h; cases busy <;> simp [xeShould] at h
  | cons ev r ih =>
    intro busy boot x h
    have up : ∀ {busy' boot'}, x ∈ xeShould busy' boot' r →
        (∀ p b, busy' = some (x.1, p, b) → (∃ how, XeEv.start x.1 how ∈ ev :: r) ∨ ∃ p b, busy = some (x.1, p, b)) →
        (∃ how, XeEv.start x.1 how ∈ ev :: r) ∨ ∃ p b, busy = some (x.1, p, b) := by
      intro busy' boot' hx hb
      rcases ih _ _ _ hx with ⟨how, hm⟩ | ⟨p, b, e⟩
      · exact Or.inl ⟨how, List.mem_cons_of_mem _ hm⟩
      · exact hb p b e
    cases ev with
    | up =>
      have h' : x ∈ xeShould busy false r := by cases busy <;> simpa [xeShould] using h
      exact up h' (fun p b e => Or.inr ⟨p, b, e⟩)
    | ends t q w =>
      cases busy with
      | none =>
        simp only [xeShould] at h
        exact up h (fun p b e => by cases e)
      | some b0 =>
        obtain ⟨s, p, b⟩ := b0
        simp only [xeShould] at h
        split at h
        · rcases List.mem_append.mp h with h | h
          · split at h
            · have := List.mem_singleton.mp h
              exact Or.inr ⟨p, b, by rw [this]⟩
            · cases h
          · exact up h (fun p b e => by cases e)
        · exact up h (fun p b e => Or.inr ⟨p, b, e⟩)
    | start t how =>
      cases busy with
      | some b0 =>
        simp only [xeShould] at h
        exact up h (fun p b e => Or.inr ⟨p, b, e⟩)
      | none =>
        have one : ∀ {ok : Bool}, x ∈ (if boot then [(t, ok)] else []) ++ xeShould none boot r →
            (∃ how', XeEv.start x.1 how' ∈ XeEv.start t how :: r) ∨
              ∃ p b, (none : Option (XeSvc × Nat × Bool)) = some (x.1, p, b) := by
          intro ok h
          rcases List.mem_append.mp h with h | h
          · split at h
            · have := List.mem_singleton.mp h
              exact Or.inl ⟨how, by rw [this]; exact List.mem_cons_self⟩
            · cases h
          · exact up h (fun p b e => by cases e)
        cases how with
        | refused =>
          simp only [xeShould] at h
          exact up h (fun p b e => by cases e)
        | noChannel => simp only [xeShould] at h; exact one h
        | noFork => simp only [xeShould] at h; exact one h
        | started p w =>
          simp only [xeShould] at h
          split at h
          · refine up h ?_
            intro p' b' e
            injection e with e
            injection e with e _
            exact Or.inl ⟨_, by rw [e]; exact List.mem_cons_self⟩
          · exact one h

/-! ## Theorems -/

/-- If all that is to be started can be, and bootstrap does not end while a `run` is waited for, the file has all of it, in
    order, each with its own result. -/
theorem C109_partial (evs : List XeEv) (hp : XePids evs) (hf : XeFine evs) (hw : XeWaits none evs)
    (hs : ∀ s how, XeEv.start s how ∈ evs → XeShort s) :
    xeBody (xeRun evs) =
      (xeShould none true evs).map fun x => xeLine x.1 (" ".toList.intercalate (x.1.cmd :: x.1.args)) x.2 := by
  obtain ⟨L, h1, h2, _, h4⟩ := xeAll evs xeInit none xeInit_rel hp
  have e := h4 hf hw (by intro s p b h; cases h)
  show xeBody (evs.foldl xeStep xeInit) = _
  rw [h2, e]
  show List.map xeOf (xeShould none true evs) = _
  apply List.map_congr_left
  intro x hx
  rcases xeShould_mem evs none true x hx with ⟨how, hm⟩ | ⟨p, b, h⟩
  · unfold xeOf; rw [xeCmdline_short (hs _ _ hm)]
  · cases h

/-- Whatever happens, what the file has is right: each line is that of something that was started at bootstrap, with its own
    result, and they are in order. -/
theorem C109_right (evs : List XeEv) (hp : XePids evs) :
    ∃ L : List (XeSvc × Bool), L.Sublist (xeShould none true evs) ∧
      xeBody (xeRun evs) = L.map fun x => xeLine x.1 (xeCmdline x.1) x.2 := by
  obtain ⟨L, h1, h2, _, _⟩ := xeAll evs xeInit none xeInit_rel hp
  exact ⟨L, h1, h2⟩

/-- The heading comes first. -/
theorem C109_head (evs : List XeEv) (hp : XePids evs) (l : List CStr) (h : (xeRun evs).file = some l) :
    l = ["# Execution order of run/task/services at bootstrap".toList, "# ST    TYPE     COMMAND LINE (DESC)".toList] ++
      xeBody (xeRun evs) := by
  obtain ⟨_, _, _, h3, _⟩ := xeAll evs xeInit none xeInit_rel hp
  rcases h3 with h3 | ⟨m, h3⟩
  · have h3' : (xeRun evs).file = none := h3
    rw [h3'] at h; cases h
  · have h3' : (xeRun evs).file = some (xeHead ++ m) := h3
    unfold xeBody
    rw [h] at h3' ⊢
    injection h3' with h3'
    rw [h3']; rfl

/-- Once bootstrap is over, nothing is written. -/
theorem C109_over (st : XeSt) (evs : List XeEv) (h : st.boot = false) : (evs.foldl xeStep st).file = st.file := by
  induction evs generalizing st with
  | nil => rfl
  | cons ev r ih =>
    have key : (xeStep st ev).boot = false ∧ (xeStep st ev).file = st.file := by
      cases ev with
      | up => exact ⟨rfl, rfl⟩
      | ends t q w =>
        show (xeEnds st t q w).boot = false ∧ (xeEnds st t q w).file = st.file
        unfold xeEnds
        split
        · exact ⟨h, rfl⟩
        · split
          · simp [h]
          · exact ⟨h, rfl⟩
      | start t how =>
        show (xeStart st t how).boot = false ∧ (xeStart st t how).file = st.file
        have e : xePrepare st t = st := by unfold xePrepare; rw [h]; rfl
        have f : ∀ (u : XeSt) x, u.boot = false → xeFinish u t x = u := by
          intro u x hu; unfold xeFinish; rw [hu]; rfl
        unfold xeStart
        split
        · exact ⟨h, rfl⟩
        · cases how with
          | refused => exact ⟨h, rfl⟩
          | noChannel => dsimp only; rw [e]; exact ⟨h, rfl⟩
          | noFork => dsimp only; rw [e, f _ _ h]; exact ⟨h, rfl⟩
          | started p w =>
            dsimp only
            rw [e]
            split
            · rw [f _ _ (by exact h)]; exact ⟨h, rfl⟩
            · rw [f _ _ h]; exact ⟨h, rfl⟩
    show (r.foldl xeStep (xeStep st ev)).file = st.file
    rw [ih _ key.1, key.2]

/-- What cannot be started is never in the file: the result -1 is taken for the call before the start. -/
theorem C109_fail (st : XeSt) (h : st.file = none ∨ ∃ l, st.file = some (xeHead ++ l)) (s : XeSvc) (how : XeHow)
    (hh : how = .noChannel ∨ how = .noFork) : xeBody (xeStep st (.start s how)) = xeBody st := by
  show xeBody (xeStart st s how) = xeBody st
  have pr := xePrepare_spec h s
  unfold xeStart
  split
  · rfl
  · rcases hh with rfl | rfl
    · exact pr.2.1
    · exact (xeFinish_not pr.1 s).2.1.trans pr.2.1

/-! ## Examples -/

def xeSyslog : XeSvc := ⟨.service, "/sbin/syslogd".toList, ["-n".toList], "System log".toList⟩
def xeMknod : XeSvc := ⟨.run, "/bin/mk".toList, [], "Make nodes".toList⟩

/-- A service, a `run` that fails, and the end of bootstrap -/
def xeDemo : List XeEv :=
  [.start xeSyslog (.started 100 true), .start xeMknod (.started 101 true), .start xeSyslog (.started 102 true),
   .ends xeMknod 101 256, .up]

theorem xeDemo_pids : XePids xeDemo := by
  intro s p w h
  simp [xeDemo] at h
  omega

theorem xeDemo_waits : XeWaits none xeDemo := by
  intro a b h
  have hl := congrArg List.length h
  simp [xeDemo] at hl
  rcases a with _ | ⟨a1, _ | ⟨a2, _ | ⟨a3, _ | ⟨a4, _ | ⟨a5, a⟩⟩⟩⟩⟩ <;> simp [xeDemo] at h
  · obtain ⟨rfl, rfl, rfl, rfl, _⟩ := h
    decide +kernel

example : XeFine xeDemo ∧ XePids xeDemo ∧ XeWaits none xeDemo ∧ XeShort xeSyslog ∧ XeShort xeMknod ∧
    xeShould none true xeDemo = [(xeSyslog, true), (xeMknod, false)] := by
  refine ⟨?_, xeDemo_pids, xeDemo_waits, by unfold XeShort; decide +kernel, by unfold XeShort; decide +kernel, by decide +kernel⟩
  intro s how h
  simp [xeDemo] at h
  rcases h with ⟨_, rfl⟩ | ⟨_, rfl⟩ | ⟨_, rfl⟩ <;> exact Or.inr ⟨_, rfl⟩

/-- The claim does not hold: a service for which there is no process is not in the file. -/
theorem C109_full_false : ¬ C109_full := by
  intro h
  have := h [.start xeSyslog .noFork] (by intro s p w hm; simp at hm)
  revert this
  decide +kernel

end Verif
