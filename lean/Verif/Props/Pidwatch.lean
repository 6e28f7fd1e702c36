import Verif.Pidwatch
import Verif.Props.PidFile
import Verif.Props.Output
import Verif.Props.Hostname

/-!
# C101: whose PID file it is
-/

namespace Verif

/-! ## Specification -/

/-- A name that inotify gives for a file in `/run` -/
structure PwClean (fn : CStr) : Prop where
  run : ∃ r, fn = "/run/".toList ++ r
  dot : ∀ a b, fn ≠ a ++ "/./".toList ++ b
  up : ∀ a b, fn ≠ a ++ "/../".toList ++ b
  last : ∀ a, fn ≠ a ++ "/..".toList
  slash : ∀ a b, fn ≠ a ++ "//".toList ++ b
  short : fn.length ≤ 254

/-- What the service's own file says: it is on once the file has been written, until it is gone.  A service that forks must be named in
    the file, so that the file must still be there. -/
def ownSays (own : CStr) (forking : Bool) : List PwAct → Bool → Bool
  | [], b => b
  | .file fn kind text :: r, b =>
    ownSays own forking r
      (if fn = own then (match kind with
        | .written => !(forking && decide (text = none))
        | .deleted => false
        | .away => false) else b)
  | .other _ _ :: r, b => ownSays own forking r b

/-- Service `k` is running, tells that it is ready with its PID file, and its file is `own`; no other service has this file, or this
    process -/
structure PwMine (k : Nat) (own : CStr) (st : PwSt) : Prop where
  known : k ∈ st.order
  calm : (st.svc k).busy = false ∧ (st.svc k).stopping = false
  notify : (st.svc k).notify = .pid
  pid : 1 < (st.svc k).pid
  file : pidFile (st.svc k).pidfile = some own
  apart : ∀ j ∈ st.order, j ≠ k → (st.svc j).pid ≠ (st.svc k).pid ∧ pidFile (st.svc j).pidfile ≠ some own

/-- What the service and Finit do to it: the file of the service does not name another one, and one that forks writes the number of a
    process; other services get neither its file nor its process -/
def PwProper (k : Nat) (own : CStr) (st : PwSt) : PwAct → Prop
  | .file fn kind text => PwClean fn ∧ (fn = own →
      (∀ j ∈ st.order, j ≠ k → 1 < pwNum text → pwNum text ≠ (st.svc j).pid) ∧
      (kind = .written → (st.svc k).forking = true → text = none ∨ 1 < pwNum text))
  | .other j s => j ≠ k ∧ s.pid ≠ (st.svc k).pid ∧ pidFile s.pidfile ≠ some own

/-- What others do: their files do not name the process of service `k`, and do not take its file away by renaming it -/
def PwLeaves (k : Nat) (own : CStr) (st : PwSt) : PwAct → Prop
  | .file fn kind text => (fn ≠ own → pwNum text ≠ (st.svc k).pid) ∧ (fn = own → kind ≠ .away)
  | .other _ _ => True

/-- Each action is as `P` says in the state it is done in -/
def PwAll (P : PwSt → PwAct → Prop) : PwSt → List PwAct → Prop
  | _, [] => True
  | st, a :: r => P st a ∧ PwAll P (pwStep a st) r

/-- C101 as stated: whatever is written in `/run` by others, the condition is what the service's own file says.  It is false. -/
def C101_full : Prop :=
  ∀ k own st acts, PwMine k own st → pwNamed own = true → PwAll (PwProper k own) st acts →
    ((pwRun acts st).svc k).cond = ownSays own (st.svc k).forking acts (st.svc k).cond

/-! ## Lemmas -/

theorem pwSet_clean {fn : CStr} (h : PwClean fn) (forking : Bool) (old : CStr) :
    pidFileSet "/run".toList forking old (some fn) true = .ok ('!' :: fn) := by
  obtain ⟨r, hr⟩ := h.run
  have hh : fn.head? = some '/' := by rw [hr]; rfl
  have hc : deDotdot fn = fn := by
    apply C31_clean_path_unchanged
    · intro t e; rw [e] at hh; cases hh
    · intro t e; rw [e] at hh; cases hh
    · exact h.dot
    · exact h.up
    · exact h.last
    · exact h.slash
  have hs : r.head? ≠ some '/' := by
    intro e
    cases r with
    | nil => cases e
    | cons c cs =>
      cases e
      exact h.slash "/run".toList cs (by rw [hr]; rfl)
  have hrun : strstr "/run/".toList fn = some ([], r) := by rw [hr]; simp [strstr]
  have hp : pidRunpath "/run".toList fn 256 = fn := by
    simp only [pidRunpath, afterRun, hrun, paste, if_neg hs]
    have e : "/run".toList ++ ['/'] ++ r = fn := by rw [hr]; rfl
    rw [e, List.take_of_length_le]
    have := h.short
    omega
  have hne : ¬ (fn.head? = some '!') := by rw [hh]; decide
  show (if (true || decide (fn.head? = some '!') || forking) = true then
        PidRes.ok ('!' :: (pidRunpath "/run".toList (deDotdot (if fn.head? = some '!' then fn.drop 1 else fn)) 256).take 254)
      else PidRes.ok ((pidRunpath "/run".toList (deDotdot (if fn.head? = some '!' then fn.drop 1 else fn)) 256).take 255)) = _
  rw [if_neg hne, hc, hp, List.take_of_length_le h.short]
  simp

theorem pwLearn_clean {fn : CStr} (h : PwClean fn) (s : PwSvc) :
    pwLearn fn s = if pwHas s then s else { s with pidfile := '!' :: fn } := by
  unfold pwLearn
  rw [pwSet_clean h]

theorem pwLearn_file {fn : CStr} (h : PwClean fn) (s : PwSvc) :
    pidFile (pwLearn fn s).pidfile = some fn ∨ (pwLearn fn s).pidfile = s.pidfile := by
  rw [pwLearn_clean h]
  split
  · exact .inr rfl
  · exact .inl rfl

theorem pwLearn_rest (fn : CStr) (s : PwSvc) : ∃ p, pwLearn fn s = { s with pidfile := p } := by
  unfold pwLearn
  split
  · exact ⟨s.pidfile, rfl⟩
  · split
    · exact ⟨_, rfl⟩
    · exact ⟨s.pidfile, rfl⟩

/-- The process and the file of a service after an event -/
theorem pwUpdate_ids {fn : CStr} (h : PwClean fn) (kind : PwKind) (text : Option (List Char)) (s : PwSvc) :
    ((pwUpdate fn kind text s).pid = s.pid ∨ (pwUpdate fn kind text s).pid = pwNum text) ∧
    (pidFile (pwUpdate fn kind text s).pidfile = some fn ∨ (pwUpdate fn kind text s).pidfile = s.pidfile) := by
  obtain ⟨p, hp⟩ := pwLearn_rest fn s
  have hf := pwLearn_file h s
  unfold pwUpdate
  split
  · exact ⟨.inl rfl, .inr rfl⟩
  · split
    · exact ⟨.inl rfl, .inr rfl⟩
    · cases kind with
      | deleted => exact ⟨.inl rfl, .inr rfl⟩
      | away => exact ⟨.inl rfl, .inr rfl⟩
      | written =>
        dsimp only [pwWritten]
        rw [hp] at hf ⊢
        dsimp only at hf ⊢
        split
        · split
          · split
            · exact ⟨.inl rfl, hf⟩
            · exact ⟨.inl rfl, hf⟩
          · exact ⟨.inr rfl, hf⟩
        · exact ⟨.inl rfl, hf⟩

theorem find_only {l : List Nat} {k : Nat} {p : Nat → Bool} (hk : k ∈ l) (hp : p k = true) (ho : ∀ j ∈ l, j ≠ k → p j = false) :
    l.find? p = some k := by
  cases h : l.find? p with
  | none => exact absurd hp (by simpa using List.find?_eq_none.mp h k hk)
  | some j =>
    by_cases e : j = k
    · rw [e]
    · have := List.find?_some h
      rw [ho j (List.mem_of_find?_eq_some h) e] at this
      cases this

/-- The service found for its own file -/
theorem pwFind_own {k : Nat} {own : CStr} {st : PwSt} (h : PwMine k own st) {text : Option (List Char)}
    (ht : ∀ j ∈ st.order, j ≠ k → 1 < pwNum text → pwNum text ≠ (st.svc j).pid) : pwFind own text st = some k := by
  unfold pwFind
  have hp : st.order.find? (fun k => pidFile (st.svc k).pidfile == some own) = some k :=
    find_only h.known (by simp [h.file]) (fun j hj e => by simpa using (h.apart j hj e).2)
  split
  · rename_i j hj
    split at hj
    · rename_i h1
      have hm := List.mem_of_find?_eq_some hj
      have := List.find?_some hj
      by_cases e : j = k
      · rw [e]
      · exact absurd (by simpa using this : (st.svc j).pid = pwNum text).symm (ht j hm e h1)
    · cases hj
  · exact hp

/-- A service found for another file is another service -/
theorem pwFind_other {k j : Nat} {own fn : CStr} {st : PwSt} (hf : pidFile (st.svc k).pidfile = some own) {text : Option (List Char)}
    (hne : fn ≠ own) (ht : pwNum text ≠ (st.svc k).pid) (h : pwFind fn text st = some j) : j ≠ k ∧ j ∈ st.order := by
  unfold pwFind at h
  split at h
  · rename_i i hi
    cases h
    split at hi
    · refine ⟨?_, List.mem_of_find?_eq_some hi⟩
      rintro rfl
      have := List.find?_some hi
      exact ht (by simpa using this : (st.svc j).pid = pwNum text).symm
    · cases hi
  · refine ⟨?_, List.mem_of_find?_eq_some h⟩
    rintro rfl
    have := List.find?_some h
    rw [hf] at this
    exact hne (by simpa using this : own = fn).symm

theorem pwNamed_clean {own : CStr} (h : pwNamed own = true) : ¬ (pwNamed own = false) := by rw [h]; decide

/-- One action -/
theorem pwStep_mine {k : Nat} {own : CStr} {st : PwSt} {a : PwAct} (h : PwMine k own st) (hn : pwNamed own = true)
    (hp : PwProper k own st a) (hl : PwLeaves k own st a) :
    PwMine k own (pwStep a st) ∧ ((pwStep a st).svc k).forking = (st.svc k).forking ∧
    ((pwStep a st).svc k).cond = ownSays own (st.svc k).forking [a] (st.svc k).cond := by
  cases a with
  | other j s =>
    obtain ⟨hj, h1, h2⟩ := hp
    have ek : (pwStep (.other j s) st).svc k = st.svc k := if_neg (Ne.symm hj)
    refine ⟨⟨h.known, ?_, ?_, ?_, ?_, ?_⟩, by rw [ek], by rw [ek]; rfl⟩
    · rw [ek]; exact h.calm
    · rw [ek]; exact h.notify
    · rw [ek]; exact h.pid
    · rw [ek]; exact h.file
    · intro i hi hik
      rw [ek]
      show ((if i = j then s else st.svc i) : PwSvc).pid ≠ _ ∧ pidFile ((if i = j then s else st.svc i) : PwSvc).pidfile ≠ _
      split
      · exact ⟨h1, h2⟩
      · exact h.apart i hi hik
  | file fn kind text =>
    obtain ⟨hc, hown⟩ := hp
    by_cases he : fn = own
    · subst he
      obtain ⟨ht, hw⟩ := hown rfl
      have haway := hl.2 rfl
      have hfind := pwFind_own h ht
      have est : pwStep (.file fn kind text) st =
          { st with svc := fun j => if j = k then pwUpdate fn kind text (st.svc k) else st.svc j } := by
        show pwEvent fn kind text st = _
        unfold pwEvent
        rw [if_neg haway, if_neg (pwNamed_clean hn), hfind]
      have ek : (pwStep (.file fn kind text) st).svc k = pwUpdate fn kind text (st.svc k) := by rw [est]; exact if_pos rfl
      have eo : ∀ j, j ≠ k → (pwStep (.file fn kind text) st).svc j = st.svc j := fun j hj => by rw [est]; exact if_neg hj
      have eor : (pwStep (.file fn kind text) st).order = st.order := by rw [est]
      have hu : ∃ s', pwUpdate fn kind text (st.svc k) = s' ∧ s'.busy = false ∧ s'.stopping = false ∧ s'.notify = .pid ∧
          pidFile s'.pidfile = some fn ∧ s'.forking = (st.svc k).forking ∧
          (s'.pid = (st.svc k).pid ∨ (s'.pid = pwNum text ∧ 1 < pwNum text)) ∧
          s'.cond = ownSays fn (st.svc k).forking [.file fn kind text] (st.svc k).cond := by
        refine ⟨_, rfl, ?_⟩
        obtain ⟨c1, c2⟩ := h.calm
        unfold pwUpdate
        rw [if_neg (by rw [c1]; decide), if_neg (by rw [c2]; decide)]
        cases kind with
        | away => exact absurd rfl haway
        | deleted => exact ⟨c1, c2, h.notify, h.file, rfl, .inl rfl, by simp [ownSays]⟩
        | written =>
          have hf : pidFile (pwLearn fn (st.svc k)).pidfile = some fn := by
            rcases pwLearn_file hc (st.svc k) with e | e
            · exact e
            · rw [e]; exact h.file
          obtain ⟨p, hp⟩ := pwLearn_rest fn (st.svc k)
          rw [hp] at hf
          dsimp only [pwWritten]
          rw [hp]
          dsimp only at hf ⊢
          have hnot := h.notify
          by_cases hfo : (st.svc k).forking = true
          · rw [if_pos hfo]
            rcases hw rfl hfo with e | e
            · subst e
              have e0 : pwNum none = -1 := rfl
              rw [if_pos e0, if_pos rfl]
              exact ⟨c1, c2, hnot, hf, rfl, .inl rfl, by simp [ownSays, hfo]⟩
            · rw [if_neg (by omega), if_pos hnot]
              refine ⟨c1, c2, hnot, hf, rfl, .inr ⟨rfl, e⟩, ?_⟩
              have : text ≠ none := by rintro rfl; exact absurd e (by decide)
              simp [ownSays, this]
          · rw [if_neg hfo, if_pos hnot]
            exact ⟨c1, c2, hnot, hf, rfl, .inl rfl, by simp [ownSays, hfo]⟩
      obtain ⟨s', e', b1, b2, b3, b4, b5, b6, b7⟩ := hu
      rw [e'] at ek
      refine ⟨⟨by rw [eor]; exact h.known, ?_, ?_, ?_, ?_, ?_⟩, by rw [ek]; exact b5, by rw [ek]; exact b7⟩
      · rw [ek]; exact ⟨b1, b2⟩
      · rw [ek]; exact b3
      · rw [ek]
        rcases b6 with e | ⟨e, e1⟩
        · rw [e]; exact h.pid
        · rw [e]; exact e1
      · rw [ek]; exact b4
      · intro j hj hjk
        rw [eor] at hj
        rw [eo j hjk, ek]
        refine ⟨?_, (h.apart j hj hjk).2⟩
        rcases b6 with e | ⟨e, e1⟩
        · rw [e]; exact (h.apart j hj hjk).1
        · rw [e]; exact (ht j hj hjk e1).symm
    · have hnum := hl.1 he
      have hsame : PwMine k own (pwStep (.file fn kind text) st) ∧ (pwStep (.file fn kind text) st).svc k = st.svc k := by
        show PwMine k own (pwEvent fn kind text st) ∧ (pwEvent fn kind text st).svc k = st.svc k
        unfold pwEvent
        split
        · exact ⟨h, rfl⟩
        · split
          · exact ⟨h, rfl⟩
          · split
            · exact ⟨h, rfl⟩
            · rename_i j hj
              obtain ⟨hjk, hjm⟩ := pwFind_other h.file he hnum hj
              have ek : ((if k = j then pwUpdate fn kind text (st.svc j) else st.svc k) : PwSvc) = st.svc k := if_neg (Ne.symm hjk)
              refine ⟨⟨h.known, ?_, ?_, ?_, ?_, ?_⟩, ek⟩
              · dsimp only; rw [ek]; exact h.calm
              · dsimp only; rw [ek]; exact h.notify
              · dsimp only; rw [ek]; exact h.pid
              · dsimp only; rw [ek]; exact h.file
              · intro i hi hik
                dsimp only at hi ⊢
                rw [ek]
                by_cases hij : i = j
                · subst hij
                  rw [if_pos rfl]
                  obtain ⟨u1, u2⟩ := pwUpdate_ids hc kind text (st.svc i)
                  obtain ⟨a1, a2⟩ := h.apart i hi hik
                  refine ⟨?_, ?_⟩
                  · rcases u1 with e | e <;> rw [e]
                    · exact a1
                    · exact hnum
                  · rcases u2 with e | e <;> rw [e]
                    · simpa using he
                    · exact a2
                · rw [if_neg hij]
                  exact h.apart i hi hik
      refine ⟨hsame.1, by rw [hsame.2], ?_⟩
      rw [hsame.2]
      simp [ownSays, he]

theorem ownSays_cons (own : CStr) (f : Bool) (a : PwAct) (r : List PwAct) (b : Bool) :
    ownSays own f (a :: r) b = ownSays own f r (ownSays own f [a] b) := by
  cases a <;> rfl

/-! ## Theorems -/

/-- Missing from the full statement: files of others that name the process of the service, and its file renamed.  As long as nobody else
    writes the number of the process into a file of theirs, the condition is what the service's own file says, whatever is written, in
    any order, and however late it is dealt with. -/
theorem C101_own_partial (k : Nat) (own : CStr) (st : PwSt) (acts : List PwAct) (h : PwMine k own st) (hn : pwNamed own = true)
    (hp : PwAll (PwProper k own) st acts) (hl : PwAll (PwLeaves k own) st acts) :
    ((pwRun acts st).svc k).cond = ownSays own (st.svc k).forking acts (st.svc k).cond ∧
    pidFile ((pwRun acts st).svc k).pidfile = some own := by
  induction acts generalizing st with
  | nil => exact ⟨rfl, h.file⟩
  | cons a r ih =>
    obtain ⟨h1, h2, h3⟩ := pwStep_mine h hn hp.1 hl.1
    rw [ownSays_cons, ← h3, ← h2]
    exact ih _ h1 hp.2 hl.2

/-- If Finit makes the PID file for the service, as with `pid:foo`, then files of others change nothing, even if they name its process.
    The one exception is below. -/
theorem C101_managed (k : Nat) (own : CStr) (st : PwSt) (acts : List PwAct) (hd : (st.svc k).daemon = true)
    (hf : (st.svc k).forking = false) (hc : (st.svc k).stopping = false) (ho : (st.svc k).pidfile = own) (hs : own.head? = some '/')
    (hon : (st.svc k).notify = .pid → (st.svc k).cond = true)
    (ha : ∀ a ∈ acts, match a with
      | .file fn kind text => fn ≠ own ∧ (kind = .deleted → pwNum text ≠ (st.svc k).pid)
      | .other j _ => j ≠ k) : (pwRun acts st).svc k = st.svc k := by
  have hfile : pidFile (st.svc k).pidfile = some own := by
    rw [ho]
    cases own with
    | nil => cases hs
    | cons c cs => cases hs; rfl
  have hhas : pwHas (st.svc k) = true := by
    unfold pwHas
    rw [hd, ho, hs]
    cases own with
    | nil => cases hs
    | cons c cs => rfl
  induction acts generalizing st with
  | nil => rfl
  | cons a r ih =>
    have e1 : (pwStep a st).svc k = st.svc k := by
      have ha1 := ha a List.mem_cons_self
      cases a with
      | other j s => exact if_neg (Ne.symm ha1)
      | file fn kind text =>
        show (pwEvent fn kind text st).svc k = st.svc k
        unfold pwEvent
        split
        · rfl
        · split
          · rfl
          · split
            · rfl
            · rename_i hk _ _ j hj
              dsimp only
              by_cases hjk : k = j
              · subst hjk
                rw [if_pos rfl]
                cases kind with
                | away => exact absurd rfl hk
                | deleted => exact absurd rfl (pwFind_other hfile ha1.1 (ha1.2 rfl) hj).1
                | written =>
                  unfold pwUpdate
                  split
                  · rfl
                  · rw [if_neg (by rw [hc]; decide)]
                    have el : pwLearn fn (st.svc k) = st.svc k := if_pos hhas
                    dsimp only [pwWritten]
                    rw [el, if_neg (by rw [hf]; decide)]
                    split
                    · rename_i hno
                      have := hon hno
                      generalize st.svc k = s at this hf ⊢
                      cases s
                      cases this
                      rfl
                    · rfl
              · rw [if_neg hjk]
    show (pwRun r (pwStep a st)).svc k = _
    rw [ih (pwStep a st) (by rw [e1]; exact hd) (by rw [e1]; exact hf) (by rw [e1]; exact hc) (by rw [e1]; exact ho)
      (by rw [e1]; exact hon) (fun b hb => by
        have := ha b (List.mem_cons_of_mem _ hb)
        rw [e1]; exact this) (by rw [e1]; exact hfile) (by rw [e1]; exact hhas), e1]

/-- Anybody with a directory in `/run`, such as `/run/lock`, can turn the condition of a service on, and off again, by a file that names
    its process, unless Finit makes the PID file of the service: the file becomes that of the service. -/
theorem C101_stranger (k : Nat) (st : PwSt) (fn : CStr) (text : List Char) (hk : k ∈ st.order) (hc : PwClean fn)
    (hnm : pwNamed fn = true) (hcalm : (st.svc k).busy = false ∧ (st.svc k).stopping = false) (hno : (st.svc k).notify = .pid)
    (hh : pwHas (st.svc k) = false) (hp : 1 < (st.svc k).pid) (ht : pwNum (some text) = (st.svc k).pid)
    (ha : ∀ j ∈ st.order, j ≠ k → (st.svc j).pid ≠ (st.svc k).pid ∧ pidFile (st.svc j).pidfile ≠ some fn) :
    ((pwRun [.file fn .written (some text)] st).svc k).cond = true ∧
    pidFile ((pwRun [.file fn .written (some text)] st).svc k).pidfile = some fn ∧
    ((pwRun [.file fn .written (some text), .file fn .deleted none] st).svc k).cond = false := by
  have hf1 : pwFind fn (some text) st = some k := by
    unfold pwFind
    rw [if_pos (by rw [ht]; exact hp), find_only hk (by simp [ht]) (fun j hj e => by simpa [ht] using (ha j hj e).1)]
  have e1 : pwStep (.file fn .written (some text)) st =
      { st with svc := fun j => if j = k then pwUpdate fn .written (some text) (st.svc k) else st.svc j } := by
    show pwEvent fn .written (some text) st = _
    unfold pwEvent
    rw [if_neg (by decide), if_neg (pwNamed_clean hnm), hf1]
  have eu : ∃ s', pwUpdate fn .written (some text) (st.svc k) = s' ∧ s'.cond = true ∧ pidFile s'.pidfile = some fn ∧
      s'.busy = false ∧ s'.stopping = false := by
    refine ⟨_, rfl, ?_⟩
    unfold pwUpdate
    rw [if_neg (by rw [hcalm.1]; decide), if_neg (by rw [hcalm.2]; decide)]
    have el : pwLearn fn (st.svc k) = { st.svc k with pidfile := '!' :: fn } := by
      rw [pwLearn_clean hc]
      exact if_neg (by rw [hh]; decide)
    dsimp only [pwWritten]
    rw [el]
    dsimp only
    rw [if_pos hno]
    split
    · rw [if_neg (by rw [ht]; omega)]
      exact ⟨rfl, rfl, hcalm⟩
    · exact ⟨rfl, rfl, hcalm⟩
  obtain ⟨s', es, c1, c2, c3, c4⟩ := eu
  rw [es] at e1
  have ek : (pwStep (.file fn .written (some text)) st).svc k = s' := by rw [e1]; exact if_pos rfl
  have hf2 : pwFind fn none (pwStep (.file fn .written (some text)) st) = some k := by
    unfold pwFind
    rw [if_neg (by decide)]
    dsimp only
    apply find_only
    · rw [e1]; exact hk
    · rw [ek]; simp [c2]
    · intro j hj hjk
      rw [e1] at hj
      have : (pwStep (.file fn .written (some text)) st).svc j = st.svc j := by rw [e1]; exact if_neg hjk
      rw [this]
      simpa using (ha j hj hjk).2
  have e2 : (pwStep (.file fn .deleted none) (pwStep (.file fn .written (some text)) st)).svc k = { s' with cond := false } := by
    show (pwEvent fn .deleted none (pwStep (.file fn .written (some text)) st)).svc k = _
    unfold pwEvent
    rw [if_neg (by decide), if_neg (pwNamed_clean hnm), hf2]
    dsimp only
    rw [if_pos rfl, ek]
    unfold pwUpdate
    rw [if_neg (by rw [c3]; decide), if_neg (by rw [c4]; decide)]
  refine ⟨?_, ?_, ?_⟩
  · show ((pwStep (.file fn .written (some text)) st).svc k).cond = true
    rw [ek]; exact c1
  · show pidFile ((pwStep (.file fn .written (some text)) st).svc k).pidfile = some fn
    rw [ek]; exact c2
  · show ((pwStep (.file fn .deleted none) (pwStep (.file fn .written (some text)) st)).svc k).cond = false
    rw [e2]

/-- From then on its own file is that of nobody: when the service forks again and writes the number of its new process, nothing happens -/
theorem C101_lost (k : Nat) (st : PwSt) (fn own : CStr) (kind : PwKind) (text : Option (List Char))
    (hf : pidFile (st.svc k).pidfile = some fn) (hne : fn ≠ own)
    (hap : ∀ j ∈ st.order, j ≠ k → pidFile (st.svc j).pidfile ≠ some own)
    (ht : ∀ j ∈ st.order, 1 < pwNum text → pwNum text ≠ (st.svc j).pid) : pwRun [.file own kind text] st = st := by
  have hfind : pwFind own text st = none := by
    cases h : pwFind own text st with
    | none => rfl
    | some j =>
      unfold pwFind at h
      split at h
      · rename_i i hi
        cases h
        split at hi
        · rename_i h1
          have := List.find?_some hi
          exact absurd (by simpa using this : (st.svc j).pid = pwNum text).symm (ht j (List.mem_of_find?_eq_some hi) h1)
        · cases hi
      · have hm := List.mem_of_find?_eq_some h
        have := List.find?_some h
        have e : pidFile (st.svc j).pidfile = some own := by simpa using this
        by_cases hjk : j = k
        · subst hjk
          rw [hf] at e
          cases e
          exact absurd rfl hne
        · exact absurd e (hap j hm hjk)
  show pwEvent own kind text st = st
  unfold pwEvent
  split
  · rfl
  · split
    · rfl
    · rw [hfind]

/-- The exception: a file that is removed and made again before Finit gets to see that it was removed turns the condition off, of any
    service that it names by then -/
theorem C101_race (k : Nat) (st : PwSt) (fn : CStr) (text : Option (List Char)) (hk : k ∈ st.order) (hnm : pwNamed fn = true)
    (hb : (st.svc k).busy = false) (hp : 1 < (st.svc k).pid) (ht : pwNum text = (st.svc k).pid)
    (ha : ∀ j ∈ st.order, j ≠ k → (st.svc j).pid ≠ (st.svc k).pid) :
    ((pwRun [.file fn .deleted text] st).svc k).cond = false := by
  have hf1 : pwFind fn text st = some k := by
    unfold pwFind
    rw [if_pos (by rw [ht]; exact hp), find_only hk (by simp [ht]) (fun j hj e => by simpa [ht] using ha j hj e)]
  show ((pwEvent fn .deleted text st).svc k).cond = false
  unfold pwEvent
  rw [if_neg (by decide), if_neg (pwNamed_clean hnm), hf1]
  dsimp only
  rw [if_pos rfl]
  unfold pwUpdate
  rw [if_neg (by rw [hb]; decide)]
  split <;> rfl

/-- A file that is renamed is not missed -/
theorem C101_renamed (st : PwSt) (fn : CStr) (text : Option (List Char)) : pwRun [.file fn .away text] st = st := rfl

/-- The number on the first line of a PID file is the one that is read -/
theorem C101_number (n : Nat) (h : n ≤ intMax) (rest : List Char) : pwNum (some (Nat.toDigits 10 n ++ '\n' :: rest)) = n := by
  have hd : '\n' ∉ Nat.toDigits 10 n := fun hc => by
    have := toDigits_isDigit hc
    revert this
    decide
  have hl : (Nat.toDigits 10 n).length ≤ 10 := toDigits_length 10 n (by decide) (by unfold intMax at h; omega)
  unfold pwNum
  dsimp only
  rw [if_neg (by simp), hn_fgets_line _ hd rest 41 (by omega)]
  unfold chompLine
  rw [if_pos (by simp), List.dropLast_concat]
  exact atoi_toDigits n h

/-! ## Examples -/

/-- syslogd, whose PID file Finit makes, and sshd, that makes its own -/
def pwDemo : PwSt :=
  ⟨[0, 1], fun k => if k = 0 then { pid := 100, pidfile := "/run/syslogd.pid".toList, cond := true }
    else { pid := 200, pidfile := "!/run/sshd.pid".toList }⟩

theorem pwOther {st : PwSt} (ho : st.order = [0, 1]) {j : Nat} (hj : j ∈ st.order) (h : j ≠ 1) : j = 0 := by
  rw [ho] at hj
  simp at hj
  omega

theorem pwDemo_mine : PwMine 1 "/run/sshd.pid".toList pwDemo :=
  ⟨by decide, by decide +kernel, rfl, by decide +kernel, by decide +kernel, by
    intro j hj hne
    have := pwOther rfl hj hne
    subst this
    decide +kernel⟩

theorem no_sub_all {s pat : CStr} (h : ∀ i ≤ s.length, pat.isPrefixOf (s.drop i) = false) : ∀ a b, s ≠ a ++ pat ++ b := by
  rintro a b rfl
  have := h a.length (by simp)
  rw [List.append_assoc, List.drop_append_of_le_length (Nat.le_refl _), List.drop_length, List.nil_append] at this
  rw [List.isPrefixOf_iff_prefix.mpr ⟨b, rfl⟩] at this
  cases this

theorem no_end_all {s pat : CStr} (h : pat.isSuffixOf s = false) : ∀ a, s ≠ a ++ pat := by
  rintro a rfl
  rw [List.isSuffixOf_iff_suffix.mpr ⟨a, rfl⟩] at h
  cases h

/-- Names in the examples -/
theorem pwClean_of {fn r : CStr} (hr : fn = "/run/".toList ++ r)
    (h : ∀ i ≤ fn.length, "/./".toList.isPrefixOf (fn.drop i) = false ∧ "/../".toList.isPrefixOf (fn.drop i) = false ∧
      "//".toList.isPrefixOf (fn.drop i) = false) (he : "/..".toList.isSuffixOf fn = false) (hl : fn.length ≤ 254) : PwClean fn :=
  ⟨⟨r, hr⟩, no_sub_all fun i hi => (h i hi).1, no_sub_all fun i hi => (h i hi).2.1, no_end_all he, no_sub_all fun i hi => (h i hi).2.2, hl⟩

theorem pwClean_own : PwClean "/run/sshd.pid".toList :=
  pwClean_of (r := "sshd.pid".toList) rfl (by decide +kernel) (by decide +kernel) (by decide +kernel)

theorem pwClean_lock : PwClean "/run/lock/x.pid".toList :=
  pwClean_of (r := "lock/x.pid".toList) rfl (by decide +kernel) (by decide +kernel) (by decide +kernel)

/-- sshd writes its file while somebody else writes one of theirs, and syslogd is started again -/
def pwActs : List PwAct :=
  [.file "/run/lock/x.pid".toList .written (some "300\n".toList), .file "/run/sshd.pid".toList .written (some "200\n".toList),
   .other 0 { pid := 101, pidfile := "/run/syslogd.pid".toList }, .file "/run/lock/x.pid".toList .deleted none]

example : PwAll (PwProper 1 "/run/sshd.pid".toList) pwDemo pwActs ∧ PwAll (PwLeaves 1 "/run/sshd.pid".toList) pwDemo pwActs ∧
    ((pwRun pwActs pwDemo).svc 1).cond = true ∧ pwNamed "/run/sshd.pid".toList = true := by
  refine ⟨⟨⟨pwClean_lock, fun e => absurd e (by decide +kernel)⟩, ⟨pwClean_own, fun _ => ⟨?_, ?_⟩⟩, ⟨by decide, ?_, ?_⟩,
    ⟨pwClean_lock, fun e => absurd e (by decide +kernel)⟩, trivial⟩,
    ⟨⟨fun _ => by decide +kernel, fun e => absurd e (by decide +kernel)⟩, ⟨fun e => absurd rfl e, fun _ => by decide⟩, trivial,
      ⟨fun _ => by decide +kernel, fun e => absurd e (by decide +kernel)⟩, trivial⟩, by decide +kernel, by decide +kernel⟩
  · intro j hj h _
    have := pwOther (by decide +kernel) hj h
    subst this
    decide +kernel
  · intro _ h
    revert h
    decide +kernel
  · decide +kernel
  · decide +kernel

/-- A user turns the condition of sshd off though its file is there -/
theorem C101_full_false : ¬ C101_full := by
  intro h
  have := h 1 "/run/sshd.pid".toList pwDemo
    [.file "/run/sshd.pid".toList .written (some "200\n".toList), .file "/run/lock/x.pid".toList .written (some "200\n".toList),
     .file "/run/lock/x.pid".toList .deleted none] pwDemo_mine (by decide +kernel)
    ⟨⟨pwClean_own, fun _ => ⟨fun j hj h _ => by
        have := pwOther (by decide +kernel) hj h
        subst this
        decide +kernel, fun _ h => absurd h (by decide +kernel)⟩⟩,
      ⟨pwClean_lock, fun e => absurd e (by decide +kernel)⟩, ⟨pwClean_lock, fun e => absurd e (by decide +kernel)⟩, trivial⟩
  exact absurd this (by decide +kernel)

/-- The hypotheses of `C101_managed`, `C101_stranger`, `C101_lost` and `C101_race` -/
example : (pwDemo.svc 0).daemon = true ∧ (pwDemo.svc 0).forking = false ∧ (pwDemo.svc 0).stopping = false ∧
    (pwDemo.svc 0).pidfile = "/run/syslogd.pid".toList ∧ ((pwDemo.svc 0).notify = .pid → (pwDemo.svc 0).cond = true) ∧
    pwNum (some "100\n".toList) = (pwDemo.svc 0).pid := by decide +kernel

example : pwNamed "/run/lock/x.pid".toList = true ∧ pwHas (pwDemo.svc 1) = false ∧ (pwDemo.svc 1).notify = .pid ∧
    pwNum (some "200\n".toList) = (pwDemo.svc 1).pid ∧ pidFile (pwDemo.svc 0).pidfile ≠ some "/run/lock/x.pid".toList ∧
    ((pwRun [.file "/run/lock/x.pid".toList .deleted (some "100".toList)] pwDemo).svc 0).cond = false := by decide +kernel

/-- sshd forks again after a user has given it another file -/
example : let st := pwRun [.file "/run/lock/x.pid".toList .written (some "200\n".toList)] pwDemo
    pidFile (st.svc 1).pidfile = some "/run/lock/x.pid".toList ∧ pwNum (some "201\n".toList) = 201 ∧
    (∀ j ∈ st.order, (st.svc j).pid ≠ 201) ∧ pidFile (st.svc 0).pidfile ≠ some "/run/sshd.pid".toList := by decide +kernel

end Verif
