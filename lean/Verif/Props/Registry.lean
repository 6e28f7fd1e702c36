import Verif.Registry
import Verif.CStrLemmas
import Mathlib.Data.List.Nodup

/-!
# Identity of services (C25), job requests (C26) and `if:` statements (C40)
-/

namespace Verif

/-! ## Specification -/

/-- The service goes by this name: `name` if it has no id, or `name:id`. -/
def Called (e : Ent) (s : CStr) : Prop :=
  ':' ∉ e.name ∧ ((s = e.name ∧ e.id = []) ∨ s = e.name ++ ':' :: e.id)

/-- One member of an `if:` list of services holds. -/
def SvcItem (l : List Ent) (m : CStr) : Prop :=
  (∀ n, m = '!' :: n → ¬ ∃ e ∈ l, Called e n) ∧ (m.head? ≠ some '!' → ∃ e ∈ l, Called e m)

/-- One member of an `if:<...>` list of conditions holds. -/
def CondItem (cond : CStr → CState) (m : CStr) : Prop :=
  (∀ n, m = '!' :: n → cond n ≠ .on) ∧ (m.head? ≠ some '!' → cond m = .on)

/-! ## Look-up -/

theorem cutAt_mem {d : Char} : ∀ {a : CStr} (_ : d ∉ a) (b : CStr),
    (a ++ d :: b).takeWhile (fun c => decide (c ≠ d)) = a ∧ (a ++ d :: b).dropWhile (fun c => decide (c ≠ d)) = d :: b
  | [], _, b => by simp
  | x :: a, h, b => by
    have hx : x ≠ d := fun e => h (by simp [e])
    have := cutAt_mem (a := a) (fun h' => h (List.mem_cons_of_mem _ h')) b
    simp only [List.cons_append, List.takeWhile_cons, List.dropWhile_cons, hx, ne_eq, not_false_eq_true,
      decide_true, if_true]
    exact ⟨by rw [show List.takeWhile (fun c => decide ¬c = d) (a ++ d :: b) = a from this.1], this.2⟩

theorem cutAt_none {d : Char} : ∀ {a : CStr}, d ∉ a →
    a.takeWhile (fun c => decide (c ≠ d)) = a ∧ a.dropWhile (fun c => decide (c ≠ d)) = []
  | [], _ => ⟨rfl, rfl⟩
  | x :: a, h => by
    have hx : x ≠ d := fun e => h (by simp [e])
    have := cutAt_none (a := a) (fun h' => h (List.mem_cons_of_mem _ h'))
    simp only [List.takeWhile_cons, List.dropWhile_cons, hx, ne_eq, not_false_eq_true, decide_true, if_true]
    exact ⟨by rw [show List.takeWhile (fun c => decide ¬c = d) a = a from this.1], this.2⟩

theorem splitIdent_none {s : CStr} (h : ':' ∉ s) : splitIdent s = (s, []) := by
  unfold splitIdent
  rw [(cutAt_none h).1, (cutAt_none h).2]; rfl

theorem splitIdent_colon {a : CStr} (h : ':' ∉ a) (b : CStr) : splitIdent (a ++ ':' :: b) = (a, b) := by
  unfold splitIdent
  rw [(cutAt_mem h b).1, (cutAt_mem h b).2]; rfl

theorem split_cases (s : CStr) : (':' ∉ s) ∨ ∃ a b, ':' ∉ a ∧ s = a ++ ':' :: b := by
  by_cases h : ':' ∈ s
  · right
    obtain ⟨a, b, e, h1⟩ := List.eq_append_cons_of_mem h
    exact ⟨a, b, h1, e⟩
  · exact .inl h

theorem svcFindByStr_isSome (l : List Ent) (s : CStr) : (svcFindByStr l s).isSome ↔ ∃ e ∈ l, Called e s := by
  unfold svcFindByStr svcFind
  rw [List.findIdx?_isSome, List.any_eq_true]
  rcases split_cases s with h | ⟨a, b, h, rfl⟩
  · rw [splitIdent_none h]
    constructor
    · rintro ⟨e, he, h2⟩
      obtain ⟨h3, h4⟩ := of_decide_eq_true h2
      exact ⟨e, he, by rw [h3]; exact h, .inl ⟨h3.symm, h4⟩⟩
    · rintro ⟨e, he, _, ⟨h3, h4⟩ | h3⟩
      · exact ⟨e, he, decide_eq_true ⟨h3.symm, h4⟩⟩
      · exact absurd (h3 ▸ List.mem_append_right _ List.mem_cons_self) h
  · rw [splitIdent_colon h]
    constructor
    · rintro ⟨e, he, h2⟩
      obtain ⟨h3, h4⟩ := of_decide_eq_true h2
      exact ⟨e, he, by rw [h3]; exact h, .inr (by rw [h3, h4])⟩
    · rintro ⟨e, he, h5, ⟨h3, h4⟩ | h3⟩
      · exact absurd (h3 ▸ List.mem_append_right _ List.mem_cons_self) h5
      · refine ⟨e, he, decide_eq_true ?_⟩
        have := splitIdent_colon h b
        rw [h3, splitIdent_colon h5] at this
        exact ⟨congrArg Prod.fst this, congrArg Prod.snd this⟩

/-! ## C40: conditional loading and running -/

theorem ifMember_bang (n : CStr) : ifMember ('!' :: n) = (true, n) := rfl

theorem ifMember_plain {m : CStr} (h : m.head? ≠ some '!') : ifMember m = (false, m) := by
  unfold ifMember
  split
  · exact absurd rfl h
  · rfl

theorem member_cases (m : CStr) : (∃ n, m = '!' :: n) ∨ m.head? ≠ some '!' := by
  cases m with
  | nil => right; simp
  | cons c n =>
    by_cases h : c = '!'
    · left; exact ⟨n, by rw [h]⟩
    · right; simpa using h

/-- What the documentation promises: a stanza with `if:NAME,...` is loaded exactly when every member of the list
    holds, and one with `if:<COND,...>` is qualified to run exactly when every member holds. -/
def C40_full : Prop :=
  ∀ (l : List Ent) (cond : CStr → CState),
    (∀ stmt, stmt.head? ≠ some '<' →
      (ifthen true l cond stmt = true ↔ ∀ m, IsMember isComma m stmt → SvcItem l m)) ∧
    (∀ body, '>' ∉ body →
      (ifthen false l cond ('<' :: (body ++ ['>'])) = true ↔ ∀ m, IsMember isComma m body → CondItem cond m))

/-- Services: exact for every statement that fits the buffer. -/
theorem C40_conf_partial (l : List Ent) (cond : CStr → CState) (stmt : CStr) (h : stmt.head? ≠ some '<')
    (hl : stmt.length < 130) :
    ifthen true l cond stmt = true ↔ ∀ m, IsMember isComma m stmt → SvcItem l m := by
  have key : (∀ m ∈ tokens isComma stmt, (if (ifMember m).1 then (svcFindByStr l (ifMember m).2).isNone
      else (svcFindByStr l (ifMember m).2).isSome) = true) ↔ ∀ m, IsMember isComma m stmt → SvcItem l m := by
    refine forall_congr' fun m => ?_
    rw [mem_tokens_iff]
    refine imp_congr_right fun _ => ?_
    rcases member_cases m with ⟨n, rfl⟩ | hm
    · rw [ifMember_bang, if_pos rfl]
      rw [Option.isNone_iff_eq_none, ← Option.not_isSome_iff_eq_none, svcFindByStr_isSome]
      exact ⟨fun h => ⟨fun n' e => by cases e; exact h, fun e => absurd rfl e⟩, fun h => h.1 n rfl⟩
    · rw [ifMember_plain hm]
      show (svcFindByStr l m).isSome = true ↔ _
      rw [svcFindByStr_isSome]
      exact ⟨fun h => ⟨fun n' e => absurd (by rw [e]; rfl) hm, fun _ => h⟩, fun h => h.2 hm⟩
  rw [← key]
  cases stmt with
  | nil => simp [ifthen, tokens_nil]
  | cons c cs =>
    have hc : c ≠ '<' := by simpa using h
    have : ifthen true l cond (c :: cs) = (tokens isComma (strlcpy 130 (c :: cs))).all fun m =>
      if (ifMember m).1 then (svcFindByStr l (ifMember m).2).isNone
      else (svcFindByStr l (ifMember m).2).isSome := by
      unfold ifthen
      split
      · rename_i e; cases e
      · rename_i e; cases e; exact absurd rfl hc
      · rfl
    rw [this, List.all_eq_true]
    have e : strlcpy 130 (c :: cs) = c :: cs := List.take_of_length_le (by simp at hl ⊢; omega)
    rw [e]

example : ifthen true [⟨"udevd".toList, [], "/sbin/udevd".toList, 1, false, []⟩] (fun _ => .off) "udevd,!mdev".toList = true := by
  decide +kernel

/-- Conditions: exact for every statement that fits the buffer as long as no named condition is in flux. -/
theorem C40_cond_partial (l : List Ent) (cond : CStr → CState) (body : CStr) (hb : '>' ∉ body)
    (hl : body.length < 130) (hf : ∀ m, IsMember isComma m body → m.head? ≠ some '!' → cond m ≠ .flux) :
    ifthen false l cond ('<' :: (body ++ ['>'])) = true ↔ ∀ m, IsMember isComma m body → CondItem cond m := by
  have e : ifthen false l cond ('<' :: (body ++ ['>'])) = (tokens isComma body).all fun m =>
      if (ifMember m).1 then decide (cond (ifMember m).2 ≠ .on) else decide (cond (ifMember m).2 ≠ .off) := by
    have e1 : (body ++ ['>']).takeWhile (fun c => decide (c ≠ '>')) = body := (cutAt_mem hb []).1
    have e2 : strlcpy 130 body = body := List.take_of_length_le (by simp; omega)
    simp only [ifthen, Bool.false_eq_true, if_false]
    rw [e1, e2]
  rw [e, List.all_eq_true]
  refine forall_congr' fun m => ?_
  rw [mem_tokens_iff]
  refine forall_congr' fun hm => ?_
  rcases member_cases m with ⟨n, rfl⟩ | h
  · rw [ifMember_bang, if_pos rfl, decide_eq_true_iff]
    exact ⟨fun h => ⟨fun n' e => by cases e; exact h, fun e => absurd rfl e⟩, fun h => h.1 n rfl⟩
  · rw [ifMember_plain h]
    show decide (cond m ≠ .off) = true ↔ _
    rw [decide_eq_true_iff]
    have := hf m hm h
    constructor
    · intro h2
      refine ⟨fun n' e => absurd (by rw [e]; rfl) h, fun _ => ?_⟩
      cases hc : cond m <;> simp_all
    · intro h2; rw [h2.2 h]; decide

example : ifthen false [] (fun n => if n = "usr/ok".toList then .on else .off) "<usr/ok,!usr/bad>".toList = true ∧
    ifthen false [] (fun n => if n = "usr/ok".toList then .on else .off) "<!usr/ok>".toList = false := by
  decide +kernel

/-- A statement without the closing bracket means the same: the bracket is removed on the first evaluation. -/
theorem C40_cond_reevaluated (l : List Ent) (cond : CStr → CState) (body : CStr) (hb : '>' ∉ body) :
    ifthen false l cond ('<' :: body) = ifthen false l cond ('<' :: (body ++ ['>'])) := by
  have e1 : (body ++ ['>']).takeWhile (fun c => decide (c ≠ '>')) = body := (cutAt_mem hb []).1
  simp only [ifthen, Bool.false_eq_true, if_false]
  rw [e1, (cutAt_none hb).1]

/-- The two kinds are looked at only at their own time: services when the stanza is loaded, conditions when the
    service is about to run. -/
theorem C40_own_time (l : List Ent) (cond : CStr → CState) (stmt : CStr) :
    (stmt.head? ≠ some '<' → ifthen false l cond stmt = true) ∧
    (stmt.head? = some '<' → ifthen true l cond stmt = true) := by
  cases stmt with
  | nil => simp [ifthen]
  | cons c cs =>
    refine ⟨fun h => ?_, fun h => ?_⟩
    · have hc : c ≠ '<' := by simpa using h
      unfold ifthen
      split
      · rfl
      · rename_i e; cases e; exact absurd rfl hc
      · rfl
    · have hc : c = '<' := by simpa using h
      subst hc; rfl

/-- The full promise does not hold: a condition in flux, which is not on, lets the service run; and a long list
    is cut off, so its last members are not looked at. -/
theorem C40_flux_and_long_lists : ¬ C40_full ∧
    ifthen false [] (fun _ => .flux) "<pid/a>".toList = true ∧
    ifthen true [] (fun _ => .off) (List.replicate 130 ',' ++ "nosuch".toList) = true := by
  have h : ifthen false [] (fun _ => .flux) "<pid/a>".toList = true := by decide +kernel
  refine ⟨fun H => ?_, h, by decide +kernel⟩
  have := ((H [] (fun _ => .flux)).2 "pid/a".toList (by decide)).mp h "pid/a".toList
    ⟨by decide, by decide, [], [], by simp, .inl rfl, .inl rfl⟩
  exact absurd (this.2 (by decide)) (by decide)

/-- A stanza whose `if:` list of services does not hold leaves the registry as it is; one whose list holds is
    registered under its name and id. -/
theorem C40_stanza_partial (r : Regs) (s : Stanza) (h : s.ifstmt.head? ≠ some '<') (hl : s.ifstmt.length < 130)
    (ht : s.tty = false) (hn : s.name.length < 64) (hi : s.id.length < 65) :
    ((¬ ∀ m, IsMember isComma m s.ifstmt → SvcItem r.list m) → register r s = r) ∧
    ((∀ m, IsMember isComma m s.ifstmt → SvcItem r.list m) →
      ∃ e ∈ (register r s).list, e.name = s.name ∧ e.id = s.id) := by
  have key := C40_conf_partial r.list (fun _ => .off) s.ifstmt h hl
  refine ⟨fun hn => ?_, fun hy => ?_⟩
  · rw [← key] at hn
    unfold register
    rw [if_pos (by simpa using hn)]
  · rw [← key] at hy
    have e1 : s.ident = (s.name, s.id) := by unfold Stanza.ident; rw [if_neg (by simp [ht])]
    unfold register
    rw [if_neg (by simp [hy]), ht, e1]
    dsimp only
    rw [if_neg (by simp)]
    have e2 : strlcpy 64 s.name = s.name := List.take_of_length_le (by omega)
    have e3 : strlcpy 65 s.id = s.id := List.take_of_length_le (by omega)
    cases hf : svcFind r.list s.name s.id with
    | none =>
      dsimp only
      unfold svcNew
      split
      · exact ⟨_, List.mem_append_right _ List.mem_cons_self, e2, e3⟩
      · exact ⟨_, List.mem_append_right _ List.mem_cons_self, e2, e3⟩
    | some i =>
      dsimp only
      obtain ⟨hlt, h2, _⟩ := List.findIdx?_eq_some_iff_getElem.mp hf
      have h2 := of_decide_eq_true h2
      refine ⟨_, List.mem_of_getElem (i := i) (h := by rw [List.length_modify]; exact hlt) rfl, ?_⟩
      rw [List.getElem_modify_eq]
      exact h2

/-! ## C25: identity -/

/-- No two registered services have the same name and id. -/
def Regs.Unique (r : Regs) : Prop :=
  ∀ (i j : Nat) (a b : Ent), r.list[i]? = some a → r.list[j]? = some b → a.name = b.name → a.id = b.id → i = j

/-- Job numbers: none is zero, and two services share one exactly when they run the same command. -/
def Regs.Jobs (r : Regs) : Prop :=
  ∀ a ∈ r.list, a.job ≠ 0 ∧ ∀ b ∈ r.list, a.job = b.job ↔ a.cmd = b.cmd

/-- A service is found under the identity it is shown with. -/
def Regs.Findable (r : Regs) : Prop :=
  ∀ (i : Nat) (a : Ent), r.list[i]? = some a → svcFindByStr r.list (svcIdent a) = some i

def C25_full : Prop := ∀ ops, (Regs.run ops).Unique ∧ (Regs.run ops).Jobs ∧ (Regs.run ops).Findable

theorem run_induct {P : Regs → Prop} (ops : List RegOp) (h0 : P Regs.start)
    (hs : ∀ r, ∀ op ∈ ops, P r → P (r.step op)) : P (Regs.run ops) := by
  suffices ∀ (l : List RegOp) r, (∀ op ∈ l, op ∈ ops) → P r → P (l.foldl Regs.step r) from
    this ops _ (fun _ h => h) h0
  intro l
  induction l with
  | nil => intro r _ h; exact h
  | cons op l ih =>
    intro r hl h
    exact ih _ (fun o ho => hl o (List.mem_cons_of_mem _ ho)) (hs r op (hl op List.mem_cons_self) h)

theorem nodup_unique {r : Regs} (h : (r.list.map fun e => (e.name, e.id)).Nodup) : r.Unique := by
  intro i j a b ha hb h1 h2
  obtain ⟨hi, ha⟩ := List.getElem?_eq_some_iff.mp ha
  obtain ⟨hj, hb⟩ := List.getElem?_eq_some_iff.mp hb
  refine (List.Nodup.getElem_inj_iff h (hi := by simpa using hi) (hj := by simpa using hj)).mp ?_
  simp [ha, hb, h1, h2]

/-- What `register` does with a plain stanza: nothing, a new entry at the end, or the command of the entry with
    this name and id. -/
theorem register_cases (r : Regs) (s : Stanza) (ht : s.tty = false) :
    register r s = r ∨
    ((svcFind r.list s.name s.id = none) ∧ register r s = svcNew r s.cmd s.name s.id false s.dev) ∨
    (∃ i, svcFind r.list s.name s.id = some i ∧ register r s = { r with
        list := r.list.modify i fun e => { e with tty := false, cmd := strlcpy 256 s.cmd } }) := by
  have e1 : s.ident = (s.name, s.id) := by unfold Stanza.ident; rw [if_neg (by simp [ht])]
  unfold register
  split
  · exact .inl rfl
  · right
    rw [ht, e1]
    dsimp only
    rw [if_neg (by simp)]
    cases hf : svcFind r.list s.name s.id with
    | none => exact .inl ⟨rfl, rfl⟩
    | some i => exact .inr ⟨i, rfl, rfl⟩

theorem svcNew_list (r : Regs) (cmd name id : CStr) (tty : Bool) (dev : CStr) :
    ∃ job, (svcNew r cmd name id tty dev).list =
        r.list ++ [⟨strlcpy 64 name, strlcpy 65 id, strlcpy 256 cmd, job, tty, strlcpy 32 dev⟩] ∧
      ((∃ e ∈ r.list, e.cmd = cmd ∧ e.job = job ∧ (svcNew r cmd name id tty dev).next = r.next) ∨
       ((∀ e ∈ r.list, e.cmd ≠ cmd) ∧ job = r.next ∧ (svcNew r cmd name id tty dev).next = r.next + 1)) := by
  unfold svcNew
  dsimp only
  cases hf : r.list.find? (fun s => decide (s.cmd = cmd)) with
  | some e =>
    exact ⟨e.job, rfl, .inl ⟨e, List.mem_of_find?_eq_some hf, by simpa using List.find?_some hf, rfl, rfl⟩⟩
  | none =>
    refine ⟨r.next, rfl, .inr ⟨fun e he => ?_, rfl, rfl⟩⟩
    have := List.find?_eq_none.mp hf e he
    simpa using this

theorem modify_map {α β} (g : α → β) (f : α → α) (h : ∀ a, g (f a) = g a) (l : List α) (i : Nat) :
    (l.modify i f).map g = l.map g := by
  induction l generalizing i with
  | nil => cases i <;> rfl
  | cons a l ih => cases i <;> simp [List.modify_succ_cons, h, ih]

theorem mem_modify_map {α β} (g : α → β) {f : α → α} (h : ∀ a, g (f a) = g a) {l : List α} {i : Nat} {a : α}
    (ha : a ∈ l.modify i f) : g a ∈ l.map g := by
  rw [← modify_map g f h l i]; exact List.mem_map_of_mem ha

theorem svcFind_none {l : List Ent} {n i : CStr} (h : svcFind l n i = none) :
    (n, i) ∉ l.map fun e => (e.name, e.id) := by
  intro hm
  obtain ⟨e, he, h2⟩ := List.mem_map.mp hm
  have := List.findIdx?_eq_none_iff.mp h e he
  simp only [decide_eq_false_iff_not] at this
  exact this ⟨congrArg Prod.fst h2, congrArg Prod.snd h2⟩

theorem take_short {n : Nat} {s : CStr} (h : s.length < n) : strlcpy n s = s :=
  List.take_of_length_le (by omega)

/-- What is asked of the stanzas: no terminals, and names and ids that fit their fields. -/
def PlainStanzas (ops : List RegOp) : Prop :=
  ∀ s, RegOp.reg s ∈ ops → s.tty = false ∧ s.name.length < 64 ∧ s.id.length < 65

theorem run_nodup (ops : List RegOp) (h : PlainStanzas ops) :
    ((Regs.run ops).list.map fun e => (e.name, e.id)).Nodup := by
  refine run_induct (P := fun r => (r.list.map fun e => (e.name, e.id)).Nodup) ops (by simp [Regs.start]) ?_
  intro r op ho hr
  cases op with
  | del i => exact List.Nodup.sublist ((List.eraseIdx_sublist r.list i).map _) hr
  | reg s =>
    obtain ⟨h1, h2, h3⟩ := h s ho
    show ((register r s).list.map _).Nodup
    rcases register_cases r s h1 with e | ⟨hf, e⟩ | ⟨i, hf, e⟩
    · rw [e]; exact hr
    · rw [e]
      obtain ⟨job, e2, _⟩ := svcNew_list r s.cmd s.name s.id false s.dev
      rw [e2, List.map_append, List.nodup_append]
      refine ⟨hr, by simp, ?_⟩
      intro a ha b hb hab
      simp only [List.map_cons, List.map_nil, List.mem_singleton, take_short h2, take_short h3] at hb
      exact svcFind_none hf (by rw [← hb, ← hab]; exact ha)
    · rw [e]
      show ((r.list.modify i _).map _).Nodup
      rw [modify_map (fun e : Ent => (e.name, e.id))]
      · exact hr
      · intro a; rfl

/-- Without terminals and with names that fit, no two services ever share a name and id. -/
theorem C25_unique_partial (ops : List RegOp) (h : PlainStanzas ops) : (Regs.run ops).Unique :=
  nodup_unique (run_nodup ops h)

/-- Job numbers are never zero, whatever is registered. -/
theorem C25_jobs_not_zero (ops : List RegOp) : ∀ a ∈ (Regs.run ops).list, a.job ≠ 0 := by
  have : (∀ a ∈ (Regs.run ops).list, a.job ≠ 0) ∧ (Regs.run ops).next ≠ 0 := by
    refine run_induct (P := fun r => (∀ a ∈ r.list, a.job ≠ 0) ∧ r.next ≠ 0) ops (by simp [Regs.start]) ?_
    intro r op _ hr
    cases op with
    | del i => exact ⟨fun a ha => hr.1 a (List.mem_of_mem_eraseIdx ha), hr.2⟩
    | reg s =>
      show (∀ a ∈ (register r s).list, a.job ≠ 0) ∧ (register r s).next ≠ 0
      unfold register
      split
      · exact hr
      · dsimp only
        split
        · obtain ⟨job, e, h⟩ := svcNew_list r s.cmd s.ident.1 s.ident.2 s.tty s.dev
          rw [e]
          rcases h with ⟨x, hx, _, hj, hn⟩ | ⟨_, hj, hn⟩
          · refine ⟨fun a ha => ?_, by rw [hn]; exact hr.2⟩
            rcases List.mem_append.mp ha with ha | ha
            · exact hr.1 a ha
            · rw [List.mem_singleton.mp ha]; exact hj ▸ hr.1 x hx
          · refine ⟨fun a ha => ?_, by rw [hn]; omega⟩
            rcases List.mem_append.mp ha with ha | ha
            · exact hr.1 a ha
            · rw [List.mem_singleton.mp ha]; exact hj ▸ hr.2
        · refine ⟨fun a ha => ?_, hr.2⟩
          dsimp only at ha
          have h1 := mem_modify_map (fun e : Ent => e.job) (by intro _; rfl) ha
          obtain ⟨b, hb, e⟩ := List.mem_map.mp h1
          exact e ▸ hr.1 b hb
  exact this.1

/-- The same identity always comes with the same command, and commands fit their field. -/
def SteadyCommands (ops : List RegOp) : Prop :=
  (∀ s, RegOp.reg s ∈ ops → s.cmd.length < 256) ∧
  (∀ s t, RegOp.reg s ∈ ops → RegOp.reg t ∈ ops → s.name = t.name → s.id = t.id → s.cmd = t.cmd)

/-- As long as no service changes its command, two services have the same job number exactly when they run the
    same command. -/
theorem C25_jobs_partial (ops : List RegOp) (h : PlainStanzas ops) (hc : SteadyCommands ops) :
    (Regs.run ops).Jobs := by
  have : (∀ a ∈ (Regs.run ops).list, a.job < (Regs.run ops).next) ∧
      (∀ a ∈ (Regs.run ops).list, ∀ b ∈ (Regs.run ops).list, a.job = b.job ↔ a.cmd = b.cmd) ∧
      (∀ a ∈ (Regs.run ops).list, ∃ s, RegOp.reg s ∈ ops ∧ a.name = s.name ∧ a.id = s.id ∧ a.cmd = s.cmd) := by
    refine run_induct (P := fun r => (∀ a ∈ r.list, a.job < r.next) ∧
      (∀ a ∈ r.list, ∀ b ∈ r.list, a.job = b.job ↔ a.cmd = b.cmd) ∧
      (∀ a ∈ r.list, ∃ s, RegOp.reg s ∈ ops ∧ a.name = s.name ∧ a.id = s.id ∧ a.cmd = s.cmd)) ops
      (by simp [Regs.start]) ?_
    intro r op ho hr
    cases op with
    | del i =>
      exact ⟨fun a ha => hr.1 a (List.mem_of_mem_eraseIdx ha),
        fun a ha b hb => hr.2.1 a (List.mem_of_mem_eraseIdx ha) b (List.mem_of_mem_eraseIdx hb),
        fun a ha => hr.2.2 a (List.mem_of_mem_eraseIdx ha)⟩
    | reg s =>
      obtain ⟨h1, h2, h3⟩ := h s ho
      have h4 := hc.1 s ho
      show (∀ a ∈ (register r s).list, a.job < (register r s).next) ∧
        (∀ a ∈ (register r s).list, ∀ b ∈ (register r s).list, a.job = b.job ↔ a.cmd = b.cmd) ∧
        (∀ a ∈ (register r s).list, ∃ t, RegOp.reg t ∈ ops ∧ a.name = t.name ∧ a.id = t.id ∧ a.cmd = t.cmd)
      rcases register_cases r s h1 with e | ⟨hf, e⟩ | ⟨i, hf, e⟩
      · rw [e]; exact hr
      · rw [e]
        obtain ⟨job, e2, hj⟩ := svcNew_list r s.cmd s.name s.id false s.dev
        rw [take_short h2, take_short h3, take_short h4] at e2
        rw [e2]
        -- the new entry against an old one
        have old : ∀ a ∈ r.list, a.job = job ↔ a.cmd = s.cmd := by
          intro a ha
          rcases hj with ⟨x, hx, hx1, hx2, _⟩ | ⟨hx, hj, _⟩
          · rw [← hx2, ← hx1]; exact hr.2.1 a ha x hx
          · have := hr.1 a ha
            exact ⟨fun e => by omega, fun e => absurd e (hx a ha)⟩
        refine ⟨?_, ?_, ?_⟩
        · intro a ha
          rcases List.mem_append.mp ha with ha | ha
          · have := hr.1 a ha
            rcases hj with ⟨_, _, _, _, hn⟩ | ⟨_, _, hn⟩ <;> rw [hn] <;> omega
          · rw [List.mem_singleton.mp ha]
            show job < _
            rcases hj with ⟨x, hx, _, hx2, hn⟩ | ⟨_, hj, hn⟩
            · rw [hn, ← hx2]; exact hr.1 x hx
            · rw [hn, hj]; omega
        · intro a ha b hb
          rcases List.mem_append.mp ha with ha | ha <;> rcases List.mem_append.mp hb with hb | hb
          · exact hr.2.1 a ha b hb
          · rw [List.mem_singleton.mp hb]; exact old a ha
          · rw [List.mem_singleton.mp ha]
            exact ⟨fun e => ((old b hb).mp e.symm).symm, fun e => ((old b hb).mpr e.symm).symm⟩
          · rw [List.mem_singleton.mp ha, List.mem_singleton.mp hb]; simp
        · intro a ha
          rcases List.mem_append.mp ha with ha | ha
          · exact hr.2.2 a ha
          · rw [List.mem_singleton.mp ha]; exact ⟨s, ho, rfl, rfl, rfl⟩
      · rw [e, take_short h4]
        -- the entry found has this command already
        obtain ⟨hlt, h5, _⟩ := List.findIdx?_eq_some_iff_getElem.mp hf
        have h5 := of_decide_eq_true h5
        obtain ⟨t, ht, e3, e4, e5⟩ := hr.2.2 r.list[i] (List.getElem_mem hlt)
        have hcmd : r.list[i].cmd = s.cmd := by
          rw [e5]; exact hc.2 t s ht ho (by rw [← e3]; exact h5.1) (by rw [← e4]; exact h5.2)
        have hmap : ∀ {β} (g : CStr → CStr → CStr → Nat → β),
            (r.list.modify i fun e => { e with tty := false, cmd := s.cmd }).map
              (fun e => g e.name e.id e.cmd e.job) = r.list.map (fun e => g e.name e.id e.cmd e.job) := by
          intro β g
          apply List.ext_getElem (by simp)
          intro n hn1 hn2
          simp only [List.getElem_map, List.getElem_modify]
          split
          · rename_i hin
            subst hin
            show g _ _ s.cmd _ = g _ _ _ _
            rw [hcmd]
          · rfl
        have back : ∀ a ∈ (r.list.modify i fun e => { e with tty := false, cmd := s.cmd }),
            ∃ b ∈ r.list, b.name = a.name ∧ b.id = a.id ∧ b.cmd = a.cmd ∧ b.job = a.job := by
          intro a ha
          have := List.mem_map_of_mem (f := fun e : Ent => (e.name, e.id, e.cmd, e.job)) ha
          rw [hmap (fun x y z w => (x, y, z, w))] at this
          obtain ⟨b, hb, hbe⟩ := List.mem_map.mp this
          simp only [Prod.mk.injEq] at hbe
          exact ⟨b, hb, hbe⟩
        refine ⟨?_, ?_, ?_⟩
        · intro a ha
          obtain ⟨b, hb, _, _, _, hj⟩ := back a ha
          rw [← hj]; exact hr.1 b hb
        · intro a ha b hb
          obtain ⟨a', ha', _, _, hc1, hj1⟩ := back a ha
          obtain ⟨b', hb', _, _, hc2, hj2⟩ := back b hb
          rw [← hj1, ← hj2, ← hc1, ← hc2]; exact hr.2.1 a' ha' b' hb'
        · intro a ha
          obtain ⟨b, hb, hn, hi, hc', _⟩ := back a ha
          rw [← hn, ← hi, ← hc']; exact hr.2.2 b hb
  exact fun a ha => ⟨C25_jobs_not_zero ops a ha, fun b hb => this.2.1 a ha b hb⟩

theorem run_short (ops : List RegOp) (h : PlainStanzas ops) (hn : ∀ s, RegOp.reg s ∈ ops → ':' ∉ s.name) :
    ∀ a ∈ (Regs.run ops).list, a.name.length < 64 ∧ a.id.length < 65 ∧ ':' ∉ a.name := by
  refine run_induct (P := fun r => ∀ a ∈ r.list, a.name.length < 64 ∧ a.id.length < 65 ∧ ':' ∉ a.name) ops
    (by simp [Regs.start]) ?_
  intro r op ho hr
  cases op with
  | del i => exact fun a ha => hr a (List.mem_of_mem_eraseIdx ha)
  | reg s =>
    obtain ⟨h1, h2, h3⟩ := h s ho
    show ∀ a ∈ (register r s).list, _
    rcases register_cases r s h1 with e | ⟨hf, e⟩ | ⟨i, hf, e⟩
    · rw [e]; exact hr
    · rw [e]
      obtain ⟨job, e2, hj⟩ := svcNew_list r s.cmd s.name s.id false s.dev
      rw [take_short h2, take_short h3] at e2
      rw [e2]
      intro a ha
      rcases List.mem_append.mp ha with ha | ha
      · exact hr a ha
      · rw [List.mem_singleton.mp ha]; exact ⟨h2, h3, hn s ho⟩
    · rw [e]
      intro a ha
      dsimp only at ha
      have h1 := mem_modify_map (fun e : Ent => (e.name, e.id)) (by intro _; rfl) ha
      obtain ⟨b, hb, e⟩ := List.mem_map.mp h1
      simp only [Prod.mk.injEq] at e
      have := hr b hb
      rw [e.1, e.2] at this
      exact this

theorem svcIdent_short {e : Ent} (h1 : e.name.length < 64) (h2 : e.id.length < 65) :
    svcIdent e = if e.id = [] then e.name else e.name ++ ':' :: e.id := by
  unfold svcIdent
  rw [take_short (by omega : e.name.length < 130)]
  dsimp only
  split
  · rfl
  · unfold strlcat
    rw [List.take_of_length_le (by simp; omega), List.take_of_length_le (by simp; omega)]
    simp

/-- Every service is found under the identity it is shown with, if in addition no name has a colon in it. -/
theorem C25_lookup_partial (ops : List RegOp) (h : PlainStanzas ops)
    (hn : ∀ s, RegOp.reg s ∈ ops → ':' ∉ s.name) : (Regs.run ops).Findable := by
  intro i a ha
  have hm : a ∈ (Regs.run ops).list := List.mem_of_getElem? ha
  obtain ⟨h1, h2, h3⟩ := run_short ops h hn a hm
  have huni := C25_unique_partial ops h
  generalize Regs.run ops = r at *
  have hs : splitIdent (svcIdent a) = (a.name, a.id) := by
    rw [svcIdent_short h1 h2]
    split
    · rename_i e; rw [splitIdent_none h3, e]
    · exact splitIdent_colon h3 _
  unfold svcFindByStr
  rw [hs]
  unfold svcFind
  cases hf : r.list.findIdx? (fun s => decide (s.name = a.name ∧ s.id = a.id)) with
  | none =>
    have := List.findIdx?_eq_none_iff.mp hf a hm
    simp at this
  | some j =>
    obtain ⟨hlt, h5, _⟩ := List.findIdx?_eq_some_iff_getElem.mp hf
    have h5 := of_decide_eq_true h5
    rw [huni j i _ a (List.getElem?_eq_getElem hlt) ha h5.1 h5.2]

def svcSt (name id cmd : String) : RegOp := .reg { name := name.toList, id := id.toList, cmd := cmd.toList }
def ttySt (dev id : String) : RegOp :=
  .reg { tty := true, dev := dev.toList, name := "getty".toList, id := id.toList, cmd := "/sbin/getty".toList }

def sampleOps : List RegOp := [svcSt "ssh" "1" "/bin/sshd", svcSt "ssh" "2" "/bin/sshd", svcSt "dns" "" "/bin/dns",
  .del 0, svcSt "ssh" "1" "/bin/sshd"]

example : PlainStanzas sampleOps ∧ SteadyCommands sampleOps ∧
    (Regs.run sampleOps).list.map (fun e => (String.ofList (svcIdent e), e.job)) = [("ssh:2", 1), ("dns", 2), ("ssh:1", 1)] := by
  refine ⟨?_, ⟨?_, ?_⟩, by decide +kernel⟩
  · intro s hs; simp [sampleOps, svcSt] at hs; rcases hs with rfl | rfl | rfl | rfl <;> decide
  · intro s hs; simp [sampleOps, svcSt] at hs; rcases hs with rfl | rfl | rfl | rfl <;> decide
  · intro s t hs ht; simp [sampleOps, svcSt] at hs ht
    rcases hs with rfl | rfl | rfl | rfl <;> rcases ht with rfl | rfl | rfl | rfl <;> simp

/-- Two terminals given the same id -/
def clashTty : List RegOp := [ttySt "/dev/ttyS0" "1", ttySt "/dev/ttyS1" "1"]
/-- The same stanza twice, with a name that does not fit -/
def clashLong : List RegOp := [svcSt (String.ofList (List.replicate 64 'a')) "" "/a", svcSt (String.ofList (List.replicate 64 'a')) "" "/a"]
/-- A service that changes its command -/
def clashJob : List RegOp := [svcSt "a" "" "/a", svcSt "b" "" "/a", svcSt "b" "" "/b"]
/-- A name with a colon in it -/
def lostName : List RegOp := [svcSt "a:b" "" "/a"]

/-- The full statement fails in each of its parts: two terminals can be given the same id, two services with the
    same long name are both registered under its first 63 bytes, a service that changes its command keeps a job
    number in use by another command, and a name with a colon in it is not found. -/
theorem C25_identity_can_clash : ¬ C25_full ∧ ¬ (Regs.run clashTty).Unique ∧ ¬ (Regs.run clashLong).Unique ∧
    ¬ (Regs.run clashJob).Jobs ∧ ¬ (Regs.run lostName).Findable := by
  have two : ∀ {r : Regs} {a b : Ent}, r.list = [a, b] → a.name = b.name → a.id = b.id → ¬ r.Unique := by
    intro r a b e h1 h2 h
    have := h 0 1 a b (by rw [e]; rfl) (by rw [e]; rfl) h1 h2
    cases this
  have h1 : ¬ (Regs.run clashTty).Unique := two (a := ⟨"tty".toList, "1".toList, "/sbin/getty".toList, 1, true, "/dev/ttyS0".toList⟩)
    (b := ⟨"tty".toList, "1".toList, "/sbin/getty".toList, 1, true, "/dev/ttyS1".toList⟩) (by decide +kernel) rfl rfl
  refine ⟨fun H => h1 (H _).1, h1, ?_, ?_, ?_⟩
  · exact two (a := ⟨List.replicate 63 'a', [], "/a".toList, 1, false, []⟩)
      (b := ⟨List.replicate 63 'a', [], "/a".toList, 1, false, []⟩) (by decide +kernel) rfl rfl
  · intro h
    have e : (Regs.run clashJob).list =
      [⟨"a".toList, [], "/a".toList, 1, false, []⟩, ⟨"b".toList, [], "/b".toList, 1, false, []⟩] := by decide +kernel
    have := ((h ⟨"a".toList, [], "/a".toList, 1, false, []⟩ (by rw [e]; simp)).2
      ⟨"b".toList, [], "/b".toList, 1, false, []⟩ (by rw [e]; simp)).mp rfl
    revert this; decide
  · intro h
    have e : (Regs.run lostName).list = [⟨"a:b".toList, [], "/a".toList, 1, false, []⟩] := by decide +kernel
    have := h 0 _ (by rw [e]; rfl)
    rw [e] at this
    revert this; decide +kernel

end Verif
