import Verif.Props.Registry
import Verif.Props.Conf

/-!
# Requests for several jobs (C26)
-/

namespace Verif

/-! ## Specification -/

/-- The service is meant by this token: its name, `name:id`, its job number, or `job:id`. -/
inductive Denotes (e : Ent) : CStr → Prop
  | name (h : ':' ∉ e.name) (hd : ∀ c, e.name.head? = some c → isDigit c = false) : Denotes e e.name
  | nameId (h : ':' ∉ e.name) (hd : ∀ c, e.name.head? = some c → isDigit c = false) : Denotes e (e.name ++ ':' :: e.id)
  | job {s : CStr} (h : Decimal s e.job) : Denotes e s
  | jobId {s : CStr} (h : Decimal s e.job) : Denotes e (s ++ ':' :: e.id)

/-- A token of the documented form: a number that fits an `int`, or a name that does not begin with a digit and
    is not made up of punctuation only; each with or without an id. -/
def ProperTok (tok : CStr) : Prop :=
  ∃ pre, ':' ∉ pre ∧ (tok = pre ∨ ∃ id, tok = pre ++ ':' :: id) ∧
    ((∃ v, v ≤ 2147483647 ∧ Decimal pre v) ∨
     ((∀ c, pre.head? = some c → isDigit c = false) ∧ pre ≠ [] ∧ ∃ c ∈ tok, isWord c = true))

/-- What one token must lead to.  Without an id: one call for each service it denotes, in order of registration.
    With an id: one call, for the first service it denotes, or for none. -/
def Handles (l : List Ent) (tok : CStr) (calls : List (Option Nat)) : Prop :=
  (':' ∉ tok → ∃ is : List Nat, calls = is.map some ∧ is.Pairwise (· < ·) ∧
    ∀ i, i ∈ is ↔ ∃ e, l[i]? = some e ∧ Denotes e tok) ∧
  (':' ∈ tok → ∃ o, calls = [o] ∧ (o = none → ∀ e ∈ l, ¬ Denotes e tok) ∧
    ∀ i, o = some i → (∃ e, l[i]? = some e ∧ Denotes e tok) ∧ ∀ j < i, ∀ e, l[j]? = some e → ¬ Denotes e tok)

/-- The whole promise: every request comes to an end, and it fails if a token of it denotes no service. -/
def C26_full : Prop :=
  ∀ (l : List Ent) (s : CStr) (pad : Nat), '\x00' ∉ s →
    ∃ n, jobRequest l (fun (t : List Nat) o => (t ++ o.toList, if o = none then 1 else 0)) [] (s ++ List.replicate pad '\x00') = some n ∧
      ((∃ tok ∈ tokens isSpace s, ∀ e ∈ l, ¬ Denotes e tok) → n.2 ≠ 0)

/-! ## The tokens -/

theorem cut_zeros {s : CStr} (h : '\x00' ∉ s) (n : Nat) :
    (s ++ List.replicate n '\x00').takeWhile (fun c => decide (c ≠ '\x00')) = s := by
  cases n with
  | zero => rw [List.replicate_zero, List.append_nil]; exact (cutAt_none h).1
  | succ n => exact (cutAt_mem h _).1

theorem tokstrAux_eq (n : Nat) : ∀ (s acc : CStr), '\x00' ∉ s → '\x00' ∉ acc →
    ((tokstrAux acc (s ++ List.replicate n '\x00')).map
      (·.takeWhile fun c => decide (c ≠ '\x00'))).filter (fun t => decide (t ≠ [])) = tokensAux isSpace acc s
  | [], acc, _, ha => by
    have : ∀ (k : Nat) (a : CStr), tokstrAux a (List.replicate k '\x00') = [a.reverse ++ List.replicate k '\x00'] := by
      intro k
      induction k with
      | zero => intro a; simp [tokstrAux]
      | succ k ih =>
        intro a
        rw [List.replicate_succ, tokstrAux, if_neg (by decide), ih]
        simp
    rw [List.nil_append, this, List.map_cons, cut_zeros (by simpa using ha)]
    rw [tokensAux]
    by_cases h : acc = []
    · simp [h]
    · rw [if_neg h]; simp [h]
  | c :: s, acc, hs, ha => by
    have hs' : '\x00' ∉ s := fun h => hs (List.mem_cons_of_mem _ h)
    have hc : '\x00' ≠ c := fun h => hs (by rw [h]; exact List.mem_cons_self)
    rw [List.cons_append, tokstrAux, tokensAux]
    split
    · have e1 : (acc.reverse).takeWhile (fun c => decide (c ≠ '\x00')) = acc.reverse :=
        (cutAt_none (by simpa using ha)).1
      have rest : ((if s ++ List.replicate n '\x00' = [] then [] else tokstrAux [] (s ++ List.replicate n '\x00')).map
          (·.takeWhile fun c => decide (c ≠ '\x00'))).filter (fun t => decide (t ≠ [])) = tokensAux isSpace [] s := by
        split
        · rename_i h0
          have : s = [] := (List.append_eq_nil_iff.mp h0).1
          subst this; rfl
        · exact tokstrAux_eq n s [] hs' (by simp)
      rw [List.map_cons, e1, List.filter_cons]
      rw [rest]
      by_cases h : acc = []
      · simp [h]
      · simp [h]
    · exact tokstrAux_eq n s (c :: acc) hs' (by simp only [List.mem_cons, not_or]; exact ⟨hc, ha⟩)

/-- The non-empty tokens of a zero padded request are its white space separated words. -/
theorem tokstr_words (s : CStr) (n : Nat) (h : '\x00' ∉ s) :
    (tokstr (s ++ List.replicate n '\x00')).filter (fun t => decide (t ≠ [])) = tokens isSpace s := by
  unfold tokstr
  split
  · rename_i h0
    have : s = [] := (List.append_eq_nil_iff.mp h0).1
    subst this; rfl
  · exact tokstrAux_eq n s [] h (by simp)

theorem jobAct_nil (l : List Ent) : jobAct l [] = .skip := rfl

theorem parse_filter {σ} (l : List Ent) (found : σ → Option Nat → σ × Nat) : ∀ (ts : List CStr) (s : σ × Nat),
    parseJobstr l found s ts = parseJobstr l found s (ts.filter fun t => decide (t ≠ []))
  | [], s => rfl
  | [] :: ts, s => by
    have : parseJobstr l found s ([] :: ts) = parseJobstr l found s ts := by simp [parseJobstr, jobAct_nil]
    rw [this, List.filter_cons_of_neg (by simp)]
    exact parse_filter l found ts s
  | (c :: t) :: ts, s => by
    rw [List.filter_cons_of_pos (by simp)]
    simp only [parseJobstr]
    split
    · exact parse_filter l found ts s
    · rfl
    · exact parse_filter l found ts _
    · exact parse_filter l found ts _

theorem query_filter (l : List Ent) : ∀ (ts : List CStr) (n : Nat),
    queryJobstr l n ts = queryJobstr l n (ts.filter fun t => decide (t ≠ []))
  | [], s => rfl
  | [] :: ts, s => by
    have : queryJobstr l s ([] :: ts) = queryJobstr l s ts := by simp [queryJobstr, jobAct_nil]
    rw [this, List.filter_cons_of_neg (by simp)]
    exact query_filter l ts s
  | (c :: t) :: ts, s => by
    rw [List.filter_cons_of_pos (by simp)]
    simp only [queryJobstr]
    split
    · exact query_filter l ts s
    · rfl
    · exact query_filter l ts _
    · exact query_filter l ts _

/-! ## One token -/

theorem mem_positions (p : Ent → Bool) (l : List Ent) (i : Nat) :
    i ∈ positions p l ↔ ∃ e, l[i]? = some e ∧ p e = true := by
  unfold positions
  rw [List.mem_filter, List.mem_range]
  constructor
  · rintro ⟨h1, h2⟩
    rw [List.getElem?_eq_getElem h1] at h2 ⊢
    exact ⟨_, rfl, by simpa using h2⟩
  · rintro ⟨e, h1, h2⟩
    refine ⟨(List.getElem?_eq_some_iff.mp h1).1, ?_⟩
    rw [h1]; simpa using h2

theorem positions_sorted (p : Ent → Bool) (l : List Ent) : (positions p l).Pairwise (· < ·) :=
  List.Pairwise.sublist List.filter_sublist List.pairwise_lt_range

/-- What `jobAct` does with a token, in terms of the services it denotes. -/
def ActOk (l : List Ent) (tok : CStr) (a : JobAct) : Prop :=
  (':' ∉ tok ∧ ∃ p : Ent → Bool, a = .all (positions p l) ∧ ∀ e, p e = true ↔ Denotes e tok) ∨
  (':' ∈ tok ∧ ∃ p : Ent → Bool, a = .one (l.findIdx? p) ∧ ∀ e, p e = true ↔ Denotes e tok)

theorem Decimal.head {s : CStr} {n : Nat} (h : Decimal s n) : ∃ c t, s = c :: t ∧ isDigit c = true := by
  have hd := h.digits.1
  cases h with
  | one => exact ⟨_, _, rfl, hd _ List.mem_cons_self⟩
  | @snoc s n d _ h2 =>
    cases s with
    | nil => exact ⟨_, _, rfl, hd _ List.mem_cons_self⟩
    | cons c t => exact ⟨c, t ++ _, rfl, hd c List.mem_cons_self⟩

theorem Decimal.no_colon {s : CStr} {n : Nat} (h : Decimal s n) : ':' ∉ s := fun hm => by
  have := h.digits.1 _ hm
  revert this; decide

theorem Decimal.unique {s : CStr} {n m : Nat} (h : Decimal s n) (h' : Decimal s m) : n = m := by
  rw [← h.digits.2, ← h'.digits.2]

theorem colon_inj {a a' b b' : CStr} (h : ':' ∉ a) (h' : ':' ∉ a') (e : a ++ ':' :: b = a' ++ ':' :: b') :
    a = a' ∧ b = b' := by
  have := splitIdent_colon h b
  rw [e, splitIdent_colon h'] at this
  exact ⟨(congrArg Prod.fst this).symm, (congrArg Prod.snd this).symm⟩

theorem mem_colon (a b : CStr) : ':' ∈ a ++ ':' :: b := List.mem_append_right _ List.mem_cons_self

theorem isWord_digit {c : Char} (h : isDigit c = true) : isWord c = true := by simp [isWord, h]

/-- No name that begins like a number denotes a service by name. -/
theorem head_digit_ne {n : CStr} (hd : ∀ c, n.head? = some c → isDigit c = false) {c : Char} {t : CStr}
    (hc : isDigit c = true) : n ≠ c :: t ∧ ∀ id, n ++ ':' :: id ≠ c :: t := by
  refine ⟨fun e => ?_, fun id e => ?_⟩
  · have := hd c (by rw [e]; rfl)
    rw [hc] at this; cases this
  · cases n with
    | nil => simp only [List.nil_append, List.cons.injEq] at e; rw [← e.1] at hc; revert hc; decide
    | cons x n =>
      simp only [List.cons_append, List.cons.injEq] at e
      have := hd x rfl
      rw [e.1, hc] at this; cases this

theorem toInt32_small {v : Nat} (h : v ≤ 2147483647) : toInt32 v = v := by
  unfold toInt32
  rw [Nat.mod_eq_of_lt (by omega)]
  dsimp only
  rw [if_pos (by omega)]

theorem jobAct_ok (l : List Ent) (tok : CStr) (h : ProperTok tok) : ActOk l tok (jobAct l tok) := by
  obtain ⟨pre, hp, htok, ⟨v, hv, hdec⟩ | ⟨hd, hne, hw⟩⟩ := h
  · -- a number
    obtain ⟨c, t, hct, hc⟩ := hdec.head
    have nd : isDigit ':' = false := by decide
    rcases htok with rfl | ⟨id, rfl⟩
    · have hsan : sanitize tok = true := by
        rw [hct]; simp [sanitize, isWord_digit hc]
      have hh : (tok.head?).any isDigit = true := by rw [hct]; simpa using hc
      have htw : tok.takeWhile isDigit = tok := by
        have := (takeWhile_digits (t := []) hdec.digits.1 (by simp)).1
        rwa [List.append_nil] at this
      have hcon : tok.contains ':' = false := by simpa using hp
      refine .inl ⟨hp, fun e => decide ((e.job : Int) = v), ?_, ?_⟩
      · unfold jobAct
        simp only [hsan, hh, htw, hcon, hdec.digits.2, toInt32_small hv, Bool.not_true, Bool.false_eq_true, if_false,
          if_true]
        rw [if_neg (by unfold longMax; omega)]
      · intro e
        rw [decide_eq_true_iff]
        constructor
        · intro hj
          have : e.job = v := by omega
          exact .job (this ▸ hdec)
        · intro hden
          generalize htk : tok = tk at hden
          cases hden with
          | name h1 h2 => exact absurd (htk.symm.trans hct) (head_digit_ne h2 hc).1
          | nameId h1 h2 => exact absurd (htk.symm.trans hct) ((head_digit_ne h2 hc).2 _)
          | job h1 => have := hdec.unique (htk ▸ h1); omega
          | jobId h1 => exact absurd (htk ▸ mem_colon _ _) hp
    · have hsan : sanitize (pre ++ ':' :: id) = true := by
        rw [hct]; simp [sanitize, isWord_digit hc]
      have hh : ((pre ++ ':' :: id).head?).any isDigit = true := by rw [hct]; simpa using hc
      have htw : (pre ++ ':' :: id).takeWhile isDigit = pre :=
        (takeWhile_digits (t := ':' :: id) hdec.digits.1 (by simp [nd])).1
      have hcon : (pre ++ ':' :: id).contains ':' = true := by simp
      refine .inr ⟨mem_colon _ _, fun e => decide ((e.job : Int) = v ∧ e.id = id), ?_, ?_⟩
      · unfold jobAct
        simp only [hsan, hh, htw, hcon, hdec.digits.2, toInt32_small hv, splitIdent_colon hp, Bool.not_true,
          Bool.false_eq_true, if_false, if_true]
        rw [if_neg (by unfold longMax; omega)]
        rfl
      · intro e
        rw [decide_eq_true_iff]
        constructor
        · rintro ⟨hj, rfl⟩
          have : e.job = v := by omega
          exact .jobId (this ▸ hdec)
        · intro hden
          generalize htk : pre ++ ':' :: id = tk at hden
          have hct' : tk = c :: (t ++ ':' :: id) := by rw [← htk, hct]; rfl
          cases hden with
          | name h1 h2 => exact absurd hct' (head_digit_ne h2 hc).1
          | nameId h1 h2 => exact absurd hct' ((head_digit_ne h2 hc).2 _)
          | job h1 => exact absurd (htk ▸ mem_colon _ _) h1.no_colon
          | jobId h1 =>
            obtain ⟨e1, e2⟩ := colon_inj hp h1.no_colon htk
            have := hdec.unique (e1 ▸ h1)
            exact ⟨by omega, e2.symm⟩
  · -- a name
    obtain ⟨w, hwm, hww⟩ := hw
    have hsan : sanitize tok = true := List.any_eq_true.mpr ⟨w, hwm, hww⟩
    cases hpre : pre with
    | nil => exact absurd hpre hne
    | cons c t =>
    have hc : isDigit c = false := hd c (by rw [hpre]; rfl)
    rcases htok with rfl | ⟨id, rfl⟩
    · have hh : (tok.head?).any isDigit = false := by rw [hpre]; simpa using hc
      have hcon : tok.contains ':' = false := by simpa using hp
      refine .inl ⟨hp, fun e => decide (e.name = tok), ?_, ?_⟩
      · unfold jobAct
        simp only [hsan, hh, hcon, Bool.not_true, Bool.false_eq_true, if_false]
      · intro e
        rw [decide_eq_true_iff]
        constructor
        · rintro rfl; exact .name hp hd
        · intro hden
          generalize htk : tok = tk at hden
          cases hden with
          | name h1 h2 => rfl
          | nameId h1 h2 => exact absurd (htk ▸ mem_colon _ _) hp
          | job h1 =>
            obtain ⟨c', t', e1, e2⟩ := h1.head
            rw [← htk, hpre] at e1; cases e1
            rw [hc] at e2; cases e2
          | jobId h1 => exact absurd (htk ▸ mem_colon _ _) hp
    · have hh : ((pre ++ ':' :: id).head?).any isDigit = false := by rw [hpre]; simpa using hc
      have hcon : (pre ++ ':' :: id).contains ':' = true := by simp
      refine .inr ⟨mem_colon _ _, fun e => decide (e.name = pre ∧ e.id = id), ?_, ?_⟩
      · unfold jobAct
        simp only [hsan, hh, hcon, splitIdent_colon hp, Bool.not_true, Bool.false_eq_true, if_false, if_true]
        rfl
      · intro e
        rw [decide_eq_true_iff]
        constructor
        · rintro ⟨rfl, rfl⟩; exact .nameId hp hd
        · intro hden
          generalize htk : pre ++ ':' :: id = tk at hden
          cases hden with
          | name h1 h2 => exact absurd (htk ▸ mem_colon _ _) h1
          | nameId h1 h2 =>
            obtain ⟨e1, e2⟩ := colon_inj hp h1 htk
            exact ⟨e1.symm, e2.symm⟩
          | job h1 => exact absurd (htk ▸ mem_colon _ _) h1.no_colon
          | jobId h1 =>
            obtain ⟨e1, e2⟩ := colon_inj hp h1.no_colon htk
            obtain ⟨c', t', e3, e4⟩ := h1.head
            rw [← e1, hpre] at e3; cases e3
            rw [hc] at e4; cases e4

/-- The calls one token leads to. -/
def callsOf : JobAct → List (Option Nat)
  | .all is => is.map some
  | .one o => [o]
  | _ => []

theorem ActOk.handles {l : List Ent} {tok : CStr} {a : JobAct} (h : ActOk l tok a) : Handles l tok (callsOf a) := by
  rcases h with ⟨hc, p, rfl, hp⟩ | ⟨hc, p, rfl, hp⟩
  · refine ⟨fun _ => ⟨_, rfl, positions_sorted p l, fun i => ?_⟩, fun h => absurd h hc⟩
    rw [mem_positions]
    exact exists_congr fun e => and_congr_right fun _ => hp e
  · refine ⟨fun h => absurd hc h, fun _ => ⟨_, rfl, ?_, ?_⟩⟩
    · intro h0 e he hd
      have := List.findIdx?_eq_none_iff.mp h0 e he
      rw [(hp e).mpr hd] at this; cases this
    · intro i hi
      obtain ⟨hlt, h5, h6⟩ := List.findIdx?_eq_some_iff_getElem.mp hi
      refine ⟨⟨_, List.getElem?_eq_getElem hlt, (hp _).mp h5⟩, ?_⟩
      intro j hj e he hd
      have hjl := Nat.lt_trans hj hlt
      rw [List.getElem?_eq_getElem hjl] at he
      cases he
      exact absurd ((hp _).mpr hd) (h6 j hj)

/-! ## C26 -/

theorem callAll_append {σ} (found : σ → Option Nat → σ × Nat) : ∀ (a b : List (Option Nat)) (s : σ × Nat),
    callAll found s (a ++ b) = callAll found (callAll found s a) b
  | [], b, s => by cases s; rfl
  | t :: a, b, (s, n) => by
    show callAll found _ (a ++ b) = callAll found (callAll found _ a) b
    exact callAll_append found a b _

/-- A request acts on each of its words in order, once for each service the word denotes, and comes to an end.
    Asked of the words: they are of the documented form. -/
theorem C26_each_once_partial (l : List Ent) (s : CStr) (pad : Nat) (hs : '\x00' ∉ s)
    (hp : ∀ tok ∈ tokens isSpace s, ProperTok tok) :
    ∃ calls : List (List (Option Nat)), List.Forall₂ (Handles l) (tokens isSpace s) calls ∧
      ∀ {σ : Type} (found : σ → Option Nat → σ × Nat) (s0 : σ),
        jobRequest l found s0 (s ++ List.replicate pad '\x00') = some (callAll found (s0, 0) calls.flatten) := by
  have main : ∀ toks : List CStr, (∀ tok ∈ toks, ProperTok tok) →
      List.Forall₂ (Handles l) toks (toks.map fun t => callsOf (jobAct l t)) ∧
      ∀ {σ : Type} (found : σ → Option Nat → σ × Nat) (s0 : σ × Nat),
        parseJobstr l found s0 toks = some (callAll found s0 (toks.map fun t => callsOf (jobAct l t)).flatten) := by
    intro toks
    induction toks with
    | nil => intro _; exact ⟨.nil, fun found s0 => by cases s0; rfl⟩
    | cons t ts ih =>
      intro h
      have ht := jobAct_ok l t (h t List.mem_cons_self)
      obtain ⟨h1, h2⟩ := ih fun x hx => h x (List.mem_cons_of_mem _ hx)
      refine ⟨.cons ht.handles h1, fun found s0 => ?_⟩
      rw [List.map_cons, List.flatten_cons, callAll_append, ← h2 found]
      rcases ht with ⟨_, p, e, _⟩ | ⟨_, p, e, _⟩ <;> simp only [parseJobstr, e, callsOf]
  obtain ⟨h1, h2⟩ := main _ hp
  refine ⟨_, h1, fun found s0 => ?_⟩
  unfold jobRequest
  rw [parse_filter, tokstr_words s pad hs]
  exact h2 found (s0, 0)

/-- The check that the client makes beforehand reports exactly the requests in which some word denotes no
    service. -/
theorem C26_query_partial (l : List Ent) (s : CStr) (pad : Nat) (hs : '\x00' ∉ s)
    (hp : ∀ tok ∈ tokens isSpace s, ProperTok tok) :
    ∃ n, queryRequest l (s ++ List.replicate pad '\x00') = some n ∧
      (n = 0 ↔ ∀ tok ∈ tokens isSpace s, ∃ e ∈ l, Denotes e tok) := by
  have main : ∀ toks : List CStr, (∀ tok ∈ toks, ProperTok tok) → ∀ k,
      ∃ n, queryJobstr l k toks = some n ∧ (n = 0 ↔ k = 0 ∧ ∀ tok ∈ toks, ∃ e ∈ l, Denotes e tok) := by
    intro toks
    induction toks with
    | nil => intro _ k; exact ⟨k, rfl, by simp⟩
    | cons t ts ih =>
      intro h k
      have ht := jobAct_ok l t (h t List.mem_cons_self)
      have ih := ih fun x hx => h x (List.mem_cons_of_mem _ hx)
      rcases ht with ⟨_, p, e, hpd⟩ | ⟨_, p, e, hpd⟩
      · obtain ⟨n, h1, h2⟩ := ih (if positions p l = [] then k + 1 else k)
        refine ⟨n, by simp only [queryJobstr, e]; exact h1, ?_⟩
        rw [h2]
        have key : positions p l ≠ [] ↔ ∃ e ∈ l, Denotes e t := by
          have : positions p l ≠ [] ↔ ∃ i, i ∈ positions p l :=
            ⟨List.exists_mem_of_ne_nil _, fun ⟨i, hi⟩ e => by rw [e] at hi; cases hi⟩
          rw [this]
          constructor
          · rintro ⟨i, hi⟩
            obtain ⟨e, he, hpe⟩ := (mem_positions p l i).mp hi
            exact ⟨e, List.mem_of_getElem? he, (hpd e).mp hpe⟩
          · rintro ⟨e, he, hd⟩
            obtain ⟨i, hi⟩ := List.mem_iff_getElem?.mp he
            exact ⟨i, (mem_positions p l i).mpr ⟨e, hi, (hpd e).mpr hd⟩⟩
        rw [List.forall_mem_cons, ← key]
        by_cases hz : positions p l = []
        · simp [hz]
        · simp [hz]
      · obtain ⟨n, h1, h2⟩ := ih (if l.findIdx? p = none then k + 1 else k)
        refine ⟨n, by simp only [queryJobstr, e]; exact h1, ?_⟩
        rw [h2]
        have key : l.findIdx? p ≠ none ↔ ∃ e ∈ l, Denotes e t := by
          rw [Option.ne_none_iff_isSome, List.findIdx?_isSome, List.any_eq_true]
          exact exists_congr fun e => and_congr_right fun _ => hpd e
        rw [List.forall_mem_cons, ← key]
        by_cases hz : l.findIdx? p = none
        · simp [hz]
        · simp [hz]
  obtain ⟨n, h1, h2⟩ := main _ hp 0
  refine ⟨n, ?_, by rw [h2]; simp⟩
  unfold queryRequest
  rw [query_filter, tokstr_words s pad hs]
  exact h1

def sampleReg : List Ent := [⟨"ssh".toList, "1".toList, [], 1, false, []⟩, ⟨"ssh".toList, "2".toList, [], 1, false, []⟩,
  ⟨"dns".toList, [], [], 2, false, []⟩]

example : ∀ tok ∈ tokens isSpace "ssh 2 ssh:2".toList, ProperTok tok := by
  have : tokens isSpace "ssh 2 ssh:2".toList = ["ssh".toList, "2".toList, "ssh:2".toList] := by decide +kernel
  rw [this]
  intro tok h
  simp only [List.mem_cons, List.not_mem_nil, or_false] at h
  rcases h with rfl | rfl | rfl
  · exact ⟨"ssh".toList, by decide, .inl rfl, .inr ⟨by simp [isDigit], by decide, 's', by decide, by decide⟩⟩
  · exact ⟨"2".toList, by decide, .inl rfl, .inl ⟨2, by omega, decimal_of_digits _ (by decide) (by decide)⟩⟩
  · exact ⟨"ssh".toList, by decide, .inr ⟨"2".toList, rfl⟩, .inr ⟨by simp [isDigit], by decide, 's', by decide, by decide⟩⟩

example : jobRequest sampleReg (fun (t : List (Option Nat)) o => (t ++ [o], 0)) [] ("ssh 2 ssh:2".toList ++ List.replicate 9 '\x00') =
    some ([some 0, some 1, some 2, some 1], 0) := by decide +kernel

/-- The promise does not hold for every request: a number too large for a `long` makes the supervisor loop for
    ever; a word that is no service's name is reported as done; and a word of punctuation is ignored. -/
theorem C26_hang_and_false_success : ¬ C26_full ∧
    (∀ l : List Ent, ∀ {σ : Type} (found : σ → Option Nat → σ × Nat) (s0 : σ),
      jobRequest l found s0 "9223372036854775808".toList = none) ∧
    jobRequest sampleReg (fun (t : List (Option Nat)) o => (t ++ [o], 1)) [] "nosuch".toList = some ([], 0) ∧
    queryRequest sampleReg "-".toList = some 0 := by
  have h1 : ∀ l : List Ent, ∀ {σ : Type} (found : σ → Option Nat → σ × Nat) (s0 : σ),
      jobRequest l found s0 "9223372036854775808".toList = none := by
    intro l σ found s0
    have e : tokstr "9223372036854775808".toList = ["9223372036854775808".toList] := by decide +kernel
    have e2 : jobAct l "9223372036854775808".toList = .hang := by
      have hs : sanitize "9223372036854775808".toList = true := by decide +kernel
      have hh : (("9223372036854775808".toList).head?).any isDigit = true := by decide +kernel
      have hv : digits ("9223372036854775808".toList.takeWhile isDigit) > longMax := by decide +kernel
      unfold jobAct
      simp only [hs, hh, hv, Bool.not_true, Bool.false_eq_true, if_false, if_true]
    unfold jobRequest
    rw [e]
    simp only [parseJobstr, e2]
  refine ⟨fun H => ?_, h1, by decide +kernel, by decide +kernel⟩
  obtain ⟨n, hn, _⟩ := H [] "9223372036854775808".toList 0 (by decide +kernel)
  rw [List.replicate_zero, List.append_nil, h1] at hn
  cases hn

/-- What follows the end of the string in the request is acted on too. -/
theorem C26_reads_behind_the_string :
    jobRequest sampleReg (fun (t : List (Option Nat)) o => (t ++ [o], 0)) [] ("dns".toList ++ '\x00' :: " ssh:1".toList) =
      some ([some 2, some 0], 0) := by decide +kernel

end Verif
