import Verif.Rotate

/-!
# C56: a log has no holes

What a service prints is in its log and the older versions of it, from the oldest version to the newest, without a
hole.  Only what is older than `num` versions of more than `sz` bytes each is dropped.
-/

namespace Verif

/-- What was printed -/
def LogIn.text : LogIn → CStr
  | .line t _ => t
  | .again => []

/-- A version of the log, compressed or not.  If there were both, the compressed one is the older one. -/
def LogFiles.version (fs : LogFiles) (i : Nat) : CStr := (fs.gz i).getD [] ++ (fs.plain i).getD []

/-- All there is, the oldest version first: `FILE.n.gz`, `FILE.n`, …, `FILE.1`, `FILE` -/
def LogState.kept (s : LogState) (n : Nat) : CStr :=
  ((List.range n).reverse.flatMap fun i => s.files.version (i + 1)) ++ s.files.live ++ s.pend

/-- A log is fine if it is the end of what was printed, without a hole; there are at most `num` older versions, one
    file each; and if anything was dropped, then there are `num` versions of more than `sz` bytes. -/
structure LogFine (num sz : Nat) (printed : CStr) (s : LogState) : Prop where
  noHole : ∃ old, printed = old ++ s.kept num ∧ (old ≠ [] → ∀ i, 0 < i → i ≤ num → sz < (s.files.version i).length)
  one : ∀ i, s.files.plain i = none ∨ s.files.gz i = none
  few : ∀ i, i = 0 ∨ num < i → s.files.plain i = none ∧ s.files.gz i = none

/-- The full claim: `gzip` may work at times -/
def C56_full : Prop :=
  ∀ (num sz : Nat) (ins : List (LogIn × Bool)),
    LogFine num sz (ins.flatMap fun x => x.1.text) (ins.foldl (fun s x => flogitStep x.2 num sz s x.1) {})

/-! ## Lemmas -/

private theorem mvLog_get (f : Nat → Option CStr) (a b i : Nat) (hab : a ≠ b) :
    mvLog f a b i = if i = b then (f a).or (f b) else if i = a then none else f i := by
  unfold mvLog
  cases h : f a with
  | none =>
    by_cases hb : i = b
    · simp [hb]
    · by_cases ha : i = a
      · subst ha; rw [if_neg hb, if_pos rfl]; exact h
      · rw [if_neg hb, if_neg ha]
  | some c =>
    by_cases hb : i = b
    · simp [hb]
    · simp [hb]

/-- Both loops move every version by one, if there is nothing in the way -/
private theorem ageGz_get : ∀ (n : Nat) (f : Nat → Option CStr) (i : Nat), 3 ≤ n →
    ageGz n f i = if i = 2 then none else if i = n then (f (n - 1)).or (f n) else if 3 ≤ i ∧ i < n then f (i - 1) else f i
  | 0, _, _, h => by omega
  | n + 1, f, i, h => by
    rw [ageGz, if_pos (by omega)]
    by_cases hn : n = 2
    · subst hn
      rw [ageGz, if_neg (by omega), mvLog_get _ _ _ _ (by omega)]
      by_cases h3 : i = 3
      · simp [h3]
      · by_cases h2 : i = 2
        · simp [h2]
        · rw [if_neg h3, if_neg h2, if_neg h2, if_neg h3, if_neg (by omega)]
    · rw [ageGz_get n _ i (by omega)]
      simp only [mvLog_get f n (n + 1) _ (by omega)]
      by_cases h2 : i = 2
      · simp [h2]
      · rw [if_neg h2, if_neg h2]
        by_cases hi : i = n
        · subst hi
          rw [if_pos rfl, if_neg (by omega), if_neg (by omega), if_neg (by omega), if_pos (by simp), if_neg (by omega),
            if_pos (by omega)]
          cases f (i - 1) <;> rfl
        · rw [if_neg hi]
          by_cases hi1 : i = n + 1
          · subst hi1
            rw [if_neg (by omega), if_pos rfl, if_pos rfl]
            rfl
          · by_cases hlt : 3 ≤ i ∧ i < n
            · rw [if_pos hlt, if_neg (by omega), if_neg (by omega), if_neg hi1, if_pos (by omega)]
            · rw [if_neg hlt, if_neg hi1, if_neg hi, if_neg hi1, if_neg (by omega)]

private theorem ageGz_small {n : Nat} (h : n ≤ 2) (f : Nat → Option CStr) : ageGz n f = f := by
  match n, h with
  | 0, _ => rfl
  | 1, _ => rfl
  | 2, _ => rfl

/-- The second loop, on `FILE.N`, where `gzip` does nothing -/
private theorem agePlain_no : ∀ (n : Nat) (fs : LogFiles), (agePlain false n fs).gz = fs.gz ∧
    (agePlain false n fs).live = fs.live ∧ ∀ i, (agePlain false n fs).plain i =
      if n = 0 then fs.plain i else if i = 0 then none else if i = n then (fs.plain (n - 1)).or (fs.plain n)
      else if i < n then fs.plain (i - 1) else fs.plain i
  | 0, fs => ⟨rfl, rfl, fun i => rfl⟩
  | n + 1, fs => by
    have hg : ∀ fs : LogFiles, gzipLog false fs = fs := by
      intro fs; unfold gzipLog; split <;> simp
    simp only [agePlain, hg, ite_self]
    obtain ⟨a, b, c⟩ := agePlain_no n { fs with plain := mvLog fs.plain n (n + 1) }
    refine ⟨a, b, fun i => ?_⟩
    rw [c i]
    simp only [mvLog_get fs.plain n (n + 1) _ (by omega)]
    rw [if_neg (show n + 1 ≠ 0 by omega)]
    by_cases h0 : n = 0
    · subst h0
      rw [if_pos rfl]
      by_cases hi : i = 0
      · simp [hi]
      · rw [if_neg hi]
        by_cases h1 : i = 0 + 1
        · rw [if_pos h1, if_neg hi, if_pos h1]
        · rw [if_neg h1, if_neg hi, if_neg h1, if_neg (by omega)]
    · rw [if_neg h0]
      by_cases hi : i = 0
      · simp [hi]
      · rw [if_neg hi, if_neg hi]
        by_cases hn : i = n
        · subst hn
          rw [if_pos rfl, if_neg (by omega), if_neg (by omega), if_neg (by omega), if_pos (by simp), if_neg (by omega),
            if_pos (by omega)]
          cases fs.plain (i - 1) <;> rfl
        · rw [if_neg hn]
          by_cases hn1 : i = n + 1
          · subst hn1
            rw [if_neg (by omega), if_pos rfl, if_pos rfl]; rfl
          · by_cases hlt : i < n
            · rw [if_pos hlt, if_neg (by omega), if_neg (by omega), if_neg hn1, if_pos (by omega)]
            · rw [if_neg hlt, if_neg hn1, if_neg hn, if_neg hn1, if_neg (by omega)]

private theorem gzip_yes (fs : LogFiles) (h2 : fs.gz 2 = none) : (gzipLog true fs).live = fs.live ∧
    (∀ i, (gzipLog true fs).plain i = if i = 2 then none else fs.plain i) ∧
    ∀ i, (gzipLog true fs).gz i = if i = 2 then fs.plain 2 else fs.gz i := by
  unfold gzipLog
  split
  · rename_i hp
    refine ⟨rfl, fun i => ?_, fun i => ?_⟩
    · split
      · rename_i hi; rw [hi]; exact hp
      · rfl
    · split
      · rename_i hi; rw [hi, h2, hp]
      · rfl
  · rename_i c hp
    rw [if_pos ⟨rfl, h2⟩]
    refine ⟨rfl, fun i => rfl, fun i => ?_⟩
    rw [hp]

/-- The second loop where `gzip` works and all older versions are compressed -/
private theorem agePlain_yes : ∀ (n : Nat) (fs : LogFiles), 2 ≤ n → (∀ i, i ≠ 1 → fs.plain i = none) → fs.gz 2 = none →
    (agePlain true n fs).live = fs.live ∧ (∀ i, (agePlain true n fs).plain i = none) ∧
    ∀ i, (agePlain true n fs).gz i = if i = 2 then fs.plain 1 else fs.gz i
  | 0, _, h, _, _ => by omega
  | 1, _, h, _, _ => by omega
  | 2, fs, _, h, h2 => by
    have hb : ∀ i, mvLog fs.plain 1 (1 + 1) i = if i = 2 then fs.plain 1 else none := by
      intro i
      rw [mvLog_get _ _ _ _ (by omega)]
      by_cases hi : i = 2
      · subst hi; simp [h 2 (by omega)]
      · rw [if_neg hi, if_neg hi]
        by_cases h1 : i = 1
        · rw [if_pos h1]
        · rw [if_neg h1]; exact h i h1
    obtain ⟨a, b, c⟩ := gzip_yes { fs with plain := mvLog fs.plain 1 (1 + 1) } h2
    have e : agePlain true 2 fs = gzipLog true { fs with plain := mvLog fs.plain 1 (1 + 1) } := by
      simp only [agePlain, Nat.reduceAdd, if_true, if_neg (show ¬ (1 = 2) by omega)]
      have : mvLog (gzipLog true { fs with plain := mvLog fs.plain 1 2 }).plain 0 1 =
          (gzipLog true { fs with plain := mvLog fs.plain 1 2 }).plain := by
        have z : (gzipLog true { fs with plain := mvLog fs.plain 1 2 }).plain 0 = none := by
          rw [b 0, if_neg (by omega)]
          exact hb 0
        unfold mvLog at z ⊢
        rw [z]
      rw [this]
    rw [e]
    refine ⟨a, fun i => ?_, fun i => ?_⟩
    · rw [b i]
      by_cases hi : i = 2
      · rw [if_pos hi]
      · rw [if_neg hi]
        have := hb i
        rw [if_neg hi] at this
        exact this
    · rw [c i]
      have := hb 2
      rw [if_pos rfl] at this
      rw [← this]
  | n + 3, fs, _, h, h2 => by
    have e : mvLog fs.plain (n + 2) (n + 2 + 1) = fs.plain := by
      unfold mvLog
      rw [h (n + 2) (by omega)]
    rw [agePlain, e, if_neg (by omega)]
    exact agePlain_yes (n + 2) fs (by omega) h h2

/-- The older versions, the newest first -/
private structure Older (works : Bool) (num sz : Nat) (vs : List CStr) (fs : LogFiles) : Prop where
  len : vs.length ≤ num
  big : ∀ v ∈ vs, sz < v.length
  plain : ∀ i, fs.plain i = if i = 0 then none else if works = true ∧ 1 < i then none else vs[i - 1]?
  gz : ∀ i, fs.gz i = if works = true ∧ 1 < i then vs[i - 1]? else none

private theorem getElem?_take_cons {a : CStr} {vs : List CStr} {n i : Nat} (h : i < n) :
    ((a :: vs).take n)[i]? = (a :: vs)[i]? := by
  rw [List.getElem?_take_of_lt h]

private theorem getElem?_cons_pred {a : CStr} {vs : List CStr} {i : Nat} (h : 0 < i) :
    (a :: vs)[i]? = vs[i - 1]? := by
  obtain ⟨j, rfl⟩ : ∃ j, i = j + 1 := ⟨i - 1, by omega⟩
  rfl

private theorem rotate_older {works : Bool} {num sz : Nat} (hw : num ≠ 2 ∨ works = false) {vs : List CStr}
    {fs : LogFiles} (h : Older works num sz vs fs) (h0 : 0 < sz) (hb : sz < fs.live.length) :
    Older works num sz ((fs.live :: vs).take num) (logrotate works num sz fs) ∧ (logrotate works num sz fs).live = [] := by
  unfold logrotate
  rw [if_pos ⟨h0, hb⟩]
  by_cases hn : 0 < num
  · rw [if_pos hn]
    dsimp only
    refine ⟨⟨by rw [List.length_take]; omega, ?_, ?_, ?_⟩, rfl⟩
    · intro v hv
      rcases List.mem_cons.1 (List.mem_of_mem_take hv) with rfl | hv
      · exact hb
      · exact h.big v hv
    · intro i
      dsimp only
      cases works with
      | false =>
        obtain ⟨a, b, c⟩ := agePlain_no num { fs with gz := ageGz num fs.gz }
        rw [b, c i]
        simp only [Bool.false_eq_true, false_and, if_false]
        have hp := h.plain
        simp only [Bool.false_eq_true, false_and, if_false] at hp
        rw [if_neg (show ¬ num = 0 by omega)]
        by_cases h1 : i = 1
        · subst h1
          rw [if_pos rfl, if_neg (by omega), getElem?_take_cons hn]
          rfl
        · rw [if_neg h1]
          by_cases hi : i = 0
          · simp [hi]
          · rw [if_neg hi, if_neg hi]
            by_cases hN : i = num
            · subst hN
              rw [if_pos rfl, hp, hp, if_neg (by omega), if_neg (by omega), getElem?_take_cons (by omega)]
              rw [getElem?_cons_pred (by omega)]
              cases hv : vs[i - 1 - 1]? with
              | some v => rfl
              | none =>
                have : vs.length ≤ i - 1 - 1 := List.getElem?_eq_none_iff.1 hv
                rw [List.getElem?_eq_none (by omega)]; rfl
            · rw [if_neg hN]
              by_cases hlt : i < num
              · rw [if_pos hlt, hp, if_neg (by omega), getElem?_take_cons (by omega)]
                rw [getElem?_cons_pred (by omega)]
              · rw [if_neg hlt, hp, if_neg hi]
                have hl := h.len
                rw [List.getElem?_eq_none (by omega), List.getElem?_eq_none (by rw [List.length_take]; omega)]
      | true =>
        simp only [true_and]
        by_cases h1 : i = 1
        · subst h1
          rw [if_pos rfl, if_neg (by omega), if_neg (by omega), getElem?_take_cons hn]
          have hlive : (agePlain true num { fs with gz := ageGz num fs.gz }).live = fs.live := by
            have : num ≠ 2 := hw.resolve_right (by simp)
            by_cases hn1 : num = 1
            · subst hn1
              simp only [agePlain, Nat.zero_add, if_neg (show ¬ (1 = 2) by omega)]
            · refine (agePlain_yes num _ (by omega) ?_ ?_).1
              · intro i hi
                have := h.plain i
                simp only [true_and] at this
                dsimp only
                rw [this]
                by_cases h0 : i = 0
                · rw [if_pos h0]
                · rw [if_neg h0, if_pos (by omega)]
              · dsimp only
                rw [ageGz_get _ _ _ (by omega), if_pos rfl]
          rw [hlive]; rfl
        · rw [if_neg h1]
          have hne : num ≠ 2 := hw.resolve_right (by simp)
          have hp : ∀ i, i ≠ 1 → fs.plain i = none := by
            intro i hi
            have := h.plain i
            simp only [true_and] at this
            rw [this]
            by_cases h0 : i = 0
            · rw [if_pos h0]
            · rw [if_neg h0, if_pos (by omega)]
          have hr : (if i = 0 then none else if 1 < i then none else ((fs.live :: vs).take num)[i - 1]?) = none := by
            by_cases h0 : i = 0
            · rw [if_pos h0]
            · rw [if_neg h0, if_pos (by omega)]
          rw [hr]
          by_cases hn1 : num = 1
          · subst hn1
            simp only [agePlain, Nat.zero_add, if_neg (show ¬ (1 = 2) by omega)]
            rw [mvLog_get _ _ _ _ (by omega), if_neg h1]
            by_cases h0 : i = 0
            · rw [if_pos h0]
            · rw [if_neg h0]; exact hp i h1
          · refine (agePlain_yes num _ (by omega) ?_ ?_).2.1 i
            · exact hp
            · dsimp only
              rw [ageGz_get _ _ _ (by omega), if_pos rfl]
    · intro i
      dsimp only
      cases works with
      | false =>
        obtain ⟨a, b, c⟩ := agePlain_no num { fs with gz := ageGz num fs.gz }
        rw [a]
        have hg : fs.gz = fun _ => none := by
          funext i; rw [h.gz i]; simp
        dsimp only
        rw [hg]
        simp only [Bool.false_eq_true, false_and, if_false]
        by_cases h3 : 3 ≤ num
        · rw [ageGz_get _ _ _ h3]
          simp
        · rw [ageGz_small (by omega)]
      | true =>
        have hg := h.gz
        simp only [true_and] at hg ⊢
        have hne : num ≠ 2 := hw.resolve_right (by simp)
        by_cases hn1 : num = 1
        · subst hn1
          simp only [agePlain, Nat.zero_add, if_neg (show ¬ (1 = 2) by omega)]
          rw [ageGz_small (by omega), hg i]
          have hl := h.len
          by_cases h1 : 1 < i
          · rw [if_pos h1, if_pos h1, List.getElem?_eq_none (by omega),
              List.getElem?_eq_none (by rw [List.length_take]; omega)]
          · rw [if_neg h1, if_neg h1]
        · have hp : ∀ i, i ≠ 1 → fs.plain i = none := by
            intro i hi
            have := h.plain i
            simp only [true_and] at this
            rw [this]
            by_cases h0 : i = 0
            · rw [if_pos h0]
            · rw [if_neg h0, if_pos (by omega)]
          rw [(agePlain_yes num { fs with gz := ageGz num fs.gz } (by omega) hp
            (by dsimp only; rw [ageGz_get _ _ _ (by omega), if_pos rfl])).2.2 i]
          dsimp only
          have p1 : fs.plain 1 = vs[0]? := by
            have := h.plain 1
            simpa using this
          rw [ageGz_get _ _ _ (by omega), p1]
          by_cases h2 : i = 2
          · subst h2
            rw [if_pos rfl, if_pos (by omega), getElem?_take_cons (by omega)]
            rfl
          · rw [if_neg h2, if_neg h2]
            by_cases hN : i = num
            · subst hN
              rw [if_pos rfl, hg, hg, if_pos (by omega), if_pos (by omega), if_pos (by omega),
                getElem?_take_cons (by omega)]
              rw [getElem?_cons_pred (by omega)]
              cases hv : vs[i - 1 - 1]? with
              | some v => rfl
              | none =>
                have : vs.length ≤ i - 1 - 1 := List.getElem?_eq_none_iff.1 hv
                rw [List.getElem?_eq_none (by omega)]; rfl
            · rw [if_neg hN]
              by_cases hlt : 3 ≤ i ∧ i < num
              · rw [if_pos hlt, hg, if_pos (by omega), if_pos (by omega), getElem?_take_cons (by omega)]
                rw [getElem?_cons_pred (by omega)]
              · rw [if_neg hlt, hg]
                have hl := h.len
                by_cases h1 : 1 < i
                · rw [if_pos h1, if_pos h1, List.getElem?_eq_none (by omega),
                    List.getElem?_eq_none (by rw [List.length_take]; omega)]
                · rw [if_neg h1, if_neg h1]
  · rw [if_neg hn]
    have h0 : num = 0 := by omega
    subst h0
    have hv : vs = [] := List.length_eq_zero_iff.1 (by have := h.len; omega)
    subst hv
    refine ⟨⟨by simp, by simp, fun i => ?_, fun i => ?_⟩, rfl⟩
    · rw [h.plain i]; simp
    · rw [h.gz i]; simp

private theorem Older.version {works : Bool} {num sz : Nat} {vs : List CStr} {fs : LogFiles}
    (h : Older works num sz vs fs) (i : Nat) : fs.version (i + 1) = (vs[i]?).getD [] := by
  unfold LogFiles.version
  rw [h.plain, h.gz, if_neg (show ¬ (i + 1 = 0) by omega)]
  by_cases hc : works = true ∧ 1 < i + 1
  · rw [if_pos hc]; simp [hc]
  · have : ¬ (works = true ∧ 0 < i) := fun h => hc ⟨h.1, by omega⟩
    simp [this]

private theorem flat_range (vs : List CStr) : ∀ n, vs.length ≤ n →
    ((List.range n).reverse.flatMap fun i => (vs[i]?).getD []) = vs.reverse.flatten
  | 0, h => by
    have e : vs = [] := List.length_eq_zero_iff.1 (by omega)
    subst e; rfl
  | n + 1, h => by
    rw [List.range_succ, List.reverse_append]
    simp only [List.reverse_cons, List.reverse_nil, List.nil_append, List.cons_append, List.flatMap_cons]
    by_cases hl : vs.length ≤ n
    · rw [List.getElem?_eq_none hl, flat_range vs n hl]; rfl
    · have hlen : vs.length = n + 1 := by omega
      obtain ⟨ws, v, rfl⟩ : ∃ ws v, vs = ws ++ [v] := by
        refine ⟨vs.dropLast, vs.getLast (by intro h; rw [h] at hlen; simp at hlen), ?_⟩
        exact (List.dropLast_concat_getLast _).symm
      have hw : ws.length = n := by simpa using hlen
      rw [List.getElem?_append_right (by omega), hw]
      simp only [Nat.sub_self, List.getElem?_cons_zero, Option.getD_some, List.reverse_append, List.reverse_cons,
        List.reverse_nil, List.nil_append, List.cons_append, List.flatten_cons]
      rw [← flat_range ws n (by omega)]
      congr 1
      rw [List.flatMap_def, List.flatMap_def]
      congr 1
      apply List.map_congr_left
      intro i hi
      have : i < n := by simpa using hi
      rw [List.getElem?_append_left (by omega)]

private theorem Older.kept {works : Bool} {num sz : Nat} {vs : List CStr} {s : LogState}
    (h : Older works num sz vs s.files) : s.kept num = vs.reverse.flatten ++ s.files.live ++ s.pend := by
  unfold LogState.kept
  simp only [h.version]
  rw [flat_range vs num h.len]

private structure LogOk (works : Bool) (num sz : Nat) (printed : CStr) (s : LogState) : Prop where
  ex : ∃ vs old, Older works num sz vs s.files ∧ printed = old ++ (vs.reverse.flatten ++ s.files.live ++ s.pend) ∧
    (old ≠ [] → vs.length = num)

private theorem step_ok {works : Bool} {num sz : Nat} (hw : num ≠ 2 ∨ works = false) {printed : CStr} {s : LogState}
    (h : LogOk works num sz printed s) (x : LogIn) :
    LogOk works num sz (printed ++ x.text) (flogitStep works num sz s x) := by
  obtain ⟨vs, old, ho, hp, hd⟩ := h.ex
  cases x with
  | again =>
    refine ⟨vs, old, ⟨ho.len, ho.big, ho.plain, ho.gz⟩, ?_, hd⟩
    rw [hp]
    simp [LogIn.text, flogitStep, LogState.close]
  | line text flush =>
    simp only [flogitStep, LogIn.text]
    have hsplit : (s.pend ++ text).take flush ++ (s.pend ++ text).drop flush = s.pend ++ text := List.take_append_drop ..
    generalize hA : (s.pend ++ text).take flush = A at hsplit ⊢
    generalize hB : (s.pend ++ text).drop flush = B at hsplit ⊢
    split
    · rename_i hc
      simp only [LogState.close]
      have ho' : Older works num sz vs { s.files with live := s.files.live ++ A ++ B } :=
        ⟨ho.len, ho.big, ho.plain, ho.gz⟩
      have hbig : sz < (s.files.live ++ A ++ B).length := by
        have := hc.2
        simp only [List.length_append] at this ⊢
        omega
      obtain ⟨hr, hl⟩ := rotate_older hw ho' hc.1 hbig
      refine ⟨_, old ++ ((s.files.live ++ A ++ B) :: vs).reverse.flatten.take
        (((s.files.live ++ A ++ B) :: vs).drop num).reverse.flatten.length, hr, ?_, ?_⟩
      · rw [hl, hp]
        dsimp only
        have e : ((s.files.live ++ A ++ B) :: vs).reverse.flatten =
            (((s.files.live ++ A ++ B) :: vs).drop num).reverse.flatten ++
            (((s.files.live ++ A ++ B) :: vs).take num).reverse.flatten := by
          rw [← List.flatten_append, ← List.reverse_append, List.take_append_drop]
        rw [show (((s.files.live ++ A ++ B) :: vs).reverse.flatten.take
          (((s.files.live ++ A ++ B) :: vs).drop num).reverse.flatten.length) =
          (((s.files.live ++ A ++ B) :: vs).drop num).reverse.flatten by rw [e, List.take_left]]
        simp only [List.append_nil, List.append_assoc]
        congr 1
        have e2 := e
        simp only [List.append_assoc] at e2
        rw [← e2]
        simp only [List.reverse_cons, List.flatten_append, List.flatten_cons, List.flatten_nil, List.append_nil]
        rw [hsplit]
      · intro hne
        rw [List.length_take]
        refine Nat.min_eq_left ?_
        refine Classical.byContradiction fun hlt => hne ?_
        simp only [List.length_cons] at hlt
        have hlv : vs.length ≠ num := by omega
        have : old = [] := Classical.byContradiction fun h => hlv (hd h)
        rw [this, List.drop_eq_nil_of_le (by simp only [List.length_cons]; omega)]
        rfl
    · refine ⟨vs, old, ⟨ho.len, ho.big, ho.plain, ho.gz⟩, ?_, hd⟩
      rw [hp]
      simp only [List.append_assoc, List.append_cancel_left_eq]
      exact hsplit.symm

private theorem run_ok {works : Bool} {num sz : Nat} (hw : num ≠ 2 ∨ works = false) : ∀ (ins : List LogIn)
    (printed : CStr) (s : LogState), LogOk works num sz printed s →
    LogOk works num sz (printed ++ ins.flatMap LogIn.text) (flogit works num sz ins s)
  | [], printed, s, h => by simpa [flogit] using h
  | x :: ins, printed, s, h => by
    have := run_ok hw ins _ _ (step_ok hw h x)
    rw [List.flatMap_cons, ← List.append_assoc]
    exact this

/-! ## The theorems -/

/-- **C56.**  If `gzip` is there, or is not, all the time, and the number of versions to keep is not 2 with `gzip`:
    whatever is printed, in whatever pieces, and whenever the C library writes its buffer, the log is fine. -/
theorem C56_partial (works : Bool) (num sz : Nat) (hw : num ≠ 2 ∨ works = false) (ins : List LogIn) :
    LogFine num sz (ins.flatMap LogIn.text) (flogit works num sz ins {}) := by
  have h0 : LogOk works num sz [] {} := by
    refine ⟨[], [], ⟨by simp, by simp, fun i => ?_, fun i => ?_⟩, rfl, fun h => absurd rfl h⟩
    · simp
    · simp
  obtain ⟨vs, old, ho, hp, hd⟩ := (run_ok hw ins [] {} h0).ex
  refine ⟨⟨old, ?_, ?_⟩, ?_, ?_⟩
  · rw [ho.kept, ← hp]; rfl
  · intro hne i hi hle
    have hlen := hd hne
    obtain ⟨j, rfl⟩ : ∃ j, i = j + 1 := ⟨i - 1, by omega⟩
    rw [ho.version, List.getElem?_eq_getElem (by omega)]
    exact ho.big _ (List.getElem_mem _)
  · intro i
    rw [ho.plain, ho.gz]
    by_cases hc : works = true ∧ 1 < i
    · left; rw [if_neg (by omega), if_pos hc]
    · right; rw [if_neg hc]
  · intro i hi
    have hl := ho.len
    rw [ho.plain, ho.gz]
    rcases hi with rfl | hi
    · simp
    · rw [List.getElem?_eq_none (by omega)]
      simp

/-- All that is kept is at least `num` times `sz` bytes, once anything was dropped. -/
theorem C56_enough (works : Bool) (num sz : Nat) (hw : num ≠ 2 ∨ works = false) (ins : List LogIn)
    (hlost : ((flogit works num sz ins {}).kept num).length < (ins.flatMap LogIn.text).length) :
    num * sz ≤ ((flogit works num sz ins {}).kept num).length := by
  obtain ⟨old, hp, hb⟩ := (C56_partial works num sz hw ins).noHole
  have hne : old ≠ [] := by
    rintro rfl
    rw [hp] at hlost
    simp at hlost
  have hb := hb hne
  have key : ∀ n, n ≤ num → n * sz ≤
      ((List.range n).reverse.flatMap fun i => (flogit works num sz ins {}).files.version (i + 1)).length := by
    intro n
    induction n with
    | zero => simp
    | succ n ih =>
      intro hn
      rw [List.range_succ, List.reverse_append]
      simp only [List.reverse_cons, List.reverse_nil, List.nil_append, List.cons_append, List.flatMap_cons,
        List.length_append]
      have := ih (by omega)
      have := hb (n + 1) (by omega) hn
      rw [Nat.succ_mul]
      omega
  unfold LogState.kept
  have := key num (Nat.le_refl _)
  simp only [List.length_append]
  omega

/-! ## Where it fails -/

private def demoLines : List LogIn :=
  [.line "one.".toList 9, .line "two.".toList 9, .line "three.".toList 9, .line "four.".toList 9]

/-- With two versions to keep, and `gzip`: the compressed one is never replaced, and there is a hole after it. -/
theorem C56_two : let s := flogit true 2 3 demoLines {}
    demoLines.flatMap LogIn.text = "one.two.three.four.".toList ∧
    s.files.gz 2 = some "one.".toList ∧ s.files.plain 2 = some "three.".toList ∧
    s.files.plain 1 = some "four.".toList ∧ s.kept 2 = "one.three.four.".toList := by
  decide

/-- The full claim is false. -/
theorem C56_full_false : ¬ C56_full := by
  intro h
  have h := h 2 3 (demoLines.map fun x => (x, true))
  rcases h.one 2 with h | h
  · revert h; decide
  · revert h; decide

/-- `gzip` works at first, and then no longer: a compressed version stays for ever, with a hole after it. -/
theorem C56_flaky :
    let ins : List (LogIn × Bool) := [(.line "one.".toList 9, true), (.line "two.".toList 9, true),
      (.line "three.".toList 9, true), (.line "four.".toList 9, false), (.line "five.".toList 9, false),
      (.line "six.".toList 9, false)]
    let s := ins.foldl (fun s x => flogitStep x.2 3 3 s x.1) {}
    s.kept 3 = "two.four.five.six.".toList ∧ s.files.gz 3 = some "two.".toList ∧
      s.files.plain 3 = some "four.".toList := by
  decide

/-! ## Examples -/

example : let s := flogit true 3 3 (demoLines ++ [.line "five.".toList 9, .line "s".toList 0]) {}
    s.files.gz 3 = some "three.".toList ∧ s.files.gz 2 = some "four.".toList ∧
    s.files.plain 1 = some "five.".toList ∧ s.kept 3 = "three.four.five.s".toList := by
  decide

example : let s := flogit false 2 3 demoLines {}
    s.files.plain 2 = some "three.".toList ∧ s.files.plain 1 = some "four.".toList ∧ s.files.gz 2 = none := by
  decide

end Verif
