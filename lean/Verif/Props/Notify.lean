import Verif.Notify
import Verif.CStrLemmas

/-!
# C85: readiness notification
-/

namespace Verif

/-! ## Specification -/

/-- A line of the message is this. -/
def HasLine (msg line : CStr) : Prop :=
  ∃ a b, msg = a ++ line ++ b ∧ (a = [] ∨ a.getLast? = some '\n') ∧ (b = [] ∨ b.head? = some '\n')

/-- Full statement of C85 (false of the code, see below): a service is ready if and only if a process with the environment Finit
    gave it has sent a message with the line `READY=1`, and Finit has read what was sent. -/
def C85_full : Prop :=
  ∀ (pids : List Nat) (es : List NotifyEv) (i pid : Nat), pids.Nodup → pids[i]? = some pid → (∀ p ∈ pids, p < 2 ^ 31) →
    (notifyRun pids es).queue i = [] →
    ((notifyRun pids es).ready i = true ↔
      ∃ msg, NotifyEv.call (some (notifyVar pid)) msg ∈ es ∧ HasLine msg "READY=1".toList)

/-! ## Proof -/

/-- The value of decimal digits -/
def decVal (ds : CStr) : Nat := ds.foldl (fun v c => 10 * v + (c.toNat - 48)) 0

theorem digitChar_val : ∀ d, d < 10 → (Nat.digitChar d).toNat - 48 = d := by
  have : ∀ d : Fin 10, (Nat.digitChar d.val).toNat - 48 = d.val := by decide
  exact fun d h => this ⟨d, h⟩

theorem decVal_toDigits : ∀ n : Nat, decVal (Nat.toDigits 10 n) = n := by
  intro n
  induction n using Nat.strongRecOn with
  | _ n ih =>
    by_cases h : n < 10
    · rw [Nat.toDigits_of_lt_base h]
      simp [decVal, digitChar_val n h]
    · rw [Nat.toDigits_of_base_le (by decide) (by omega)]
      have := ih (n / 10) (by omega)
      unfold decVal at this ⊢
      rw [List.foldl_append, this, List.foldl_cons, List.foldl_nil, digitChar_val _ (by omega)]
      omega

theorem toDigits_length : ∀ k n : Nat, 0 < k → n < 10 ^ k → (Nat.toDigits 10 n).length ≤ k := by
  intro k
  induction k with
  | zero => intro n h; omega
  | succ k ih =>
    intro n _ hn
    by_cases h : n < 10
    · rw [Nat.toDigits_of_lt_base h]; simp
    · rw [Nat.toDigits_of_base_le (by decide) (by omega)]
      have h0 : 0 < k := by
        cases k with
        | zero => simp at hn; omega
        | succ k => omega
      have := ih (n / 10) h0 (by rw [Nat.pow_succ] at hn; omega)
      simp
      omega

theorem notifyPath_length {pid : Nat} (h : pid < 2 ^ 31) : (notifyPath pid).length ≤ 28 := by
  have h1 := toDigits_length 10 pid (by decide) (by omega)
  have h2 : (notifyPath pid).length = 18 + (Nat.toDigits 10 pid).length := List.length_append
  omega

theorem notifyVar_eq {pid : Nat} (h : pid < 2 ^ 31) : notifyVar pid = notifyPath pid := by
  have := notifyPath_length h
  exact List.take_of_length_le (by omega)

theorem notifyBind_eq {pid : Nat} (h : pid < 2 ^ 31) : notifyBind pid = Char.ofNat 0 :: (notifyPath pid).drop 1 := by
  have := notifyPath_length h
  unfold notifyBind strlcpy
  rw [List.take_of_length_le (by omega)]

theorem notifyBind_inj {p q : Nat} (hp : p < 2 ^ 31) (hq : q < 2 ^ 31) (h : notifyBind p = notifyBind q) : p = q := by
  rw [notifyBind_eq hp, notifyBind_eq hq] at h
  have h : "run/finit/notify/".toList ++ Nat.toDigits 10 p = "run/finit/notify/".toList ++ Nat.toDigits 10 q :=
    (List.cons.inj h).2
  have := List.append_cancel_left h
  rw [← decVal_toDigits p, ← decVal_toDigits q, this]

/-- A child that was given the variable talks to the socket its parent has bound. -/
theorem sdNotify_var {pid : Nat} (h : pid < 2 ^ 31) {msg : CStr} (hm : msg ≠ []) :
    sdNotify (some (notifyVar pid)) msg = .send (notifyBind pid) msg := by
  have hl := notifyPath_length h
  have hh : (notifyPath pid).head? = some '@' := rfl
  unfold sdNotify
  rw [if_neg hm]
  dsimp only
  rw [notifyVar_eq h, notifyBind_eq h, if_neg (by rw [hh]; decide), if_neg (by omega), if_pos hh]

theorem hasLine_iff (msg line : CStr) (hl : line ≠ []) (hn : '\n' ∉ line) :
    line ∈ tokens (· == '\n') msg ↔ HasLine msg line := by
  rw [mem_tokens_iff]
  unfold IsMember HasLine
  have hall : ∀ c ∈ line, (c == '\n') = false := by
    intro c hc
    rw [beq_eq_false_iff_ne]
    exact fun e => hn (e ▸ hc)
  constructor
  · rintro ⟨_, _, pre, post, rfl, hpre, hpost⟩
    refine ⟨pre, post, rfl, ?_, ?_⟩
    · rcases hpre with rfl | ⟨q, c, rfl, hc⟩
      · exact Or.inl rfl
      · rw [beq_iff_eq] at hc
        subst hc
        right; simp
    · rcases hpost with rfl | ⟨c, q, rfl, hc⟩
      · exact Or.inl rfl
      · rw [beq_iff_eq] at hc
        subst hc
        right; rfl
  · rintro ⟨a, b, rfl, ha, hb⟩
    refine ⟨hl, hall, a, b, rfl, ?_, ?_⟩
    · rcases ha with ha | ha
      · exact Or.inl ha
      · right
        have hne : a ≠ [] := by intro e; rw [e] at ha; cases ha
        rw [List.getLast?_eq_some_getLast hne] at ha
        injection ha with ha
        exact ⟨a.dropLast, '\n', by rw [← ha]; exact (List.dropLast_concat_getLast hne).symm, rfl⟩
    · rcases hb with hb | hb
      · exact Or.inl hb
      · right
        cases b with
        | nil => cases hb
        | cons c b =>
          injection hb with hb
          exact ⟨c, b, rfl, by rw [hb]; rfl⟩

theorem isReadyMsg_iff (msg : CStr) : isReadyMsg msg = true ↔ HasLine (msg.take 31) "READY=1".toList := by
  unfold isReadyMsg
  rw [decide_eq_true_iff]
  exact hasLine_iff _ _ (by decide) (by decide)

/-- The socket a call gets to: that of the service with this process, if it is bound -/
theorem find_sock {pids : List Nat} (hn : pids.Nodup) (hp : ∀ p ∈ pids, p < 2 ^ 31) {i pid : Nat} (hi : pids[i]? = some pid)
    (b : Nat → Bool) :
    (List.range pids.length).find? (fun j => b j && decide (notifyBind (pids.getD j 0) = notifyBind pid)) =
      if b i then some i else none := by
  obtain ⟨hlt, hget⟩ := List.getElem?_eq_some_iff.1 hi
  have hself : pids.getD i 0 = pid := by simp [List.getD, hi]
  have honly : ∀ j ∈ List.range pids.length, notifyBind (pids.getD j 0) = notifyBind pid → j = i := by
    intro j hj e
    rw [List.mem_range] at hj
    have hg : pids.getD j 0 = pids[j] := by simp [List.getD, List.getElem?_eq_getElem hj]
    rw [hg] at e
    have := notifyBind_inj (hp _ (List.getElem_mem hj)) (hp _ (hget ▸ List.getElem_mem hlt)) e
    exact (List.getElem_inj hn).1 (this.trans hget.symm)
  split
  · rename_i hb
    cases hf : (List.range pids.length).find? (fun j => b j && decide (notifyBind (pids.getD j 0) = notifyBind pid)) with
    | none =>
      have := List.find?_eq_none.1 hf i (List.mem_range.2 hlt)
      simp only [hb, hself, decide_true, Bool.and_self, not_true_eq_false] at this
    | some j =>
      have h1 := List.find?_some hf
      have h2 := List.mem_of_find?_eq_some hf
      simp only [Bool.and_eq_true, decide_eq_true_eq] at h1
      rw [honly j h2 h1.2]
  · rename_i hb
    rw [List.find?_eq_none]
    intro j hj
    simp only [Bool.and_eq_true, decide_eq_true_eq]
    rintro ⟨h1, h2⟩
    rw [honly j hj h2] at h1
    exact hb h1

/-- The messages that were delivered to a service: it has them in the queue, or they were read and it is ready if one says so. -/
structure NotifyOk (pids : List Nat) (i pid : Nat) (es : List NotifyEv) (s : NotifySt) : Prop where
  /-- nothing comes from elsewhere -/
  sent : ∀ m ∈ s.queue i, ∃ env, NotifyEv.call env m ∈ es ∧ ∃ a, sdNotify env m = .send a m ∧ a = notifyBind pid
  ready : s.ready i = true → ∃ env m, NotifyEv.call env m ∈ es ∧ sdNotify env m = .send (notifyBind pid) m ∧ isReadyMsg m = true

theorem sdNotify_msg {env : Option CStr} {msg a m : CStr} (h : sdNotify env msg = .send a m) : m = msg := by
  unfold sdNotify at h
  split at h
  · cases h
  · split at h
    · cases h
    · split at h
      · cases h
      · split at h
        · cases h
        · injection h with _ h; exact h.symm

theorem notify_ok {pids : List Nat} {i pid : Nat} (hi : pids[i]? = some pid) (es : List NotifyEv) :
    NotifyOk pids i pid es (notifyRun pids es) := by
  have key : ∀ (n : Nat) (es : List NotifyEv), es.length = n → NotifyOk pids i pid es (notifyRun pids es) := by
    intro n
    induction n with
    | zero =>
      intro es h
      rw [List.length_eq_zero_iff.1 h]
      exact ⟨fun m hm => (nomatch hm), fun h => (nomatch h)⟩
    | succ n ih =>
      intro es h
      have hne : es ≠ [] := by intro e; rw [e] at h; simp at h
      have he := List.dropLast_concat_getLast hne
      generalize es.dropLast = a at he
      generalize es.getLast hne = e at he
      subst he
      have h0 := ih a (by simpa using h)
      have hr : notifyRun pids (a ++ [e]) = notifyStep pids (notifyRun pids a) e := by
        unfold notifyRun
        rw [List.foldl_append, List.foldl_cons, List.foldl_nil]
      rw [hr]
      have more : ∀ x, x ∈ a → x ∈ a ++ [e] := fun x hx => by simp [hx]
      have base : NotifyOk pids i pid (a ++ [e]) (notifyRun pids a) := by
        refine ⟨fun m hm => ?_, fun hrd => ?_⟩
        · obtain ⟨v, h1, h2⟩ := h0.sent m hm
          exact ⟨v, more _ h1, h2⟩
        · obtain ⟨v, m, h1, h2⟩ := h0.ready hrd
          exact ⟨v, m, more _ h1, h2⟩
      cases e with
      | bind j => exact ⟨base.sent, base.ready⟩
      | call env msg =>
        unfold notifyStep
        dsimp only
        split
        · rename_i addr m hs
          split
          · rename_i j hj
            refine ⟨?_, base.ready⟩
            intro x hx
            dsimp only at hx
            split at hx
            · rename_i e
              subst e
              rcases List.mem_append.1 hx with hx | hx
              · exact base.sent x hx
              · rw [List.mem_singleton] at hx
                subst hx
                have hm := sdNotify_msg hs
                subst hm
                refine ⟨env, by simp, addr, hs, ?_⟩
                have := List.find?_some hj
                simp only [Bool.and_eq_true, decide_eq_true_eq] at this
                rw [← this.2]
                simp [List.getD, hi]
            · exact base.sent x hx
          · exact base
        · exact base
      | read j =>
        unfold notifyStep
        dsimp only
        split
        · exact base
        · rename_i m ms hq
          refine ⟨?_, ?_⟩
          · intro x hx
            dsimp only at hx
            split at hx
            · rename_i e
              subst e
              exact base.sent x (by rw [hq]; simp [hx])
            · exact base.sent x hx
          · intro hrd
            dsimp only at hrd
            split at hrd
            · rename_i e
              subst e
              rw [Bool.or_eq_true] at hrd
              rcases hrd with hrd | hrd
              · exact base.ready hrd
              · obtain ⟨v, h1, addr, h2, h3⟩ := base.sent m (by rw [hq]; simp)
                exact ⟨v, m, h1, h3 ▸ h2, hrd⟩
            · exact base.ready hrd
  exact key _ es rfl

/-- A message that is in the queue, or was read, stays with the service. -/
theorem notify_stays {pids : List Nat} {i : Nat} {m : CStr} (hm : isReadyMsg m = true) : ∀ (es : List NotifyEv) (s : NotifySt),
    (m ∈ s.queue i ∨ s.ready i = true) →
    m ∈ (es.foldl (notifyStep pids) s).queue i ∨ (es.foldl (notifyStep pids) s).ready i = true := by
  intro es
  induction es with
  | nil => intro s h; exact h
  | cons e es ih =>
    intro s h
    rw [List.foldl_cons]
    apply ih
    cases e with
    | bind j => exact h
    | call env msg =>
      unfold notifyStep
      dsimp only
      split
      · split
        · dsimp only
          split
          · rcases h with h | h
            · exact Or.inl (by simp [h])
            · exact Or.inr h
          · exact h
        · exact h
      · exact h
    | read j =>
      unfold notifyStep
      dsimp only
      split
      · exact h
      · rename_i x xs hq
        dsimp only
        by_cases hij : i = j
        · subst hij
          rw [if_pos rfl, if_pos rfl]
          rcases h with h | h
          · rw [hq] at h
            rcases List.mem_cons.1 h with rfl | h
            · right; rw [hm, Bool.or_true]
            · exact Or.inl h
          · right; rw [h, Bool.true_or]
        · rw [if_neg hij, if_neg hij]
          exact h

theorem bound_stays {pids : List Nat} {i : Nat} : ∀ (es : List NotifyEv) (s : NotifySt), s.bound i = true →
    (es.foldl (notifyStep pids) s).bound i = true := by
  intro es
  induction es with
  | nil => intro s h; exact h
  | cons e es ih =>
    intro s h
    rw [List.foldl_cons]
    apply ih
    cases e with
    | bind j => unfold notifyStep; dsimp only; split <;> first | rfl | exact h
    | call env msg =>
      unfold notifyStep
      dsimp only
      split
      · split <;> exact h
      · exact h
    | read j =>
      unfold notifyStep
      dsimp only
      split <;> exact h

/-! ## Theorems -/

/-- A process with the environment Finit gave it that sends `READY=1` on a line within the first 31 bytes of a message makes its
    service ready, once Finit has bound the socket and reads what was sent; whatever else is sent by whomever, before and after. -/
theorem C85_ready_partial (pids : List Nat) (i pid : Nat) (a b c : List NotifyEv) (msg : CStr) (hn : pids.Nodup)
    (hp : ∀ p ∈ pids, p < 2 ^ 31) (hi : pids[i]? = some pid) (hm : HasLine (msg.take 31) "READY=1".toList)
    (hread : (notifyRun pids (a ++ NotifyEv.bind i :: (b ++ NotifyEv.call (some (notifyVar pid)) msg :: c))).queue i = []) :
    (notifyRun pids (a ++ NotifyEv.bind i :: (b ++ NotifyEv.call (some (notifyVar pid)) msg :: c))).ready i = true := by
  have hm' := (isReadyMsg_iff msg).2 hm
  have hne : msg ≠ [] := by
    rintro rfl
    obtain ⟨x, y, e, _⟩ := hm
    have := congrArg List.length e
    simp at this
  have hpid : pid < 2 ^ 31 := by
    obtain ⟨hlt, hget⟩ := List.getElem?_eq_some_iff.1 hi
    exact hp _ (hget ▸ List.getElem_mem hlt)
  have hq : msg ∈ (notifyRun pids (a ++ NotifyEv.bind i :: (b ++ NotifyEv.call (some (notifyVar pid)) msg :: c))).queue i ∨
      (notifyRun pids (a ++ NotifyEv.bind i :: (b ++ NotifyEv.call (some (notifyVar pid)) msg :: c))).ready i = true := by
    unfold notifyRun
    rw [List.foldl_append, List.foldl_cons, List.foldl_append, List.foldl_cons]
    apply notify_stays hm'
    generalize hs : List.foldl (notifyStep pids) (notifyStep pids (List.foldl (notifyStep pids) {} a) (NotifyEv.bind i)) b = s
    have hb : s.bound i = true := by
      rw [← hs]
      apply bound_stays
      change (if i = i then true else _) = true
      rw [if_pos rfl]
    left
    unfold notifyStep
    dsimp only
    rw [sdNotify_var hpid hne]
    dsimp only
    rw [find_sock hn hp hi s.bound, if_pos hb]
    dsimp only
    rw [if_pos rfl]
    simp
  rcases hq with h | h
  · rw [hread] at h; cases h
  · exact h

/-- A service is only made ready by a message to its own socket, the first 31 bytes of which have this line. -/
theorem C85_only (pids : List Nat) (i pid : Nat) (es : List NotifyEv) (hi : pids[i]? = some pid)
    (h : (notifyRun pids es).ready i = true) :
    ∃ env msg, NotifyEv.call env msg ∈ es ∧ sdNotify env msg = .send (notifyBind pid) msg ∧
      HasLine (msg.take 31) "READY=1".toList := by
  obtain ⟨env, m, h1, h2, h3⟩ := (notify_ok hi es).ready h
  exact ⟨env, m, h1, h2, (isReadyMsg_iff m).1 h3⟩

/-- Two services never share a socket. -/
theorem C85_own (p q : Nat) (hp : p < 2 ^ 31) (hq : q < 2 ^ 31) (msg msg' : CStr) (a : CStr)
    (h : sdNotify (some (notifyVar p)) msg = .send a msg) (h' : sdNotify (some (notifyVar q)) msg' = .send a msg') : p = q := by
  have hm : msg ≠ [] := by
    rintro rfl
    cases h
  have hm' : msg' ≠ [] := by
    rintro rfl
    cases h'
  rw [sdNotify_var hp hm] at h
  rw [sdNotify_var hq hm'] at h'
  injection h with h _
  injection h' with h' _
  exact notifyBind_inj hp hq (h.trans h'.symm)

/-- With s6 a service is ready if what it writes at once ends in a line feed. -/
theorem C85_s6 (text : CStr) : ∃ ps, pipePieces (text ++ ['\n']) = ps ∧ ∃ p ∈ ps, isReadyPiece p = true := by
  refine ⟨_, rfl, ?_⟩
  generalize hl : text.length = l
  induction l using Nat.strongRecOn generalizing text with
  | _ l ih =>
    rw [pipePieces, dif_neg (by simp)]
    by_cases h : l < 31
    · refine ⟨_, List.mem_cons_self, ?_⟩
      rw [List.take_of_length_le (by simp; omega)]
      unfold isReadyPiece
      simp
    · have hd : (text ++ ['\n']).drop 31 = text.drop 31 ++ ['\n'] := List.drop_append_of_le_length (by omega)
      obtain ⟨p, hp, hr⟩ := ih (l - 31) (by omega) (text.drop 31) (by rw [List.length_drop]; omega)
      rw [hd]
      exact ⟨p, List.mem_cons_of_mem _ hp, hr⟩

/-- But not if more comes after the line feed and both are read at once. -/
theorem C85_s6_more (text more : CStr) (hm : more ≠ []) (hn : '\n' ∉ more) (hl : text.length + 1 + more.length ≤ 31) :
    ∀ p ∈ pipePieces (text ++ '\n' :: more), isReadyPiece p = false := by
  intro p hp
  rw [pipePieces, dif_neg (by simp), List.drop_of_length_le (by simp; omega), pipePieces, dif_pos rfl,
    List.take_of_length_le (by simp; omega), List.mem_singleton] at hp
  subst hp
  unfold isReadyPiece
  rw [decide_eq_false_iff_not]
  intro h
  obtain ⟨b, c, e⟩ := (List.eq_nil_or_concat more).resolve_left hm
  rw [List.concat_eq_append] at e
  rw [e, ← List.cons_append, ← List.append_assoc, List.getLast?_concat] at h
  exact hn (by rw [e, ← Option.some.inj h]; simp)

example : ("ok".toList : CStr) ≠ [] ∧ '\n' ∉ "ok".toList ∧ "up".toList.length + 1 + "ok".toList.length ≤ 31 := by decide

/-- The full claim is false: a message sent before the parent has bound the socket is lost. -/
theorem C85_race (pids : List Nat) (i pid : Nat) (msg : CStr) (s : NotifySt) (hn : pids.Nodup) (hp : ∀ p ∈ pids, p < 2 ^ 31)
    (hi : pids[i]? = some pid) (hb : s.bound i = false) : notifyStep pids s (.call (some (notifyVar pid)) msg) = s := by
  have hpid : pid < 2 ^ 31 := by
    obtain ⟨hlt, hget⟩ := List.getElem?_eq_some_iff.1 hi
    exact hp _ (hget ▸ List.getElem_mem hlt)
  unfold notifyStep
  by_cases hm : msg = []
  · subst hm; rfl
  · dsimp only
    rw [sdNotify_var hpid hm]
    dsimp only
    rw [find_sock hn hp hi s.bound, if_neg (by simp [hb])]

/-- So is the line `READY=1` if it comes after a status of some length, and a line that only begins with it may be taken for it. -/
theorem C85_cut : isReadyMsg "STATUS=Listening on port 80\nREADY=1".toList = false ∧
    HasLine "STATUS=Listening on port 80\nREADY=1".toList "READY=1".toList ∧
    isReadyMsg "STATUS=Starting up now\nREADY=10".toList = false ∧
    isReadyMsg "STATUS=Starting up now.\nREADY=10".toList = true := by
  refine ⟨by decide, ⟨"STATUS=Listening on port 80\n".toList, [], by decide, by decide, by decide⟩, by decide, by decide⟩

/-- Anyone can say that a service is ready: the address has nothing in it but the number of the process. -/
theorem C85_anyone (pid : Nat) (h : pid < 2 ^ 31) :
    sdNotify (some ("@run/finit/notify/".toList ++ Nat.toDigits 10 pid)) "READY=1".toList = .send (notifyBind pid) "READY=1".toList := by
  have := sdNotify_var h (msg := "READY=1".toList) (by decide)
  rw [notifyVar_eq h] at this
  exact this

/-- `sd_pid_notify` leaves the variable where there was none, and does not take it away when asked to. -/
theorem C85_unset (pid : Nat) (e msg : CStr) (hm : msg ≠ []) :
    (sdPidNotify pid false none msg).2 ≠ none ∧ (sdPidNotify pid true (some e) msg).2 = some e := by
  unfold sdPidNotify
  rw [if_neg hm]
  exact ⟨by simp, by rw [if_neg hm]⟩

theorem C85_full_false : ¬ C85_full := by
  intro h
  have h1 := (h [7] [.call (some (notifyVar 7)) "READY=1".toList, .bind 0] 0 7 (by decide) rfl (by decide) (by decide)).2
    ⟨"READY=1".toList, by simp, [], [], by decide, by decide, by decide⟩
  exact absurd h1 (by decide)

/-- Hypotheses of `C85_ready_partial` that can be met, with two services and a message that says more. -/
example : [7, 8].Nodup ∧ (∀ p ∈ [7, 8], p < 2 ^ 31) ∧ [7, 8][1]? = some 8 ∧ HasLine ("STATUS=up\nREADY=1\n".toList.take 31) "READY=1".toList ∧
    (notifyRun [7, 8] ([.bind 0] ++ .bind 1 :: ([.call (some (notifyVar 7)) "X=1".toList] ++
      .call (some (notifyVar 8)) "STATUS=up\nREADY=1\n".toList :: [.read 1]))).queue 1 = [] ∧
    (notifyRun [7, 8] ([.bind 0] ++ .bind 1 :: ([.call (some (notifyVar 7)) "X=1".toList] ++
      .call (some (notifyVar 8)) "STATUS=up\nREADY=1\n".toList :: [.read 1]))).ready 0 = false := by
  refine ⟨by decide, by decide, rfl, ⟨"STATUS=up\n".toList, "\n".toList, by decide, by decide, by decide⟩, by decide, by decide⟩

/-- Hypotheses of `C85_only` and `C85_own` that can be met. -/
example : (notifyRun [7] [.bind 0, .call (some (notifyVar 7)) "READY=1".toList, .read 0]).ready 0 = true ∧
    sdNotify (some (notifyVar 7)) "READY=1".toList = .send (notifyBind 7) "READY=1".toList := by decide

end Verif
