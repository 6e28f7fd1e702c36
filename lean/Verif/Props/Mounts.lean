import Verif.Mounts
import Verif.CStrLemmas

/-!
# C74: file systems are checked before they are mounted
-/

namespace Verif

/-! ## Specification -/

/-- The fstab(5) that counts: the one asked for, or the one built in if that does not exist -/
def TabFound (E : BfsEnv) (fstab : CStr) (es : List BfsEnt) : Prop :=
  (E.given = some fstab ∧ E.file fstab = some es) ∨
  ((∀ p, E.given = some p → E.file p = none) ∧ E.dflt = some fstab ∧ E.file fstab = some es)

/-- File systems are to be checked, with the settings documented -/
def CheckSettings (E : BfsEnv) : Prop :=
  (E.mode = some [] ∨ E.mode = some "-f".toList) ∧
  (E.repair = "-n".toList ∨ E.repair = "-p".toList ∨ E.repair = "-y".toList) ∧ E.rescue = false

/-- One of the options of the line -/
def LineHas (e : BfsEnt) (opt : CStr) : Prop :=
  ∃ o, IsMember (· == ',') o e.opts ∧ (o = opt ∨ (opt ++ ['=']) <+: o)

/-- A tag in place of a device, see fstab(5) -/
def DevTag (s : CStr) : Prop :=
  "UUID=".toList <+: s ∨ "LABEL=".toList <+: s ∨ "PARTUUID=".toList <+: s ∨ "PARTLABEL=".toList <+: s

/-- The directory is mounted and writable: what was mounted there last counts -/
def WritableNow (E : BfsEnv) (dir : CStr) : Prop :=
  ∃ pre o post, E.mounts = pre ++ (dir, o) :: post ∧ (∀ m ∈ post, m.1 ≠ dir) ∧ IsMember (· == ',') "rw".toList o

/-- A file system that has to be checked -/
def ToCheck (E : BfsEnv) (e : BfsEnt) : Prop :=
  0 < e.passno ∧ (E.isBlk e.fsname = true ∨ DevTag e.fsname) ∧ ¬ WritableNow E e.dir

/-- The command checks the device: its last word, after options only -/
def Checks (cmd dev : CStr) : Prop :=
  ∃ a, cmd = "fsck ".toList ++ a ++ ' ' :: dev ∧ ' ' ∉ dev ∧ ∀ w, IsMember (· == ' ') w a → w.head? = some '-'

/-- fsck(8) found nothing, or nothing it could not put right -/
def Sound (E : BfsEnv) (cmd : CStr) : Prop := E.ends cmd = .exited 0 ∨ E.ends cmd = .exited 1

/-- The line for the root file system -/
def RootLine (es : List BfsEnt) (e : BfsEnt) : Prop :=
  ∃ pre post, es = pre ++ e :: post ∧ e.dir = ['/'] ∧ ∀ x ∈ pre, x.dir ≠ ['/']

/-- The full claim of C74: when file systems are mounted all have been checked, and found sound unless that does not
    matter; the root file system has been made writable unless it is to be read-only; and if a check failed nothing is
    mounted and the system goes down -/
def C74_full : Prop := ∀ E fstab es, CheckSettings E → TabFound E fstab es →
  (∀ pre cmd post, bfsMountAll E = pre ++ .mountAll cmd :: post →
    (∀ e ∈ es, ToCheck E e → ∃ c, .check c ∈ pre ∧ Checks c e.fsname ∧ (Sound E c ∨ LineHas e "nofail".toList)) ∧
    ∀ e, RootLine es e → ¬ LineHas e "ro".toList → .remount ∈ pre) ∧
  ((∃ c, .check c ∈ bfsMountAll E ∧ ¬ Sound E c ∧ ∀ e ∈ es, Checks c e.fsname → ¬ LineHas e "nofail".toList) →
    .remount ∉ bfsMountAll E ∧ (∀ cmd, .mountAll cmd ∉ bfsMountAll E) ∧ (bfsMountAll E).getLast? = some .reboot)

/-- A table without the lines that are not understood -/
structure PlainTab (E : BfsEnv) (es : List BfsEnt) : Prop where
  passes : ∀ e ∈ es, e.passno ≤ 9
  tags : ∀ e ∈ es, DevTag e.fsname → "UUID=".toList <+: e.fsname ∨ "LABEL=".toList <+: e.fsname
  names : ∀ e ∈ es, ' ' ∉ e.fsname ∧ e.fsname.length ≤ 200
  root : ∀ e ∈ es, e.fsname = "/dev/root".toList → E.isBlk e.fsname = true
  once : (E.mounts.map Prod.fst).Nodup

/-- The check ended by itself, with nothing to put right -/
def NothingFixed (E : BfsEnv) (cmd : CStr) : Prop := ∃ n, E.ends cmd = .exited n ∧ n ≠ 1

/-- The checks among the actions -/
def checksIn (acts : List BfsAct) : List CStr :=
  acts.filterMap fun | .check c => some c | _ => none

/-! ## Lemmas -/

theorem bfsHasOpt_iff (e : BfsEnt) (opt : CStr) : bfsHasOpt e.opts opt = true ↔ LineHas e opt := by
  unfold bfsHasOpt LineHas
  rw [List.any_eq_true]
  constructor
  · rintro ⟨o, ho, h⟩
    refine ⟨o, (mem_tokens_iff _ _ _).mp ho, ?_⟩
    rw [Bool.or_eq_true, decide_eq_true_eq, List.isPrefixOf_iff_prefix] at h
    exact h
  · rintro ⟨o, ho, h⟩
    refine ⟨o, (mem_tokens_iff _ _ _).mpr ho, ?_⟩
    rw [Bool.or_eq_true, decide_eq_true_eq, List.isPrefixOf_iff_prefix]
    exact h

theorem bfsIsRw_iff {E : BfsEnv} {dir : CStr} : ∀ {ms : List (CStr × CStr)}, (ms.map Prod.fst).Nodup →
    (bfsIsRw dir ms = true ↔
      ∃ pre o post, ms = pre ++ (dir, o) :: post ∧ (∀ m ∈ post, m.1 ≠ dir) ∧ IsMember (· == ',') "rw".toList o)
  | [], _ => by
    refine ⟨fun h => (nomatch h), ?_⟩
    rintro ⟨pre, o, post, h, -⟩
    cases pre <;> cases h
  | (d, o) :: ms, hn => by
    rw [List.map_cons, List.nodup_cons] at hn
    rw [bfsIsRw]
    split
    · rename_i hd
      have hd : d = dir := hd
      subst hd
      rw [List.contains_iff_mem, mem_tokens_iff]
      constructor
      · intro h
        exact ⟨[], o, ms, rfl, fun m hm e => hn.1 (List.mem_map.mpr ⟨m, hm, e⟩), h⟩
      · rintro ⟨pre, o', post, h, hp, hm⟩
        cases pre with
        | nil => cases h; exact hm
        | cons p pre =>
          cases h
          refine absurd ?_ hn.1
          exact List.mem_map.mpr ⟨(d, o'), List.mem_append.mpr (.inr List.mem_cons_self), rfl⟩
    · rename_i hd
      rw [bfsIsRw_iff (E := E) hn.2]
      constructor
      · rintro ⟨pre, o', post, rfl, hp⟩
        exact ⟨(d, o) :: pre, o', post, rfl, hp⟩
      · rintro ⟨pre, o', post, h, hp⟩
        cases pre with
        | nil => cases h; exact absurd rfl hd
        | cons p pre => cases h; exact ⟨pre, o', post, rfl, hp⟩

theorem bfsMatch_of_prefix {a b : CStr} (h : b <+: a) : bfsMatch a b = true := by
  unfold bfsMatch
  rw [Bool.or_eq_true, List.isPrefixOf_iff_prefix, List.isPrefixOf_iff_prefix]
  exact .inr h

theorem checks_cmd {E : BfsEnv} {mode dev : CStr} (hs : CheckSettings E) (hm : E.mode = some mode) (hb : ' ' ∉ dev) (hl : dev.length ≤ 200) :
    Checks (bfsCmd mode E.repair dev) dev := by
  have ho : ∀ a : CStr, (∀ w ∈ tokens (· == ' ') a, w.head? = some '-') → ∀ w, IsMember (· == ' ') w a → w.head? = some '-' :=
    fun a h w hw => h w ((mem_tokens_iff _ _ _).mpr hw)
  have hcmd : ∀ a : CStr, a.length ≤ 5 → ("fsck ".toList ++ a ++ [' '] ++ dev).take 255 = "fsck ".toList ++ a ++ ' ' :: dev := by
    intro a ha
    rw [List.take_of_length_le (by simp; omega), List.append_assoc _ [' '] dev]
    rfl
  have hgo : ∀ r : CStr, mode.length ≤ 2 → r.length = 2 → (∀ w ∈ tokens (· == ' ') (mode ++ [' '] ++ r), w.head? = some '-') →
      E.repair = r → Checks (bfsCmd mode E.repair dev) dev := by
    intro r h1 h2 h3 h4
    refine ⟨mode ++ [' '] ++ r, ?_, hb, ho _ h3⟩
    rw [h4, ← hcmd _ (by simp; omega)]
    unfold bfsCmd
    rw [List.append_assoc _ mode, List.append_assoc _ (mode ++ [' '])]
  obtain ⟨h1, h2, -⟩ := hs
  rw [hm] at h1
  rcases h1 with h1 | h1 <;> cases h1 <;> rcases h2 with h2 | h2 | h2 <;>
    exact hgo _ (by decide) (by decide) (by decide) h2

/-- What is wanted is what has to be checked -/
theorem bfsWant_of {E : BfsEnv} {es : List BfsEnt} {mode : CStr} {e : BfsEnt} {k : Nat} (hp : PlainTab E es) (he : e ∈ es)
    (h : ToCheck E e) (hk : e.passno = k) : bfsWant E mode k e = some (bfsCmd mode E.repair e.fsname) := by
  obtain ⟨h0, hd, hw⟩ := h
  unfold bfsWant
  rw [if_neg (by omega)]
  have hdev : bfsDev E e.fsname = some e.fsname := by
    unfold bfsDev
    split
    · rfl
    · rename_i hb
      rcases hd with hd | hd
      · exact absurd hd hb
      · rw [if_pos]
        rw [Bool.or_eq_true]
        rcases hp.tags e he hd with h | h
        · exact .inl (bfsMatch_of_prefix h)
        · exact .inr (bfsMatch_of_prefix h)
  rw [hdev]
  dsimp only
  rw [if_neg]
  intro h
  exact hw ((bfsIsRw_iff (E := E) hp.once).mp h)

theorem bfsWant_pass {E : BfsEnv} {mode c : CStr} {k : Nat} {e : BfsEnt} (h : bfsWant E mode k e = some c) : e.passno = k ∧ 0 < e.passno := by
  unfold bfsWant at h
  split at h
  · cases h
  · rename_i hk
    omega

/-- A pass that ends -/
theorem bfsPass_some {E : BfsEnv} {mode : CStr} {k : Nat} : ∀ {es : List BfsEnt} {acts : List BfsAct} {b : Bool},
    bfsPass E mode k es = (acts, some b) →
    (∃ l : List (BfsEnt × CStr), acts = l.map (fun p => .check p.2) ∧ (l.map Prod.fst).Sublist es ∧
      ∀ p ∈ l, bfsWant E mode k p.1 = some p.2) ∧
    (∀ e ∈ es, ∀ c, bfsWant E mode k e = some c → .check c ∈ acts ∧ (bfsStatus E c ≤ 1 ∨ bfsHasOpt e.opts "nofail".toList = true)) ∧
    (b = false → ∀ e ∈ es, ∀ c, bfsWant E mode k e = some c →
      bfsStatus E c = 0 ∨ (1 < bfsStatus E c ∧ bfsHasOpt e.opts "nofail".toList = true)) ∧
    (b = true → ∃ e ∈ es, ∃ c, bfsWant E mode k e = some c ∧ bfsStatus E c = 1)
  | [], acts, b, h => by
    cases h
    exact ⟨⟨[], rfl, List.Sublist.slnil, fun p hp => (nomatch hp)⟩, fun e he => (nomatch he), fun _ e he => (nomatch he), fun h => (nomatch h)⟩
  | e :: es, acts, b, h => by
    rw [bfsPass] at h
    split at h
    · rename_i hw
      obtain ⟨⟨l, h1, h2, h3⟩, h4, h5, h6⟩ := bfsPass_some h
      refine ⟨⟨l, h1, h2.cons _, h3⟩, ?_, ?_, ?_⟩
      · intro x hx c hc
        rcases List.mem_cons.mp hx with rfl | hx
        · rw [hw] at hc; cases hc
        · exact h4 x hx c hc
      · intro hb x hx c hc
        rcases List.mem_cons.mp hx with rfl | hx
        · rw [hw] at hc; cases hc
        · exact h5 hb x hx c hc
      · intro hb
        obtain ⟨x, hx, c, hc⟩ := h6 hb
        exact ⟨x, List.mem_cons_of_mem _ hx, c, hc⟩
    · rename_i cmd hw
      rcases hr : bfsPass E mode k es with ⟨acts', r⟩
      rw [hr] at h
      split at h
      · rename_i hs
        split at h
        · rename_i hn
          cases h
          obtain ⟨⟨l, h1, h2, h3⟩, h4, h5, h6⟩ := bfsPass_some hr
          refine ⟨⟨(e, cmd) :: l, by rw [h1]; rfl, h2.cons_cons _, ?_⟩, ?_, ?_, ?_⟩
          · intro p hp
            rcases List.mem_cons.mp hp with rfl | hp
            · exact hw
            · exact h3 p hp
          · intro x hx c hc
            rcases List.mem_cons.mp hx with rfl | hx
            · rw [hw] at hc; cases hc
              exact ⟨List.mem_cons_self, .inr hn⟩
            · exact ⟨List.mem_cons_of_mem _ (h4 x hx c hc).1, (h4 x hx c hc).2⟩
          · intro hb x hx c hc
            rcases List.mem_cons.mp hx with rfl | hx
            · rw [hw] at hc; cases hc
              exact .inr ⟨hs, hn⟩
            · exact h5 hb x hx c hc
          · intro hb
            obtain ⟨x, hx, c, hc⟩ := h6 hb
            exact ⟨x, List.mem_cons_of_mem _ hx, c, hc⟩
        · cases h
      · rename_i hs
        cases r with
        | none => cases h
        | some b' =>
        cases h
        obtain ⟨⟨l, h1, h2, h3⟩, h4, h5, h6⟩ := bfsPass_some hr
        refine ⟨⟨(e, cmd) :: l, by rw [h1]; rfl, h2.cons_cons _, ?_⟩, ?_, ?_, ?_⟩
        · intro p hp
          rcases List.mem_cons.mp hp with rfl | hp
          · exact hw
          · exact h3 p hp
        · intro x hx c hc
          rcases List.mem_cons.mp hx with rfl | hx
          · rw [hw] at hc; cases hc
            exact ⟨List.mem_cons_self, .inl (by omega)⟩
          · exact ⟨List.mem_cons_of_mem _ (h4 x hx c hc).1, (h4 x hx c hc).2⟩
        · intro hb x hx c hc
          rw [Bool.or_eq_false_iff, decide_eq_false_iff_not] at hb
          rcases List.mem_cons.mp hx with rfl | hx
          · rw [hw] at hc; cases hc
            exact .inl (by omega)
          · exact h5 hb.1 x hx c hc
        · intro hb
          rw [Bool.or_eq_true, decide_eq_true_eq] at hb
          rcases hb with hb | hb
          · obtain ⟨x, hx, c, hc⟩ := h6 hb
            exact ⟨x, List.mem_cons_of_mem _ hx, c, hc⟩
          · exact ⟨e, List.mem_cons_self, cmd, hw, by omega⟩

/-- A pass that fails -/
theorem bfsPass_none {E : BfsEnv} {mode : CStr} {k : Nat} : ∀ {es : List BfsEnt} {acts : List BfsAct},
    bfsPass E mode k es = (acts, none) →
    ∃ l : List (BfsEnt × CStr), acts = l.map (fun p => .check p.2) ++ bfsSulogin E ∧ (l.map Prod.fst).Sublist es ∧
      (∀ p ∈ l, bfsWant E mode k p.1 = some p.2) ∧
      ∃ p ∈ l, 1 < bfsStatus E p.2 ∧ bfsHasOpt p.1.opts "nofail".toList = false
  | [], acts, h => by cases h
  | e :: es, acts, h => by
    rw [bfsPass] at h
    have next : ∀ {cmd : CStr} {acts' : List BfsAct}, bfsWant E mode k e = some cmd → bfsPass E mode k es = (acts', none) →
        acts = .check cmd :: acts' → ∃ l : List (BfsEnt × CStr), acts = l.map (fun p => .check p.2) ++ bfsSulogin E ∧
          (l.map Prod.fst).Sublist (e :: es) ∧ (∀ p ∈ l, bfsWant E mode k p.1 = some p.2) ∧
          ∃ p ∈ l, 1 < bfsStatus E p.2 ∧ bfsHasOpt p.1.opts "nofail".toList = false := by
      intro cmd acts' hw hr ha
      obtain ⟨l, h1, h2, h3, p, hp, h4⟩ := bfsPass_none hr
      refine ⟨(e, cmd) :: l, by rw [ha, h1]; rfl, h2.cons_cons _, ?_, p, List.mem_cons_of_mem _ hp, h4⟩
      intro q hq
      rcases List.mem_cons.mp hq with rfl | hq
      · exact hw
      · exact h3 q hq
    split at h
    · obtain ⟨l, h1, h2, h3⟩ := bfsPass_none h
      exact ⟨l, h1, h2.cons _, h3⟩
    · rename_i cmd hw
      rcases hr : bfsPass E mode k es with ⟨acts', r⟩
      rw [hr] at h
      split at h
      · rename_i hs
        split at h
        · rename_i hn
          cases h
          exact next hw hr rfl
        · rename_i hn
          cases h
          refine ⟨[(e, cmd)], rfl, (List.nil_sublist es).cons_cons e, ?_, (e, cmd), List.mem_cons_self, hs, Bool.eq_false_iff.mpr hn⟩
          intro p hp
          rcases List.mem_cons.mp hp with rfl | hp
          · exact hw
          · cases hp
      · cases r with
        | some b' => cases h
        | none => cases h; exact next hw hr rfl

/-- Checks made, with the lines they are for -/
structure CheckList (E : BfsEnv) (mode : CStr) (es : List BfsEnt) (lo : Nat) (l : List (BfsEnt × CStr)) : Prop where
  want : ∀ p ∈ l, p.1 ∈ es ∧ ∃ k, lo ≤ k ∧ bfsWant E mode k p.1 = some p.2
  order : l.Pairwise (fun a b => a.1.passno ≤ b.1.passno)
  each : ∀ k : Int, ((l.filter (fun p => p.1.passno = k)).map Prod.fst).Sublist es

theorem CheckList.nil {E : BfsEnv} {mode : CStr} {es : List BfsEnt} {lo : Nat} : CheckList E mode es lo [] :=
  ⟨fun _ hp => (nomatch hp), List.Pairwise.nil, fun _ => List.nil_sublist _⟩

theorem CheckList.pass {E : BfsEnv} {mode : CStr} {es : List BfsEnt} {k : Nat} {l m : List (BfsEnt × CStr)}
    (h1 : (l.map Prod.fst).Sublist es) (h2 : ∀ p ∈ l, bfsWant E mode k p.1 = some p.2) (hm : CheckList E mode es (k + 1) m) :
    CheckList E mode es k (l ++ m) := by
  have hl : ∀ p ∈ l, p.1.passno = k := fun p hp => (bfsWant_pass (h2 p hp)).1
  have hmk : ∀ p ∈ m, (k : Int) + 1 ≤ p.1.passno := by
    intro p hp
    obtain ⟨-, j, hj, hw⟩ := hm.want p hp
    have := (bfsWant_pass hw).1
    omega
  refine ⟨?_, ?_, ?_⟩
  · intro p hp
    rcases List.mem_append.mp hp with hp | hp
    · exact ⟨h1.subset (List.mem_map_of_mem hp), k, Nat.le_refl _, h2 p hp⟩
    · obtain ⟨h, j, hj, hw⟩ := hm.want p hp
      exact ⟨h, j, by omega, hw⟩
  · rw [List.pairwise_append]
    refine ⟨?_, hm.order, ?_⟩
    · refine List.Pairwise.imp_of_mem (R := fun _ _ => True) ?_ (List.pairwise_of_forall (fun _ _ => trivial))
      intro a b ha hb _
      rw [hl a ha, hl b hb]
      exact Int.le_refl _
    · intro a ha b hb
      have := hl a ha
      have := hmk b hb
      omega
  · intro j
    rw [List.filter_append, List.map_append]
    by_cases hj : j = k
    · rw [show m.filter (fun p => decide (p.1.passno = j)) = [] from List.filter_eq_nil_iff.mpr (by
        intro p hp h
        have := hmk p hp
        have := of_decide_eq_true h
        omega), List.map_nil, List.append_nil]
      exact (List.filter_sublist.map _).trans h1
    · rw [show l.filter (fun p => decide (p.1.passno = j)) = [] from List.filter_eq_nil_iff.mpr (by
        intro p hp h
        have := hl p hp
        have := of_decide_eq_true h
        omega), List.map_nil, List.nil_append]
      exact hm.each j

theorem bfsPasses_some {E : BfsEnv} {mode : CStr} {es : List BfsEnt} : ∀ {n k : Nat} {acts : List BfsAct} {b : Bool},
    bfsPasses E mode es n k = (acts, some b) →
    (∃ l, acts = l.map (fun p => .check p.2) ∧ CheckList E mode es k l ∧
      (∀ p ∈ l, bfsStatus E p.2 ≤ 1 ∨ bfsHasOpt p.1.opts "nofail".toList = true) ∧
      (b = true → ∃ p ∈ l, bfsStatus E p.2 = 1) ∧ (b = false → ∀ p ∈ l, bfsStatus E p.2 ≠ 1) ∧
      ∀ p ∈ l, ∀ q ∈ l, bfsStatus E p.2 = 1 → q.1.passno ≤ p.1.passno) ∧
    (b = false → ∀ e ∈ es, ∀ j c, k ≤ j → j < k + n → bfsWant E mode j e = some c →
      .check c ∈ acts ∧ (bfsStatus E c = 0 ∨ bfsHasOpt e.opts "nofail".toList = true))
  | 0, k, acts, b, h => by
    cases h
    exact ⟨⟨[], rfl, CheckList.nil, fun p hp => (nomatch hp), fun h => (nomatch h), fun _ p hp => (nomatch hp),
      fun p hp => (nomatch hp)⟩, fun _ e he j c h1 h2 => by omega⟩
  | n + 1, k, acts, b, h => by
    rw [bfsPasses] at h
    split at h
    · cases h
    · rename_i acts' hp
      cases h
      obtain ⟨⟨l, h1, h2, h3⟩, h4, -, h6⟩ := bfsPass_some hp
      have hcl : CheckList E mode es k l := by
        have := CheckList.pass h2 h3 (CheckList.nil (E := E) (mode := mode) (es := es))
        rwa [List.append_nil] at this
      refine ⟨⟨l, h1, hcl, ?_, fun _ => ?_, fun h => (nomatch h), ?_⟩, fun h => (nomatch h)⟩
      · intro p hp
        exact (h4 p.1 (hcl.want p hp).1 p.2 (h3 p hp)).2
      · obtain ⟨e, he, c, hc, hs⟩ := h6 rfl
        have := (h4 e he c hc).1
        rw [h1, List.mem_map] at this
        obtain ⟨p, hp, hpc⟩ := this
        cases hpc
        exact ⟨p, hp, hs⟩
      · intro p hp q hq _
        rw [(bfsWant_pass (h3 q hq)).1, (bfsWant_pass (h3 p hp)).1]
        exact Int.le_refl _
    · rename_i acts' hp
      rcases hr : bfsPasses E mode es n (k + 1) with ⟨acts'', r⟩
      rw [hr] at h
      cases h
      obtain ⟨⟨l, h1, h2, h3⟩, h4, h5, -⟩ := bfsPass_some hp
      obtain ⟨⟨m, g1, g2, g3, g4, g6, g7⟩, g5⟩ := bfsPasses_some hr
      have hl1 : ∀ p ∈ l, bfsStatus E p.2 ≠ 1 := by
        intro p hp h
        rcases h5 rfl p.1 (h2.subset (List.mem_map_of_mem hp)) p.2 (h3 p hp) with h' | h' <;> omega
      refine ⟨⟨l ++ m, by rw [h1, g1, List.map_append], CheckList.pass h2 h3 g2, ?_, ?_, ?_, ?_⟩, ?_⟩
      · intro p hp
        rcases List.mem_append.mp hp with hp | hp
        · exact (h4 p.1 (h2.subset (List.mem_map_of_mem hp)) p.2 (h3 p hp)).2
        · exact g3 p hp
      · intro hb
        obtain ⟨p, hp, hs⟩ := g4 hb
        exact ⟨p, List.mem_append.mpr (.inr hp), hs⟩
      · intro hb p hp
        rcases List.mem_append.mp hp with hp | hp
        · exact hl1 p hp
        · exact g6 hb p hp
      · intro p hp q hq hs
        rcases List.mem_append.mp hp with hp | hp
        · exact absurd hs (hl1 p hp)
        · rcases List.mem_append.mp hq with hq | hq
          · have h7 := (bfsWant_pass (h3 q hq)).1
            obtain ⟨-, j, hj, hw⟩ := g2.want p hp
            have := (bfsWant_pass hw).1
            omega
          · exact g7 p hp q hq hs
      · intro hb e he j c hj1 hj2 hw
        by_cases hjk : j = k
        · subst hjk
          exact ⟨List.mem_append.mpr (.inl (h4 e he c hw).1), (h5 rfl e he c hw).imp_right (·.2)⟩
        · have := g5 hb e he j c (by omega) (by omega) hw
          exact ⟨List.mem_append.mpr (.inr this.1), this.2⟩

theorem bfsPasses_none {E : BfsEnv} {mode : CStr} {es : List BfsEnt} : ∀ {n k : Nat} {acts : List BfsAct},
    bfsPasses E mode es n k = (acts, none) →
    ∃ l, acts = l.map (fun p => .check p.2) ++ bfsSulogin E ∧ CheckList E mode es k l ∧
      (∀ p ∈ l, ∀ q ∈ l, bfsStatus E p.2 = 1 → q.1.passno ≤ p.1.passno) ∧
      ∃ p ∈ l, 1 < bfsStatus E p.2 ∧ bfsHasOpt p.1.opts "nofail".toList = false
  | 0, k, acts, h => by cases h
  | n + 1, k, acts, h => by
    rw [bfsPasses] at h
    split at h
    · rename_i acts' hp
      cases h
      obtain ⟨l, h1, h2, h3, h4⟩ := bfsPass_none hp
      refine ⟨l, h1, ?_, ?_, h4⟩
      · have := CheckList.pass h2 h3 (CheckList.nil (E := E) (mode := mode) (es := es))
        rwa [List.append_nil] at this
      · intro p hp q hq _
        rw [(bfsWant_pass (h3 q hq)).1, (bfsWant_pass (h3 p hp)).1]
        exact Int.le_refl _
    · cases h
    · rename_i acts' hp
      rcases hr : bfsPasses E mode es n (k + 1) with ⟨acts'', r⟩
      rw [hr] at h
      cases h
      obtain ⟨⟨l, h1, h2, h3⟩, -, h5, -⟩ := bfsPass_some hp
      obtain ⟨m, g1, g2, g7, p, g3, g4⟩ := bfsPasses_none hr
      have hl1 : ∀ p ∈ l, bfsStatus E p.2 ≠ 1 := by
        intro p hp h
        rcases h5 rfl p.1 (h2.subset (List.mem_map_of_mem hp)) p.2 (h3 p hp) with h' | h' <;> omega
      refine ⟨l ++ m, by rw [h1, g1, List.map_append, List.append_assoc], CheckList.pass h2 h3 g2, ?_, p,
        List.mem_append.mpr (.inr g3), g4⟩
      intro p hp q hq hs
      rcases List.mem_append.mp hp with hp | hp
      · exact absurd hs (hl1 p hp)
      · rcases List.mem_append.mp hq with hq | hq
        · have h7 := (bfsWant_pass (h3 q hq)).1
          obtain ⟨-, j, hj, hw⟩ := g2.want p hp
          have := (bfsWant_pass hw).1
          omega
        · exact g7 p hp q hq hs

/-! ### The whole -/

theorem bfsFstab_eq {E : BfsEnv} {fstab : CStr} {es : List BfsEnt} (h : TabFound E fstab es) : bfsFstab E = some (fstab, es) := by
  unfold bfsFstab
  rcases h with ⟨h1, h2⟩ | ⟨h0, h1, h2⟩
  · rw [h1, Option.bind_some, h2]; rfl
  · rw [h1, Option.bind_some, h2]
    cases hg : E.given with
    | none => rfl
    | some p => rw [Option.bind_some, h0 p hg]; rfl

/-- Either a check failed, or all was done -/
theorem bfsMountAll_cases {E : BfsEnv} {fstab : CStr} {es : List BfsEnt} (hs : CheckSettings E) (hf : TabFound E fstab es) :
    ∃ mode, E.mode = some mode ∧ ∃ l, CheckList E mode es 1 l ∧
      (∀ p ∈ l, ∀ q ∈ l, bfsStatus E p.2 = 1 → q.1.passno ≤ p.1.passno) ∧
      ((bfsMountAll E = l.map (fun p => .check p.2) ++ bfsSulogin E ∧
          ∃ p ∈ l, 1 < bfsStatus E p.2 ∧ bfsHasOpt p.1.opts "nofail".toList = false) ∨
       ∃ b, bfsMountAll E = l.map (fun p => .check p.2) ++ bfsRemount es b ++ bfsRest E fstab es ∧
          (∀ p ∈ l, bfsStatus E p.2 ≤ 1 ∨ bfsHasOpt p.1.opts "nofail".toList = true) ∧
          (b = true ↔ ∃ p ∈ l, bfsStatus E p.2 = 1) ∧
          (b = false → ∀ e ∈ es, ∀ j c, 1 ≤ j → j < 10 → bfsWant E mode j e = some c →
            ∃ p ∈ l, p.2 = c ∧ (bfsStatus E c = 0 ∨ bfsHasOpt e.opts "nofail".toList = true))) := by
  have hmode : ∃ mode, E.mode = some mode := by
    rcases hs.1 with h | h
    · exact ⟨_, h⟩
    · exact ⟨_, h⟩
  obtain ⟨mode, hm⟩ := hmode
  refine ⟨mode, hm, ?_⟩
  have hall : bfsMountAll E = match bfsPasses E mode es 9 1 with
      | (acts, none) => acts
      | (acts, some bad) => acts ++ bfsRemount es bad ++ bfsRest E fstab es := by
    unfold bfsMountAll
    rw [bfsFstab_eq hf]
    dsimp only
    rw [if_neg (by rw [hs.2.2]; decide)]
    unfold bfsCheckAll
    rw [hm]
    rfl
  rw [hall]
  rcases hp : bfsPasses E mode es 9 1 with ⟨acts, _ | b⟩
  · obtain ⟨l, h1, h2, h3, h4⟩ := bfsPasses_none hp
    exact ⟨l, h2, h3, .inl ⟨h1, h4⟩⟩
  · obtain ⟨⟨l, h1, h2, h3, h4, h5, h6⟩, h7⟩ := bfsPasses_some hp
    refine ⟨l, h2, h6, .inr ⟨b, by dsimp only; rw [h1], h3, ⟨h4, ?_⟩, ?_⟩⟩
    · rintro ⟨p, hpl, hs⟩
      cases b with
      | true => rfl
      | false => exact absurd hs (h5 rfl p hpl)
    · intro hb e he j c hj1 hj2 hw
      obtain ⟨h8, h9⟩ := h7 hb e he j c hj1 (by omega) hw
      rw [h1, List.mem_map] at h8
      obtain ⟨p, hp, hc⟩ := h8
      cases hc
      exact ⟨p, hp, rfl, h9⟩

theorem mem_checksIn {acts : List BfsAct} {c : CStr} : c ∈ checksIn acts ↔ .check c ∈ acts := by
  unfold checksIn
  rw [List.mem_filterMap]
  constructor
  · rintro ⟨a, ha, h⟩
    split at h
    · cases h; exact ha
    · cases h
  · intro h
    exact ⟨_, h, rfl⟩

/-- No action in the list is a check, makes the root file system writable, or mounts -/
def Harmless (acts : List BfsAct) : Prop := ∀ a ∈ acts, (∀ c, a ≠ .check c) ∧ a ≠ .remount ∧ ∀ c, a ≠ .mountAll c

theorem sulogin_harmless (E : BfsEnv) : Harmless (bfsSulogin E) := by
  intro a ha
  unfold bfsSulogin at ha
  rw [List.mem_append] at ha
  have : a = .shell ∨ a = .reboot := by
    rcases ha with ha | ha
    · split at ha
      · exact .inl (List.mem_singleton.mp ha)
      · cases ha
    · exact .inr (List.mem_singleton.mp ha)
  rcases this with rfl | rfl <;> exact ⟨fun _ => nofun, nofun, fun _ => nofun⟩

theorem finalize_mounts (E : BfsEnv) : ∀ a ∈ bfsFinalize E, ∃ s d t o, a = .mount s d t o := by
  intro a ha
  unfold bfsFinalize at ha
  simp only [List.mem_append] at ha
  rcases ha with (((ha | ha) | ha) | ha) | ha <;> split at ha <;>
    simp only [List.mem_cons, List.not_mem_nil, or_false] at ha
  · exact ⟨_, _, _, _, ha⟩
  · exact ⟨_, _, _, _, ha⟩
  · exact ⟨_, _, _, _, ha⟩
  · rcases ha with ha | ha <;> exact ⟨_, _, _, _, ha⟩
  · exact ⟨_, _, _, _, ha⟩

/-- What follows `mount -a` -/
def bfsTail (E : BfsEnv) (fstab : CStr) (es : List BfsEnt) : List BfsAct :=
  (if bfsStatus E (bfsMountCmd fstab) = 0 then [] else [.hookMountError]) ++
  [.hookMountPost] ++ bfsSwapon E es ++ bfsFinalize E ++ [.hookBasefsUp]

theorem rest_eq (E : BfsEnv) (fstab : CStr) (es : List BfsEnt) :
    bfsRest E fstab es = .hookRootfsUp :: .mountAll (bfsMountCmd fstab) :: bfsTail E fstab es := by
  unfold bfsRest bfsTail
  simp only [List.append_assoc, List.cons_append, List.nil_append]

theorem tail_harmless (E : BfsEnv) (fstab : CStr) (es : List BfsEnt) : Harmless (bfsTail E fstab es) := by
  intro a ha
  unfold bfsTail at ha
  simp only [List.mem_append] at ha
  rcases ha with (((ha | ha) | ha) | ha) | ha
  · split at ha
    · cases ha
    · rw [List.mem_singleton.mp ha]; exact ⟨fun _ => nofun, nofun, fun _ => nofun⟩
  · rw [List.mem_singleton.mp ha]; exact ⟨fun _ => nofun, nofun, fun _ => nofun⟩
  · unfold bfsSwapon at ha
    split at ha
    · rw [List.mem_map] at ha
      obtain ⟨e, -, rfl⟩ := ha
      exact ⟨fun _ => nofun, nofun, fun _ => nofun⟩
    · cases ha
  · obtain ⟨s, d, t, o, rfl⟩ := finalize_mounts E a ha
    exact ⟨fun _ => nofun, nofun, fun _ => nofun⟩
  · rw [List.mem_singleton.mp ha]; exact ⟨fun _ => nofun, nofun, fun _ => nofun⟩

theorem checksIn_harmless {acts : List BfsAct} (h : Harmless acts) : checksIn acts = [] := by
  unfold checksIn
  rw [List.filterMap_eq_nil_iff]
  intro a ha
  split
  · exact absurd rfl ((h _ ha).1 _)
  · rfl

theorem checksIn_append (a b : List BfsAct) : checksIn (a ++ b) = checksIn a ++ checksIn b := List.filterMap_append ..

theorem checksIn_map (l : List (BfsEnt × CStr)) : checksIn (l.map (fun p => .check p.2)) = l.map Prod.snd := by
  unfold checksIn
  induction l with
  | nil => rfl
  | cons p l ih => rw [List.map_cons, List.filterMap_cons, List.map_cons, ih]

theorem remount_checks (es : List BfsEnt) (b : Bool) : checksIn (bfsRemount es b) = [] := by
  unfold bfsRemount
  split
  · rfl
  · split
    · rfl
    · split <;> rfl

theorem remount_mem (es : List BfsEnt) (b : Bool) : ∀ a ∈ bfsRemount es b, a = .remount ∧ b = false := by
  intro a ha
  unfold bfsRemount at ha
  split at ha
  · cases ha
  · split at ha
    · cases ha
    · split at ha
      · cases ha
      · rename_i hb
        exact ⟨List.mem_singleton.mp ha, Bool.eq_false_iff.mpr hb⟩

theorem remount_root {es : List BfsEnt} {e : BfsEnt} (h : RootLine es e) (hr : ¬ LineHas e "ro".toList) : bfsRemount es false = [.remount] := by
  obtain ⟨pre, post, rfl, hd, hp⟩ := h
  unfold bfsRemount
  have : (pre ++ e :: post).find? (fun e => decide (e.dir = ['/'])) = some e := by
    rw [List.find?_append, List.find?_eq_none.mpr (fun x hx => by rw [decide_eq_true_eq]; exact hp x hx), Option.none_or, List.find?_cons,
      show decide (e.dir = ['/']) = true from decide_eq_true hd]
  rw [this]
  dsimp only
  rw [if_neg (fun h => hr ((bfsHasOpt_iff _ _).mp h)), if_neg (by decide)]

theorem checksIn_all {E : BfsEnv} {l : List (BfsEnt × CStr)} {es : List BfsEnt} {b : Bool} {fstab : CStr} :
    checksIn (l.map (fun p => .check p.2) ++ bfsRemount es b ++ bfsRest E fstab es) = l.map Prod.snd := by
  rw [checksIn_append, checksIn_append, checksIn_map, remount_checks, rest_eq]
  unfold checksIn
  rw [List.filterMap_cons, List.filterMap_cons]
  dsimp only
  have := checksIn_harmless (tail_harmless E fstab es)
  unfold checksIn at this
  rw [this, List.append_nil, List.append_nil]

theorem checksIn_fail {E : BfsEnv} {l : List (BfsEnt × CStr)} :
    checksIn (l.map (fun p => .check p.2) ++ bfsSulogin E) = l.map Prod.snd := by
  rw [checksIn_append, checksIn_map, checksIn_harmless (sulogin_harmless E), List.append_nil]

/-- When a check failed nothing is mounted -/
theorem fail_acts {E : BfsEnv} {l : List (BfsEnt × CStr)} {acts : List BfsAct} (h : acts = l.map (fun p => .check p.2) ++ bfsSulogin E) :
    .remount ∉ acts ∧ (∀ cmd, .mountAll cmd ∉ acts) ∧ acts.getLast? = some .reboot := by
  subst h
  have hno : ∀ a, (∀ c, a ≠ BfsAct.check c) → a ∈ l.map (fun p => BfsAct.check p.2) ++ bfsSulogin E → a ∈ bfsSulogin E := by
    intro a ha h
    rcases List.mem_append.mp h with h | h
    · rw [List.mem_map] at h
      obtain ⟨p, -, e⟩ := h
      exact absurd e.symm (ha _)
    · exact h
  refine ⟨fun h => ((sulogin_harmless E) _ (hno _ (fun _ e => by cases e) h)).2.1 rfl, fun c h => ((sulogin_harmless E) _ (hno _ (fun _ e => by cases e) h)).2.2 c rfl, ?_⟩
  unfold bfsSulogin
  rw [← List.append_assoc, List.getLast?_concat]

theorem status_sound {E : BfsEnv} {c : CStr} (h : NothingFixed E c) : (Sound E c ↔ bfsStatus E c = 0) ∧ bfsStatus E c ≠ 1 := by
  obtain ⟨n, h1, h2⟩ := h
  unfold Sound bfsStatus
  rw [h1]
  dsimp only
  refine ⟨⟨?_, ?_⟩, h2⟩
  · rintro (h | h)
    · cases h; rfl
    · cases h; exact absurd rfl h2
  · rintro rfl
    exact .inl rfl

theorem want_checks {E : BfsEnv} {mode c : CStr} {es : List BfsEnt} {k : Nat} {e : BfsEnt} (hs : CheckSettings E) (hm : E.mode = some mode)
    (hp : PlainTab E es) (he : e ∈ es) (h : bfsWant E mode k e = some c) : Checks c e.fsname := by
  unfold bfsWant at h
  split at h
  · cases h
  · have hd : bfsDev E e.fsname = some e.fsname ∨ bfsDev E e.fsname = none := by
      unfold bfsDev
      split
      · exact .inl rfl
      · split
        · exact .inl rfl
        · rename_i hb _
          rw [if_neg (fun hr => hb (hp.root e he hr))]
          exact .inr rfl
    rcases hd with hd | hd
    · rw [hd] at h
      dsimp only at h
      split at h
      · cases h
      · cases h
        exact checks_cmd hs hm (hp.names e he).1 (hp.names e he).2
    · rw [hd] at h
      cases h

/-! ## The property -/

/-- **C74, part.** With a plain table and with no check that has put something right: when file systems are mounted, all
    have been checked and found sound unless that does not matter, and the root file system has been made writable; if a
    check failed nothing is mounted and the system goes down.

    Missing: tables with pass numbers above 9, PARTUUID and PARTLABEL, blanks or more than 200 bytes in the name of a device,
    /dev/root, something mounted twice on a directory; checks that put something right or are killed. -/
theorem C74_partial {E : BfsEnv} {fstab : CStr} {es : List BfsEnt} (hs : CheckSettings E) (hf : TabFound E fstab es) (hp : PlainTab E es)
    (hn : ∀ c, .check c ∈ bfsMountAll E → NothingFixed E c) :
    (∀ pre cmd post, bfsMountAll E = pre ++ .mountAll cmd :: post →
      (∀ e ∈ es, ToCheck E e → ∃ c, .check c ∈ pre ∧ Checks c e.fsname ∧ (Sound E c ∨ LineHas e "nofail".toList)) ∧
      ∀ e, RootLine es e → ¬ LineHas e "ro".toList → .remount ∈ pre) ∧
    ((∃ c, .check c ∈ bfsMountAll E ∧ ¬ Sound E c ∧ ∀ e ∈ es, Checks c e.fsname → ¬ LineHas e "nofail".toList) →
      .remount ∉ bfsMountAll E ∧ (∀ cmd, .mountAll cmd ∉ bfsMountAll E) ∧ (bfsMountAll E).getLast? = some .reboot) := by
  obtain ⟨mode, hm, l, hl, -, ⟨ha, -⟩ | ⟨b, ha, h1, h2, h3⟩⟩ := bfsMountAll_cases hs hf
  · refine ⟨?_, fun _ => fail_acts ha⟩
    intro pre cmd post h
    refine absurd ?_ ((fail_acts ha).2.1 cmd)
    rw [h]
    exact List.mem_append.mpr (.inr List.mem_cons_self)
  · have hst : ∀ p ∈ l, NothingFixed E p.2 := by
      intro p hpl
      apply hn
      rw [ha]
      exact List.mem_append.mpr (.inl (List.mem_append.mpr (.inl (List.mem_map.mpr ⟨p, hpl, rfl⟩))))
    have hb : b = false := by
      cases b with
      | false => rfl
      | true =>
        obtain ⟨p, hpl, h⟩ := h2.mp rfl
        exact absurd h (status_sound (hst p hpl)).2
    subst hb
    constructor
    · intro pre cmd post h
      have hpre : ∀ a ∈ l.map (fun p => BfsAct.check p.2) ++ bfsRemount es false, a ∈ pre := by
        have e := ha.symm.trans h
        rw [rest_eq, show ∀ (x : List BfsAct) y z, x ++ y :: z = (x ++ [y]) ++ z from fun x y z => by simp] at e
        rcases List.append_eq_append_iff.mp e with ⟨q, h4, -⟩ | ⟨q, h4, h5⟩
        · intro a ha
          rw [h4]
          exact List.mem_append.mpr (.inl (List.mem_append.mpr (.inl ha)))
        · cases q with
          | nil =>
            rw [List.append_nil] at h4
            intro a ha
            rw [← h4]
            exact List.mem_append.mpr (.inl ha)
          | cons x q =>
            cases h5
            exfalso
            have : BfsAct.mountAll cmd ∈ l.map (fun p => BfsAct.check p.2) ++ bfsRemount es false ++ [.hookRootfsUp] := by
              rw [h4]
              exact List.mem_append.mpr (.inr List.mem_cons_self)
            rcases List.mem_append.mp this with this | this
            · rcases List.mem_append.mp this with this | this
              · rw [List.mem_map] at this
                obtain ⟨p, -, e⟩ := this
                cases e
              · cases (remount_mem _ _ _ this).1
            · cases List.mem_singleton.mp this
      constructor
      · intro e he hc
        have h9 := hp.passes e he
        have h0 := hc.1
        obtain ⟨k, hk⟩ : ∃ k : Nat, e.passno = k := ⟨e.passno.toNat, by omega⟩
        obtain ⟨p, hpl, h4, h5⟩ := h3 rfl e he k _ (by omega) (by omega) (bfsWant_of (mode := mode) hp he hc hk)
        refine ⟨_, hpre _ (List.mem_append.mpr (.inl (List.mem_map.mpr ⟨p, hpl, rfl⟩))), ?_, ?_⟩
        · rw [h4]
          exact checks_cmd hs hm (hp.names e he).1 (hp.names e he).2
        · rw [h4]
          rcases h5 with h5 | h5
          · exact .inl ((status_sound (h4 ▸ hst p hpl)).1.mpr h5)
          · exact .inr ((bfsHasOpt_iff _ _).mp h5)
      · intro e he hr
        apply hpre
        rw [remount_root he hr]
        exact List.mem_append.mpr (.inr List.mem_cons_self)
    · rintro ⟨c, hc, hns, hno⟩
      exfalso
      rw [← mem_checksIn, ha, checksIn_all, List.mem_map] at hc
      obtain ⟨p, hpl, rfl⟩ := hc
      obtain ⟨hpe, k, -, hw⟩ := hl.want p hpl
      have hf0 := status_sound (hst p hpl)
      rcases h1 p hpl with h | h
      · exact hns (hf0.1.mpr (by omega))
      · exact hno p.1 hpe (want_checks hs hm hp hpe hw) ((bfsHasOpt_iff _ _).mp h)

/-- Whatever the table, checks are made in the order of the pass numbers, those with the same number in the order of the
    lines, each line at most once; and after one that has put something right none with a higher number is made. -/
theorem C74_order {E : BfsEnv} {fstab : CStr} {es : List BfsEnt} (hs : CheckSettings E) (hf : TabFound E fstab es) :
    ∃ l : List (BfsEnt × CStr), checksIn (bfsMountAll E) = l.map Prod.snd ∧
      l.Pairwise (fun a b => a.1.passno ≤ b.1.passno) ∧ (∀ p ∈ l, 0 < p.1.passno) ∧
      (∀ k : Int, ((l.filter (fun p => p.1.passno = k)).map Prod.fst).Sublist es) ∧
      (PlainTab E es → ∀ p ∈ l, Checks p.2 p.1.fsname) ∧
      ∀ p ∈ l, E.ends p.2 = .exited 1 → ∀ q ∈ l, q.1.passno ≤ p.1.passno := by
  obtain ⟨mode, hm, l, hl, hst, h⟩ := bfsMountAll_cases hs hf
  refine ⟨l, ?_, hl.order, ?_, hl.each, ?_, ?_⟩
  · rcases h with ⟨ha, -⟩ | ⟨b, ha, -⟩
    · rw [ha, checksIn_fail]
    · rw [ha, checksIn_all]
  · intro p hp
    obtain ⟨-, k, -, hw⟩ := hl.want p hp
    exact (bfsWant_pass hw).2
  · intro hpt p hp
    obtain ⟨hpe, k, -, hw⟩ := hl.want p hp
    exact want_checks hs hm hpt hpe hw
  · intro p hp he q hq
    exact hst p hp q hq (by unfold bfsStatus; rw [he])

/-- Whatever the table, a check that fails is the end, unless some line says `nofail`. -/
theorem C74_failed {E : BfsEnv} {fstab c : CStr} {es : List BfsEnt} {n : Nat} (hs : CheckSettings E) (hf : TabFound E fstab es)
    (hc : .check c ∈ bfsMountAll E) (he : E.ends c = .exited n) (hn : 1 < n) (hno : ∀ e ∈ es, ¬ LineHas e "nofail".toList) :
    .remount ∉ bfsMountAll E ∧ (∀ cmd, .mountAll cmd ∉ bfsMountAll E) ∧ (bfsMountAll E).getLast? = some .reboot := by
  obtain ⟨mode, hm, l, hl, -, ⟨ha, -⟩ | ⟨b, ha, h1, -⟩⟩ := bfsMountAll_cases hs hf
  · exact fail_acts ha
  · exfalso
    rw [← mem_checksIn, ha, checksIn_all, List.mem_map] at hc
    obtain ⟨p, hpl, rfl⟩ := hc
    rcases h1 p hpl with h | h
    · unfold bfsStatus at h
      rw [he] at h
      dsimp only at h
      omega
    · exact hno p.1 (hl.want p hpl).1 ((bfsHasOpt_iff _ _).mp h)

/-- A check that has put something right, after which the boot may proceed, leaves the root file system read-only. -/
theorem C74_corrected {E : BfsEnv} {fstab c : CStr} {es : List BfsEnt} (hs : CheckSettings E) (hf : TabFound E fstab es)
    (hc : .check c ∈ bfsMountAll E) (he : E.ends c = .exited 1) : .remount ∉ bfsMountAll E := by
  obtain ⟨mode, hm, l, hl, -, ⟨ha, -⟩ | ⟨b, ha, -, h2, -⟩⟩ := bfsMountAll_cases hs hf
  · exact (fail_acts ha).1
  · rw [← mem_checksIn, ha, checksIn_all, List.mem_map] at hc
    obtain ⟨p, hpl, rfl⟩ := hc
    have hb : b = true := h2.mpr ⟨p, hpl, by unfold bfsStatus; rw [he]⟩
    subst hb
    rw [ha, rest_eq]
    intro h
    rcases List.mem_append.mp h with h | h
    · rcases List.mem_append.mp h with h | h
      · rw [List.mem_map] at h
        obtain ⟨p, -, e⟩ := h
        cases e
      · cases (remount_mem _ _ _ h).2
    · rcases List.mem_cons.mp h with h | h
      · cases h
      · rcases List.mem_cons.mp h with h | h
        · cases h
        · exact ((tail_harmless E fstab es) _ h).2.1 rfl

/-- In rescue mode nothing is checked, as documented, but all is mounted. -/
theorem C74_rescue {E : BfsEnv} {fstab : CStr} {es : List BfsEnt} (hf : TabFound E fstab es) (hr : E.rescue = true) :
    checksIn (bfsMountAll E) = [] ∧ .remount ∉ bfsMountAll E ∧ ∃ cmd, .mountAll cmd ∈ bfsMountAll E := by
  have ha : bfsMountAll E = bfsRest E fstab es := by
    unfold bfsMountAll
    rw [bfsFstab_eq hf]
    dsimp only
    rw [if_pos hr]
  rw [ha, rest_eq]
  refine ⟨?_, ?_, _, List.mem_cons_of_mem _ List.mem_cons_self⟩
  · have := checksIn_harmless (tail_harmless E fstab es)
    unfold checksIn at this ⊢
    rw [List.filterMap_cons, List.filterMap_cons]
    exact this
  · intro h
    rcases List.mem_cons.mp h with h | h
    · cases h
    · rcases List.mem_cons.mp h with h | h
      · cases h
      · exact ((tail_harmless E fstab es) _ h).2.1 rfl

/-- Without fstab(5) nothing is mounted and the system goes down. -/
theorem C74_nofstab {E : BfsEnv} (h : ∀ p, (E.given = some p ∨ E.dflt = some p) → E.file p = none) :
    .remount ∉ bfsMountAll E ∧ (∀ cmd, .mountAll cmd ∉ bfsMountAll E) ∧ (bfsMountAll E).getLast? = some .reboot := by
  have h1 : ∀ o : Option CStr, (∀ p, o = some p → E.file p = none) → (o.bind fun p => (E.file p).map fun es => (p, es)) = none := by
    intro o ho
    cases o with
    | none => rfl
    | some p => rw [Option.bind_some, ho p rfl]; rfl
  have : bfsMountAll E = ([] : List (BfsEnt × CStr)).map (fun p => .check p.2) ++ bfsSulogin E := by
    unfold bfsMountAll bfsFstab
    rw [h1 _ (fun p hp => h p (.inl hp)), h1 _ (fun p hp => h p (.inr hp))]
    rfl
  exact fail_acts this

/-- The swap partitions put to use -/
def swapsIn (acts : List BfsAct) : List CStr :=
  acts.filterMap fun | .swapon c => some c | _ => none

/-- **C74, mounting.** When file systems are mounted it is those of the table found, with one command; then every line for swap,
    and no other, is put to use, in the order of the table.  Paths and names are of ordinary length. -/
theorem C74_mounted {E : BfsEnv} {fstab cmd : CStr} {es : List BfsEnt} (hs : CheckSettings E) (hf : TabFound E fstab es)
    (hm : .mountAll cmd ∈ bfsMountAll E) (hl : fstab.length ≤ 200) (hn : ∀ e ∈ es, e.fsname.length ≤ 200) :
    (cmd = "mount -na".toList ∧ fstab = "/etc/fstab".toList ∨ cmd = "mount -na -T ".toList ++ fstab ∧ fstab ≠ "/etc/fstab".toList) ∧
    ∃ pre post, bfsMountAll E = pre ++ .mountAll cmd :: post ∧ swapsIn pre = [] ∧
      (∀ c, .mountAll c ∉ pre) ∧ (∀ c, .mountAll c ∉ post) ∧
      swapsIn post = if E.haveSwapon then (es.filter fun e => e.type = "swap".toList).map fun e => "swapon ".toList ++ e.fsname else [] := by
  have key : ∃ pre, bfsMountAll E = pre ++ .mountAll (bfsMountCmd fstab) :: bfsTail E fstab es ∧ swapsIn pre = [] ∧
      ∀ c, .mountAll c ∉ pre := by
    obtain ⟨mode, -, l, -, -, ⟨ha, -⟩ | ⟨b, ha, -⟩⟩ := bfsMountAll_cases hs hf
    · exact absurd hm ((fail_acts ha).2.1 cmd)
    · have hchk : ∀ a ∈ l.map (fun p => BfsAct.check p.2) ++ bfsRemount es b ++ [.hookRootfsUp],
          (∃ c, a = .check c) ∨ a = .remount ∨ a = .hookRootfsUp := by
        intro a h
        rw [List.mem_append, List.mem_append, List.mem_map, List.mem_singleton] at h
        rcases h with (⟨p, -, rfl⟩ | h) | h
        · exact .inl ⟨_, rfl⟩
        · exact .inr (.inl (remount_mem es b a h).1)
        · exact .inr (.inr h)
      refine ⟨l.map (fun p => .check p.2) ++ bfsRemount es b ++ [.hookRootfsUp], ?_, ?_, ?_⟩
      · rw [ha, rest_eq, List.append_assoc _ [_]]; rfl
      · unfold swapsIn
        rw [List.filterMap_eq_nil_iff]
        intro a h
        rcases hchk a h with ⟨c, rfl⟩ | rfl | rfl <;> rfl
      · intro c h
        rcases hchk _ h with ⟨_, h⟩ | h | h <;> cases h
  obtain ⟨pre, ha, hp, hpm⟩ := key
  have hpost : ∀ c, .mountAll c ∉ bfsTail E fstab es := fun c h => (tail_harmless E fstab es _ h).2.2 c rfl
  have hcmd : cmd = bfsMountCmd fstab := by
    rw [ha, List.mem_append, List.mem_cons] at hm
    rcases hm with h | h | h
    · exact absurd h (hpm cmd)
    · exact BfsAct.mountAll.inj h
    · exact absurd h (hpost cmd)
  subst hcmd
  refine ⟨?_, pre, _, ha, hp, hpm, hpost, ?_⟩
  · unfold bfsMountCmd
    split
    · rename_i h; exact .inl ⟨rfl, h⟩
    · rename_i h
      refine .inr ⟨?_, h⟩
      rw [List.take_of_length_le]
      rw [List.length_append]
      have : "mount -na -T ".toList.length = 13 := by decide
      omega
  · have happ : ∀ a b, swapsIn (a ++ b) = swapsIn a ++ swapsIn b := fun _ _ => List.filterMap_append ..
    have h1 : swapsIn (if bfsStatus E (bfsMountCmd fstab) = 0 then [] else [.hookMountError]) = [] := by split <;> rfl
    have h2 : swapsIn (bfsFinalize E) = [] := by
      unfold swapsIn
      rw [List.filterMap_eq_nil_iff]
      intro a h
      obtain ⟨_, _, _, _, rfl⟩ := finalize_mounts E a h
      rfl
    unfold bfsTail
    rw [happ, happ, happ, happ, h1, h2]
    unfold bfsSwapon
    have hnil : ∀ x : BfsAct, x = .hookMountPost ∨ x = .hookBasefsUp → swapsIn [x] = [] := by rintro x (rfl | rfl) <;> rfl
    rw [hnil _ (.inl rfl), hnil _ (.inr rfl), List.append_nil, List.append_nil, List.nil_append, List.nil_append]
    split
    · have : ∀ l : List BfsEnt, (∀ e ∈ l, e.fsname.length ≤ 200) →
          swapsIn (l.map fun e => .swapon (("swapon ".toList ++ e.fsname).take 255)) = l.map fun e => "swapon ".toList ++ e.fsname := by
        intro l
        induction l with
        | nil => intro _; rfl
        | cons e l ih =>
          intro h
          have hd : ∀ (c : CStr) (m : List BfsAct), swapsIn (.swapon c :: m) = c :: swapsIn m := fun _ _ => rfl
          rw [List.map_cons, List.map_cons, hd, ih fun x hx => h x (List.mem_cons_of_mem _ hx), List.take_of_length_le]
          have := h e List.mem_cons_self
          rw [List.length_append]
          have : "swapon ".toList.length = 7 := by decide
          omega
      exact this _ fun e he => hn e (List.mem_filter.1 he).1
    · rfl

/-- Whatever the table, once file systems are mounted, those that all systems need are mounted where nothing is mounted
    yet, and on no other directory. -/
theorem C74_common {E : BfsEnv} {dir cmd : CStr} (hm : .mountAll cmd ∈ bfsMountAll E) :
    (∃ s t o, .mount s dir t o ∈ bfsMountAll E) ↔
      (dir ∉ E.mounted ∧ (dir = "/dev/shm".toList ∨ dir = "/dev/pts".toList ∨ dir = "/dev/mqueue".toList)) ∨
      (dir ∉ E.mounted ∧ E.onTmpfs dir = false ∧ (dir = "/tmp".toList ∨ (dir = "/run".toList ∧ E.haveRun = true))) ∨
      (dir = "/run/lock".toList ∧ "/run".toList ∉ E.mounted ∧ E.onTmpfs "/run".toList = false ∧ E.haveRun = true) := by
  have hfin : (∃ s t o, .mount s dir t o ∈ bfsMountAll E) ↔ ∃ s t o, .mount s dir t o ∈ bfsFinalize E := by
    have hrest : ∀ s t o fstab es, BfsAct.mount s dir t o ∈ bfsRest E fstab es ↔ .mount s dir t o ∈ bfsFinalize E := by
      intro s t o fstab es
      have hsw : BfsAct.mount s dir t o ∉ bfsSwapon E es := by
        unfold bfsSwapon
        split
        · intro h
          rw [List.mem_map] at h
          obtain ⟨_, -, h⟩ := h
          cases h
        · exact fun h => (nomatch h)
      unfold bfsRest
      simp only [List.mem_append, List.mem_cons, List.not_mem_nil, or_false, hsw]
      constructor
      · rintro ((((h | h) | h) | h) | h)
        · rcases h with h | h <;> cases h
        · split at h
          · cases h
          · cases List.mem_singleton.mp h
        · cases h
        · exact h
        · cases h
      · intro h
        exact .inl (.inr h)
    unfold bfsMountAll at hm ⊢
    split at hm
    · exact absurd hm (fun h => (sulogin_harmless E _ h).2.2 _ rfl)
    · rename_i fstab es hfs
      split at hm
      · rename_i hr
        rw [if_pos hr]
        simp only [hrest]
      · rename_i hr
        rw [if_neg hr]
        have hch : ∀ acts r, bfsCheckAll E es = (acts, r) → (∀ c, .mountAll c ∉ acts) ∧ ∀ s t o, .mount s dir t o ∉ acts := by
          intro acts r h
          unfold bfsCheckAll at h
          have hmap : ∀ l : List (BfsEnt × CStr), ∀ a ∈ l.map (fun p => BfsAct.check p.2) ++ bfsSulogin E,
              (∀ c, a ≠ .mountAll c) ∧ ∀ s t o, a ≠ .mount s dir t o := by
            intro l a ha
            rcases List.mem_append.mp ha with ha | ha
            · rw [List.mem_map] at ha
              obtain ⟨p, -, rfl⟩ := ha
              exact ⟨fun _ => nofun, fun _ _ _ => nofun⟩
            · unfold bfsSulogin at ha
              rcases List.mem_append.mp ha with ha | ha
              · split at ha
                · rw [List.mem_singleton.mp ha]; exact ⟨fun _ => nofun, fun _ _ _ => nofun⟩
                · cases ha
              · rw [List.mem_singleton.mp ha]; exact ⟨fun _ => nofun, fun _ _ _ => nofun⟩
          split at h
          · cases h
            exact ⟨fun _ h => (nomatch h), fun _ _ _ h => (nomatch h)⟩
          · rename_i mode hmode
            cases r with
            | none =>
              obtain ⟨l, rfl, -⟩ := bfsPasses_none h
              exact ⟨fun c h => (hmap l _ h).1 c rfl, fun s t o h => (hmap l _ h).2 s t o rfl⟩
            | some b =>
              obtain ⟨⟨l, rfl, -⟩, -⟩ := bfsPasses_some h
              exact ⟨fun c h => (hmap l _ (List.mem_append.mpr (.inl h))).1 c rfl,
                fun s t o h => (hmap l _ (List.mem_append.mpr (.inl h))).2 s t o rfl⟩
        split at hm
        · rename_i acts hc
          exact absurd hm ((hch _ _ hc).1 cmd)
        · rename_i acts b hc
          have hnr : ∀ s t o, BfsAct.mount s dir t o ∉ bfsRemount es b := fun s t o h => by cases (remount_mem _ _ _ h).1
          simp only [List.mem_append, hrest, (hch _ _ hc).2, hnr, false_or]
  rw [hfin]
  have hs : ∀ (p : Prop) [Decidable p] (a : BfsAct) (l : List BfsAct), a ∈ (if p then l else []) ↔ p ∧ a ∈ l := by
    intro p _ a l
    split
    · rename_i h; exact ⟨fun h' => ⟨h, h'⟩, fun h' => h'.2⟩
    · rename_i h; exact ⟨fun h' => (nomatch h'), fun h' => absurd h'.1 h⟩
  have hs' : ∀ (p : Prop) [Decidable p] (a : BfsAct) (l : List BfsAct), a ∈ (if p then [] else l) ↔ ¬ p ∧ a ∈ l := by
    intro p _ a l
    split
    · rename_i h; exact ⟨fun h' => (nomatch h'), fun h' => absurd h h'.1⟩
    · rename_i h; exact ⟨fun h' => ⟨h, h'⟩, fun h' => h'.2⟩
  unfold bfsFinalize
  simp only [List.mem_append, hs, hs', List.mem_cons, List.not_mem_nil, or_false, BfsAct.mount.injEq]
  constructor
  · rintro ⟨s, t, o, ((((⟨h, -, rfl, -⟩ | ⟨h, -, rfl, -⟩) | ⟨h, -, rfl, -⟩) | ⟨⟨h1, h2, h3⟩, (⟨-, rfl, -⟩ | ⟨-, rfl, -⟩)⟩) | ⟨⟨h1, h2⟩, -, rfl, -⟩)⟩
    · exact .inl ⟨h, .inl rfl⟩
    · exact .inl ⟨h, .inr (.inl rfl)⟩
    · exact .inl ⟨h, .inr (.inr rfl)⟩
    · exact .inr (.inl ⟨h2, h3, .inr ⟨rfl, h1⟩⟩)
    · exact .inr (.inr ⟨rfl, h2, h3, h1⟩)
    · exact .inr (.inl ⟨h1, h2, .inl rfl⟩)
  · rintro (⟨h, rfl | rfl | rfl⟩ | ⟨h, ht, rfl | ⟨rfl, hr⟩⟩ | ⟨rfl, h, ht, hr⟩)
    · exact ⟨_, _, _, .inl (.inl (.inl (.inl ⟨h, rfl, rfl, rfl, rfl⟩)))⟩
    · exact ⟨_, _, _, .inl (.inl (.inl (.inr ⟨h, rfl, rfl, rfl, rfl⟩)))⟩
    · exact ⟨_, _, _, .inl (.inl (.inr ⟨h, rfl, rfl, rfl, rfl⟩))⟩
    · exact ⟨_, _, _, .inr ⟨⟨h, ht⟩, rfl, rfl, rfl, rfl⟩⟩
    · exact ⟨_, _, _, .inl (.inr ⟨⟨hr, h, ht⟩, .inl ⟨rfl, rfl, rfl, rfl⟩⟩)⟩
    · exact ⟨_, _, _, .inl (.inr ⟨⟨hr, h, ht⟩, .inr ⟨rfl, rfl, rfl, rfl⟩⟩)⟩

/-! ### Where the claim fails -/

/-- A line of fstab(5) -/
def tabLine (fsname dir opts : String) (passno : Int) : BfsEnt := ⟨fsname.toList, dir.toList, "ext4".toList, opts.toList, passno⟩

/-- A system with this table on which checks end like this -/
def bootWith (es : List BfsEnt) (ends : CStr → BfsEnd) : BfsEnv where
  mode := some []
  repair := "-p".toList
  rescue := false
  given := some "/etc/fstab".toList
  dflt := some "/etc/fstab".toList
  file := fun p => if p = "/etc/fstab".toList then some es else none
  mounts := [("/".toList, "ro,relatime".toList)]
  isBlk := fun d => decide (d = "/dev/sda1".toList ∨ d = "/dev/sda2".toList ∨ d = "/dev/sda3".toList)
  blocks := [("sda".toList, 8, 0)]
  rootDev := (8, 1)
  ends := ends
  shExec := true
  haveSulogin := true
  haveSwapon := true
  mounted := ["/".toList, "/dev/shm".toList, "/dev/mqueue".toList, "/run".toList]
  onTmpfs := fun _ => false
  haveRun := true
  ttyGid := 5

/-- An fstab(5) with two file systems -/
def twoLines : List BfsEnt := [tabLine "/dev/sda1" "/" "defaults" 1, tabLine "/dev/sda2" "/home" "defaults" 2]

theorem boot_settings (es : List BfsEnt) (ends : CStr → BfsEnd) : CheckSettings (bootWith es ends) := ⟨.inl rfl, .inr (.inl rfl), rfl⟩

theorem boot_found (es : List BfsEnt) (ends : CStr → BfsEnd) : TabFound (bootWith es ends) "/etc/fstab".toList es :=
  .inl ⟨rfl, by unfold bootWith; dsimp only; rw [if_pos rfl]⟩

/-- fsck(8) puts something right on the root file system: /home is mounted without having been checked, and the root file
    system stays read-only. -/
theorem C74_skips : bfsMountAll (bootWith twoLines fun c => if c = "fsck  -p /dev/sda1".toList then .exited 1 else .exited 0) =
    [.check "fsck  -p /dev/sda1".toList, .hookRootfsUp, .mountAll "mount -na".toList, .hookMountPost,
     .mount "devpts".toList "/dev/pts".toList "devpts".toList "gid=5,mode=400,ptmxmode=0666".toList,
     .mount "tmpfs".toList "/tmp".toList "tmpfs".toList "mode=1777".toList, .hookBasefsUp] := by decide +kernel

example : swapsIn (bfsMountAll { bootWith [{ tabLine "/dev/sda1" "/" "defaults" 1 with type := "ext4".toList },
      { tabLine "/dev/sda2" "none" "sw" 0 with type := "swap".toList }] (fun _ => .exited 0) with haveSwapon := true }) =
    ["swapon /dev/sda2".toList] := by decide +kernel

/-- fsck(8) is killed: this counts as success. -/
theorem C74_killed : .remount ∈ bfsMountAll (bootWith twoLines fun c => if c = "fsck  -p /dev/sda1".toList then .killed 11 else .exited 0) := by
  decide +kernel

/-- Pass numbers above 9, and file systems named by PARTUUID, are not checked. -/
theorem C74_unchecked : checksIn (bfsMountAll (bootWith
    [tabLine "/dev/sda1" "/" "defaults" 1, tabLine "/dev/sda2" "/home" "defaults" 10, tabLine "PARTUUID=4f68bce3-01" "/srv" "defaults" 2]
    fun _ => .exited 0)) = ["fsck  -p /dev/sda1".toList] := by decide +kernel

/-- A label with a blank: something else is checked. -/
theorem C74_blank : checksIn (bfsMountAll (bootWith [tabLine "LABEL=my disk" "/srv" "defaults" 2] fun _ => .exited 0)) =
    ["fsck  -p LABEL=my disk".toList] ∧ ¬ Checks "fsck  -p LABEL=my disk".toList "LABEL=my disk".toList := by
  refine ⟨by decide +kernel, ?_⟩
  rintro ⟨a, -, h, -⟩
  revert h
  decide

/-- The first line for a directory in /proc/mounts is what is hidden: a root file system that is mounted read-only over the
    first one is not checked. -/
theorem C74_hidden : checksIn (bfsMountAll { bootWith [tabLine "/dev/sda1" "/" "defaults" 1] (fun _ => .exited 0) with
      mounts := [("/".toList, "rw".toList), ("/".toList, "ro,relatime".toList)] }) = [] := by decide +kernel

/-- /dev/root on a partition is not checked, only a whole disk is found. -/
theorem C74_devroot : checksIn (bfsMountAll (bootWith [tabLine "/dev/root" "/" "defaults" 1] fun _ => .exited 0)) = [] ∧
    checksIn (bfsMountAll { bootWith [tabLine "/dev/root" "/" "defaults" 1] (fun _ => .exited 0) with rootDev := (8, 0) }) =
      ["fsck  -p /dev/sda".toList] := by decide +kernel

theorem C74_full_false : ¬ C74_full := fun h => by
  have h1 := (h _ _ _ (boot_settings twoLines fun c => if c = "fsck  -p /dev/sda1".toList then .exited 1 else .exited 0) (boot_found _ _)).1
    [.check "fsck  -p /dev/sda1".toList, .hookRootfsUp] _ _ C74_skips
  have h2 := h1.2 (tabLine "/dev/sda1" "/" "defaults" 1) ⟨[], _, rfl, rfl, fun x hx => (nomatch hx)⟩ (by
    rw [← bfsHasOpt_iff]
    decide +kernel)
  revert h2
  decide +kernel

/-! ### Examples -/

/-- A usual boot -/
example : bfsMountAll (bootWith twoLines fun _ => .exited 0) =
    [.check "fsck  -p /dev/sda1".toList, .check "fsck  -p /dev/sda2".toList, .remount, .hookRootfsUp, .mountAll "mount -na".toList,
     .hookMountPost, .mount "devpts".toList "/dev/pts".toList "devpts".toList "gid=5,mode=400,ptmxmode=0666".toList,
     .mount "tmpfs".toList "/tmp".toList "tmpfs".toList "mode=1777".toList, .hookBasefsUp] := by decide +kernel

/-- It meets what is asked for -/
example : PlainTab (bootWith twoLines fun _ => .exited 0) twoLines ∧ ∀ e ∈ twoLines, ToCheck (bootWith twoLines fun _ => .exited 0) e := by
  refine ⟨⟨by decide, ?_, by decide, by decide, by decide⟩, ?_⟩
  · intro e he h
    refine absurd h ?_
    revert e
    unfold DevTag
    decide +kernel
  · intro e he
    refine ⟨by revert e; decide, .inl (by revert e; decide), ?_⟩
    rintro ⟨pre, o, post, h, -, hm⟩
    rw [← mem_tokens_iff] at hm
    have ho : (e.dir, o) ∈ [("/".toList, "ro,relatime".toList)] := by
      show _ ∈ (bootWith twoLines fun _ => .exited 0).mounts
      rw [h]
      exact List.mem_append.mpr (.inr List.mem_cons_self)
    have ho := congrArg Prod.snd (List.mem_singleton.mp ho)
    dsimp only at ho
    rw [ho] at hm
    revert hm
    decide

/-- The check of /home fails -/
example : (bfsMountAll (bootWith twoLines fun c => if c = "fsck  -p /dev/sda2".toList then .exited 4 else .exited 0)) =
    [.check "fsck  -p /dev/sda1".toList, .check "fsck  -p /dev/sda2".toList, .shell, .reboot] := by decide +kernel

end Verif
