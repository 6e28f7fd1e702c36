import Verif.Reap
import Verif.UtilLemmas

/-!
# C70: at shutdown every process is ended, gently first
-/

namespace Verif

/-! ## Specification -/

/-- The program's name as called, the first argument -/
def RProc.argv0 (p : RProc) : CStr := p.cmdline.takeWhile (fun c => decide (c.toNat ≠ 0))

/-- The name of a program without its directory -/
def ProgIs (path name : CStr) : Prop := path = name ∨ ∃ dir, path = dir ++ '/' :: name

/-- Processes that are not to be ended: init, threads of the kernel (which have no command line), and those that ask for it
    (storage daemons, by a '@'), the debugger and initctl -/
def LeftAlone (p : RProc) : Prop :=
  p.pid = 1 ∨ p.cmdline = [] ∨ (∃ s, p.argv0 = '@' :: s) ∨ ProgIs p.argv0 "gdbserver".toList ∨ ProgIs p.argv0 "initctl".toList

/-- What the kernel warrants: a process that was sent SIGKILL is gone when file systems are unmounted. -/
def KilledGone (env : ReapEnv) : Prop := ∀ p ∈ env.atEnd, (RSig.kill, p.pid) ∉ (reapAll env).1

/-- No process is started after SIGTERM was sent. -/
structure NoBirths (env : ReapEnv) : Prop where
  first : env.atPoll 1 ⊆ env.atTerm
  next : ∀ k, env.atPoll (k + 1) ⊆ env.atPoll k ∨ k = 0
  kill : env.atKill ⊆ env.atPoll (reapAll env).2
  last : env.atEnd ⊆ env.atKill

/-- The names of programs: at most 1022 bytes without newline, and the two words are in no name but those programs' own. -/
def PlainProgs (env : ReapEnv) : Prop :=
  ∀ p, (p ∈ env.atTerm ∨ (∃ k, p ∈ env.atPoll k) ∨ p ∈ env.atKill ∨ p ∈ env.atEnd) →
    p.pid ≠ 0 ∧ p.argv0.length ≤ 1022 ∧ '\n' ∉ p.argv0 ∧
    ("gdbserver".toList <:+: p.argv0 → ProgIs p.argv0 "gdbserver".toList) ∧
    ("initctl".toList <:+: p.argv0 → ProgIs p.argv0 "initctl".toList)

/-- The full claim of C70 -/
def C70_full : Prop := ∀ env, KilledGone env →
  (∀ n, (RSig.term, n) ∈ (reapAll env).1 ↔ ∃ p ∈ env.atTerm, p.pid = n ∧ ¬ LeftAlone p) ∧
  (∀ n, (RSig.kill, n) ∈ (reapAll env).1 → (RSig.term, n) ∈ (reapAll env).1 ∧ (reapAll env).2 = 4) ∧
  (∀ p ∈ env.atEnd, LeftAlone p)

/-! ## Lemmas -/

theorem strstr_isSome {pat s : CStr} : (strstr pat s).isSome = true ↔ pat <:+: s := by
  constructor
  · intro h
    obtain ⟨⟨a, b⟩, e⟩ := Option.isSome_iff_exists.mp h
    exact ⟨a, b, (strstr_some e).symm⟩
  · rintro ⟨a, b, e⟩
    cases h : strstr pat s with
    | some _ => rfl
    | none => exact absurd e.symm (strstr_none h a b)

theorem progIs_infix {path name : CStr} (h : ProgIs path name) : name <:+: path := by
  rcases h with h | ⟨d, h⟩
  · exact ⟨[], [], by simp [h]⟩
  · exact ⟨d ++ ['/'], [], by simp [h]⟩

/-- With a plain name the line read is the name. -/
theorem firstLine_argv0 {p : RProc} (h : p.cmdline ≠ []) (hl : p.argv0.length ≤ 1022) (hn : '\n' ∉ p.argv0) :
    firstLine p.cmdline = some p.argv0 := by
  unfold firstLine
  rw [if_neg h]
  unfold RProc.argv0 at *
  generalize p.cmdline = c at *
  clear h
  dsimp only
  congr 1
  generalize hk : (1023 : Nat) = k
  have hl' : (c.takeWhile (fun c => decide (c.toNat ≠ 0))).length < k := by omega
  clear hl hk
  induction c generalizing k with
  | nil => simp
  | cons x xs ih =>
    cases k with
    | zero => cases hl'
    | succ k =>
      by_cases hx : x.toNat = 0
      · have hnl : x ≠ '\n' := fun e => by subst e; exact absurd hx (by decide)
        simp [hx, hnl]
      · have hnl : x ≠ '\n' := by
          intro e; subst e
          apply hn
          rw [List.takeWhile_cons, if_pos (decide_eq_true hx)]
          exact List.mem_cons_self
        have := ih (k := k) (by
            intro hm; apply hn
            rw [List.takeWhile_cons, if_pos (decide_eq_true hx)]
            exact List.mem_cons_of_mem _ hm) (by
            rw [List.takeWhile_cons, if_pos (decide_eq_true hx)] at hl'
            simpa using hl')
        rw [List.take_succ_cons, List.takeWhile_cons (p := fun c => decide (c ≠ '\n')), if_pos (decide_eq_true hnl),
          List.dropWhile_cons, if_pos (decide_eq_true hnl), List.cons_append, List.takeWhile_cons, if_pos (decide_eq_true hx),
          this, List.takeWhile_cons, if_pos (decide_eq_true hx)]

theorem reapable_iff {p : RProc} (h0 : p.pid ≠ 0) (hl : p.argv0.length ≤ 1022) (hn : '\n' ∉ p.argv0)
    (hg : "gdbserver".toList <:+: p.argv0 → ProgIs p.argv0 "gdbserver".toList)
    (hi : "initctl".toList <:+: p.argv0 → ProgIs p.argv0 "initctl".toList) : reapable p = true ↔ ¬ LeftAlone p := by
  have hg' := strstr_isSome (pat := "gdbserver".toList) (s := p.argv0)
  have hi' := strstr_isSome (pat := "initctl".toList) (s := p.argv0)
  unfold reapable LeftAlone
  generalize "gdbserver".toList = g at *
  generalize "initctl".toList = i at *
  rw [if_neg h0]
  by_cases h1 : p.pid = 1
  · rw [if_pos h1]; simp [h1]
  · rw [if_neg h1]
    by_cases hc : p.cmdline = []
    · simp [firstLine, hc]
    · rw [firstLine_argv0 hc hl hn]
      dsimp only
      by_cases hgs : (strstr g p.argv0).isSome = true
      · rw [if_pos hgs]
        simp [hg (hg'.mp hgs)]
      · rw [if_neg hgs]
        have hgn : ¬ ProgIs p.argv0 g := fun h => hgs (hg'.mpr (progIs_infix h))
        by_cases ha : p.argv0.head? = some '@'
        · rw [if_pos ha]
          have : ∃ s, p.argv0 = '@' :: s := by
            cases he : p.argv0 with
            | nil => rw [he] at ha; cases ha
            | cons x s => rw [he] at ha; injection ha with ha; subst ha; exact ⟨s, rfl⟩
          simp [this]
        · rw [if_neg ha]
          have han : ¬ ∃ s, p.argv0 = '@' :: s := by
            rintro ⟨s, e⟩; rw [e] at ha; exact ha rfl
          by_cases his : (strstr i p.argv0).isSome = true
          · rw [if_pos his]
            simp [hi (hi'.mp his)]
          · rw [if_neg his]
            have hin : ¬ ProgIs p.argv0 i := fun h => his (hi'.mpr (progIs_infix h))
            simp [h1, hc, hgn, han, hin]

theorem PlainProgs.iff {env : ReapEnv} (h : PlainProgs env) {p : RProc}
    (hp : p ∈ env.atTerm ∨ (∃ k, p ∈ env.atPoll k) ∨ p ∈ env.atKill ∨ p ∈ env.atEnd) :
    reapable p = true ↔ ¬ LeftAlone p := by
  obtain ⟨h0, h1, h2, h3, h4⟩ := h p hp
  exact reapable_iff h0 h1 h2 h3 h4

theorem mem_reapSend {sig s : RSig} {ps : List RProc} {n : Nat} :
    (s, n) ∈ reapSend sig ps ↔ s = sig ∧ ∃ p ∈ ps, p.pid = n ∧ reapable p = true := by
  unfold reapSend
  simp only [List.mem_map, List.mem_filter, Prod.mk.injEq]
  constructor
  · rintro ⟨p, ⟨h1, h2⟩, h3, h4⟩; exact ⟨h3.symm, p, h1, h4, h2⟩
  · rintro ⟨h3, p, h1, h4, h2⟩; exact ⟨p, ⟨h1, h2⟩, h3.symm, h4⟩

theorem reapLoop_spec (env : ReapEnv) : ∀ (n k : Nat), k + 1 ≤ (reapLoop env n k).2 ∧ (reapLoop env n k).2 ≤ k + 1 + n ∧
    (reapLoop env n k).1 = reapStatus (env.atPoll (reapLoop env n k).2) ∧
    ((reapLoop env n k).1 = true → (reapLoop env n k).2 = k + 1 + n) ∧
    (∀ j, k < j → j < (reapLoop env n k).2 → reapStatus (env.atPoll j) = true) := by
  intro n
  induction n with
  | zero => intro k; exact ⟨Nat.le_refl _, Nat.le_refl _, rfl, fun _ => rfl, fun j h1 h2 => by rw [reapLoop] at h2; dsimp only at h2; omega⟩
  | succ n ih =>
    intro k
    rw [reapLoop]
    by_cases hs : reapStatus (env.atPoll (k + 1)) = true
    · rw [if_pos hs]
      obtain ⟨h1, h2, h3, h4, h5⟩ := ih (k + 1)
      refine ⟨by omega, by omega, h3, fun h => by have := h4 h; omega, fun j hj hj' => ?_⟩
      by_cases e : j = k + 1
      · subst e; exact hs
      · exact h5 j (by omega) hj'
    · rw [if_neg hs]
      refine ⟨Nat.le_refl _, by dsimp only; omega, ?_, nofun, fun j hj hj' => ?_⟩
      · dsimp only; exact (Bool.eq_false_iff.mpr hs).symm
      · dsimp only at hj'; omega

theorem reapAll_polls (env : ReapEnv) : (reapAll env).2 = (reapLoop env 3 0).2 := rfl

theorem reapAll_sent (env : ReapEnv) : (reapAll env).1 =
    reapSend .term env.atTerm ++ (if (reapLoop env 3 0).1 then reapSend .kill env.atKill else []) := rfl

theorem status_iff {env : ReapEnv} (h : PlainProgs env) (k : Nat) :
    reapStatus (env.atPoll k) = true ↔ ∃ p ∈ env.atPoll k, ¬ LeftAlone p := by
  unfold reapStatus
  rw [List.any_eq_true]
  constructor
  · rintro ⟨p, hp, hr⟩; exact ⟨p, hp, (h.iff (.inr (.inl ⟨k, hp⟩))).mp hr⟩
  · rintro ⟨p, hp, hr⟩; exact ⟨p, hp, (h.iff (.inr (.inl ⟨k, hp⟩))).mpr hr⟩

/-! ## C70 -/

/-- SIGTERM is sent to all but those to be left alone. -/
theorem C70_term_partial {env : ReapEnv} (h : PlainProgs env) (n : Nat) :
    (RSig.term, n) ∈ (reapAll env).1 ↔ ∃ p ∈ env.atTerm, p.pid = n ∧ ¬ LeftAlone p := by
  rw [reapAll_sent, List.mem_append, mem_reapSend]
  have : (RSig.term, n) ∉ (if (reapLoop env 3 0).1 = true then reapSend .kill env.atKill else []) := by
    split
    · rw [mem_reapSend]; exact fun h => nomatch h.1
    · exact List.not_mem_nil
  constructor
  · rintro (⟨-, p, hp, e, hr⟩ | hx)
    · exact ⟨p, hp, e, (h.iff (.inl hp)).mp hr⟩
    · exact absurd hx this
  · rintro ⟨p, hp, e, hr⟩
    exact .inl ⟨rfl, p, hp, e, (h.iff (.inl hp)).mpr hr⟩

/-- SIGKILL is sent to those that are there after the second, all but those to be left alone, and only if at each of the four
    polls something was left. -/
theorem C70_kill_partial {env : ReapEnv} (h : PlainProgs env) (n : Nat) :
    (RSig.kill, n) ∈ (reapAll env).1 ↔
      (∀ k, 1 ≤ k → k ≤ 4 → ∃ p ∈ env.atPoll k, ¬ LeftAlone p) ∧ ∃ p ∈ env.atKill, p.pid = n ∧ ¬ LeftAlone p := by
  rw [reapAll_sent, List.mem_append, mem_reapSend]
  obtain ⟨s1, s2, s3, s4, s5⟩ := reapLoop_spec env 3 0
  have hall : (reapLoop env 3 0).1 = true ↔ ∀ k, 1 ≤ k → k ≤ 4 → ∃ p ∈ env.atPoll k, ¬ LeftAlone p := by
    constructor
    · intro hw k h1 h4
      have := s4 hw
      rw [← status_iff h]
      by_cases e : k = 4
      · subst e; rw [← hw, s3, this]
      · exact s5 k (by omega) (by omega)
    · intro hk
      rw [s3, status_iff h]
      exact hk _ s1 s2
  constructor
  · rintro (⟨hx, -⟩ | hx)
    · cases hx
    · split at hx
      · rename_i hw
        obtain ⟨-, p, hp, e, hr⟩ := mem_reapSend.mp hx
        exact ⟨hall.mp hw, p, hp, e, (h.iff (.inr (.inr (.inl hp)))).mp hr⟩
      · cases hx
  · rintro ⟨hk, p, hp, e, hr⟩
    rw [if_pos (hall.mpr hk)]
    exact .inr (mem_reapSend.mpr ⟨rfl, p, hp, e, (h.iff (.inr (.inr (.inl hp)))).mpr hr⟩)

/-- Nothing is waited for once all have gone, nor longer than four polls. -/
theorem C70_wait_partial {env : ReapEnv} (h : PlainProgs env) :
    1 ≤ (reapAll env).2 ∧ (reapAll env).2 ≤ 4 ∧
    (∀ k, 1 ≤ k → k < (reapAll env).2 → ∃ p ∈ env.atPoll k, ¬ LeftAlone p) ∧
    ((reapAll env).2 < 4 → ∀ p ∈ env.atPoll (reapAll env).2, LeftAlone p) := by
  rw [reapAll_polls]
  obtain ⟨s1, s2, s3, s4, s5⟩ := reapLoop_spec env 3 0
  refine ⟨s1, s2, fun k h1 h2 => (status_iff h k).mp (s5 k h1 h2), fun hlt p hp => ?_⟩
  by_cases ha : LeftAlone p
  · exact ha
  · have := (status_iff h _).mpr ⟨p, hp, ha⟩
    rw [← s3] at this
    have := s4 this
    omega

/-- When file systems are unmounted only those to be left alone are left, and who got SIGKILL had got SIGTERM. -/
theorem C70_partial {env : ReapEnv} (h : PlainProgs env) (hb : NoBirths env) (hk : KilledGone env) :
    (∀ p ∈ env.atEnd, LeftAlone p) ∧
    (∀ n, (RSig.kill, n) ∈ (reapAll env).1 → (RSig.term, n) ∈ (reapAll env).1 ∧ (reapAll env).2 = 4) := by
  have hpoll : ∀ k, 1 ≤ k → env.atPoll k ⊆ env.atTerm := by
    intro k
    induction k with
    | zero => intro h; cases h
    | succ k ih =>
      intro _
      rcases hb.next k with hn | hn
      · cases k with
        | zero => exact hb.first
        | succ k => exact fun p hp => ih (by omega) (hn hp)
      · subst hn; exact hb.first
  obtain ⟨w1, w2, w3, w4⟩ := C70_wait_partial h
  have hkt : ∀ p ∈ env.atKill, p ∈ env.atTerm := fun p hp => hpoll _ w1 (hb.kill hp)
  obtain ⟨s1, s2, s3, s4, s5⟩ := reapLoop_spec env 3 0
  constructor
  · intro p hp
    by_cases ha : LeftAlone p
    · exact ha
    · exfalso
      have hp' := hb.last hp
      have hlive : ∃ q ∈ env.atPoll (reapAll env).2, ¬ LeftAlone q := ⟨p, hb.kill hp', ha⟩
      have hst := (status_iff h _).mpr hlive
      apply hk p hp
      rw [reapAll_sent, List.mem_append]
      rw [reapAll_polls, ← s3] at hst
      rw [if_pos hst]
      exact .inr (mem_reapSend.mpr ⟨rfl, p, hp', rfl, (h.iff (.inr (.inr (.inl hp')))).mpr ha⟩)
  · intro n hn
    obtain ⟨hall, p, hp, e, ha⟩ := (C70_kill_partial h n).mp hn
    refine ⟨(C70_term_partial h n).mpr ⟨p, hkt p hp, e, ha⟩, ?_⟩
    have : (RSig.kill, n) ∈ (reapAll env).1 := hn
    by_cases h4 : (reapAll env).2 < 4
    · obtain ⟨q, hq, hqa⟩ := hall _ w1 w2
      exact absurd (w4 h4 q hq) hqa
    · omega

/-- No signal is sent twice to a process. -/
theorem C70_once {env : ReapEnv} (h1 : (env.atTerm.map RProc.pid).Nodup) (h2 : (env.atKill.map RProc.pid).Nodup) :
    (reapAll env).1.Nodup := by
  have key : ∀ (sig : RSig) {ps : List RProc}, (ps.map RProc.pid).Nodup → (reapSend sig ps).Nodup := by
    intro sig ps h
    unfold reapSend
    have hs : ((ps.filter reapable).map RProc.pid).Nodup := h.sublist (List.filter_sublist.map _)
    have : (ps.filter reapable).map (fun p => (sig, p.pid)) = ((ps.filter reapable).map RProc.pid).map (fun n => (sig, n)) := by
      rw [List.map_map]; rfl
    rw [this]
    unfold List.Nodup at *
    rw [List.pairwise_map]
    exact hs.imp (fun hne e => hne (by injection e))
  rw [reapAll_sent, List.nodup_append]
  refine ⟨key _ h1, ?_, fun a ha b hb => ?_⟩
  · split
    · exact key _ h2
    · exact List.Pairwise.nil
  · split at hb
    · obtain ⟨sa, na⟩ := a
      obtain ⟨sb, nb⟩ := b
      rw [(mem_reapSend.mp ha).1, (mem_reapSend.mp hb).1]
      exact fun e => nomatch e
    · cases hb

/-! ### Where the claim fails -/

/-- The contents of `cmdline` -/
def cmdlineOf (args : List String) : List Char := args.flatMap (fun a => a.toList ++ [Char.ofNat 0])

/-- A process that is there all the time -/
def steady (p : RProc) : ReapEnv := { atTerm := [p], atPoll := fun _ => [p], atKill := [p], atEnd := [p] }

/-- A daemon from a directory with `initctl` in its name is not ended. -/
def oddDaemon : RProc := { pid := 200, cmdline := cmdlineOf ["/opt/initctl-tools/bin/logger", "-f"] }

theorem oddDaemon_not_alone : ¬ LeftAlone oddDaemon := by
  have e0 : oddDaemon.argv0 = "/opt/initctl-tools/bin/logger".toList := by decide +kernel
  unfold LeftAlone ProgIs
  rw [e0]
  rintro (h | h | ⟨s, h⟩ | (h | ⟨d, h⟩) | (h | ⟨d, h⟩))
  · revert h; decide
  · revert h; decide +kernel
  · cases congrArg List.head? h
  · revert h; decide +kernel
  · have := congrArg (fun l => l.reverse.take 4) h
    simp at this
  · revert h; decide +kernel
  · have := congrArg (fun l => l.reverse.take 4) h
    simp at this

theorem C70_path : ¬ LeftAlone oddDaemon ∧ (reapAll (steady oddDaemon)).1 = [] ∧ KilledGone (steady oddDaemon) ∧
    oddDaemon ∈ (steady oddDaemon).atEnd := by
  have e : (reapAll (steady oddDaemon)).1 = [] := by decide +kernel
  refine ⟨oddDaemon_not_alone, e, fun p _ => ?_, List.mem_cons_self⟩
  rw [e]; exact List.not_mem_nil

/-- A shell, and a child of it that is started after the last poll. -/
def lateShell : RProc := { pid := 300, cmdline := cmdlineOf ["sh"] }

theorem C70_late : let env : ReapEnv := { atTerm := [], atPoll := fun _ => [], atKill := [], atEnd := [lateShell] }
    ¬ LeftAlone lateShell ∧ (reapAll env).1 = [] ∧ KilledGone env := by
  have e0 : lateShell.argv0 = "sh".toList := by decide +kernel
  refine ⟨?_, by decide +kernel, fun p _ => ?_⟩
  · unfold LeftAlone ProgIs
    rw [e0]
    rintro (h | h | ⟨s, h⟩ | (h | ⟨d, h⟩) | (h | ⟨d, h⟩))
    · revert h; decide
    · revert h; decide +kernel
    · cases congrArg List.head? h
    · revert h; decide +kernel
    · have := congrArg List.length h; simp at this
    · revert h; decide +kernel
    · have := congrArg List.length h; simp at this
  · have : (reapAll { atTerm := [], atPoll := fun _ => [], atKill := [], atEnd := [lateShell] }).1 = [] := by decide +kernel
    rw [this]; exact List.not_mem_nil

theorem C70_full_false : ¬ C70_full := fun h =>
  C70_path.1 ((h _ C70_path.2.2.1).2.2 _ C70_path.2.2.2)

/-! ### Examples -/

/-- A thread of the kernel, initctl, a storage daemon, a program that ends on SIGTERM, and one that does not -/
def someProcs : List RProc :=
  [{ pid := 1, cmdline := cmdlineOf ["/sbin/init"] }, { pid := 2, cmdline := [] },
   { pid := 50, cmdline := cmdlineOf ["/sbin/initctl", "reboot"] }, { pid := 60, cmdline := cmdlineOf ["@dmon", "md0"] },
   { pid := 70, cmdline := cmdlineOf ["/usr/bin/tail", "/tmp/initctl"] }, { pid := 80, cmdline := cmdlineOf ["stubborn"] }]

def someEnv : ReapEnv :=
  { atTerm := someProcs, atPoll := fun k => if k ≤ 1 then someProcs else someProcs.eraseIdx 4, atKill := someProcs.eraseIdx 4,
    atEnd := someProcs.take 4 }

example : (reapAll someEnv).1 = [(.term, 70), (.term, 80), (.kill, 80)] ∧ (reapAll someEnv).2 = 4 := by decide +kernel

example : NoBirths someEnv := by
  refine ⟨by decide +kernel, fun k => ?_, ?_, by decide +kernel⟩
  · unfold someEnv
    dsimp only
    by_cases h : k + 1 ≤ 1
    · exact .inr (by omega)
    · refine .inl ?_
      rw [if_neg h]
      split
      · exact (List.eraseIdx_sublist _ _).subset
      · exact fun _ h => h
  · have : (reapAll someEnv).2 = 4 := by decide +kernel
    rw [this]
    exact fun _ h => h

example : PlainProgs someEnv := by
  have key : ∀ p ∈ someProcs, p.pid ≠ 0 ∧ p.argv0.length ≤ 1022 ∧ '\n' ∉ p.argv0 ∧
      (strstr "gdbserver".toList p.argv0).isSome = false ∧
      ((strstr "initctl".toList p.argv0).isSome = false ∨ p.argv0 = "/sbin".toList ++ '/' :: "initctl".toList) := by
    decide +kernel
  intro p hp
  have hm : p ∈ someProcs := by
    unfold someEnv at hp
    dsimp only at hp
    rcases hp with h | ⟨k, h⟩ | h | h
    · exact h
    · split at h
      · exact h
      · exact (List.eraseIdx_sublist _ _).subset h
    · exact (List.eraseIdx_sublist _ _).subset h
    · exact (List.take_sublist _ _).subset h
  obtain ⟨h1, h2, h3, h4, h5⟩ := key p hm
  refine ⟨h1, h2, h3, fun h => ?_, fun h => ?_⟩
  · rw [strstr_isSome.mpr h] at h4; cases h4
  · rcases h5 with h5 | h5
    · rw [strstr_isSome.mpr h] at h5; cases h5
    · exact .inr ⟨_, h5⟩

example : KilledGone someEnv := by unfold KilledGone; decide +kernel

end Verif
