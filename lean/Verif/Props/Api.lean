import Verif.Api
import Verif.Props.Jobs

/-!
# Requests on the control socket (C27, C46)
-/

namespace Verif

/-! ## Specification -/

/-- The system is going down. -/
def GoingDown (st : ApiSt) : Prop := st.runlevel = 0 ∨ st.runlevel = 6

/-- The requests that are served while the system is going down (the numbers are those of src/finit.h:87-108):
    change of runlevel, debug toggle, the plugin lists, the runlevel, the watchdog handshake, the four look-ups, and
    signals. -/
def servedGoingDown : List Int := [1, 8, 14, 15, 16, 128, 129, 130, 131, 132, 133]

/-- The requests the supervisor knows, src/finit.h:79-108. -/
def knownCmds : List Int := [1, 8, 9, 10, 11, 12, 13, 14, 15, 16, 20, 21, 22, 23, 128, 129, 130, 131, 132, 133, 255]

/-- What a request may bring about while the system is going down. -/
def Permitted (E : ApiEnv) (rq : Req) : Call → Prop
  | .read _ => True
  | .debug => rq.cmd = 8
  | .plugins => rq.cmd = 14 ∨ rq.cmd = 15
  | .kill i s => rq.cmd = 133 ∧ s = rq.runlevel ∧ E.running i = true
  | .setWdog _ => rq.cmd = 128
  | .del _ => rq.cmd = 128
  | .act .stop _ => rq.cmd = 128
  | .send _ => rq.cmd = 129 ∨ rq.cmd = 131 ∨ rq.cmd = 132
  | _ => False

/-- Every function that is handed the data as a string finds its end within the request. -/
def AlwaysTerminated (cs : List Call) : Prop := ∀ b, Call.read b ∈ cs → '\x00' ∈ b

/-- The second half of the promise in full. -/
def C27_terminated_full : Prop :=
  ∀ (E : ApiEnv) (st : ApiSt) (p : Int) (rq : Req), rq.data.length = 368 → AlwaysTerminated (apiRequest E st p rq).1

/-! ## Proofs -/

theorem callAll_inv {σ} {P : σ → Prop} {found : σ → Option Nat → σ × Nat} (h : ∀ s o, P s → P (found s o).1) :
    ∀ (l : List (Option Nat)) (s : σ × Nat), P s.1 → P (callAll found s l).1
  | [], s, h0 => by cases s; exact h0
  | t :: ts, (s, n), h0 => callAll_inv h ts _ (h s t h0)

theorem parseJobstr_inv {σ} {P : σ → Prop} {found : σ → Option Nat → σ × Nat} (h : ∀ s o, P s → P (found s o).1)
    (l : List Ent) : ∀ (ts : List CStr) (s r : σ × Nat), P s.1 → parseJobstr l found s ts = some r → P r.1
  | [], s, r, h0, e => by cases e; exact h0
  | t :: ts, s, r, h0, e => by
    rw [parseJobstr] at e
    split at e
    · exact parseJobstr_inv h l ts _ _ h0 e
    · cases e
    · exact parseJobstr_inv h l ts _ _ (callAll_inv h _ _ h0) e
    · exact parseJobstr_inv h l ts _ _ (callAll_inv h _ _ h0) e

theorem mem_strterm {buf : List Char} (h : buf ≠ []) : '\x00' ∈ strterm buf := by
  unfold strterm
  have hl : 0 < buf.length := List.length_pos_iff.mpr h
  exact List.mem_iff_getElem?.mpr ⟨buf.length - 1, by rw [List.getElem?_set_self (by omega)]⟩

theorem iteInd {α} {c : Prop} [Decidable c] {P : α → Prop} {a b : α} (h1 : c → P a) (h2 : ¬ c → P b) :
    P (if c then a else b) := by
  by_cases h : c
  · rw [if_pos h]; exact h1 h
  · rw [if_neg h]; exact h2 h

theorem doJobs_calls {E : ApiEnv} {a : SvcAct} {buf : List Char} {r : List Call × Nat} (h : doJobs E a buf = some r) :
    ∀ c ∈ r.1, c = .read buf ∨ ∃ i, c = .act a i := by
  refine parseJobstr_inv (P := fun s : List Call => ∀ c ∈ s, c = .read buf ∨ ∃ i, c = .act a i) ?_ E.list _ _ r ?_ h
  · intro s o hs
    cases o with
    | none => exact hs
    | some i =>
      intro c hc
      rcases List.mem_append.mp hc with hc | hc
      · exact hs c hc
      · exact .inr ⟨i, List.mem_singleton.mp hc⟩
  · intro c hc; exact .inl (List.mem_singleton.mp hc)

theorem doSignal_calls {E : ApiEnv} {sig : Int} {buf : List Char} {r : List Call × Nat}
    (h : doSignal E buf sig = some r) : ∀ c ∈ r.1, c = .read buf ∨ ∃ i, c = .kill i sig ∧ E.running i = true := by
  unfold doSignal at h
  split at h
  · cases h; simp
  · refine parseJobstr_inv (P := fun s : List Call => ∀ c ∈ s, c = .read buf ∨ ∃ i, c = .kill i sig ∧ E.running i = true)
      ?_ E.list _ _ r ?_ h
    · intro s o hs
      cases o with
      | none => exact hs
      | some i =>
        dsimp only
        split
        · exact hs
        · rename_i hr
          intro c hc
          rcases List.mem_append.mp hc with hc | hc
          · exact hs c hc
          · exact .inr ⟨i, List.mem_singleton.mp hc, by simpa using hr⟩
    · intro c hc; exact .inl (List.mem_singleton.mp hc)

theorem dbgData_read {st : ApiSt} {buf : List Char} {c : Call} (h : c ∈ dbgData st buf) :
    st.debug = true ∧ c = .read buf := by
  unfold dbgData at h
  split at h
  · exact ⟨by assumption, List.mem_singleton.mp h⟩
  · cases h

theorem answerJobs_calls {rq : Req} {o : Option (List Call × Nat)} {c : Call} (h : c ∈ (answerJobs rq o).1) :
    ∃ r, o = some r ∧ c ∈ r.1 := by
  cases o with
  | none => cases h
  | some r => exact ⟨r, rfl, h⟩

theorem GoingDown.reserved {st : ApiSt} (h : GoingDown st) : isReserved st.runlevel = true := by
  rcases h with h | h <;> rw [h] <;> decide

theorem GoingDown.not_ten {st : ApiSt} (h : GoingDown st) : st.runlevel ≠ 10 := by
  rcases h with h | h <;> omega

theorem doWdog_calls {E : ApiEnv} {st : ApiSt} {pid : Int} {c : Call} (hc : c ∈ (doWdog E st pid).1) :
    (∃ i, c = .act .stop i) ∨ (∃ i, c = .del i) ∨ ∃ i, c = .setWdog i := by
  unfold doWdog at hc
  split at hc
  · cases hc
  split at hc
  · cases hc
  · dsimp only at hc
    rcases List.mem_append.mp hc with hc | hc
    · split at hc
      · split at hc
        · rcases List.mem_cons.mp hc with rfl | hc
          · exact .inl ⟨_, rfl⟩
          · exact .inr (.inl ⟨_, List.mem_singleton.mp hc⟩)
        · cases hc
      · cases hc
    · exact .inr (.inr ⟨_, List.mem_singleton.mp hc⟩)

theorem doReboot_calls {E : ApiEnv} {cmd tmo : Int} {b : List Char} : Call.read b ∉ (doReboot E cmd tmo).1 := by
  unfold doReboot
  dsimp only
  intro hb
  split at hb
  · split at hb <;> simp at hb
  split at hb
  · split at hb <;> simp at hb
  split at hb
  · split at hb <;> simp at hb
  · split at hb <;> simp at hb

theorem doRunlevel_calls {st : ApiSt} {l : Int} {b : List Char} : Call.read b ∉ doRunlevel st l := by
  intro hb
  unfold doRunlevel at hb
  split at hb
  · cases hb
  · dsimp only at hb
    generalize (if l = 115 ∨ l = 83 then 49 else l) = l at hb
    split at hb
    · rw [List.mem_append, List.mem_append] at hb
      rcases hb with (hb | hb) | hb <;> split at hb <;> simp at hb
    · cases hb

/-! ## C27 -/

/-- While the system is going down a request brings nothing about but what is permitted: no service is started,
    restarted, reloaded or (the built-in watchdog apart) stopped, no runlevel changes, nothing is reloaded. -/
theorem C27_only_permitted (E : ApiEnv) (st : ApiSt) (p : Int) (rq : Req) (h : GoingDown st) :
    ∀ c ∈ (apiRequest E st p rq).1, Permitted E rq c := by
  have dbg : ∀ c ∈ dbgData st rq.data, Permitted E rq c := fun c hc => by rw [(dbgData_read hc).2]; trivial
  unfold apiRequest
  apply iteInd (P := fun r : List Call × Reply => ∀ c ∈ r.1, Permitted E rq c)
  · intro _ c hc; cases hc
  intro _
  apply iteInd (P := fun r : List Call × Reply => ∀ c ∈ r.1, Permitted E rq c)
  · intro _ c hc; rw [List.mem_singleton.mp hc]; trivial
  intro hg
  rw [h.reserved, Bool.and_true] at hg
  have ng : ¬ (rq.cmd = 9 ∨ rq.cmd = 10 ∨ rq.cmd = 13 ∨ rq.cmd = 11 ∨ rq.cmd = 12 ∨ rq.cmd = 20 ∨ rq.cmd = 21 ∨
      rq.cmd = 22 ∨ rq.cmd = 23) := by simpa only [gatedCmd, decide_eq_true_eq] using hg
  dsimp only
  apply iteInd (P := fun r : List Call × Reply => ∀ c ∈ r.1, Permitted E rq c)
  · intro _ c hc
    dsimp only at hc
    rw [doRunlevel, if_pos ⟨h.reserved, h.not_ten⟩] at hc; cases hc
  intro _
  apply iteInd (P := fun r : List Call × Reply => ∀ c ∈ r.1, Permitted E rq c)
  · intro h1 c hc; rw [List.mem_singleton.mp hc]; exact h1
  intro _
  iterate 5
    apply iteInd (P := fun r : List Call × Reply => ∀ c ∈ r.1, Permitted E rq c)
    · intro h1; exact absurd h1 (by omega)
    intro _
  apply iteInd (P := fun r : List Call × Reply => ∀ c ∈ r.1, Permitted E rq c)
  · intro h1 c hc; rw [List.mem_singleton.mp hc]; exact .inl h1
  intro _
  apply iteInd (P := fun r : List Call × Reply => ∀ c ∈ r.1, Permitted E rq c)
  · intro h1 c hc
    rcases List.mem_cons.mp hc with rfl | hc
    · trivial
    · rw [List.mem_singleton.mp hc]; exact .inr h1
  intro _
  apply iteInd (P := fun r : List Call × Reply => ∀ c ∈ r.1, Permitted E rq c)
  · intro _ c hc; cases hc
  intro _
  apply iteInd (P := fun r : List Call × Reply => ∀ c ∈ r.1, Permitted E rq c)
  · intro h1; exact absurd h1 (by omega)
  intro _
  apply iteInd (P := fun r : List Call × Reply => ∀ c ∈ r.1, Permitted E rq c)
  · intro _ c hc; cases hc
  intro _
  apply iteInd (P := fun r : List Call × Reply => ∀ c ∈ r.1, Permitted E rq c)
  · intro h1 c hc
    rcases doWdog_calls hc with ⟨i, rfl⟩ | ⟨i, rfl⟩ | ⟨i, rfl⟩ <;> exact h1
  intro _
  apply iteInd (P := fun r : List Call × Reply => ∀ c ∈ r.1, Permitted E rq c)
  · intro h1 c hc; rw [List.mem_singleton.mp hc]; exact .inl h1
  intro _
  apply iteInd (P := fun r : List Call × Reply => ∀ c ∈ r.1, Permitted E rq c)
  · intro _ c hc
    rcases List.mem_append.mp hc with hc | hc
    · exact dbg c hc
    · obtain ⟨r, h1, h2⟩ := answerJobs_calls hc
      obtain ⟨n, _, rfl⟩ := Option.map_eq_some_iff.mp h1
      rw [List.mem_singleton.mp h2]; trivial
  intro _
  apply iteInd (P := fun r : List Call × Reply => ∀ c ∈ r.1, Permitted E rq c)
  · intro h1 c hc
    rcases List.mem_append.mp hc with hc | hc
    · exact dbg c hc
    · rcases List.mem_cons.mp hc with rfl | hc
      · trivial
      · rw [List.mem_singleton.mp hc]; exact .inr (.inl h1)
  intro _
  apply iteInd (P := fun r : List Call × Reply => ∀ c ∈ r.1, Permitted E rq c)
  · intro h1 c hc
    rcases List.mem_append.mp hc with hc | hc
    · exact dbg c hc
    · rcases List.mem_cons.mp hc with rfl | hc
      · trivial
      · rw [List.mem_singleton.mp hc]; exact .inr (.inr h1)
  intro _
  apply iteInd (P := fun r : List Call × Reply => ∀ c ∈ r.1, Permitted E rq c)
  · intro h1 c hc
    rcases List.mem_append.mp hc with hc | hc
    · exact dbg c hc
    · obtain ⟨r, h2, h3⟩ := answerJobs_calls hc
      rcases doSignal_calls h2 c h3 with rfl | ⟨i, rfl, h4⟩
      · trivial
      · exact ⟨h1, rfl, h4⟩
  · intro _ c hc; cases hc

/-- While the system is going down every known request outside the served set is refused: the connection is closed
    without an answer, whatever the request holds and whatever else was sent on the connection. -/
theorem C27_others_refused (E : ApiEnv) (st : ApiSt) (p : Int) (rq : Req) (h : GoingDown st)
    (hk : rq.cmd ∈ knownCmds) (hn : rq.cmd ∉ servedGoingDown) :
    (apiRequest E st p rq).2 = .closed ∧ (∀ c ∈ (apiRequest E st p rq).1, ∃ b, c = .read b) ∧
    ∀ rest, (apiServe E ((st, p, rq) :: rest)).length = 1 := by
  have key : (apiRequest E st p rq).2 = .closed ∧ (∀ c ∈ (apiRequest E st p rq).1, ∃ b, c = .read b) := by
    unfold apiRequest
    apply iteInd (P := fun r : List Call × Reply => r.2 = .closed ∧ ∀ c ∈ r.1, ∃ b, c = .read b)
    · exact fun _ => ⟨rfl, fun c hc => by cases hc⟩
    intro _
    apply iteInd (P := fun r : List Call × Reply => r.2 = .closed ∧ ∀ c ∈ r.1, ∃ b, c = .read b)
    · exact fun _ => ⟨rfl, fun c hc => ⟨_, List.mem_singleton.mp hc⟩⟩
    · intro hg
      rw [h.reserved, Bool.and_true] at hg
      have ng : ¬ (rq.cmd = 9 ∨ rq.cmd = 10 ∨ rq.cmd = 13 ∨ rq.cmd = 11 ∨ rq.cmd = 12 ∨ rq.cmd = 20 ∨ rq.cmd = 21 ∨
          rq.cmd = 22 ∨ rq.cmd = 23) := by simpa only [gatedCmd, decide_eq_true_eq] using hg
      have h255 : rq.cmd = 255 := by
        simp only [knownCmds, servedGoingDown, List.mem_cons, List.not_mem_nil, or_false, not_or] at hk hn
        omega
      rw [h255]
      exact ⟨rfl, fun c hc => by cases hc⟩
  refine ⟨key.1, key.2, fun rest => ?_⟩
  simp only [apiServe, key.1, List.length_singleton]

/-- A request that does not bear the magic number is never served, in any runlevel. -/
theorem C27_magic (E : ApiEnv) (st : ApiSt) (p : Int) (rq : Req) (h : rq.magic ≠ 0x03091969) :
    apiRequest E st p rq = ([], .closed) := by
  unfold apiRequest; rw [if_pos h]

theorem apiRequest_reads (E : ApiEnv) (st : ApiSt) (p : Int) (rq : Req) : ∀ b,
    Call.read b ∈ (apiRequest E st p rq).1 →
    b = strterm rq.data ∨ (b = rq.data ∧ (st.debug = true ∨ rq.cmd = 15)) := by
  have dbg : ∀ b, Call.read b ∈ dbgData st rq.data →
      b = strterm rq.data ∨ (b = rq.data ∧ (st.debug = true ∨ rq.cmd = 15)) := by
    intro b hb
    obtain ⟨h1, h2⟩ := dbgData_read hb
    cases h2; exact .inr ⟨rfl, .inl h1⟩
  have jobs : ∀ a b, Call.read b ∈ dbgData st rq.data ++ (answerJobs rq (doJobs E a (strterm rq.data))).1 →
      b = strterm rq.data ∨ (b = rq.data ∧ (st.debug = true ∨ rq.cmd = 15)) := by
    intro a b hb
    rcases List.mem_append.mp hb with hb | hb
    · exact dbg b hb
    · obtain ⟨r, h1, h2⟩ := answerJobs_calls hb
      rcases doJobs_calls h1 _ h2 with h3 | ⟨i, h3⟩
      · cases h3; exact .inl rfl
      · cases h3
  unfold apiRequest
  dsimp only
  let P := fun r : List Call × Reply => ∀ b, Call.read b ∈ r.1 →
    b = strterm rq.data ∨ (b = rq.data ∧ (st.debug = true ∨ rq.cmd = 15))
  apply iteInd (P := P)
  · intro _ b hb; cases hb
  intro _
  apply iteInd (P := P)
  · intro _ b hb; cases List.mem_singleton.mp hb; exact .inl rfl
  intro _
  apply iteInd (P := P)
  · intro _ b hb; exact absurd hb doRunlevel_calls
  intro _
  apply iteInd (P := P)
  · intro _ b hb; cases List.mem_singleton.mp hb
  intro _
  apply iteInd (P := P)
  · intro _ b hb; cases List.mem_singleton.mp hb
  intro _
  apply iteInd (P := P)
  · intro _; exact jobs _
  intro _
  apply iteInd (P := P)
  · intro _; exact jobs _
  intro _
  apply iteInd (P := P)
  · intro _; exact jobs _
  intro _
  apply iteInd (P := P)
  · intro _; exact jobs _
  intro _
  apply iteInd (P := P)
  · intro _ b hb; cases List.mem_singleton.mp hb
  intro _
  apply iteInd (P := P)
  · intro h1 b hb
    rcases List.mem_cons.mp hb with h | hb
    · cases h; exact .inr ⟨rfl, .inr h1⟩
    · cases List.mem_singleton.mp hb
  intro _
  apply iteInd (P := P)
  · intro _ b hb; cases hb
  intro _
  apply iteInd (P := P)
  · intro _ b hb; exact absurd hb doReboot_calls
  intro _
  apply iteInd (P := P)
  · intro _ b hb; cases hb
  intro _
  apply iteInd (P := P)
  · intro _ b hb; rcases doWdog_calls hb with ⟨i, h⟩ | ⟨i, h⟩ | ⟨i, h⟩ <;> cases h
  intro _
  apply iteInd (P := P)
  · intro _ b hb; cases List.mem_singleton.mp hb
  intro _
  apply iteInd (P := P)
  · intro _ b hb
    rcases List.mem_append.mp hb with hb | hb
    · exact dbg b hb
    · obtain ⟨r, h1, h2⟩ := answerJobs_calls hb
      obtain ⟨n, _, rfl⟩ := Option.map_eq_some_iff.mp h1
      cases List.mem_singleton.mp h2; exact .inl rfl
  intro _
  apply iteInd (P := P)
  · intro _ b hb
    rcases List.mem_append.mp hb with hb | hb
    · exact dbg b hb
    · rcases List.mem_cons.mp hb with h | hb
      · cases h; exact .inl rfl
      · cases List.mem_singleton.mp hb
  intro _
  apply iteInd (P := P)
  · intro _ b hb
    rcases List.mem_append.mp hb with hb | hb
    · exact dbg b hb
    · rcases List.mem_cons.mp hb with h | hb
      · cases h; exact .inl rfl
      · cases List.mem_singleton.mp hb
  intro _
  apply iteInd (P := P)
  · intro _ b hb
    rcases List.mem_append.mp hb with hb | hb
    · exact dbg b hb
    · obtain ⟨r, h1, h2⟩ := answerJobs_calls hb
      rcases doSignal_calls h1 _ h2 with h3 | ⟨i, h3, _⟩
      · cases h3; exact .inl rfl
      · cases h3
  intro _ b hb; cases hb

/-- The data is treated as a terminated string by every request, whatever bytes it holds.  Missing for the full
    claim: the plugin dependency request, and every request that carries a name while debugging is on; these need
    the client to have terminated the data. -/
theorem C27_terminated_partial (E : ApiEnv) (st : ApiSt) (p : Int) (rq : Req) (hl : rq.data.length = 368)
    (h : (st.debug = false ∧ rq.cmd ≠ 15) ∨ '\x00' ∈ rq.data) : AlwaysTerminated (apiRequest E st p rq).1 := by
  intro b hb
  rcases apiRequest_reads E st p rq b hb with rfl | ⟨rfl, h1⟩
  · exact mem_strterm fun h => by rw [h] at hl; cases hl
  · rcases h with ⟨h2, h3⟩ | h
    · rcases h1 with h1 | h1
      · rw [h2] at h1; cases h1
      · exact absurd h1 h3
    · exact h

def apiEnv : ApiEnv := ⟨sampleReg, fun i => i == 0, fun _ => false, false, fun n => if n = 7 then some 1 else none, fun _ => none, none⟩

/-- 368 bytes without an end. -/
def noEnd : List Char := List.replicate 368 'x'

/-- The full claim does not hold: the plugin dependency request, in any runlevel, and a start request while
    debugging is on hand unterminated data to functions that expect a string. -/
theorem C27_terminated_false : ¬ C27_terminated_full ∧
    (∀ (E : ApiEnv) (st : ApiSt) (p : Int), Call.read noEnd ∈ (apiRequest E st p { cmd := 15, data := noEnd }).1) ∧
    '\x00' ∉ noEnd ∧
    Call.read noEnd ∈ (apiRequest apiEnv { runlevel := 2, debug := true } 1 { cmd := 10, data := noEnd }).1 := by
  have h0 : '\x00' ∉ noEnd := fun h => by
    have := List.eq_of_mem_replicate h
    revert this; decide
  have h1 : ∀ (E : ApiEnv) (st : ApiSt) (p : Int),
      Call.read noEnd ∈ (apiRequest E st p { cmd := 15, data := noEnd }).1 := by
    intro E st p
    unfold apiRequest
    simp [gatedCmd]
  refine ⟨fun H => ?_, h1, h0, by decide +kernel⟩
  exact h0 (H apiEnv { runlevel := 2 } 1 { cmd := 15, data := noEnd } (List.length_replicate ..) _ (h1 _ _ _))

-- In runlevel 6: a start request is refused, a signal is sent, a change of runlevel is answered but ignored.
example : apiRequest apiEnv { runlevel := 6 } 2 { cmd := 10, data := "dns".toList ++ List.replicate 365 '\x00' } =
    ([.read ("dns".toList ++ List.replicate 365 '\x00')], .closed) := by decide +kernel
example : apiRequest apiEnv { runlevel := 6 } 2 { cmd := 133, runlevel := 15, data := "ssh:1".toList ++ List.replicate 363 '\x00' } =
    ([.read ("ssh:1".toList ++ List.replicate 363 '\x00'), .kill 0 15], .ack 15 0) := by decide +kernel
example : apiRequest apiEnv { runlevel := 6 } 2 { cmd := 1, runlevel := 50 } = ([], .ack 50 0) := by decide +kernel
-- In runlevel 2 the same start request is carried out.
example : apiRequest apiEnv { runlevel := 2 } 1 { cmd := 10, data := "dns".toList ++ List.replicate 365 '\x00' } =
    ([.read ("dns".toList ++ List.replicate 365 '\x00'), .act .start 2], .ack 0 0) := by decide +kernel

/-! ## C46: the answer tells whether the request was carried out -/

/-- The number of a request on services. -/
def cmdOf : SvcAct → Int
  | .start => 10 | .stop => 11 | .reload => 12 | .restart => 13

/-- What the client asked for has been set in motion: `s` is the string in the request. -/
def Done (E : ApiEnv) (rq : Req) (s : CStr) (cs : List Call) : Prop :=
  (∀ l : Int, 0 ≤ l → l ≤ 9 → rq.cmd = 1 → rq.runlevel = 48 + l → Call.setCfg l ∈ cs ∨ Call.smRunlevel l ∈ cs) ∧
  (rq.cmd = 9 → Call.smReload ∈ cs) ∧
  (rq.cmd = 20 → Call.smRunlevel 6 ∈ cs) ∧
  (rq.cmd = 21 ∨ rq.cmd = 22 → Call.smRunlevel 0 ∈ cs) ∧
  (∀ a, rq.cmd = cmdOf a → ∀ tok ∈ tokens isSpace s, ∃ i e, E.list[i]? = some e ∧ Denotes e tok ∧ Call.act a i ∈ cs)

/-- The request was answered with an acknowledgement. -/
def Acked (r : Reply) : Prop := ∃ a b, r = .ack a b

/-- The whole promise: every request that asks for a change and gets an answer is acknowledged exactly if the change
    was set in motion. -/
def C46_full : Prop :=
  ∀ (E : ApiEnv) (st : ApiSt) (p : Int) (s : CStr) (rq : Req), '\x00' ∉ s → rq.cmd ∈ [1, 9, 10, 11, 12, 13, 20, 21, 22] →
    rq.data = s ++ List.replicate (368 - s.length) '\x00' → s.length < 368 →
    (apiRequest E st p rq).2 = .closed ∨ (Acked (apiRequest E st p rq).2 ↔ Done E rq s (apiRequest E st p rq).1)

theorem strterm_padded {s : CStr} (h : s.length < 368) :
    strterm (s ++ List.replicate (368 - s.length) '\x00') = s ++ List.replicate (368 - s.length) '\x00' := by
  have e : List.replicate (368 - s.length) '\x00' = List.replicate (367 - s.length) '\x00' ++ ['\x00'] := by
    rw [show 368 - s.length = (367 - s.length) + 1 by omega, List.replicate_succ']
  unfold strterm
  rw [e, ← List.append_assoc]
  generalize s ++ List.replicate (367 - s.length) '\x00' = t
  rw [List.set_append_right _ _ (by simp)]
  simp

theorem callAll_acts (a : SvcAct) : ∀ (l : List (Option Nat)) (s : List Call) (n : Nat),
    callAll (actFound a) (s, n) l = (s ++ l.filterMap (·.map (Call.act a)), n + l.count none)
  | [], s, n => by simp [callAll]
  | none :: l, s, n => by
    rw [callAll, callAll_acts a l]
    simp only [actFound]
    simp only [List.filterMap_cons, Option.map_none, List.count_cons_self]
    rw [show n + 1 + l.count none = n + (l.count none + 1) by omega]
  | some i :: l, s, n => by
    rw [callAll, callAll_acts a l]
    simp [actFound, List.append_assoc]

theorem forall₂_of_mem_left {α β} {R : α → β → Prop} {l : List α} {m : List β} (h : List.Forall₂ R l m) :
    ∀ x ∈ l, ∃ y ∈ m, R x y := by
  induction h with
  | nil => intro x hx; cases hx
  | cons h1 _ ih =>
    intro x hx
    rcases List.mem_cons.mp hx with rfl | hx
    · exact ⟨_, List.mem_cons_self, h1⟩
    · obtain ⟨y, hy, hr⟩ := ih x hx
      exact ⟨y, List.mem_cons_of_mem _ hy, hr⟩

theorem forall₂_of_mem_right {α β} {R : α → β → Prop} {l : List α} {m : List β} (h : List.Forall₂ R l m) :
    ∀ y ∈ m, ∃ x ∈ l, R x y := by
  induction h with
  | nil => intro x hx; cases hx
  | cons h1 _ ih =>
    intro x hx
    rcases List.mem_cons.mp hx with rfl | hx
    · exact ⟨_, List.mem_cons_self, h1⟩
    · obtain ⟨y, hy, hr⟩ := ih x hx
      exact ⟨y, List.mem_cons_of_mem _ hy, hr⟩

/-- A request on services, outside the reserved runlevels. -/
theorem apiRequest_jobs (E : ApiEnv) (st : ApiSt) (p : Int) (rq : Req) (a : SvcAct) (hm : rq.magic = 0x03091969)
    (hc : rq.cmd = cmdOf a) (hr : isReserved st.runlevel = false) :
    apiRequest E st p rq = (dbgData st rq.data ++ (answerJobs rq (doJobs E a (strterm rq.data))).1,
      (answerJobs rq (doJobs E a (strterm rq.data))).2) := by
  unfold apiRequest
  rw [if_neg (by simp [hm]), hr, Bool.and_false, if_neg (by decide), hc]
  cases a <;> rfl

/-- A request to start, stop, restart or reload services is acknowledged exactly if every service named in it was
    acted on.  Asked of it: the words are of the documented form, and each is given with an id or is known; and the
    runlevel is not reserved. -/
theorem C46_jobs_partial (E : ApiEnv) (st : ApiSt) (p : Int) (s : CStr) (rq : Req) (a : SvcAct)
    (hs : '\x00' ∉ s) (hl : s.length < 368) (hd : rq.data = s ++ List.replicate (368 - s.length) '\x00')
    (hm : rq.magic = 0x03091969) (hc : rq.cmd = cmdOf a)
    (hr : st.runlevel ≠ 0 ∧ st.runlevel ≠ 6 ∧ st.runlevel ≠ 10)
    (hp : ∀ tok ∈ tokens isSpace s, ProperTok tok)
    (hw : ∀ tok ∈ tokens isSpace s, ':' ∈ tok ∨ ∃ e ∈ E.list, Denotes e tok) :
    (Acked (apiRequest E st p rq).2 ↔ ∀ tok ∈ tokens isSpace s, ∃ e ∈ E.list, Denotes e tok) ∧
    (Acked (apiRequest E st p rq).2 ↔ Done E rq s (apiRequest E st p rq).1) ∧
    ∀ i, Call.act a i ∈ (apiRequest E st p rq).1 → ∃ e tok, E.list[i]? = some e ∧ tok ∈ tokens isSpace s ∧ Denotes e tok := by
  obtain ⟨calls, h1, h2⟩ := C26_each_once_partial E.list s (368 - s.length) hs hp
  have hres : isReserved st.runlevel = false := by simp [isReserved, hr]
  have e0 : doJobs E a (strterm rq.data) = some ([.read rq.data] ++ calls.flatten.filterMap (·.map (Call.act a)),
      calls.flatten.count none) := by
    rw [hd, strterm_padded hl]
    unfold doJobs
    rw [h2, callAll_acts, Nat.zero_add]
  rw [apiRequest_jobs E st p rq a hm hc hres, e0]
  simp only [answerJobs]
  have hmem : ∀ i, Call.act a i ∈ dbgData st rq.data ++ ([.read rq.data] ++ calls.flatten.filterMap (·.map (Call.act a))) ↔
      some i ∈ calls.flatten := by
    intro i
    rw [List.mem_append, List.mem_append]
    constructor
    · rintro (h | h | h)
      · cases (dbgData_read h).2
      · cases List.mem_singleton.mp h
      · obtain ⟨o, ho, e⟩ := List.mem_filterMap.mp h
        cases o with
        | none => cases e
        | some j => cases e; exact ho
    · intro h
      exact .inr (.inr (List.mem_filterMap.mpr ⟨some i, h, rfl⟩))
  have hack : Acked (answer rq (calls.flatten.count none)) ↔ none ∉ calls.flatten := by
    unfold answer
    rw [← List.count_eq_zero]
    by_cases h : calls.flatten.count none = 0
    · rw [if_neg (by simpa using h)]; exact ⟨fun _ => h, fun _ => ⟨_, _, rfl⟩⟩
    · rw [if_pos h]; exact ⟨fun h' => (by obtain ⟨_, _, h'⟩ := h'; cases h'), fun h' => absurd h' h⟩
  have hall : none ∉ calls.flatten ↔ ∀ tok ∈ tokens isSpace s, ∃ e ∈ E.list, Denotes e tok := by
    constructor
    · intro hn tok ht
      obtain ⟨ys, hy, hh⟩ := forall₂_of_mem_left h1 tok ht
      by_cases hcol : ':' ∈ tok
      · obtain ⟨o, rfl, _, h5⟩ := hh.2 hcol
        cases o with
        | none => exact absurd (List.mem_flatten.mpr ⟨_, hy, List.mem_singleton.mpr rfl⟩) hn
        | some i =>
          obtain ⟨⟨e, he, hden⟩, _⟩ := h5 i rfl
          exact ⟨e, List.mem_of_getElem? he, hden⟩
      · exact (hw tok ht).resolve_left hcol
    · intro hall hn
      obtain ⟨ys, hy, ho⟩ := List.mem_flatten.mp hn
      obtain ⟨tok, ht, hh⟩ := forall₂_of_mem_right h1 ys hy
      by_cases hcol : ':' ∈ tok
      · obtain ⟨o, rfl, h4, _⟩ := hh.2 hcol
        have : none = o := List.mem_singleton.mp ho
        obtain ⟨e, he, hden⟩ := hall tok ht
        exact h4 this.symm e he hden
      · obtain ⟨is, rfl, _⟩ := hh.1 hcol
        obtain ⟨i, _, h⟩ := List.mem_map.mp ho
        cases h
  refine ⟨hack.trans hall, (hack.trans hall).trans ⟨fun h => ?_, fun h => ?_⟩, fun i hi => ?_⟩
  · refine ⟨?_, ?_, ?_, ?_, ?_⟩
    · intro l _ _ h0; exfalso; revert h0 hc; cases a <;> simp only [cmdOf] <;> omega
    · intro h0; exfalso; revert h0 hc; cases a <;> simp only [cmdOf] <;> omega
    · intro h0; exfalso; revert h0 hc; cases a <;> simp only [cmdOf] <;> omega
    · intro h0; exfalso; revert h0 hc; cases a <;> simp only [cmdOf] <;> omega
    · intro a' ha' tok ht
      have : a = a' := by rw [hc] at ha'; revert ha'; cases a <;> cases a' <;> simp [cmdOf]
      subst this
      obtain ⟨ys, hy, hh⟩ := forall₂_of_mem_left h1 tok ht
      obtain ⟨e, he, hden⟩ := h tok ht
      by_cases hcol : ':' ∈ tok
      · obtain ⟨o, rfl, h4, h5⟩ := hh.2 hcol
        cases o with
        | none => exact absurd hden (h4 rfl e he)
        | some i =>
          obtain ⟨⟨e, he, hden⟩, _⟩ := h5 i rfl
          exact ⟨i, e, he, hden, (hmem i).mpr (List.mem_flatten.mpr ⟨_, hy, List.mem_singleton.mpr rfl⟩)⟩
      · obtain ⟨is, rfl, _, h5⟩ := hh.1 hcol
        obtain ⟨i, hi⟩ := List.mem_iff_getElem?.mp he
        have := (h5 i).mpr ⟨e, hi, hden⟩
        exact ⟨i, e, hi, hden, (hmem i).mpr (List.mem_flatten.mpr ⟨_, hy, List.mem_map_of_mem this⟩)⟩
  · intro tok ht
    obtain ⟨i, e, he, hden, _⟩ := h.2.2.2.2 a hc tok ht
    exact ⟨e, List.mem_of_getElem? he, hden⟩
  · obtain ⟨ys, hy, ho⟩ := List.mem_flatten.mp ((hmem i).mp hi)
    obtain ⟨tok, ht, hh⟩ := forall₂_of_mem_right h1 ys hy
    by_cases hcol : ':' ∈ tok
    · obtain ⟨o, rfl, _, h5⟩ := hh.2 hcol
      have : some i = o := List.mem_singleton.mp ho
      obtain ⟨⟨e, he, hden⟩, _⟩ := h5 i this.symm
      exact ⟨e, tok, he, ht, hden⟩
    · obtain ⟨is, rfl, _, h5⟩ := hh.1 hcol
      obtain ⟨j, hj, h⟩ := List.mem_map.mp ho
      cases h
      obtain ⟨e, he, hden⟩ := (h5 i).mp hj
      exact ⟨e, tok, he, ht, hden⟩

/-- A request for a runlevel is carried out and acknowledged unless the system is going down; a request to reload
    the configuration is, unless the runlevel is reserved. -/
theorem C46_runlevel_partial (E : ApiEnv) (st : ApiSt) (p : Int) (rq : Req) (hm : rq.magic = 0x03091969) :
    (∀ l : Int, 0 ≤ l → l ≤ 9 → rq.cmd = 1 → rq.runlevel = 48 + l → ¬ GoingDown st →
      Acked (apiRequest E st p rq).2 ∧
      ((st.runlevel = 10 ∧ Call.setCfg l ∈ (apiRequest E st p rq).1) ∨
       (st.runlevel ≠ 10 ∧ Call.smRunlevel l ∈ (apiRequest E st p rq).1))) ∧
    (rq.cmd = 9 → st.runlevel ≠ 0 ∧ st.runlevel ≠ 6 ∧ st.runlevel ≠ 10 →
      Acked (apiRequest E st p rq).2 ∧ (apiRequest E st p rq).1 = [.smReload]) := by
  constructor
  · intro l h0 h9 hc hl hg
    have e : apiRequest E st p rq = (doRunlevel st rq.runlevel, answer rq 0) := by
      unfold apiRequest
      rw [if_neg (by simp [hm]), hc]; rfl
    rw [e, doRunlevel, if_neg ?_]
    · refine ⟨⟨_, _, rfl⟩, ?_⟩
      dsimp only
      have hl0 : (if rq.runlevel = 115 ∨ rq.runlevel = 83 then 49 else rq.runlevel) = 48 + l := by
        rw [if_neg (by omega), hl]
      rw [hl0, if_pos (by omega), show 48 + l - 48 = l by omega]
      by_cases h10 : st.runlevel = 10
      · exact .inl ⟨h10, by rw [if_pos h10]; simp⟩
      · exact .inr ⟨h10, by rw [if_neg h10]; simp⟩
    · rintro ⟨h1, h2⟩
      refine hg ?_
      simp only [isReserved, decide_eq_true_eq] at h1
      rcases h1 with h1 | h1 | h1
      · exact .inl h1
      · exact .inr h1
      · exact absurd h1 h2
  · intro hc hr
    have e : apiRequest E st p rq = ([.smReload], answer rq 0) := by
      unfold apiRequest
      have hres : isReserved st.runlevel = false := by simp [isReserved, hr]
      rw [if_neg (by simp [hm]), hres, Bool.and_false, if_neg (by decide), hc]; rfl
    rw [e]
    exact ⟨⟨_, _, rfl⟩, rfl⟩

/-- The full claim does not hold: a reboot that is set in motion is answered with a refusal; a change of runlevel
    that is ignored in runlevel 6 is acknowledged; and so is a request to start a service that does not exist. -/
theorem C46_false_answers : ¬ C46_full ∧
    apiRequest apiEnv { runlevel := 2 } 1 { cmd := 20 } = ([.setHalt .reboot, .setHalt .reboot, .smRunlevel 6], .nack) ∧
    apiRequest apiEnv { runlevel := 6 } 1 { cmd := 1, runlevel := 50 } = ([], .ack 50 0) ∧
    (apiRequest apiEnv { runlevel := 2 } 1 { cmd := 10, data := "nosuch".toList ++ List.replicate 362 '\x00' }).2 =
      .ack 0 0 := by
  have h1 : apiRequest apiEnv { runlevel := 2 } 1 { cmd := 20 } =
      ([.setHalt .reboot, .setHalt .reboot, .smRunlevel 6], .nack) := by decide +kernel
  refine ⟨fun H => ?_, h1, by decide +kernel, by decide +kernel⟩
  have := H apiEnv { runlevel := 2 } 1 [] { cmd := 20 } (by simp) (by simp) rfl (by simp)
  rw [h1] at this
  rcases this with h | h
  · cases h
  · obtain ⟨a, b, h⟩ := h.mpr ⟨by simp, by simp, by simp, by simp, fun a ha => by cases a <;> cases ha⟩
    cases h

-- "ssh:2 dns" names two services: both are stopped; "ssh:3" names none: refused.
example : apiRequest apiEnv { runlevel := 2 } 1 { cmd := 11, data := "ssh:2 dns".toList ++ List.replicate 359 '\x00' } =
    ([.read ("ssh:2 dns".toList ++ List.replicate 359 '\x00'), .act .stop 1, .act .stop 2], .ack 0 0) := by decide +kernel
example : (apiRequest apiEnv { runlevel := 2 } 1 { cmd := 11, data := "ssh:3".toList ++ List.replicate 363 '\x00' }).2 =
    .nack := by decide +kernel
example : ∀ tok ∈ tokens isSpace "ssh:2 dns".toList, ProperTok tok ∧ ∃ e ∈ apiEnv.list, Denotes e tok := by
  have : tokens isSpace "ssh:2 dns".toList = ["ssh:2".toList, "dns".toList] := by decide +kernel
  rw [this]
  intro tok h
  simp only [List.mem_cons, List.not_mem_nil, or_false] at h
  rcases h with rfl | rfl
  · exact ⟨⟨"ssh".toList, by decide, .inr ⟨"2".toList, rfl⟩, .inr ⟨by simp [isDigit], by decide, 's', by decide, by decide⟩⟩,
      sampleReg[1], by decide, .nameId (e := sampleReg[1]) (by decide) (by simp [sampleReg, isDigit])⟩
  · exact ⟨⟨"dns".toList, by decide, .inl rfl, .inr ⟨by simp [isDigit], by decide, 's', by decide, by decide⟩⟩,
      sampleReg[2], by decide, .name (e := sampleReg[2]) (by decide) (by simp [sampleReg, isDigit])⟩

/-! ## Look-ups and the watchdog -/

theorem positions_head (p : Ent → Bool) (l : List Ent) : (positions p l).head? = l.findIdx? p := by
  cases h : l.findIdx? p with
  | none =>
    have : positions p l = [] := by
      rw [List.eq_nil_iff_forall_not_mem]
      intro i hi
      obtain ⟨e, he, hp⟩ := (mem_positions p l i).mp hi
      have := List.findIdx?_eq_none_iff.mp h e (List.mem_of_getElem? he)
      rw [hp] at this; cases this
    rw [this]; rfl
  | some i =>
    obtain ⟨hi, hp, hlt⟩ := List.findIdx?_eq_some_iff_getElem.mp h
    have hm : i ∈ positions p l := (mem_positions p l i).mpr ⟨l[i], List.getElem?_eq_getElem hi, hp⟩
    have hs := positions_sorted p l
    cases hq : positions p l with
    | nil => rw [hq] at hm; cases hm
    | cons j js =>
      rw [List.head?_cons, Option.some_inj]
      rw [hq] at hm hs
      rcases List.mem_cons.mp hm with h1 | h1
      · exact h1.symm
      · have hj : j < i := (List.pairwise_cons.mp hs).1 i h1
        obtain ⟨e, he, hpe⟩ := (mem_positions p l j).mp (by rw [hq]; exact List.mem_cons_self)
        have := hlt j hj
        rw [List.getElem?_eq_getElem (by omega)] at he
        cases he
        rw [hpe] at this; exact absurd rfl this

theorem splitIdent_digits (s : CStr) : ((splitIdent s).1.head?).any isDigit = (s.head?).any isDigit ∧
    (splitIdent s).1.takeWhile isDigit = s.takeWhile isDigit := by
  unfold splitIdent
  dsimp only
  induction s with
  | nil => exact ⟨rfl, rfl⟩
  | cons c s ih =>
    by_cases hc : c = ':'
    · subst hc; exact ⟨rfl, rfl⟩
    · have h1 : (c :: s).takeWhile (fun c => decide (c ≠ ':')) = c :: s.takeWhile (fun c => decide (c ≠ ':')) := by
        simp [hc]
      rw [h1]
      refine ⟨rfl, ?_⟩
      rw [List.takeWhile_cons, List.takeWhile_cons, ih.2]

/-- The first service a token means -/
def firstOf : JobAct → Option Nat
  | .all l => l.head?
  | .one o => o
  | _ => none

theorem doFind_eq (E : ApiEnv) {s : CStr} {n : Nat} (hs : '\x00' ∉ s) (hn : 0 < n) :
    doFind E (s ++ List.replicate n '\x00') = firstOf (jobAct E.list s) := by
  have hc : cstrOf (s ++ List.replicate n '\x00') = s := cut_zeros hs n
  have hm : (s ++ List.replicate n '\x00').contains '\x00' = true := by
    rw [List.contains_iff_mem, List.mem_append]
    exact .inr (List.mem_replicate.mpr ⟨by omega, rfl⟩)
  unfold doFind sanitizeBuf jobAct
  rw [hc, hm, Bool.true_and]
  cases hz : sanitize s with
  | false => rfl
  | true =>
    simp only [if_true, Bool.not_true, Bool.false_eq_true, if_false]
    rw [(splitIdent_digits s).1, (splitIdent_digits s).2]
    split
    · split
      · rfl
      · split
        · rfl
        · exact (positions_head ..).symm
    · split
      · rfl
      · rename_i hcol
        have h0 : ':' ∉ s := by rw [← List.contains_iff_mem]; exact hcol
        have : (splitIdent s).1 = s := (cutAt_none h0).1
        rw [this]
        exact (positions_head ..).symm

/-- The look-up by name or job number answers with the first service that is meant, or with none if there is none, in
    every runlevel; and with none for a text without a letter, digit or underscore. -/
theorem C46_find (E : ApiEnv) (st : ApiSt) (p : Int) (s : CStr) (rq : Req)
    (hs : '\x00' ∉ s) (hl : s.length < 368) (hd : rq.data = s ++ List.replicate (368 - s.length) '\x00')
    (hm : rq.magic = 0x03091969) (hc : rq.cmd = 131) :
    (apiRequest E st p rq).2 = .svc ∧ ∃ o, (∀ o', Call.send o' ∈ (apiRequest E st p rq).1 ↔ o' = o) ∧
      ((∀ c ∈ s, isWord c = false) → o = none) ∧
      (ProperTok s → (o = none → ∀ e ∈ E.list, ¬ Denotes e s) ∧
        ∀ i, o = some i → (∃ e, E.list[i]? = some e ∧ Denotes e s) ∧ ∀ j < i, ∀ e, E.list[j]? = some e → ¬ Denotes e s) := by
  have key : apiRequest E st p rq =
      (dbgData st rq.data ++ [.read (strterm rq.data), .send (doFind E (strterm rq.data))], .svc) := by
    unfold apiRequest
    rw [if_neg (by simp [hm]), hc]
    rfl
  rw [key, hd, strterm_padded hl, doFind_eq E hs (by omega)]
  refine ⟨rfl, firstOf (jobAct E.list s), fun o' => ?_, fun hw => ?_, fun hp => ?_⟩
  · constructor
    · intro h
      rcases List.mem_append.mp h with h | h
      · have := (dbgData_read h).2; cases this
      · simpa using h
    · rintro rfl; simp
  · unfold jobAct
    have : sanitize s = false := by
      unfold sanitize
      rw [List.any_eq_false]
      intro c hc; rw [hw c hc]; simp
    rw [this]; rfl
  · have hfirst : ∃ q : Ent → Bool, firstOf (jobAct E.list s) = E.list.findIdx? q ∧ ∀ e, q e = true ↔ Denotes e s := by
      rcases jobAct_ok E.list s hp with ⟨_, q, h1, h2⟩ | ⟨_, q, h1, h2⟩
      · exact ⟨q, by rw [h1]; exact positions_head .., h2⟩
      · exact ⟨q, by rw [h1]; rfl, h2⟩
    obtain ⟨q, h1, h2⟩ := hfirst
    rw [h1]
    refine ⟨fun h e he hde => ?_, fun i hi => ?_⟩
    · have := List.findIdx?_eq_none_iff.mp h e he
      rw [(h2 e).mpr hde] at this; cases this
    · obtain ⟨hi, hp, hlt⟩ := List.findIdx?_eq_some_iff_getElem.mp hi
      refine ⟨⟨E.list[i], List.getElem?_eq_getElem hi, (h2 _).mp hp⟩, fun j hj e he hde => ?_⟩
      rw [List.getElem?_eq_getElem (by omega)] at he
      cases he
      exact hlt j hj ((h2 _).mpr hde)

/-- The handshake of a watchdog daemon: if its process is that of a known service, that becomes the watchdog; the one
    before is stopped and removed only if it is another one and built in, and no other service is touched. -/
theorem C46_watchdog (E : ApiEnv) (st : ApiSt) (p : Int) (rq : Req) (hm : rq.magic = 0x03091969) (hc : rq.cmd = 128)
    (hp : 0 < rq.runlevel) :
    (∀ i, Call.setWdog i ∈ (apiRequest E st p rq).1 ↔ E.byPid rq.runlevel = some i) ∧
    (∀ a j, Call.act a j ∈ (apiRequest E st p rq).1 ↔
      a = .stop ∧ st.wdog = some (j, true) ∧ ∃ i, E.byPid rq.runlevel = some i ∧ i ≠ j) ∧
    (∀ j, Call.del j ∈ (apiRequest E st p rq).1 ↔ Call.act .stop j ∈ (apiRequest E st p rq).1) := by
  have key : (apiRequest E st p rq).1 = (doWdog E st rq.runlevel).1 := by
    unfold apiRequest
    rw [if_neg (by simp [hm]), hc]
    rfl
  rw [key]
  unfold doWdog
  rw [if_neg (by omega)]
  cases hb : E.byPid rq.runlevel with
  | none => simp
  | some i =>
    cases hw : st.wdog with
    | none => simp [eq_comm]
    | some jp =>
      obtain ⟨j, pr⟩ := jp
      dsimp only
      by_cases h : j ≠ i ∧ pr = true
      · rw [if_pos h]
        obtain ⟨h1, rfl⟩ := h
        refine ⟨fun k => by simp [eq_comm], fun a k => ?_, fun k => by simp⟩
        simp only [List.cons_append, List.mem_cons, Call.act.injEq, List.nil_append, reduceCtorEq, List.not_mem_nil,
          or_false, Option.some.injEq, Prod.mk.injEq, and_true]
        constructor
        · rintro ⟨rfl, rfl⟩; exact ⟨rfl, rfl, i, rfl, Ne.symm h1⟩
        · rintro ⟨rfl, rfl, _⟩; exact ⟨rfl, rfl⟩
      · rw [if_neg h]
        refine ⟨fun k => by simp [eq_comm], fun a k => ?_, fun k => by simp⟩
        simp only [List.nil_append, List.mem_singleton, reduceCtorEq, false_iff, Option.some.injEq, Prod.mk.injEq]
        rintro ⟨_, ⟨rfl, rfl⟩, i', rfl, h3⟩
        exact h ⟨Ne.symm h3, rfl⟩

example : Call.send (some 0) ∈ (apiRequest apiEnv { runlevel := 0 } 1
    { cmd := 131, data := "ssh".toList ++ List.replicate (368 - 3) '\x00' }).1 := by decide +kernel

example : (apiRequest apiEnv { runlevel := 2, wdog := some (3, true) } 1 { cmd := 128, runlevel := 7 }).1 =
    [.act .stop 3, .del 3, .setWdog 1] := by decide +kernel

end Verif
