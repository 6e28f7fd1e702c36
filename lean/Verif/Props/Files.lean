import Verif.Files
import Verif.Props.Conf
import Verif.Props.Runparts

/-!
# C66: the configuration is read in the documented order, and C29: memory and names of templates
-/

namespace Verif

/-! ## C29: memory -/

theorem pctRounds_le (s : CStr) : pctRounds s ≤ s.length := by
  induction s with
  | nil => exact Nat.le_refl _
  | cons c s ih =>
    unfold pctRounds
    split
    · rw [List.length_cons]; omega
    · omega

theorem pctRounds_free {s : CStr} (h : '%' ∉ s) : pctRounds s = 0 := by
  cases s with
  | nil => rfl
  | cons c s => unfold pctRounds; rw [if_neg h]

theorem pctRounds_append {b : CStr} (h : '%' ∈ b) (a : CStr) : pctRounds (a ++ b) = a.length + pctRounds b := by
  induction a with
  | nil => simp
  | cons c a ih =>
    rw [List.cons_append, pctRounds, if_pos (List.mem_cons_of_mem _ (List.mem_append_right _ h)), ih, List.length_cons]
    omega

theorem pctRounds_drop (s : CStr) : ∀ k, pctRounds (s.drop k) = pctRounds s - k := by
  induction s with
  | nil => intro k; simp [pctRounds]
  | cons c s ih =>
    intro k
    cases k with
    | zero => rfl
    | succ k =>
      rw [List.drop_succ_cons, ih]
      conv => rhs; rw [pctRounds]
      split
      · omega
      · rename_i h
        rw [pctRounds_free (fun hm => h (List.mem_cons_of_mem _ hm))]
        omega

theorem instLoopIn_ok (cap : Nat) (name : CStr) : ∀ (n pos : Nat) (line : CStr), line.length < n + pos →
    pos ≤ line.length → line.length + pctRounds (line.drop pos) * name.length + 1 ≤ cap →
    instLoopIn cap name n pos line = some (instLoop name n pos line) := by
  intro n
  induction n with
  | zero => intro pos line h1 h2 _; omega
  | succ n ih =>
    intro pos line hn hpos hcap
    unfold instLoopIn instLoop
    dsimp only
    cases hd : (line.drop pos).dropWhile (· ≠ '%') with
    | nil => rfl
    | cons c rest =>
      dsimp only
      have hc := head_dropWhile hd
      subst hc
      have hsplit := takeDropWhile (· ≠ '%') (line.drop pos)
      have hfree := not_mem_takeWhile '%' (line.drop pos)
      rw [hd] at hsplit
      generalize hx : (line.drop pos).takeWhile (· ≠ '%') = x at hsplit hfree
      have hline : line = line.take pos ++ (x ++ '%' :: rest) := by rw [hsplit, List.take_append_drop]
      have hpl : (line.take pos).length = pos := by rw [List.length_take]; omega
      have hlen : line.length = pos + x.length + 1 + rest.length := by
        have := congrArg List.length hline
        simp only [List.length_append, List.length_cons, hpl] at this
        omega
      have hR : pctRounds (line.drop pos) = x.length + pctRounds ('%' :: rest) := by
        rw [← hsplit, pctRounds_append (List.mem_cons_self ..)]
      have hR1 : pctRounds ('%' :: rest) = pctRounds rest + 1 := by
        rw [pctRounds, if_pos (List.mem_cons_self ..)]
      split
      · rename_i hi
        obtain ⟨rest', rfl⟩ : ∃ r, rest = 'i' :: r := by
          cases rest with
          | nil => cases hi
          | cons d r => exact ⟨r, by rw [Option.some.inj hi]⟩
        have e1 : line.take (pos + x.length) = line.take pos ++ x := by
          conv => lhs; rw [hline]
          rw [List.take_append, hpl, List.take_of_length_le (by rw [hpl]; omega), Nat.add_sub_cancel_left,
            List.take_left]
        have e2 : line.drop (pos + x.length + 2) = rest' := by
          conv => lhs; rw [hline]
          rw [List.drop_append, hpl, List.drop_of_length_le (by rw [hpl]; omega), List.nil_append,
            show pos + x.length + 2 - pos = x.length + 2 by omega, List.drop_append,
            List.drop_of_length_le (by omega), List.nil_append, show x.length + 2 - x.length = 2 by omega]
          rfl
        rw [e1, e2]
        have hl' : (line.take pos ++ x ++ name ++ rest').length = pos + x.length + name.length + rest'.length := by
          simp only [List.length_append, hpl]
        have hlen2 : line.length = pos + x.length + 2 + rest'.length := by
          rw [hlen, List.length_cons]; omega
        -- what is left to do
        have hdrop : (line.take pos ++ x ++ name ++ rest').drop (pos + name.length) = (x ++ (name ++ rest')).drop name.length := by
          rw [List.append_assoc, List.append_assoc, List.drop_append, hpl,
            List.drop_of_length_le (by rw [hpl]; omega), List.nil_append, Nat.add_sub_cancel_left]
        have hle : pctRounds ((x ++ (name ++ rest')).drop name.length) + 1 ≤ pctRounds (line.drop pos) := by
          rw [hR, hR1, pctRounds_drop]
          by_cases hr : '%' ∈ rest'
          · rw [show x ++ (name ++ rest') = (x ++ name) ++ rest' by simp, pctRounds_append hr]
            have : pctRounds ('i' :: rest') = pctRounds rest' + 1 := by
              rw [pctRounds, if_pos (List.mem_cons_of_mem _ hr)]
            rw [this, List.length_append]
            omega
          · have : pctRounds (x ++ (name ++ rest')) ≤ x.length + name.length := by
              by_cases hm : '%' ∈ name
              · have : ∀ s : CStr, '%' ∈ s → pctRounds (s ++ rest') ≤ s.length := by
                  intro s
                  induction s with
                  | nil => intro h; cases h
                  | cons c s ih =>
                    intro h
                    rw [List.cons_append, pctRounds]
                    split
                    · rw [List.length_cons]
                      by_cases hs : '%' ∈ s
                      · have := ih hs; omega
                      · rw [pctRounds_free (fun hm => (List.mem_append.mp hm).elim hs hr)]; omega
                    · omega
                have h := this (x ++ name) (List.mem_append_right _ hm)
                rw [List.append_assoc, List.length_append] at h
                exact h
              · rw [pctRounds_free]
                · omega
                · intro h
                  rcases List.mem_append.mp h with h | h
                  · exact hfree h
                  · rcases List.mem_append.mp h with h | h
                    · exact hm h
                    · exact hr h
            omega
        have hmul : pctRounds ((x ++ (name ++ rest')).drop name.length) * name.length + name.length ≤
            pctRounds (line.drop pos) * name.length := by
          have := Nat.mul_le_mul_right name.length hle
          rw [Nat.add_mul, Nat.one_mul] at this
          exact this
        have hcap' : (line.take pos ++ x ++ name ++ rest').length +
            pctRounds ((line.take pos ++ x ++ name ++ rest').drop (pos + name.length)) * name.length + 1 ≤ cap := by
          rw [hl', hdrop]
          omega
        rw [if_pos (by omega)]
        exact ih _ _ (by rw [hl']; omega) (by rw [hl']; omega) hcap'
      · refine ih _ _ (by omega) (by omega) ?_
        have : pctRounds (line.drop (pos + 1)) * name.length ≤ pctRounds (line.drop pos) * name.length := by
          refine Nat.mul_le_mul_right _ ?_
          rw [pctRounds_drop, pctRounds_drop]
          omega
        omega

/-- **C29, memory.**  Whatever the line and the name are, the buffer allocated is large enough for all that is written on
    the way, and the loop ends. -/
theorem C29_buffer (line name : CStr) : instantiateIn line name = some (instantiate line name) := by
  unfold instantiateIn instantiate
  split
  · rfl
  · exact instLoopIn_ok _ _ _ _ _ (by omega) (by omega) (by rw [List.drop_zero]; exact Nat.le_refl _)

example : instantiateIn "service %i".toList "a%i".toList = some "service aaaaa%i".toList := by decide +kernel

/-! ## C29: names -/

/-- The full claim: T@NAME.conf is the instance NAME of the template T, and T@.conf is the template. -/
def C29_names_full : Prop := ∀ dir base inst : CStr, '/' ∉ base → '/' ∉ inst → '@' ∉ base →
  isTemplate (dir ++ '/' :: base ++ '@' :: inst ++ ".conf".toList) = some inst

theorem strstr_conf : ∀ {a : CStr}, ¬ ".conf".toList <:+: a → strstr ".conf".toList (a ++ ".conf".toList) = some (a, [])
  | [], _ => by decide +kernel
  | c :: a, h => by
    have ih := strstr_conf (a := a) (fun ⟨p, q, e⟩ => h ⟨c :: p, q, by rw [← e]; rfl⟩)
    have hp : ".conf".toList.isPrefixOf (c :: a ++ ".conf".toList) = false := by
      cases hx : ".conf".toList.isPrefixOf (c :: a ++ ".conf".toList) with
      | false => rfl
      | true =>
        exfalso
        match a, h, hx with
        | [], _, hx => simp [List.isPrefixOf] at hx
        | [c1], _, hx => simp [List.isPrefixOf] at hx
        | [c1, c2], _, hx => simp [List.isPrefixOf] at hx
        | [c1, c2, c3], _, hx => simp [List.isPrefixOf] at hx
        | c1 :: c2 :: c3 :: c4 :: r, h, hx =>
          simp [List.isPrefixOf] at hx
          obtain ⟨rfl, rfl, rfl, rfl, rfl⟩ := hx
          exact h ⟨[], r, rfl⟩
    rw [List.cons_append, strstr, if_neg (by rw [← List.cons_append, hp]; simp), ih]
    rfl

theorem dropWhile_at {a b : CStr} (h : '@' ∉ a) : (a ++ '@' :: b).dropWhile (· ≠ '@') = '@' :: b := by
  induction a with
  | nil => rfl
  | cons c a ih =>
    rw [List.cons_append, List.dropWhile_cons_of_pos, ih (fun hm => h (List.mem_cons_of_mem _ hm))]
    simpa using fun e : c = '@' => h (e ▸ List.mem_cons_self)

/-- **C29, names, partial.**  T@NAME.conf is the instance NAME of a template, for names of up to 64 characters; T@.conf is
    the template itself (and is not read, see C66).

    Missing: longer names, names with .conf in them, directories with '@' in their names (for all of which it is false). -/
theorem C29_names_partial {path inst : CStr} (h1 : '@' ∉ path) (h2 : ¬ ".conf".toList <:+: inst) (h3 : inst.length ≤ 64) :
    isTemplate (path ++ '@' :: inst ++ ".conf".toList) = some inst := by
  unfold isTemplate
  rw [List.append_assoc, List.cons_append, dropWhile_at h1]
  dsimp only
  rw [strstr_conf h2]
  dsimp only
  rw [List.take_of_length_le h3]

example : isTemplate "/etc/finit.d/enabled/dhcp@eth0.conf".toList = some "eth0".toList := by decide +kernel

/-- Names are cut at 64 characters, end at the first `.conf`, and begin at the first '@' of the whole path. -/
theorem C29_names_full_false :
    isTemplate ("/e/t@".toList ++ List.replicate 65 'x' ++ ".conf".toList) = some (List.replicate 64 'x') ∧
    isTemplate "/e/t@my.config.conf".toList = some "my".toList ∧
    isTemplate "/site@home/t@a.conf".toList = some "home/t@a".toList ∧
    isTemplate "/site@home/plain.conf".toList = some "home/plain".toList ∧
    ¬ C29_names_full := by
  refine ⟨by decide +kernel, by decide +kernel, by decide +kernel, by decide +kernel, fun h => ?_⟩
  have := h "/e".toList "t".toList "my.config".toList (by decide) (by decide) (by decide)
  revert this
  decide +kernel

/-! ## C66: files -/

/-- The documented directories, in order. -/
def confDirs (rcsd : CStr) : List CStr :=
  ["/lib/finit/system".toList, "/run/finit/system".toList, rcsd, rcsd ++ "/enabled".toList]

/-- A file in one of them. -/
def confPath (rcsd : CStr) (x : Nat × CStr) : CStr := (confDirs rcsd).getD x.1 [] ++ '/' :: x.2

/-- There is a .conf file of that name in directory `i`. -/
def HasConf (fs : ConfFs) (rcsd : CStr) (i : Nat) (n : CStr) : Prop :=
  ∃ d, (confDirs rcsd)[i]? = some d ∧ n ∈ fs.ls d ∧ n.head? ≠ some '.' ∧ (∃ b, n = b ++ ".conf".toList) ∧
    fs.kind (d ++ '/' :: n) = .file

/-- A file that is to be read: one that is not, being in a system directory, overridden by a file of that name in a
    directory that comes later. -/
def WantConf (fs : ConfFs) (rcsd : CStr) (x : Nat × CStr) : Prop :=
  HasConf fs rcsd x.1 x.2 ∧ ¬ (x.1 < 2 ∧ ∃ j, x.1 < j ∧ HasConf fs rcsd j x.2)

/-- The order: by directory, then by name. -/
def ConfBefore (x y : Nat × CStr) : Prop := x.1 < y.1 ∨ x.1 = y.1 ∧ x.2 < y.2

/-- Names in directories differ and have no '/'. -/
def FsOk (fs : ConfFs) : Prop := ∀ d, (fs.ls d).Nodup ∧ ∀ n ∈ fs.ls d, '/' ∉ n

/-- The full claim on which files are read. -/
def C66_files_full : Prop := ∀ fs rcsd (l : List (Nat × CStr)), FsOk fs → l.Pairwise ConfBefore → (∀ x, x ∈ l ↔ WantConf fs rcsd x) →
  confPaths fs rcsd = l.map (confPath rcsd)

theorem insertName_perm (n : CStr) (l : List CStr) : (insertName n l).Perm (n :: l) := by
  induction l with
  | nil => exact .refl _
  | cons f l ih =>
    unfold insertName
    split
    · exact .refl _
    · exact (ih.cons f).trans (.swap ..)

theorem sortNames_perm (l : List CStr) : (sortNames l).Perm l := by
  induction l with
  | nil => exact .refl _
  | cons e l ih => exact (insertName_perm e _).trans (ih.cons e)

theorem insertName_sorted (n : CStr) {l : List CStr} (h : l.Pairwise (· ≤ ·)) : (insertName n l).Pairwise (· ≤ ·) := by
  induction l with
  | nil => simp [insertName]
  | cons f l ih =>
    unfold insertName
    have hc := List.pairwise_cons.mp h
    split
    · rename_i hle
      refine List.pairwise_cons.mpr ⟨fun a ha => ?_, h⟩
      rcases List.mem_cons.mp ha with rfl | ha
      · exact hle
      · exact List.le_trans hle (hc.1 a ha)
    · rename_i hle
      refine List.pairwise_cons.mpr ⟨fun a ha => ?_, ih hc.2⟩
      rcases List.mem_cons.mp ((insertName_perm n l).mem_iff.mp ha) with rfl | ha
      · rcases List.le_total f a with h | h
        · exact h
        · exact absurd h hle
      · exact hc.1 a ha

theorem sortNames_sorted (l : List CStr) : (sortNames l).Pairwise (· ≤ ·) := by
  induction l with
  | nil => exact .nil
  | cons e l ih => exact insertName_sorted e ih

theorem sortNames_lt {l : List CStr} (h : l.Nodup) : (sortNames l).Pairwise (· < ·) := by
  have hn : (sortNames l).Nodup := (sortNames_perm l).nodup_iff.mpr h
  refine ((sortNames_sorted l).and hn).imp ?_
  intro a b ⟨h1, h2⟩
  rcases List.le_iff_lt_or_eq.mp h1 with h | h
  · exact h
  · exact absurd h h2

theorem ConfBefore.irrefl (x : Nat × CStr) : ¬ ConfBefore x x := by
  rintro (h | h)
  · omega
  · exact List.lt_irrefl _ h.2

theorem ConfBefore.asymm {x y : Nat × CStr} (h1 : ConfBefore x y) : ¬ ConfBefore y x := by
  intro h2
  rcases h1 with h | h <;> rcases h2 with h' | h'
  · omega
  · omega
  · omega
  · exact List.lt_irrefl _ (List.lt_trans h.2 h'.2)

theorem confBefore_unique {l m : List (Nat × CStr)} (hl : l.Pairwise ConfBefore) (hm : m.Pairwise ConfBefore)
    (h : ∀ e, e ∈ l ↔ e ∈ m) : l = m := by
  have nd : ∀ l : List (Nat × CStr), l.Pairwise ConfBefore → l.Nodup := by
    intro l hl
    refine List.Pairwise.imp ?_ hl
    rintro a b hlt rfl
    exact hlt.irrefl
  refine List.Perm.eq_of_pairwise (le := ConfBefore) ?_ (l₁ := l) (l₂ := m) hl hm
    ((List.perm_ext_iff_of_nodup (nd l hl) (nd m hm)).mpr (fun e => h e))
  intro a b _ _ h1 h2
  exact absurd h2 h1.asymm

theorem basenm_path (d : CStr) {n : CStr} (h : '/' ∉ n) : basenm (d ++ '/' :: n) = n := by
  unfold basenm
  have key : ∀ (a b : CStr), '/' ∉ a → (a ++ '/' :: b).takeWhile (· ≠ '/') = a := by
    intro a
    induction a with
    | nil => intro b _; rfl
    | cons c a ih =>
      intro b h
      rw [List.cons_append, List.takeWhile_cons_of_pos, ih b (fun hm => h (List.mem_cons_of_mem _ hm))]
      simpa using fun e : c = '/' => h (e ▸ List.mem_cons_self)
  rw [List.reverse_append, List.reverse_cons, List.append_assoc, List.singleton_append,
    key _ _ (fun hm => h (List.mem_reverse.mp hm)), List.reverse_reverse]

/-- The files that are found, with their directories. -/
def foundConf (fs : ConfFs) (rcsd : CStr) : List (Nat × CStr) :=
  let one (i : Nat) (d : CStr) := ((sortNames (fs.ls d)).filter globName).map (fun n => (i, n))
  one 0 "/lib/finit/system".toList ++ one 1 "/run/finit/system".toList ++ one 2 rcsd ++ one 3 (rcsd ++ "/enabled".toList)

theorem foundConf_map (fs : ConfFs) (rcsd : CStr) : (foundConf fs rcsd).map (confPath rcsd) =
    globConf fs confSys.1 ++ globConf fs confSys.2 ++ globConf fs rcsd ++ globConf fs (rcsd ++ "/enabled".toList) := by
  unfold foundConf globConf
  dsimp only
  rw [List.map_append, List.map_append, List.map_append]
  simp only [List.map_map]
  rfl

theorem foundConf_mem (fs : ConfFs) (rcsd : CStr) (x : Nat × CStr) : x ∈ foundConf fs rcsd ↔
    ∃ d, (confDirs rcsd)[x.1]? = some d ∧ x.2 ∈ fs.ls d ∧ globName x.2 = true := by
  have one : ∀ (i : Nat) (d : CStr), x ∈ ((sortNames (fs.ls d)).filter globName).map (fun n => (i, n)) ↔
      x.1 = i ∧ x.2 ∈ fs.ls d ∧ globName x.2 = true := by
    intro i d
    rw [List.mem_map]
    constructor
    · rintro ⟨n, hn, rfl⟩
      rw [List.mem_filter, (sortNames_perm _).mem_iff] at hn
      exact ⟨rfl, hn⟩
    · rintro ⟨h1, h2⟩
      refine ⟨x.2, ?_, by rw [← h1]⟩
      rw [List.mem_filter, (sortNames_perm _).mem_iff]
      exact h2
  unfold foundConf
  dsimp only
  rw [List.mem_append, List.mem_append, List.mem_append, one, one, one, one]
  constructor
  · rintro (((⟨h1, h2⟩ | ⟨h1, h2⟩) | ⟨h1, h2⟩) | ⟨h1, h2⟩) <;> exact ⟨_, by rw [h1]; rfl, h2⟩
  · rintro ⟨d, h1, h2⟩
    obtain ⟨i, n⟩ := x
    dsimp only at h1 h2 ⊢
    rcases i with _ | _ | _ | _ | i <;>
      simp only [confDirs, List.getElem?_cons_zero, List.getElem?_cons_succ, Option.some.injEq, List.getElem?_nil] at h1
    · exact .inl (.inl (.inl ⟨rfl, h1 ▸ h2⟩))
    · exact .inl (.inl (.inr ⟨rfl, h1 ▸ h2⟩))
    · exact .inl (.inr ⟨rfl, h1 ▸ h2⟩)
    · exact .inr ⟨rfl, h1 ▸ h2⟩
    · cases h1

theorem foundConf_sorted {fs : ConfFs} (h : FsOk fs) (rcsd : CStr) : (foundConf fs rcsd).Pairwise ConfBefore := by
  have one : ∀ (i : Nat) (d : CStr),
      (((sortNames (fs.ls d)).filter globName).map (fun n => (i, n))).Pairwise ConfBefore := by
    intro i d
    rw [List.pairwise_map]
    refine List.Pairwise.imp ?_ ((sortNames_lt (h d).1).filter _)
    intro a b hab
    exact .inr ⟨rfl, hab⟩
  have fst : ∀ (i : Nat) (d : CStr) (x : Nat × CStr),
      x ∈ ((sortNames (fs.ls d)).filter globName).map (fun n => (i, n)) → x.1 = i := by
    intro i d x hx
    obtain ⟨n, _, rfl⟩ := List.mem_map.mp hx
    rfl
  unfold foundConf
  dsimp only
  rw [List.pairwise_append, List.pairwise_append, List.pairwise_append]
  refine ⟨⟨⟨one _ _, one _ _, ?_⟩, one _ _, ?_⟩, one _ _, ?_⟩
  · intro a ha b hb
    have := fst _ _ _ ha; have := fst _ _ _ hb
    exact .inl (by omega)
  · intro a ha b hb
    have := fst _ _ _ hb
    rcases List.mem_append.mp ha with ha | ha <;> have := fst _ _ _ ha <;> exact .inl (by omega)
  · intro a ha b hb
    have := fst _ _ _ hb
    rcases List.mem_append.mp ha with ha | ha
    · rcases List.mem_append.mp ha with ha | ha <;> have := fst _ _ _ ha <;> exact .inl (by omega)
    · have := fst _ _ _ ha; exact .inl (by omega)

/-- The loop over the files: what is left are those that are readable, and not overridden. -/
theorem confFiles_sorted (dirs : CStr × CStr) (ok : CStr → Bool) (path : Nat × CStr → CStr) :
    ∀ l : List (Nat × CStr), (∀ x ∈ l, basenm (path x) = x.2) → l.Pairwise ConfBefore →
    ∃ m : List (Nat × CStr), confFiles dirs ok (l.map path) = m.map path ∧ m.Pairwise ConfBefore ∧
      ∀ x, x ∈ m ↔ x ∈ l ∧ ok (path x) = true ∧
        ¬ (inSysDir dirs (path x) = true ∧ ∃ y ∈ l, ConfBefore x y ∧ y.2 = x.2) := by
  intro l
  induction l with
  | nil => exact fun _ _ => ⟨[], rfl, .nil, fun x => ⟨fun h => (nomatch h), fun h => (nomatch h.1)⟩⟩
  | cons x l ih =>
    intro hb hp
    obtain ⟨hx, hl⟩ := List.pairwise_cons.mp hp
    obtain ⟨m, h1, h2, h3⟩ := ih (fun y hy => hb y (List.mem_cons_of_mem _ hy)) hl
    have hxl : x ∉ l := fun h => (hx x h).irrefl
    -- those after x
    have h4 : ∀ z, z ∈ l → ((∃ y ∈ x :: l, ConfBefore z y ∧ y.2 = z.2) ↔ ∃ y ∈ l, ConfBefore z y ∧ y.2 = z.2) := by
      intro z hz
      constructor
      · rintro ⟨y, hy, h⟩
        rcases List.mem_cons.mp hy with rfl | hy
        · exact absurd h.1 (hx z hz).asymm
        · exact ⟨y, hy, h⟩
      · rintro ⟨y, hy, h⟩
        exact ⟨y, List.mem_cons_of_mem _ hy, h⟩
    have h5 : (l.map path).any (fun q => decide (basenm (path x) = basenm q)) = true ↔
        ∃ y ∈ x :: l, ConfBefore x y ∧ y.2 = x.2 := by
      rw [List.any_eq_true]
      constructor
      · rintro ⟨q, hq, he⟩
        obtain ⟨y, hy, rfl⟩ := List.mem_map.mp hq
        refine ⟨y, List.mem_cons_of_mem _ hy, hx y hy, ?_⟩
        have := of_decide_eq_true he
        rw [hb x List.mem_cons_self, hb y (List.mem_cons_of_mem _ hy)] at this
        exact this.symm
      · rintro ⟨y, hy, h, he⟩
        rcases List.mem_cons.mp hy with rfl | hy
        · exact absurd h (ConfBefore.irrefl _)
        · refine ⟨path y, List.mem_map_of_mem hy, decide_eq_true ?_⟩
          rw [hb x List.mem_cons_self, hb y (List.mem_cons_of_mem _ hy), he]
    -- without x
    have skip : (ok (path x) = true → inSysDir dirs (path x) = true ∧ ∃ y ∈ x :: l, ConfBefore x y ∧ y.2 = x.2) →
        ∀ z, z ∈ m ↔ z ∈ x :: l ∧ ok (path z) = true ∧
          ¬ (inSysDir dirs (path z) = true ∧ ∃ y ∈ x :: l, ConfBefore z y ∧ y.2 = z.2) := by
      intro hs z
      rw [h3]
      constructor
      · rintro ⟨a, b, c⟩
        rw [← h4 z a] at c
        exact ⟨List.mem_cons_of_mem _ a, b, c⟩
      · rintro ⟨a, b, c⟩
        rcases List.mem_cons.mp a with rfl | a
        · exact absurd (hs b) c
        · rw [h4 z a] at c
          exact ⟨a, b, c⟩
    rw [List.map_cons]
    unfold confFiles
    split
    · rename_i h
      rw [Bool.and_eq_true, h5] at h
      exact ⟨m, h1, h2, skip fun _ => h⟩
    · rename_i h
      rw [Bool.and_eq_true, h5] at h
      split
      · rename_i ho
        refine ⟨x :: m, by rw [h1]; rfl, List.pairwise_cons.mpr ⟨fun y hy => hx y ((h3 y).mp hy).1, h2⟩, fun z => ?_⟩
        rw [List.mem_cons, List.mem_cons]
        constructor
        · rintro (rfl | hz)
          · exact ⟨.inl rfl, ho, h⟩
          · obtain ⟨a, b, c⟩ := (h3 z).mp hz
            rw [← h4 z a] at c
            exact ⟨.inr a, b, c⟩
        · rintro ⟨rfl | a, b, c⟩
          · exact .inl rfl
          · rw [h4 z a] at c
            exact .inr ((h3 z).mpr ⟨a, b, c⟩)
      · rename_i ho
        exact ⟨m, h1, h2, skip fun h => absurd h ho⟩

theorem globName_iff (n : CStr) : globName n = true ↔ n.head? ≠ some '.' ∧ ∃ b, n = b ++ ".conf".toList := by
  unfold globName
  rw [Bool.and_eq_true, decide_eq_true_iff, List.isSuffixOf_iff_suffix]
  exact and_congr_right fun _ => ⟨fun ⟨b, h⟩ => ⟨b, h.symm⟩, fun ⟨b, h⟩ => ⟨b, h.symm⟩⟩

/-- **C66, files, partial.**  After the main file, just the .conf files in the four documented directories are read,
    directory by directory and each in alphabetical order, but for files in the two system directories that are overridden
    by one of the same name in a directory that comes later.

    Missing: overriding by something that is no file, and a directory of the administrator whose name begins like that of a
    system directory (for both it is false). -/
theorem C66_files_partial {fs : ConfFs} {rcsd : CStr} {l : List (Nat × CStr)} (hfs : FsOk fs) (hl : l.Pairwise ConfBefore)
    (hm : ∀ x, x ∈ l ↔ WantConf fs rcsd x) (h1 : ∀ n, inSysDir confSys (rcsd ++ '/' :: n) = false)
    (h2 : ∀ i j d n, i < 2 → i < j → HasConf fs rcsd i n → (confDirs rcsd)[j]? = some d → n ∈ fs.ls d →
      fs.kind (d ++ '/' :: n) = .file) :
    confPaths fs rcsd = l.map (confPath rcsd) := by
  have hpath : ∀ x d, (confDirs rcsd)[x.1]? = some d → confPath rcsd x = d ++ '/' :: x.2 := by
    intro x d h
    unfold confPath
    rw [List.getD_eq_getElem?_getD, h]
    rfl
  have hbase : ∀ x ∈ foundConf fs rcsd, basenm (confPath rcsd x) = x.2 := by
    intro x hx
    obtain ⟨d, hd, hn, _⟩ := (foundConf_mem fs rcsd x).mp hx
    rw [hpath x d hd, basenm_path d ((hfs d).2 _ hn)]
  have hsys : ∀ x ∈ foundConf fs rcsd, (inSysDir confSys (confPath rcsd x) = true ↔ x.1 < 2) := by
    intro x hx
    obtain ⟨d, hd, hn, _⟩ := (foundConf_mem fs rcsd x).mp hx
    rw [hpath x d hd]
    obtain ⟨i, n⟩ := x
    dsimp only at *
    have pre : ∀ a b : CStr, a.isPrefixOf (a ++ b) = true := fun a b => List.isPrefixOf_iff_prefix.mpr ⟨b, rfl⟩
    rcases i with _ | _ | _ | _ | i <;>
      simp only [confDirs, List.getElem?_cons_zero, List.getElem?_cons_succ, Option.some.injEq, List.getElem?_nil] at hd
    · refine ⟨fun _ => by omega, fun _ => ?_⟩
      unfold inSysDir confSys
      rw [← hd, pre, Bool.true_or]
    · refine ⟨fun _ => by omega, fun _ => ?_⟩
      unfold inSysDir confSys
      rw [← hd, pre, Bool.or_true]
    · rw [← hd, h1]
      exact ⟨fun h => (nomatch h), fun h => by omega⟩
    · have := h1 ("enabled".toList ++ '/' :: n)
      rw [← hd, show rcsd ++ "/enabled".toList ++ '/' :: n = rcsd ++ '/' :: ("enabled".toList ++ '/' :: n) by simp, this]
      exact ⟨fun h => (nomatch h), fun h => by omega⟩
    · cases hd
  have hok : ∀ x, x ∈ foundConf fs rcsd ∧ readableConf fs (confPath rcsd x) = true ↔ HasConf fs rcsd x.1 x.2 := by
    intro x
    constructor
    · rintro ⟨hx, hr⟩
      obtain ⟨d, hd, hn, hg⟩ := (foundConf_mem fs rcsd x).mp hx
      rw [hpath x d hd] at hr
      unfold readableConf at hr
      rw [Bool.and_eq_true, Bool.and_eq_true, decide_eq_true_iff] at hr
      exact ⟨d, hd, hn, ((globName_iff _).mp hg).1, ((globName_iff _).mp hg).2, hr.1.1⟩
    · rintro ⟨d, hd, hn, hg1, hg2, hk⟩
      refine ⟨(foundConf_mem fs rcsd x).mpr ⟨d, hd, hn, (globName_iff _).mpr ⟨hg1, hg2⟩⟩, ?_⟩
      rw [hpath x d hd]
      unfold readableConf
      obtain ⟨b, hb⟩ := hg2
      rw [hk, hb, Bool.and_eq_true, Bool.and_eq_true, decide_eq_true_iff]
      refine ⟨⟨by decide, by simp; omega⟩, ?_⟩
      rw [List.isSuffixOf_iff_suffix]
      exact ⟨d ++ '/' :: b, by simp⟩
  obtain ⟨m, e, hms, hmm⟩ := confFiles_sorted confSys (readableConf fs) (confPath rcsd) (foundConf fs rcsd) hbase
    (foundConf_sorted hfs rcsd)
  unfold confPaths
  rw [← foundConf_map, e]
  refine congrArg _ (confBefore_unique hms hl fun x => ?_)
  rw [hmm, hm, ← and_assoc, hok]
  refine and_congr_right fun hx => ?_
  have hxf := ((hok x).mpr hx).1
  rw [hsys x hxf]
  refine not_congr (and_congr_right fun hi => ?_)
  constructor
  · rintro ⟨y, hy, hb, he⟩
    obtain ⟨d, hd, hn, hg⟩ := (foundConf_mem fs rcsd y).mp hy
    have hlt : x.1 < y.1 := by
      rcases hb with h | h
      · exact h
      · rw [he] at h; exact absurd h.2 (List.lt_irrefl _)
    rw [he] at hn hg
    exact ⟨y.1, hlt, d, hd, hn, ((globName_iff _).mp hg).1, ((globName_iff _).mp hg).2, h2 x.1 y.1 d x.2 hi hlt hx hd hn⟩
  · rintro ⟨j, hj, d, hd, hn, hg1, hg2, _⟩
    exact ⟨(j, x.2), (foundConf_mem fs rcsd (j, x.2)).mpr ⟨d, hd, hn, (globName_iff _).mpr ⟨hg1, hg2⟩⟩, .inl hj, rfl⟩

/-! ## C66: lines -/

theorem takeWhile_all_ne {c : Char} {d : CStr} (h : c ∉ d) : d.takeWhile (· ≠ c) = d := by
  induction d with
  | nil => rfl
  | cons x d ih =>
    rw [List.takeWhile_cons_of_pos, ih (fun hm => h (List.mem_cons_of_mem _ hm))]
    simpa using fun e : x = c => h (e ▸ List.mem_cons_self)

theorem dropWhile_all_ne {c : Char} {d : CStr} (h : c ∉ d) : d.dropWhile (· ≠ c) = [] := by
  induction d with
  | nil => rfl
  | cons x d ih =>
    rw [List.dropWhile_cons_of_pos, ih (fun hm => h (List.mem_cons_of_mem _ hm))]
    simpa using fun e : x = c => h (e ▸ List.mem_cons_self)

theorem flatMap_eq {α β : Type} {l : List α} {f g : α → List β} (h : ∀ x ∈ l, f x = g x) : l.flatMap f = l.flatMap g := by
  induction l with
  | nil => rfl
  | cons x l ih =>
    rw [List.flatMap_cons, List.flatMap_cons, h x List.mem_cons_self, ih fun y hy => h y (List.mem_cons_of_mem _ hy)]


/-- A line `WORD VALUE`; the word may be written in capitals. -/
def KeyLine (word line value : CStr) : Prop :=
  ∃ k b, lower k = word ∧ (∀ c ∈ b, c = ' ') ∧ line = k ++ b ++ value ∧ value.head? ≠ some ' '

/-- Text of a line without comments and tabs (which are removed when it is read), and not longer than a buffer. -/
def LineOk (l : CStr) : Prop := '#' ∉ l ∧ '\t' ∉ l ∧ l.length ≤ 1023

/-- The lines of a file: for the instance of a template each `%i` is replaced by its name. -/
def InstLines (f : CStr) (lines lines' : List CStr) : Prop :=
  ('@' ∉ f ∧ lines' = lines) ∨
  ∃ p inst, '@' ∉ p ∧ inst ≠ [] ∧ f = p ++ '@' :: inst ++ ".conf".toList ∧ lines' = lines.map (substI inst)

/-- What a line of a file stands for: an `include` line for the lines of that file. -/
def LineMeans (R : CStr → List (CStr × CStr)) (f l : CStr) (part : List (CStr × CStr)) : Prop :=
  (∀ g, KeyLine "include ".toList l g → part = R g) ∧
  ((¬ ∃ g, KeyLine "include ".toList l g) → part = [(f, l)])

/-- What files stand for: `R` is the lines of each file, those of included files put in their places.  A file that does not
    exist, or is a template, stands for nothing. -/
structure FilesMean (fs : ConfFs) (R : CStr → List (CStr × CStr)) : Prop where
  missing : ∀ f, fs.text f = none → R f = []
  template : ∀ p, '@' ∉ p → R (p ++ "@.conf".toList) = []
  lines : ∀ f lines lines', fs.text f = some lines → InstLines f lines lines' →
    ∃ part, (∀ l ∈ lines', LineMeans R f l (part l)) ∧ R f = lines'.flatMap part

/-- Names of files for which C29 holds. -/
def FileNameOk (f : CStr) : Prop :=
  '@' ∉ f ∨ (∃ p, '@' ∉ p ∧ f = p ++ "@.conf".toList) ∨
  ∃ p inst, '@' ∉ p ∧ inst ≠ [] ∧ '%' ∉ inst ∧ ¬ ".conf".toList <:+: inst ∧ inst.length ≤ 64 ∧
    f = p ++ '@' :: inst ++ ".conf".toList

theorem stripLine_ok {b g : CStr} (hb : ∀ c ∈ b, c = ' ') (hg : g.head? ≠ some ' ') (h1 : '#' ∉ g) (h2 : '\t' ∉ g) :
    stripLine (b ++ g) = g := by
  induction b with
  | nil =>
    unfold stripLine
    have : g.dropWhile isBlank = g := by
      cases g with
      | nil => rfl
      | cons c g =>
        rw [List.dropWhile_cons_of_neg]
        unfold isBlank
        rw [decide_eq_true_iff]
        rintro (h | h)
        · exact hg (by rw [h]; rfl)
        · exact h2 (by rw [h]; exact List.mem_cons_self)
    rw [List.nil_append, this]
    exact takeWhile_all_ne h1
  | cons c b ih =>
    rw [List.cons_append, hb c List.mem_cons_self, stripLine_blank]
    exact ih fun x hx => hb x (List.mem_cons_of_mem _ hx)

theorem matchRp_key {word k r : CStr} (h : lower k = lower word) : matchRp word (k ++ r) = some r := by
  have hl : k.length = word.length := by
    have := congrArg List.length h
    unfold lower at this
    rwa [List.length_map, List.length_map] at this
  unfold matchRp
  rw [← hl, List.take_left, List.drop_left, if_pos h]

theorem matchRp_some {word l r : CStr} (h : matchRp word l = some r) : ∃ k, lower k = lower word ∧ l = k ++ r := by
  unfold matchRp at h
  split at h
  · rename_i he
    cases h
    exact ⟨l.take word.length, he, (List.take_append_drop ..).symm⟩
  · cases h

/-- Leading blanks. -/
theorem blank_split (r : CStr) : ∃ b g, (∀ c ∈ b, c = ' ') ∧ r = b ++ g ∧ g.head? ≠ some ' ' := by
  induction r with
  | nil => exact ⟨[], [], fun _ h => (nomatch h), rfl, by decide⟩
  | cons c r ih =>
    by_cases hc : c = ' '
    · obtain ⟨b, g, h1, h2, h3⟩ := ih
      refine ⟨c :: b, g, ?_, by rw [h2]; rfl, h3⟩
      intro x hx
      rcases List.mem_cons.mp hx with rfl | hx
      · exact hc
      · exact h1 x hx
    · exact ⟨[], c :: r, fun _ h => (nomatch h), rfl, fun h => hc (Option.some.inj h)⟩

/-- A line with a key word is recognised, and only such a line. -/
theorem key_iff {word l : CStr} (hw : lower word = word) (h1 : '#' ∉ l) (h2 : '\t' ∉ l) (g : CStr) :
    (matchRp word l).map stripLine = some g ↔ KeyLine word l g := by
  constructor
  · intro h
    cases hm : matchRp word l with
    | none => rw [hm] at h; cases h
    | some r =>
      rw [hm] at h
      obtain ⟨k, hk, rfl⟩ := matchRp_some hm
      obtain ⟨b, g', hb, rfl, hg⟩ := blank_split r
      rw [Option.map_some, stripLine_ok hb hg
        (fun hm => h1 (List.mem_append_right _ (List.mem_append_right _ hm)))
        (fun hm => h2 (List.mem_append_right _ (List.mem_append_right _ hm)))] at h
      rw [← Option.some.inj h]
      exact ⟨k, b, hk.trans hw, hb, (List.append_assoc ..).symm, hg⟩
  · rintro ⟨k, b, hk, hb, rfl, hg⟩
    rw [List.append_assoc, matchRp_key (hk.trans hw.symm), Option.map_some, stripLine_ok hb hg
      (fun hm => h1 (List.mem_append_right _ hm)) (fun hm => h2 (List.mem_append_right _ hm))]

theorem includeOf_iff {l : CStr} (h : LineOk l) (g : CStr) :
    includeOf l = some g ↔ KeyLine "include ".toList l g := by
  rw [← key_iff (by decide) h.1 h.2.1]
  unfold includeOf
  cases hm : matchRp "include ".toList l with
  | none => exact Iff.rfl
  | some r =>
    obtain ⟨k, _, e⟩ := matchRp_some hm
    have : (stripLine r).length ≤ 1023 := by
      have h1 : (stripLine r).length ≤ r.length := by
        unfold stripLine
        exact Nat.le_trans (List.takeWhile_sublist _).length_le (List.dropWhile_sublist _).length_le
      have h2 := h.2.2
      rw [e, List.length_append] at h2
      omega
    rw [Option.map_some, Option.map_some, List.take_of_length_le this]

/-- What is done with the lines of a file. -/
theorem parseConf_lines {fs : ConfFs} {f : CStr} {lines : List CStr} (hf : FileNameOk f) (ht : fs.text f = some lines)
    (n : Nat) : (parseConf fs (n + 1) f = [] ∧ ∃ p, '@' ∉ p ∧ f = p ++ "@.conf".toList) ∨
    ∃ lines', InstLines f lines lines' ∧ parseConf fs (n + 1) f =
      lines'.flatMap (fun l => match includeOf l with | some g => parseConf fs n g | none => [(f, l)]) := by
  rcases hf with h | ⟨p, hp, rfl⟩ | ⟨p, inst, hp, h0, h1, h2, h3, e⟩
  · refine .inr ⟨lines, .inl ⟨h, rfl⟩, ?_⟩
    have : isTemplate f = none := by
      unfold isTemplate
      rw [dropWhile_all_ne h]
    rw [parseConf, this]
    dsimp only
    rw [if_neg (by decide), ht]
    rfl
  · refine .inl ⟨?_, p, hp, rfl⟩
    have : isTemplate (p ++ "@.conf".toList) = some [] := by
      rw [show p ++ "@.conf".toList = p ++ ['@'] ++ ".conf".toList by simp]
      exact C29_names_partial (inst := []) hp (by decide) (by decide)
    rw [parseConf, this]
    dsimp only
    rw [if_pos rfl]
  · refine .inr ⟨lines.map (substI inst), .inr ⟨p, inst, hp, h0, e, rfl⟩, ?_⟩
    have : isTemplate f = some inst := by rw [e]; exact C29_names_partial hp h2 h3
    rw [parseConf, this]
    dsimp only
    rw [if_neg (fun h => h0 (Option.some.inj h)), ht, List.flatMap_map]
    dsimp only
    refine flatMap_eq fun l _ => ?_
    rw [Option.getD_some, C29_instantiate_partial l inst h0 h1]
    cases includeOf (substI inst l) <;> rfl

/-- A file with an `@` in its path and no `.conf` after that is taken for a template: nothing in it is read. -/
theorem C66_at_sign {fs : ConfFs} {p q : CStr} (hp : '@' ∉ p) (hq : ¬ ".conf".toList <:+: q) (n : Nat) :
    parseConf fs n (p ++ '@' :: q) = [] := by
  cases n with
  | zero => rfl
  | succ n =>
    have hd : (p ++ '@' :: q).dropWhile (· ≠ '@') = '@' :: q := by
      induction p with
      | nil => rfl
      | cons c p ih =>
        have hc : c ≠ '@' := fun e => hp (e ▸ List.mem_cons_self)
        rw [List.cons_append, List.dropWhile_cons_of_pos (by simpa using hc)]
        exact ih (fun h => hp (List.mem_cons_of_mem _ h))
    have : isTemplate (p ++ '@' :: q) = some [] := by
      unfold isTemplate
      rw [hd]
      dsimp only
      cases hs : strstr ".conf".toList q with
      | none => rfl
      | some r => exact absurd ⟨r.1, r.2, (strstr_some hs).symm⟩ hq
    rw [parseConf, this]
    dsimp only
    rw [if_pos rfl]

example : '@' ∉ "/etc/finit.d/site".toList ∧ ¬ ".conf".toList <:+: "home.inc".toList :=
  ⟨by decide, fun ⟨a, b, e⟩ => strstr_none (show strstr ".conf".toList "home.inc".toList = none by decide +kernel) a b e.symm⟩

/-- **C66, included files, partial.**  Where no file includes itself, directly or not, what is acted upon is the text of
    files with included files put in their places.

    Missing: files that include themselves (see C66_loop), names of templates as in C29, and lines longer than a buffer. -/
theorem C66_include_partial {fs : ConfFs} {R : CStr → List (CStr × CStr)} (hR : FilesMean fs R) (rank : CStr → Nat)
    (hname : ∀ f, fs.text f ≠ none → FileNameOk f)
    (hline : ∀ f lines lines', fs.text f = some lines → InstLines f lines lines' → ∀ l ∈ lines', LineOk l)
    (hrank : ∀ f lines lines', fs.text f = some lines → InstLines f lines lines' → ∀ l ∈ lines', ∀ g,
      KeyLine "include ".toList l g → rank g < rank f) :
    ∀ fds f, rank f < fds → parseConf fs fds f = R f := by
  intro fds
  induction fds with
  | zero => intro f h; omega
  | succ n ih =>
    intro f hf
    cases ht : fs.text f with
    | none =>
      rw [hR.missing f ht, parseConf]
      dsimp only
      rw [ht]
      split <;> rfl
    | some lines =>
      rcases parseConf_lines (hname f (by rw [ht]; simp)) ht n with ⟨e, p, hp, rfl⟩ | ⟨lines', hi, e⟩
      · rw [e, hR.template p hp]
      · obtain ⟨part, h1, h2⟩ := hR.lines f lines lines' ht hi
        rw [e, h2]
        refine flatMap_eq fun l hl => ?_
        have hok := hline f lines lines' ht hi l hl
        cases hinc : includeOf l with
        | some g =>
          have hk := (includeOf_iff hok g).mp hinc
          dsimp only
          rw [(h1 l hl).1 g hk]
          exact ih g (by have := hrank f lines lines' ht hi l hl g hk; omega)
        | none =>
          refine ((h1 l hl).2 ?_).symm
          rintro ⟨g, hg⟩
          rw [(includeOf_iff hok g).mpr hg] at hinc
          cases hinc

/-- All lines that are acted upon are as they should be. -/
theorem parseConf_ok {fs : ConfFs} (hname : ∀ f, fs.text f ≠ none → FileNameOk f)
    (hline : ∀ f lines lines', fs.text f = some lines → InstLines f lines lines' → ∀ l ∈ lines', LineOk l) :
    ∀ fds f, ∀ it ∈ parseConf fs fds f, LineOk it.2 := by
  intro fds
  induction fds with
  | zero => intro f it h; cases h
  | succ n ih =>
    intro f it hit
    cases ht : fs.text f with
    | none =>
      rw [parseConf] at hit
      dsimp only at hit
      rw [ht] at hit
      split at hit <;> cases hit
    | some lines =>
      rcases parseConf_lines (hname f (by rw [ht]; simp)) ht n with ⟨e, _⟩ | ⟨lines', hi, e⟩
      · rw [e] at hit; cases hit
      · rw [e, List.mem_flatMap] at hit
        obtain ⟨l, hl, hit⟩ := hit
        cases hinc : includeOf l with
        | some g => rw [hinc] at hit; exact ih g it hit
        | none =>
          rw [hinc] at hit
          rw [List.mem_singleton.mp hit]
          exact hline f lines lines' ht hi l hl

/-- There is one way to read the name of an instance. -/
theorem at_unique {p q a b : CStr} (hp : '@' ∉ p) (hq : '@' ∉ q)
    (h : p ++ '@' :: a ++ ".conf".toList = q ++ '@' :: b ++ ".conf".toList) : a = b := by
  have h := List.append_cancel_right h
  have h1 := dropWhile_at (b := a) hp
  rw [h, dropWhile_at hq] at h1
  exact (List.cons.inj h1).2.symm

theorem InstLines.unique {f : CStr} {ls a b : List CStr} (h1 : InstLines f ls a) (h2 : InstLines f ls b) : a = b := by
  rcases h1 with ⟨n1, rfl⟩ | ⟨p, i, hp, _, e1, rfl⟩ <;> rcases h2 with ⟨n2, rfl⟩ | ⟨q, j, hq, _, e2, rfl⟩
  · rfl
  · exact absurd (by rw [e2]; simp) n1
  · exact absurd (by rw [e1]; simp) n2
  · rw [at_unique hp hq (e1.symm.trans e2)]

/-- The hypotheses of C66_include_partial can be met: files that do not include themselves stand for something. -/
theorem filesMean_exists {fs : ConfFs} (rank : CStr → Nat) (hname : ∀ f, fs.text f ≠ none → FileNameOk f)
    (hline : ∀ f lines lines', fs.text f = some lines → InstLines f lines lines' → ∀ l ∈ lines', LineOk l)
    (hrank : ∀ f lines lines', fs.text f = some lines → InstLines f lines lines' → ∀ l ∈ lines', ∀ g,
      KeyLine "include ".toList l g → rank g < rank f) :
    FilesMean fs (fun f => parseConf fs (rank f + 1) f) := by
  have same : ∀ n f m, rank f < n → rank f < m → parseConf fs n f = parseConf fs m f := by
    intro n
    induction n with
    | zero => intro f m h; omega
    | succ n ih =>
      intro f m hn hm
      obtain ⟨m, rfl⟩ : ∃ k, m = k + 1 := ⟨m - 1, by omega⟩
      cases ht : fs.text f with
      | none =>
        rw [parseConf, parseConf]
        dsimp only
        rw [ht]
      | some lines =>
        have hn1 := hname f (by rw [ht]; simp)
        rcases parseConf_lines hn1 ht n with ⟨e, p, hp, rfl⟩ | ⟨lines', hi, e⟩ <;>
          rcases parseConf_lines hn1 ht m with ⟨e', q, hq, hpq⟩ | ⟨lines'', hi', e'⟩
        · rw [e, e']
        · exfalso
          rcases hi' with ⟨h, _⟩ | ⟨q, inst, hq, h0, h, _⟩
          · exact h (by simp)
          · rw [show p ++ "@.conf".toList = p ++ ['@'] ++ ".conf".toList by simp] at h
            exact h0 (at_unique hp hq h).symm
        · exfalso
          rcases hi with ⟨h, _⟩ | ⟨p, inst, hp, h0, h, _⟩
          · exact h (by rw [hpq]; simp)
          · rw [hpq, show q ++ "@.conf".toList = q ++ ['@'] ++ ".conf".toList by simp] at h
            exact h0 (at_unique hq hp h).symm
        · rw [e, e', hi.unique hi']
          refine flatMap_eq fun l hl => ?_
          cases hinc : includeOf l with
          | none => rfl
          | some g =>
            have := hrank f lines lines'' ht hi' l hl g ((includeOf_iff (hline f lines lines'' ht hi' l hl) g).mp hinc)
            exact ih g m (by omega) (by omega)
  refine ⟨fun f ht => ?_, fun p hp => ?_, fun f lines lines' ht hi => ?_⟩
  · rw [parseConf]
    dsimp only
    rw [ht]
    split <;> rfl
  · have : isTemplate (p ++ "@.conf".toList) = some [] := by
      rw [show p ++ "@.conf".toList = p ++ ['@'] ++ ".conf".toList by simp]
      exact C29_names_partial (inst := []) hp (by decide) (by decide)
    rw [parseConf, this]
    dsimp only
    rw [if_pos rfl]
  · refine ⟨fun l => match includeOf l with | some g => parseConf fs (rank f) g | none => [(f, l)], fun l hl => ⟨?_, ?_⟩, ?_⟩
    · intro g hg
      have hr := hrank f lines lines' ht hi l hl g hg
      dsimp only
      rw [(includeOf_iff (hline f lines lines' ht hi l hl) g).mpr hg]
      exact same _ _ _ hr (by omega)
    · intro hno
      dsimp only
      cases hinc : includeOf l with
      | none => rfl
      | some g => exact absurd ⟨g, (includeOf_iff (hline f lines lines' ht hi l hl) g).mp hinc⟩ hno
    · rcases parseConf_lines (hname f (by rw [ht]; simp)) ht (rank f) with ⟨_, p, hp, rfl⟩ | ⟨lines'', hi', e⟩
      · exfalso
        rcases hi with ⟨h, _⟩ | ⟨q, inst, hq, h0, h, _⟩
        · exact h (by simp)
        · rw [show p ++ "@.conf".toList = p ++ ['@'] ++ ".conf".toList by simp] at h
          exact h0 (at_unique hp hq h).symm
      · rw [e, hi.unique hi']

/-- The directory that lines set. -/
def RcsdIs (boot : Bool) (rcsd : CStr) (items : List (CStr × CStr)) (r : CStr) : Prop :=
  if boot then
    ((∀ it ∈ items, ¬ ∃ d, KeyLine "rcsd ".toList it.2 d) ∧ r = rcsd) ∨
    ∃ a it b, items = a ++ it :: b ∧ KeyLine "rcsd ".toList it.2 r ∧ ∀ it ∈ b, ¬ ∃ d, KeyLine "rcsd ".toList it.2 d
  else r = rcsd

theorem rcsdAfter_is (boot : Bool) : ∀ (items : List (CStr × CStr)) (rcsd : CStr), (∀ it ∈ items, LineOk it.2) →
    RcsdIs boot rcsd items (rcsdAfter boot rcsd items) := by
  cases boot with
  | false => intro _ _ _; unfold RcsdIs rcsdAfter; simp
  | true =>
    intro items
    unfold RcsdIs rcsdAfter
    simp only [if_true]
    induction items with
    | nil => intro rcsd _; exact .inl ⟨fun _ h => (nomatch h), rfl⟩
    | cons it items ih =>
      intro rcsd h
      have hok := h it List.mem_cons_self
      rw [List.foldl_cons]
      rcases ih ((rcsdOf it.2).getD rcsd) (fun x hx => h x (List.mem_cons_of_mem _ hx)) with ⟨h1, h2⟩ | ⟨a, x, b, h1, h2, h3⟩
      · rw [h2]
        cases hr : rcsdOf it.2 with
        | none =>
          refine .inl ⟨fun x hx => ?_, rfl⟩
          rcases List.mem_cons.mp hx with rfl | hx
          · rintro ⟨d, hd⟩
            have := (key_iff (by decide) hok.1 hok.2.1 d).mpr hd
            unfold rcsdOf at hr
            rw [hr] at this
            cases this
          · exact h1 x hx
        | some d =>
          exact .inr ⟨[], it, items, rfl, (key_iff (by decide) hok.1 hok.2.1 d).mp hr, h1⟩
      · exact .inr ⟨it :: a, x, b, by rw [h1]; rfl, h2, h3⟩

/-- **C66, partial.**  The lines acted upon are those of the main file and then those of the files of the documented
    directories in their order, the directory of the administrator being the one that the main file names (at bootstrap),
    or else the one in use.

    Missing: what is missing of the parts. -/
theorem C66_read_partial {fs : ConfFs} {R : CStr → List (CStr × CStr)} {main rcsd : CStr} {boot : Bool} {fds : Nat}
    (hfs : FsOk fs) (hR : FilesMean fs R) (rank : CStr → Nat) (hfds : ∀ f, rank f < fds)
    (hname : ∀ f, fs.text f ≠ none → FileNameOk f)
    (hline : ∀ f lines lines', fs.text f = some lines → InstLines f lines lines' → ∀ l ∈ lines', LineOk l)
    (hrank : ∀ f lines lines', fs.text f = some lines → InstLines f lines lines' → ∀ l ∈ lines', ∀ g,
      KeyLine "include ".toList l g → rank g < rank f)
    (h1 : ∀ r, RcsdIs boot rcsd (R main) r → ∀ n, inSysDir confSys (r ++ '/' :: n) = false)
    (h2 : ∀ r, RcsdIs boot rcsd (R main) r → ∀ i j d n, i < 2 → i < j → HasConf fs r i n →
      (confDirs r)[j]? = some d → n ∈ fs.ls d → fs.kind (d ++ '/' :: n) = .file) :
    ∃ r, RcsdIs boot rcsd (R main) r ∧ ∀ l : List (Nat × CStr), l.Pairwise ConfBefore →
      (∀ x, x ∈ l ↔ WantConf fs r x) →
      (readAll fs boot fds main rcsd).1 = R main ++ l.flatMap (fun x => R (confPath r x)) := by
  have key := C66_include_partial hR rank hname hline hrank fds
  have hr := rcsdAfter_is boot (R main) rcsd fun it hit =>
    parseConf_ok hname hline fds main it (by rw [key main (hfds main)]; exact hit)
  refine ⟨_, hr, fun l hl hm => ?_⟩
  unfold readAll
  dsimp only
  rw [key main (hfds main), C66_files_partial hfs hl hm (h1 _ hr) (h2 _ hr), List.flatMap_map]
  refine congrArg _ (flatMap_eq fun x _ => key _ (hfds _))

/-- After bootstrap nothing changes the directory of the administrator. -/
theorem C66_rcsd_kept (fs : ConfFs) (fds : Nat) (main rcsd : CStr) : (readAll fs false fds main rcsd).2 = rcsd := rfl

/-! ## Where C66 is false -/

/-- A file system for examples: files with their lines. -/
def smallFs (dirs : List (CStr × List CStr)) (files : List (CStr × List CStr)) (subdirs : List CStr) : ConfFs where
  ls d := ((dirs.find? (fun x => decide (x.1 = d))).map (·.2)).getD []
  kind p := if p ∈ subdirs then .dir else if p ∈ files.map (·.1) then .file else .missing
  text f := (files.find? (fun x => decide (x.1 = f))).map (·.2)

/-- A file of the system, and a directory of its name. -/
def hideFs : ConfFs :=
  smallFs [("/lib/finit/system".toList, ["a.conf".toList]), ("/etc/finit.d".toList, ["a.conf".toList])]
    [("/lib/finit/system/a.conf".toList, [])] ["/etc/finit.d/a.conf".toList]

theorem hideFs_ls (d : CStr) : hideFs.ls d = ["a.conf".toList] ∨ hideFs.ls d = [] := by
  unfold hideFs smallFs
  dsimp only
  rw [List.find?, List.find?, List.find?]
  split
  · exact .inl rfl
  · split
    · exact .inl rfl
    · exact .inr rfl

theorem hideFs_ok : FsOk hideFs := by
  intro d
  rcases hideFs_ls d with h | h <;> rw [h]
  · exact ⟨by decide, by decide⟩
  · exact ⟨by decide, by decide⟩

theorem hideFs_has (i : Nat) (n : CStr) : HasConf hideFs "/etc/finit.d".toList i n ↔ i = 0 ∧ n = "a.conf".toList := by
  constructor
  · rintro ⟨d, hd, hn, _, _, hk⟩
    have hn' : n = "a.conf".toList := by
      rcases hideFs_ls d with h | h <;> rw [h] at hn
      · exact List.mem_singleton.mp hn
      · cases hn
    refine ⟨?_, hn'⟩
    subst hn'
    rcases i with _ | _ | _ | _ | i <;>
      simp only [confDirs, List.getElem?_cons_zero, List.getElem?_cons_succ, Option.some.injEq, List.getElem?_nil] at hd
    · rfl
    · subst hd; exact absurd hn (by decide +kernel)
    · subst hd; exact absurd hk (by decide +kernel)
    · subst hd; exact absurd hn (by decide +kernel)
    · cases hd
  · rintro ⟨rfl, rfl⟩
    exact ⟨_, rfl, by decide +kernel, by decide, ⟨"a".toList, rfl⟩, by decide +kernel⟩

/-- A file of the system is hidden by a directory of its name, and nothing is read. -/
theorem C66_hidden_by_directory : ∃ fs : ConfFs, FsOk fs ∧ confPaths fs "/etc/finit.d".toList = [] ∧
    WantConf fs "/etc/finit.d".toList (0, "a.conf".toList) := by
  refine ⟨hideFs, hideFs_ok, by decide +kernel, (hideFs_has 0 _).mpr ⟨rfl, rfl⟩, ?_⟩
  rintro ⟨_, j, hj, h⟩
  have := ((hideFs_has j _).mp h).1
  omega

/-- **C66 is false.** -/
theorem C66_files_full_false : ¬ C66_files_full := by
  intro h
  have := h hideFs "/etc/finit.d".toList [(0, "a.conf".toList)] hideFs_ok (List.pairwise_singleton ..) (fun x => ?_)
  · rw [show confPaths hideFs "/etc/finit.d".toList = [] by decide +kernel] at this
    cases this
  · rw [List.mem_singleton]
    unfold WantConf
    rw [hideFs_has]
    constructor
    · rintro rfl
      refine ⟨⟨rfl, rfl⟩, ?_⟩
      rintro ⟨_, j, hj, h⟩
      have := ((hideFs_has j _).mp h).1
      omega
    · rintro ⟨⟨h1, h2⟩, _⟩
      obtain ⟨i, n⟩ := x
      dsimp only at h1 h2
      rw [h1, h2]

/-- A line `rcsd` in a file that is not the main file is obeyed, at the next reload: other services run then. -/
theorem C66_rcsd_later : ∃ fs : ConfFs,
    (readAll fs true 10 "/etc/finit.conf".toList "/etc/finit.d".toList).2 = "/etc/other.d".toList ∧
    parseConf fs 10 "/etc/finit.conf".toList = [] := by
  exact ⟨smallFs [("/etc/finit.d".toList, ["a.conf".toList])]
    [("/etc/finit.conf".toList, []), ("/etc/finit.d/a.conf".toList, ["rcsd /etc/other.d".toList])] [],
    by decide +kernel, by decide +kernel⟩

/-- A file that includes itself is read again and again, until there are no more file descriptors. -/
theorem C66_loop (fs : ConfFs) {f l : CStr} (h0 : '@' ∉ f) (h1 : f.head? ≠ some ' ') (h2 : '#' ∉ f) (h3 : '\t' ∉ f)
    (h4 : f.length ≤ 1015) (h5 : LineOk l) (h6 : ¬ ∃ g, KeyLine "include ".toList l g)
    (ht : fs.text f = some ["include ".toList ++ f, l]) (fds : Nat) :
    parseConf fs fds f = List.replicate fds (f, l) := by
  induction fds with
  | zero => rfl
  | succ n ih =>
    have hok : LineOk ("include ".toList ++ f) := by
      refine ⟨?_, ?_, by simp; omega⟩
      · intro hm
        rcases List.mem_append.mp hm with hm | hm
        · revert hm; decide
        · exact h2 hm
      · intro hm
        rcases List.mem_append.mp hm with hm | hm
        · revert hm; decide
        · exact h3 hm
    have e1 : includeOf ("include ".toList ++ f) = some f :=
      (includeOf_iff hok f).mpr ⟨"include ".toList, [], by decide, fun _ h => (nomatch h), by simp, h1⟩
    have e2 : includeOf l = none := by
      cases h : includeOf l with
      | none => rfl
      | some g => exact absurd ⟨g, (includeOf_iff h5 g).mp h⟩ h6
    rcases parseConf_lines (.inl h0) ht n with ⟨_, p, _, hp⟩ | ⟨lines', hi, e⟩
    · exact absurd (by rw [hp]; simp) h0
    · rcases hi with ⟨_, rfl⟩ | ⟨p, inst, _, _, hp, _⟩
      · rw [e]
        simp only [List.flatMap_cons, List.flatMap_nil, e1, e2, List.append_nil]
        rw [ih, List.replicate_succ']
      · exact absurd (by rw [hp]; simp) h0

/-- Not vacuous: overriding, a template and its instance, an included file, and another directory. -/
def bootFs : ConfFs :=
  smallFs
    [("/lib/finit/system".toList, ["20-b.conf".toList, "10-a.conf".toList]), ("/etc/mine.d".toList, ["10-a.conf".toList]),
     ("/etc/mine.d/enabled".toList, ["t@.conf".toList, "t@x.conf".toList])]
    [("/etc/finit.conf".toList, ["rcsd /etc/mine.d".toList]),
     ("/lib/finit/system/10-a.conf".toList, ["task old".toList]),
     ("/lib/finit/system/20-b.conf".toList, ["task b".toList]),
     ("/etc/mine.d/10-a.conf".toList, ["include /etc/more".toList, "task new".toList]),
     ("/etc/more".toList, ["task more".toList]),
     ("/etc/mine.d/enabled/t@.conf".toList, ["service %i".toList]),
     ("/etc/mine.d/enabled/t@x.conf".toList, ["service %i".toList])] []

example : readAll bootFs true 10 "/etc/finit.conf".toList "/etc/finit.d".toList =
    ([("/etc/finit.conf", "rcsd /etc/mine.d"), ("/lib/finit/system/20-b.conf", "task b"), ("/etc/more", "task more"),
      ("/etc/mine.d/10-a.conf", "task new"), ("/etc/mine.d/enabled/t@x.conf", "service x")].map
        (fun x => (x.1.toList, x.2.toList)), "/etc/mine.d".toList) := by decide +kernel

/-- A directory of the administrator whose name begins like that of a system directory is taken for one. -/
theorem C66_prefix_of_system :
    let fs (d e : CStr) := smallFs [(d, ["a.conf".toList]), (e, ["a.conf".toList])]
      [(d ++ "/a.conf".toList, []), (e ++ "/a.conf".toList, [])] []
    confPaths (fs "/etc/finit.d".toList "/etc/finit.d/enabled".toList) "/etc/finit.d".toList =
      ["/etc/finit.d/a.conf".toList, "/etc/finit.d/enabled/a.conf".toList] ∧
    confPaths (fs "/run/finit/system2".toList "/run/finit/system2/enabled".toList) "/run/finit/system2".toList =
      ["/run/finit/system2/enabled/a.conf".toList] := by decide +kernel

/-- A file system that meets all hypotheses. -/
def plainFs : ConfFs :=
  smallFs [("/lib/finit/system".toList, ["a.conf".toList]), ("/etc/finit.d".toList, ["a.conf".toList])]
    [("/m".toList, ["include /i".toList]), ("/i".toList, ["task x".toList]),
     ("/lib/finit/system/a.conf".toList, ["task old".toList]), ("/etc/finit.d/a.conf".toList, ["task new".toList])] []

theorem plainFs_text {f : CStr} {lines : List CStr} (h : plainFs.text f = some lines) :
    (f = "/m".toList ∧ lines = ["include /i".toList]) ∨
    (f ≠ "/m".toList ∧ '@' ∉ f ∧ ∃ l, lines = [l] ∧ LineOk l ∧ includeOf l = none) := by
  have : ∀ x ∈ ([("/i".toList, ["task x".toList]), ("/lib/finit/system/a.conf".toList, ["task old".toList]),
      ("/etc/finit.d/a.conf".toList, ["task new".toList])] : List (CStr × List CStr)),
      x.1 ≠ "/m".toList ∧ '@' ∉ x.1 ∧ ∃ l, x.2 = [l] ∧ LineOk l ∧ includeOf l = none := by
    intro x hx
    rcases List.mem_cons.mp hx with rfl | hx
    · exact ⟨by decide, by decide, _, rfl, by unfold LineOk; decide, by decide +kernel⟩
    rcases List.mem_cons.mp hx with rfl | hx
    · exact ⟨by decide, by decide, _, rfl, by unfold LineOk; decide, by decide +kernel⟩
    · rw [List.mem_singleton.mp hx]
      exact ⟨by decide, by decide, _, rfl, by unfold LineOk; decide, by decide +kernel⟩
  unfold plainFs smallFs at h
  dsimp only at h
  rw [List.find?_cons] at h
  split at h
  · rename_i he
    exact .inl ⟨(of_decide_eq_true he).symm, (Option.some.inj h).symm⟩
  · rw [Option.map_eq_some_iff] at h
    obtain ⟨x, hx, rfl⟩ := h
    have h2 := List.find?_some hx
    have h1 := List.mem_of_find?_eq_some hx
    have e : x.1 = f := of_decide_eq_true h2
    rw [← e]
    exact .inr (this x h1)

theorem plainFs_inst {f : CStr} {lines lines' : List CStr} (h : plainFs.text f = some lines)
    (hi : InstLines f lines lines') : lines' = lines := by
  rcases hi with h' | ⟨p, i, _, _, e, _⟩
  · exact h'.2
  · exfalso
    rcases plainFs_text h with ⟨rfl, _⟩ | ⟨_, h, _⟩
    · have : '@' ∈ "/m".toList := by rw [e]; simp
      revert this; decide
    · exact h (by rw [e]; simp)

example : ∃ R, FilesMean plainFs R ∧ R "/m".toList = [("/i".toList, "task x".toList)] ∧
    ∀ f, (if f = "/m".toList then 1 else 0) < 10 ∧ parseConf plainFs 10 f = R f := by
  have hn : ∀ f, plainFs.text f ≠ none → FileNameOk f := by
    intro f h
    cases ht : plainFs.text f with
    | none => exact absurd ht h
    | some lines =>
      rcases plainFs_text ht with ⟨rfl, _⟩ | ⟨_, h, _⟩
      · exact .inl (by decide)
      · exact .inl h
  have hl : ∀ f lines lines', plainFs.text f = some lines → InstLines f lines lines' → ∀ l ∈ lines', LineOk l := by
    intro f lines lines' ht hi l hl
    rw [plainFs_inst ht hi] at hl
    rcases plainFs_text ht with ⟨_, rfl⟩ | ⟨_, _, l', rfl, h, _⟩
    · rw [List.mem_singleton.mp hl]; unfold LineOk; decide
    · rw [List.mem_singleton.mp hl]; exact h
  have hr : ∀ f lines lines', plainFs.text f = some lines → InstLines f lines lines' → ∀ l ∈ lines', ∀ g,
      KeyLine "include ".toList l g → (if g = "/m".toList then 1 else 0) < (if f = "/m".toList then 1 else 0) := by
    intro f lines lines' ht hi l hm g hg
    have hok := hl f lines lines' ht hi l hm
    rw [plainFs_inst ht hi] at hm
    rw [← includeOf_iff hok] at hg
    rcases plainFs_text ht with ⟨rfl, rfl⟩ | ⟨_, _, l', rfl, _, h⟩
    · rw [List.mem_singleton.mp hm] at hg
      have : g = "/i".toList := by
        rw [show includeOf "include /i".toList = some "/i".toList by decide +kernel] at hg
        exact (Option.some.inj hg).symm
      subst this
      decide
    · rw [List.mem_singleton.mp hm, h] at hg
      cases hg
  have hm := filesMean_exists (fs := plainFs) _ hn hl hr
  refine ⟨_, hm, by decide +kernel, fun f => ?_⟩
  have : (if f = "/m".toList then 1 else 0) < 10 := by split <;> omega
  exact ⟨this, C66_include_partial hm _ hn hl hr 10 f this⟩

end Verif
