import Verif.CStr

/-!
# Maintenance login, src/sulogin.c

Not modelled: shortage of memory, what is printed, and the failure of execl(3) and tcsetattr(3).  The user is "root", the default
of `SULOGIN_USER`.  crypt(3) is a parameter.
-/

namespace Verif

/-- fgets(3) with room for some bytes: what is read and what is left -/
def fgetsOne : Nat → List Char → List Char × List Char
  | 0, s => ([], s)
  | _ + 1, [] => ([], [])
  | k + 1, c :: s => if c = '\n' then (['\n'], s) else (c :: (fgetsOne k s).1, (fgetsOne k s).2)

theorem fgetsOne_le : ∀ (k : Nat) (s : List Char), (fgetsOne k s).2.length ≤ s.length
  | 0, _ => Nat.le_refl _
  | _ + 1, [] => Nat.le_refl _
  | k + 1, c :: s => by
    rw [fgetsOne]
    split
    · exact Nat.le_succ _
    · exact Nat.le_succ_of_le (fgetsOne_le k s)

/-- All that `while (fgets(buf, 256, fp))` reads, src/sulogin.c:52 and 85 -/
def fgetsAll (s : List Char) : List (List Char) :=
  match s with
  | [] => []
  | c :: s => (fgetsOne 255 (c :: s)).1 :: fgetsAll (fgetsOne 255 (c :: s)).2
  termination_by s.length
  decreasing_by
    rw [show (255 : Nat) = 254 + 1 from rfl, fgetsOne]
    split
    · exact Nat.lt_succ_self _
    · exact Nat.lt_succ_of_le (fgetsOne_le 254 s)

/-- strsep(3) at colons: what is before the first, and what is after it, none if there is none -/
def strsepColon : CStr → CStr × Option CStr
  | [] => ([], none)
  | c :: s => if c = ':' then ([], some s) else (c :: (strsepColon s).1, (strsepColon s).2)

/-- The loop over /etc/passwd, src/sulogin.c:52-70: `pw_name` and `pw_passwd` -/
def passwdLoop : List CStr → Option CStr → Option CStr × Option CStr
  | [], name => (name, none)
  | line :: ls, _ =>
    let r := strsepColon line
    if r.1 ≠ "root".toList then passwdLoop ls (some r.1)
    else match r.2 with
      | none => (some r.1, none)
      | some rest =>
        let p := (strsepColon rest).1
        (some r.1, if p.head? = some 'x' then none else some p)

/-- What comes of the loop over /etc/shadow -/
inductive ShadowRes
  | none
  | found (hash : CStr)
  /-- strcmp(3) is given NULL -/
  | crash
  deriving DecidableEq, Repr

/-- The loop over /etc/shadow, src/sulogin.c:85-99 -/
def shadowLoop (name : CStr) : List CStr → ShadowRes
  | [] => .none
  | line :: ls =>
    match (strsepColon line).2 with
    | none => .crash
    | some rest => if rest = name then shadowLoop name ls else .found (strsepColon rest).1

/-- `get_passwd`, src/sulogin.c:42-109; the files are none if they cannot be opened -/
def getPasswd (passwd shadow : Option (List Char)) : ShadowRes :=
  match passwd with
  | none => .none
  | some f =>
    match passwdLoop (fgetsAll f) none with
    | (none, _) => .none
    | (some _, some p) => .found p
    | (some name, none) =>
      match shadow with
      | none => .none
      | some g => shadowLoop name (fgetsAll g)

/-- What comes of it -/
inductive SuOut
  /-- a shell for root -/
  | shell
  /-- Ctrl-D: finit goes on -/
  | goon
  | fail
  | crash
  deriving DecidableEq, Repr

/-- Reading a password, src/sulogin.c:182-193, with room for some bytes: the password and the input left, none for Ctrl-D or the
    end of input -/
def readPwd : Nat → List Char → Option (CStr × List Char)
  | 0, s => some ([], s)
  | _ + 1, [] => none
  | k + 1, c :: s =>
    if c = '\n' ∨ c = '\r' then some ([], s)
    else if c = Char.ofNat 4 then none
    else (readPwd k s).map (fun r => (c :: r.1, r.2))

theorem readPwd_lt : ∀ (k : Nat) (s : List Char) (r : CStr × List Char), readPwd (k + 1) s = some r → r.2.length < s.length
  | k, [], r, h => by cases h
  | k, c :: s, r, h => by
    rw [readPwd] at h
    split at h
    · injection h with h; subst h; exact Nat.lt_succ_self _
    · split at h
      · cases h
      · cases k with
        | zero =>
          rw [readPwd] at h
          injection h with h; subst h; exact Nat.lt_succ_self _
        | succ k =>
          obtain ⟨r', h1, h2⟩ := Option.map_eq_some_iff.mp h
          have := readPwd_lt k s r' h1
          rw [← h2]
          exact Nat.lt_succ_of_lt this

/-- The loop that asks for the password, src/sulogin.c:175-207 -/
def askLoop (crypt : CStr → CStr → Option CStr) (hash : CStr) (input : List Char) : SuOut :=
  match _h : readPwd 255 input with
  | none => .goon
  | some (pwd, rest) => if crypt (pwd.takeWhile (· ≠ Char.ofNat 0)) hash = some hash then .shell else askLoop crypt hash rest
  termination_by input.length
  decreasing_by exact readPwd_lt 254 input _ _h

/-- `main`, src/sulogin.c:133-215; `tty`: the terminal's mode can be read and set -/
def sulogin (crypt : CStr → CStr → Option CStr) (passwd shadow : Option (List Char)) (tty : Bool) (input : List Char) : SuOut :=
  match getPasswd passwd shadow with
  | .none => .fail
  | .crash => .crash
  | .found hash =>
    if hash = [] ∨ hash.head? = some '*' ∨ hash.head? = some '!' then
      match input with
      | [] => .goon
      | c :: _ => if c = Char.ofNat 4 then .goon else .shell
    else if tty = false then .fail
    else askLoop crypt hash input

end Verif
