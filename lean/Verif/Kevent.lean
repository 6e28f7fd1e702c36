import Verif.Line

/-!
# The kernel event daemon (src/keventd.c)

It provides the condition sys/pwr/ac.
-/

namespace Verif

/-- What the daemon knows: `num_ac_online`, and whether the file of the condition exists. -/
structure Kev where
  online : Nat
  cond : Bool
  deriving DecidableEq, Repr

/-- `is_ac`, src/keventd.c:124-141 -/
def isAc (type : CStr) : Bool :=
  ["Mains", "USB", "BrickID", "Wireless"].any fun t => t.toList.isPrefixOf type

/-- `check_online`, src/keventd.c:111-122 -/
def checkOnline (s : CStr) : Bool := decide (atoi s ≠ 0)

/-- `fgetline` with a buffer of 10 bytes, src/keventd.c:92-109: none if there is no file, or nothing in it -/
def sysLine : Option CStr → Option CStr
  | none => none
  | some t => if t = [] then none else some ((t.takeWhile (fun c => decide (c ≠ '\n'))).take 9)

/-- What `init` does for each directory in /sys/class/power_supply, with the contents of `type` and `online`,
    src/keventd.c:166-175: the numbers of supplies, and of those that are on line -/
def kevScan : List (Option CStr × Option CStr) → Nat × Nat
  | [] => (0, 0)
  | (type, online) :: rest =>
    let r := kevScan rest
    match sysLine type with
    | none => r
    | some t =>
      if isAc t then
        match sysLine online with
        | none => (r.1 + 1, r.2)
        | some o => (r.1 + 1, if checkOnline o then r.2 + 1 else r.2)
      else r

/-- `init`, src/keventd.c:143-185; `before`: the condition is there already -/
def kevInit (before : Bool) (dirs : List (Option CStr × Option CStr)) : Kev :=
  let r := kevScan dirs
  { online := r.2, cond := before || decide (r.1 = 0 ∨ r.2 > 0) }

/-- The strings in a buffer of which the byte behind the last is zero -/
def nulStrings : List Char → List CStr
  | [] => [[]]
  | c :: cs =>
    if c.toNat = 0 then [] :: nulStrings cs
    else match nulStrings cs with
      | [] => [[c]]
      | s :: ss => (c :: s) :: ss

/-- A line of a message, src/keventd.c:285-304; the Boolean is the variable `ac` -/
def kevLine (r : Kev × Bool) (line : CStr) : Kev × Bool :=
  if "DEVPATH=".toList.isPrefixOf line then r
  else if "POWER_SUPPLY_TYPE=".toList.isPrefixOf line then (r.1, isAc (line.drop 18))
  else if "POWER_SUPPLY_ONLINE=".toList.isPrefixOf line ∧ r.2 = true then
    if checkOnline (line.drop 20) then
      ({ online := r.1.online + 1, cond := if r.1.online = 0 then true else r.1.cond }, r.2)
    else
      ({ online := r.1.online - 1, cond := if r.1.online - 1 = 0 then false else r.1.cond }, r.2)
  else r

/-- What is done with a message, src/keventd.c:259-307.  None: a byte is written behind the end of the buffer. -/
def kevMsg (k : Kev) (msg : List Char) : Option Kev :=
  let buf := msg.take 1024
  if buf.length = 1024 then none
  else
    let lines := nulStrings buf
    let head := lines.headD []
    if "change@".toList.isPrefixOf head = false then some k
    else if (strstr "power_supply".toList head).isNone then some k
    else some (lines.foldl kevLine (k, false)).1

end Verif
