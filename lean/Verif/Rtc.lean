import Verif.CStr

/-!
# The clock

`plugins/rtc.c:62-310`.  A time is a number of seconds; `gmtime_r` and `mktime` with `TZ=UTC0` turn it into a date and back, and
are left out.  How a date is written and read (`strftime`, `strptime`) is a parameter, as are the file and the device.
Simplified: `settimeofday()` and the writing of the file are granted; output to the console is left out.
-/

namespace Verif

/-- The clock on the board: the time it has, if it has one that can be read -/
structure RtcDev where
  time : Option Int
  deriving DecidableEq, Repr

/-- What there is: the clock of the system, the device, and the text in the restore file -/
structure ClockSt where
  now : Int
  rtc : Option RtcDev
  file : Option CStr
  deriving DecidableEq, Repr

/-- What is fixed: the earliest valid time (`rtc_date_fallback`), whether there is a restore file at all, how dates are written
    and read, which times the device takes, and whether the system is in rescue mode -/
structure ClockEnv where
  least : Int
  useFile : Bool
  write : Int → CStr
  read : CStr → Option Int
  takes : Int → Bool
  rescue : Bool

/-- `time_set`, plugins/rtc.c:84-118: the result code and the new time -/
def timeSet (E : ClockEnv) (t : Option Int) (s : ClockSt) : Nat × ClockSt :=
  let t := t.getD E.least
  if t = -1 ∨ t < E.least then (2, s) else (0, { s with now := t })

/-- `time_get`, plugins/rtc.c:120-137 -/
def timeGet (E : ClockEnv) (s : ClockSt) : Option Int := if s.now < E.least then none else some s.now

/-- `file_save`, plugins/rtc.c:139-170: the file is emptied when it is opened. -/
def fileSave (E : ClockEnv) (s : ClockSt) : ClockSt :=
  if E.useFile then
    match timeGet E s with
    | none => { s with file := some [] }
    | some t => { s with file := some (E.write t ++ ['\n']) }
  else s

/-- Reading the restore file, plugins/rtc.c:187-197: the result code and the date -/
def fileRead (E : ClockEnv) (s : ClockSt) : Nat × Option Int :=
  match s.file with
  | none => (0, none)
  | some [] => (0, none)
  | some text =>
    match E.read ((text.take 31).takeWhile (· ≠ '\n')) with
    | none => (1, none)
    | some t => (0, some t)

/-- `file_restore`, plugins/rtc.c:172-213: line 198 sets the result code to 1 in all cases. -/
def fileRestore (E : ClockEnv) (s : ClockSt) : ClockSt :=
  if E.useFile then
    let r := fileRead E s
    let rc := 1
    if rc ≠ 0 then (timeSet E none s).2 else (timeSet E (some (r.2.getD 0)) s).2
  else (timeSet E none s).2

/-- `rtc_save`, plugins/rtc.c:236-265 -/
def rtcSave (E : ClockEnv) (s : ClockSt) : ClockSt :=
  if E.rescue then s
  else
    match s.rtc with
    | none => s
    | some _ =>
      match timeGet E s with
      | none => s
      | some t => if E.takes t then { s with rtc := some { time := some t } } else s

/-- `rtc_restore`, plugins/rtc.c:267-312 -/
def rtcRestore (E : ClockEnv) (s : ClockSt) : ClockSt :=
  if E.rescue then s
  else
    match s.rtc with
    | none => fileRestore E s
    | some d =>
      match d.time with
      | none => fileRestore E s
      | some t =>
        let r := timeSet E (some t) s
        if r.1 ≠ 0 then fileRestore E r.2 else r.2

/-- `save`, plugins/rtc.c:315-319: at shutdown and every eleven minutes -/
def clockSave (E : ClockEnv) (s : ClockSt) : ClockSt := fileSave E (rtcSave E s)

/-- What happens to a clock: time passes with the system on or off, somebody sets the clock, it is saved, or the system boots
    with the kernel's idea of the time -/
inductive ClockEv
  | on (n : Nat)
  | off (n : Nat)
  | set (t : Int)
  | save
  | boot (t : Int)
  deriving DecidableEq, Repr

/-- Time passes for the device. -/
def rtcTick (n : Nat) (d : RtcDev) : RtcDev := { time := d.time.map (· + n) }

/-- One event -/
def clockStep (E : ClockEnv) (s : ClockSt) : ClockEv → ClockSt
  | .on n => { s with now := s.now + n, rtc := s.rtc.map (rtcTick n) }
  | .off n => { s with rtc := s.rtc.map (rtcTick n) }
  | .set t => { s with now := t }
  | .save => clockSave E s
  | .boot t => rtcRestore E { s with now := t }

/-- `tz_set` and `tz_restore`, plugins/rtc.c:62-82: what is left of the variable `TZ` -/
def tzKept (tz : Option CStr) : Option CStr :=
  let kept := match tz with
    | none => []
    | some t => strlcpy 128 t
  if kept = [] then none else some kept

end Verif
