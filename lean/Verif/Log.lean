import Verif.Util

/-!
# Syslog priorities (src/log.c)
-/

namespace Verif

/-- `facilitynames`, <sys/syslog.h> of glibc, in its order -/
def facilityNames : List (CStr × Int) :=
  [("auth", 32), ("authpriv", 80), ("cron", 72), ("daemon", 24), ("ftp", 88), ("kern", 0), ("lpr", 48),
   ("mail", 16), ("mark", 192), ("news", 56), ("security", 32), ("syslog", 40), ("user", 8), ("uucp", 64),
   ("local0", 128), ("local1", 136), ("local2", 144), ("local3", 152), ("local4", 160), ("local5", 168),
   ("local6", 176), ("local7", 184)].map (fun p => (p.1.toList, p.2))

/-- `prioritynames`, <sys/syslog.h> of glibc, in its order -/
def priorityNames : List (CStr × Int) :=
  [("alert", 1), ("crit", 2), ("debug", 7), ("emerg", 0), ("err", 3), ("error", 3), ("info", 6),
   ("none", 16), ("notice", 5), ("panic", 0), ("warn", 4), ("warning", 4)].map (fun p => (p.1.toList, p.2))

/-- `s2f` and `s2l`, src/log.c:112-130.  `same` is `string_match` of libite. -/
def s2n (same : CStr → CStr → Bool) (str : CStr) : List (CStr × Int) → Int
  | [] => -1
  | p :: ps => if same p.1 str then p.2 else s2n same str ps

/-- `log_parse`, src/log.c:145-179, with arguments that are not NULL: the return value and the new
    facility and level.  LOG_DEBUG is 7, LOG_LOCAL7 is 184. -/
def logParse (same : CStr → CStr → Bool) (prio : CStr) (facility level : Int) : Int × Int × Int :=
  let fac := prio.takeWhile (· ≠ '.')
  let lvl := prio.dropWhile (· ≠ '.')
  let l := if lvl.drop 1 ≠ [] then s2n same (lvl.drop 1) priorityNames else -1
  let f := s2n same fac facilityNames
  let l := if l < 0 then s2n same fac priorityNames else l
  if l < 0 ∧ f ≤ 0 then (-1, facility, level)
  else (0, if f ≤ 184 then f else facility, if l ≤ 7 then l else level)

end Verif
