import Verif.Output

/-!
# A message given to `logit` as words, src/logit.c

The options are those of Verif.Output, what is written to a file with `-f` is Verif.Rotate.
-/

namespace Verif

/-- `buf`, `pos` and `len` in `main`, src/logit.c:215 and 279; `text` is what is in `buf` before the first zero -/
structure LmBuf where
  text : CStr := []
  pos : Nat := 0
  len : Nat := 512
  deriving DecidableEq, Repr

/-- One word, src/logit.c:281-287: snprintf(3) returns how much it would have written, had there been room.  `none` is undefined: the
    pointer `&buf[pos]` is behind the end of the array, and `len`, that has wrapped around, lets it be written to. -/
def lmWord (b : LmBuf) (w : CStr) : Option LmBuf :=
  if 512 < b.pos then none
  else
    let bytes := w.length + 1
    some { text := if b.len = 0 then b.text else b.text.take b.pos ++ (w ++ [' ']).take (b.len - 1)
           pos := b.pos + bytes
           len := (b.len + 18446744073709551616 - bytes) % 18446744073709551616 }

/-- All words, src/logit.c:278-288 -/
def lmWords : List CStr → LmBuf → Option LmBuf
  | [], b => some b
  | w :: ws, b => (lmWord b w).bind (lmWords ws)

/-- `main`, src/logit.c:278-298, with `logit` and `do_log`, src/logit.c:123-141, when there are words and no file: the messages in the
    system log.  Without words, standard input is read, see `logitRun`. -/
def lmRun (user : CStr) (cfg : LogitCfg) (input : CStr) : Option (List LogMsg) :=
  match lmWords cfg.words {} with
  | none => none
  | some b =>
    if b.text = [] then some (logitRun user cfg input)
    else some [{ tag := cfg.ident.getD user, pri := sysPri cfg.fac.toNat (markLevel cfg.lvl.toNat b.text).1,
                 text := (markLevel cfg.lvl.toNat b.text).2 }]

end Verif
