import Verif.Util

/-!
# Asking for a runlevel, src/finit.c, src/initctl.c, src/api.c

Options of `telinit` are left out.  initctl can be run and reaches init, which answers.  What init does to change the runlevel is in the
model of the supervisor; here it is the list of levels that `sm_runlevel()` was called with.
-/

namespace Verif

/-- What init knows: the runlevel, 10 while the system starts, the one to go to then, the one of the command line, 0 if none, and the
    levels it was told to change to, the last one first -/
structure TlSt where
  level : Nat
  cfglevel : Nat
  cmdlevel : Nat
  asked : List Nat
  deriving DecidableEq, Repr

/-- `INIT_CMD_RUNLVL`, src/api.c:414-447; the answer is always that it was done, src/api.c:368 and 579-582 -/
def tlApi (c : Char) (st : TlSt) : TlSt :=
  if st.level = 0 ∨ st.level = 6 then st
  else
    let c := if c = 's' ∨ c = 'S' then '1' else c
    if isDigit c then
      if st.level = 10 then { st with cfglevel := c.toNat - 48 } else { st with asked := (c.toNat - 48) :: st.asked }
    else st

/-- `do_runlevel()` with a word, src/initctl.c:235-238: the first byte is sent, which is 0 for an empty word; the exit status -/
def tlRunlevel (w : CStr) (st : TlSt) : TlSt × Nat := (tlApi (w.headD (Char.ofNat 0)) st, 0)

/-- The words after `runlevel`, src/initctl.c:1413-1422; with none the runlevels are printed -/
def tlInitctl (ws : List CStr) (st : TlSt) : TlSt × Nat :=
  ws.foldl (fun r w => ((tlRunlevel w r.1).1, r.2 ||| (tlRunlevel w r.1).2)) (st, 0)

/-- What `telinit` does -/
inductive TlDoes
  /-- `initctl runlevel` with these words -/
  | runlevel (ws : List CStr)
  /-- `initctl reload` -/
  | reload
  /-- Help, and exit status 1 -/
  | usage
  deriving DecidableEq, Repr

/-- `telinit()`, src/finit.c:583-596, after its options -/
def telinit (args : List CStr) : TlDoes :=
  match args with
  | [] => .usage
  | w :: _ =>
    let c := w.headD (Char.ofNat 0)
    if isDigit c then .runlevel [[c]]
    else if c = 'q' ∨ c = 'Q' then .reload
    else if c = 's' ∨ c = 'S' then .runlevel [[c]]
    else .usage

/-- `telinit` and the initctl it runs: what init then knows, whether the configuration is read again, and the exit status -/
def tlTelinit (args : List CStr) (st : TlSt) : TlSt × Bool × Nat :=
  match telinit args with
  | .runlevel ws => ((tlInitctl ws st).1, false, (tlInitctl ws st).2)
  | .reload => (st, true, 0)
  | .usage => (st, false, 1)

/-- The runlevel after the start of the system, src/sm.c:97-112 -/
def tlBooted (st : TlSt) : Nat := if st.cmdlevel ≠ 0 then st.cmdlevel else st.cfglevel

end Verif
