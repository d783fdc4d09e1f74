import Verif.Spec.Reach

/-!
# Specification: which of the recent iterations were wasted

`discarded_window_size` and `max_fraction_discarded` (rbfopt_settings.py:186-195) are documented in terms of
the last iterations and of how many of them were discarded.  The history is read off from the states between
the passes of the main loop: an iteration was discarded if it was counted and no record was made.
-/

namespace Rbfopt

variable {O : Type}

/-- The outcomes of the iterations since the last restart (`true`: discarded), oldest first, after a pass that
led from `s` to `s'`, if they were `h` before.  `num_nodes_at_restart` tells whether there was a restart; after
a restart the iteration was discarded if there are no other nodes than those of the initial sample. -/
def outcomesAfter (s s' : Alg O) (h : List Bool) : List Bool :=
  if s'.nAtRestart = s.nAtRestart then
    if s'.itercount = s.itercount then h
    else h ++ [decide (s'.all.pos.length = s.all.pos.length)]
  else
    if s'.itercount = s.itercount then []
    else [decide (s'.cur.pos.length = s'.nInit)]

/-- `History P env o c s h`: the object can be in state `s` with control at `c`, and the iterations since the
last restart had the outcomes `h`. -/
inductive History (P : Params) (env : Env O) (o : O) : Ctl → Alg O → List Bool → Prop
  | init : History P env o .idle (Alg.init P o) []
  | call {s s' : Alg O} {loc : Loc} {h : List Bool} (pause : ℕ) :
      History P env o .idle s h → serialStart P env s = .ok (s', loc) →
      History P env o (.running s.itercount pause loc) s' (if s.itercount = 0 then [] else h)
  | pass {s s' : Alg O} {start pause : ℕ} {loc loc' : Loc} {h : List Bool} :
      History P env o (.running start pause loc) s h → loopCond P env start pause s loc = true →
      pass P env s loc = .ok (s', loc') →
      History P env o (.running start pause loc') s' (outcomesAfter s s' h)
  | ret {s : Alg O} {start pause : ℕ} {loc : Loc} {h : List Bool} :
      History P env o (.running start pause loc) s h → loopCond P env start pause s loc = false →
      History P env o .idle { s with elapsed := s.elapsed + env.callTime s } h
  | load {s : Alg O} {start pause : ℕ} {loc : Loc} {h : List Bool} :
      History P env o (.running start pause loc) s h → History P env o .idle s h

/-- The last `w` entries. -/
def lastOf {α : Type} (w : ℕ) (l : List α) : List α := (l.reverse.take w).reverse

/-- Too many of the last `discarded_window_size` iterations were discarded: there have been at least half as
many iterations since the last restart, and the fraction of discarded ones is at least
`max_fraction_discarded`. -/
def TooManyDiscarded (P : Params) (h : List Bool) : Prop :=
  (P.discWindow : ℚ) / 2 ≤ (lastOf P.discWindow h).length ∧
    P.maxFracDisc * (lastOf P.discWindow h).length ≤ ((lastOf P.discWindow h).count true : ℕ)

/-- No progress for `max_stalled_iterations` iterations, and there is budget for another attempt. -/
def StalledWithBudget (P : Params) (s : Alg O) : Prop :=
  s.numStalled ≥ P.maxStalled ∧
    s.evalcount + 3 * (P.n + 1 + (P.numGlobal + 2)) < P.maxEval ∧ s.cyc < (P.maxCycles : ℤ) - 1

end Rbfopt
