import Verif.Model.Parallel
import Verif.Model.Select

/-!
# Waiting for initial evaluations

rbfopt_algorithm.py:1880-1892 and 1921-1933.
-/

namespace Rbfopt

/-- The loop that waits for a sufficient number of initial evaluations.  `ready t id` tells whether
evaluation `id` has finished at poll number `t`.  Every poll of the results gets a new number; a pass
that sleeps is one poll.  `inner` is true inside the inner loop (1888, 1929).  Recursion is on fuel,
`none` means that it ran out. -/
def waitLoop (ready : ℕ → ℕ → Bool) (need : ℕ) : ℕ → ℕ → Bool → List EvalJob → List EvalJob →
    Option (List EvalJob × List EvalJob)
  | 0, _, _, _, _ => none
  | fuel + 1, t, false, js, got =>
    if need ≤ got.length then some (got, js)
    else if resultsReady (js.map (fun x => ready t x.id)) then
      waitLoop ready need fuel (t + 1) true js got
    else waitLoop ready need fuel (t + 1) false js got
  | fuel + 1, t, true, js, got =>
    if resultsReady (js.map (fun x => ready t x.id)) then
      let j := oneReadyIndex (js.map (fun x => ready (t + 1) x.id))
      match js[j]? with
      | none => none
      | some x => waitLoop ready need fuel (t + 2) true (js.eraseIdx j) (got ++ [x])
    else waitLoop ready need fuel (t + 1) false js got

end Rbfopt
