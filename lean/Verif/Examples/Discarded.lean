import Verif.Examples.Serial
import Verif.Props.Discarded

/-!
# A run that restarts because its iterations are discarded
-/

namespace Rbfopt.Demo

/-- The history of the outcomes after `k` passes. -/
def afterOutcomes (P : Params) (env : Env ℕ) (pause : ℕ) : ℕ → Option (List Bool)
  | 0 => some []
  | k + 1 =>
    match after P env pause k, after P env pause (k + 1), afterOutcomes P env pause k with
    | some x, some y, some h => some (outcomesAfter x.1 y.1 h)
    | _, _, _ => none

theorem after_history {P : Params} {env : Env ℕ} {pause k : ℕ} {x : Alg ℕ × Loc} {h : List Bool}
    (hx : after P env pause k = some x) (hh : afterOutcomes P env pause k = some h) :
    History P env 0 (.running 0 pause x.2) x.1 h := by
  induction k generalizing x h with
  | zero =>
    cases hh
    have := toOption_some hx
    have := History.call pause (History.init (P := P) (env := env) (o := 0)) this
    exact this
  | succ k ih =>
    obtain ⟨y, h1, h2, h3⟩ := after_succ hx
    rw [afterOutcomes, h1, hx] at hh
    split at hh
    · rename_i a b c e1 e2 e3
      cases hh
      cases e1; cases e2
      exact .pass (ih h1 e3) h2 h3
    · cases hh

/-- No search finds a point; the window has length 4. -/
def envNo : Env ℕ :=
  { env with search := fun s => .ok (none, s.opq)
             localSearch := fun s => .ok (⟨false, none, none, false, []⟩, s.opq)
             initNodes := fun s => .ok ([[(s.itercount : ℚ)], [10]], s.opq) }

/-- After three discarded iterations a restart is due (`C95_restart_rule`), and the next pass restarts. -/
theorem C95_example : ∃ (x y : Alg ℕ × Loc) (h : List Bool), History { P with discWindow := 4 } envNo 0 (.running 0 100 x.2) x.1 h ∧
    h = [true, true, true] ∧ TooManyDiscarded { P with discWindow := 4 } h ∧
    x.1.step = Params.firstStep { P with discWindow := 4 } ∧
    pass { P with discWindow := 4 } envNo x.1 x.2 = .ok y ∧ x.1.nAtRestart = 0 ∧ y.1.nAtRestart = 2 := by
  have h1 : (after { P with discWindow := 4 } envNo 100 3).map (fun x => (x.1.step, x.1.nAtRestart,
      (pass { P with discWindow := 4 } envNo x.1 x.2).toOption.map (fun y => y.1.nAtRestart))) =
      some (0, 0, some 2) := by decide +kernel
  have h2 : afterOutcomes { P with discWindow := 4 } envNo 100 3 = some [true, true, true] := by decide +kernel
  obtain ⟨x, hx, h3⟩ := Option.map_eq_some_iff.mp h1
  simp only [Prod.mk.injEq] at h3
  obtain ⟨h4, h5, h6⟩ := h3
  obtain ⟨y, hy, h7⟩ := Option.map_eq_some_iff.mp h6
  refine ⟨x, y, _, after_history hx h2, rfl, ?_, ?_, toOption_some hy, h5, h7⟩
  · unfold TooManyDiscarded lastOf
    constructor <;> decide +kernel
  · rw [h4]; rfl

/-- A history with both outcomes: the point 1 is proposed again and again, so only the first iteration records
something. -/
theorem C95_example_mixed : ∃ (x : Alg ℕ × Loc) (h : List Bool), History P { env with
      search := fun s => .ok (some [1], s.opq)
      localSearch := fun s => .ok (⟨false, some [1], none, false, []⟩, s.opq) } 0 (.running 0 100 x.2) x.1 h ∧
    h = [false, true, true] := by
  have h1 : (after P { env with
      search := fun s => .ok (some [1], s.opq)
      localSearch := fun s => .ok (⟨false, some [1], none, false, []⟩, s.opq) } 100 3).isSome = true := by
    decide +kernel
  have h2 : afterOutcomes P { env with
      search := fun s => .ok (some [1], s.opq)
      localSearch := fun s => .ok (⟨false, some [1], none, false, []⟩, s.opq) } 100 3 =
      some [false, true, true] := by decide +kernel
  obtain ⟨x, hx⟩ := Option.isSome_iff_exists.mp h1
  exact ⟨x, _, after_history hx h2, rfl⟩

end Rbfopt.Demo
