import Verif.Props.Sound
import Verif.Examples.Steps

/-!
# The run of `StepDemo` with a reachable target (C97)

The objective is `(x₀ - 3)² + x₁`, whose minimum over the feasible points is 0.
-/

namespace Rbfopt.StepDemo

/-- The settings of the run, with the tolerance 5/4 on the target 0. -/
def Pt5 : Params := { P with epsOpt := 5/4 }

def objective (x : Pt) : ℚ := (x.headD 0 - 3)^2 + x.getD 1 0

theorem code_run : CodeRun Pt5 env (1/1000000) vars .off initCfg where
  wellFormed := vars_wf
  runs := ⟨runs_on.lower, runs_on.upper, runs_on.toInternal, runs_on.toOrig, runs_on.decode⟩
  scaling := .inl rfl
  dim := by change 0 < J.dim; rw [J_eq]; decide
  steps := steps_ok
  samples := samples_ok
  dist := fun p => by
    show dist1n p p = 0
    unfold dist1n
    induction p with
    | nil => rfl
    | cons a p ih => simp
  strategy := .inl rfl
  init := by simp [Pt5, P, Demo.P]

theorem computes : Computes Pt5 env (1/1000000) vars objective where
  eval := fun _ _ _ => rfl
  user := by
    rintro p v ⟨i, hi, -⟩
    simp [Pt5, P, Demo.P] at hi

theorem objective_nonneg (x : Pt) (h : FeasibleUser (1/1000000) vars x) : 0 ≤ objective x := by
  obtain ⟨a, b, rfl, hb⟩ : ∃ a b, x = [a, b] ∧ (⟨0, 2, .C⟩ : Var).Feasible (1/1000000) b := by
    cases h with
    | cons h1 h2 =>
      cases h2 with
      | cons h3 h4 => cases h4; exact ⟨_, _, rfl, h3⟩
  unfold Var.Feasible at hb
  norm_num at hb
  unfold objective
  simp only [List.headD_cons, List.getD_cons_succ, List.getD_cons_zero]
  nlinarith [sq_nonneg (a - 3), hb.1]

theorem success_value : ((optimize Pt5 env 40 100 (Alg.init Pt5 0)).result?.map
    (fun r => (r.value, decide (r.itercount < 9 ∧ r.evalcount < 100 ∧ r.final.cyc < 50)))) = some (5/4, true) := by
  decide +kernel

/-- The run ends with a value that `C97_success_is_near_optimal` bounds from both sides. -/
example : ∃ r, optimize Pt5 env 40 100 (Alg.init Pt5 0) = .ret r ∧ r.value = 5/4 ∧
    NoLimitReached Pt5 env (Alg.init Pt5 0) 100 r ∧
    0 ≤ r.value ∧ r.value ≤ 0 + 0 + 5/4 * 1 := by
  have h := success_value
  cases hr : optimize Pt5 env 40 100 (Alg.init Pt5 0) with
  | raised e => rw [hr] at h; cases h
  | outOfFuel => rw [hr] at h; cases h
  | ret r =>
    rw [hr] at h
    simp only [OptRes.result?, Option.map_some, Option.some.injEq, Prod.mk.injEq,
      decide_eq_true_eq] at h
    obtain ⟨h1, h2, h3, h4⟩ := h
    have hlim : NoLimitReached Pt5 env (Alg.init Pt5 0) 100 r := by
      refine ⟨?_, h2, h3, WithTop.coe_lt_top _, h4, fun s' _ => WithTop.coe_lt_top _⟩
      show r.itercount < 0 + 100
      omega
    have := C97_success_is_near_optimal (P := Pt5) (env := env) (f := objective) (o := 0) rfl
      (fun p => by
        show dist1n p p = 0
        unfold dist1n
        induction p with
        | nil => rfl
        | cons a p ih => simp) (by norm_num [Pt5, P, Demo.P]) (by norm_num [Pt5, P, Demo.P]) code_run
      computes .init hr hlim (m := 0) (tol := 0) objective_nonneg (by norm_num [Pt5, P, Demo.P])
    refine ⟨r, rfl, h1, hlim, this.1, ?_⟩
    refine this.2.trans ?_
    norm_num [Pt5, P, Demo.P]

end Rbfopt.StepDemo
