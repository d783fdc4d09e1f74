import Verif.Model.AllFixed
import Verif.Props.Settings
import Verif.Props.Problem
import Verif.Examples.Demo
import Verif.Lemmas.Invariants

/-!
# Problems in which every variable is fixed (C31)
-/

namespace Rbfopt

variable {O : Type}

theorem unfixed_all_fixed {eps : ℚ} {vars : List Var} (h : ∀ v ∈ vars, v.isFixed eps = true) :
    unfixedSpec eps vars = [] := by
  unfold unfixedSpec
  rw [List.filter_eq_nil_iff]
  intro v hv
  simp [h v hv]

theorem construct_all_fixed {eps : ℚ} {vars : List Var} (h : ∀ v ∈ vars, v.isFixed eps = true) :
    construct eps vars = { dim := 0, lower := [], upper := [], intVars := [], categorical := []
                           notCategorical := [], expansion := [], fixed := fixedVars eps vars } := by
  have h0 : unfixedVars eps vars = [] := by rw [unfixedVars_eq, unfixed_all_fixed h]
  unfold construct reformulate
  simp [h0, plainIntVars, whereFrom, roundLower, roundUpper]

theorem decode_all_fixed {eps : ℚ} {vars : List Var} (h : ∀ v ∈ vars, v.isFixed eps = true) :
    decodePt (construct eps vars) [] = vars.map Var.lower := by
  rw [construct_all_fixed h]
  unfold decodePt decodeCat
  rw [if_pos rfl]
  have := insertFixed_fill eps vars [] [] (by rw [unfixed_all_fixed h]; rfl)
  simp only [List.length_nil, List.nil_append] at this
  rw [fixedVars_eq, this]
  clear this
  induction vars with
  | nil => rfl
  | cons v vs ih =>
    have hv := h v (by simp)
    simp only [fillFixed, hv, if_true, List.map_cons]
    rw [ih (fun w hw => h w (by simp [hw]))]

/-- **C31** When every variable is fixed (up to `eps_zero`), `optimize()` on a fresh object calls
the black box exactly once, at the fixed values, and returns the value obtained. -/
theorem C31_all_fixed {eps : ℚ} {vars : List Var} (hne : vars ≠ [])
    (h : ∀ v ∈ vars, v.isFixed eps = true) (P : Params) (hn : P.n = (construct eps vars).dim)
    (env : Env O) (hd : env.decode = decodePt (construct eps vars)) (fuel pause : ℕ) (o : O) :
    ∃ r, optimizeTop P env (construct eps vars) fuel pause (Alg.init P o) = .ret r ∧
      r.value = env.evalAcc [] (vars.map Var.lower) ∧ r.evalcount = 1 ∧ r.noisyEvalcount = 0 ∧
      r.itercount = 0 ∧
      r.final.log = [.acc (vars.map Var.lower) (env.evalAcc [] (vars.map Var.lower))] := by
  have hdec : env.decode [] = vars.map Var.lower := by rw [hd]; exact decode_all_fixed h
  have hI := construct_all_fixed h
  have hfix : (construct eps vars).fixed ≠ [] := by
    rw [hI, fixedVars_eq]
    cases vars with
    | nil => exact absurd rfl hne
    | cons v vs => simp [fixedFrom, h v (by simp)]
  unfold optimizeTop
  rw [if_pos ⟨by rw [hn, hI], hfix⟩]
  unfold optimizeAllFixed
  rw [hI]
  dsimp only
  set s1 := (objfun env (Alg.init P o) []).2 with hs1
  set v := (objfun env (Alg.init P o) []).1 with hv
  have hv' : v = env.evalAcc [] (vars.map Var.lower) := by
    rw [hv]; unfold objfun; simp [hdec, Alg.init]
  have hl : s1.log = [.acc (vars.map Var.lower) v] := by
    rw [hs1, hv]; unfold objfun; simp [hdec, Alg.init]
  have e1 : s1.all = {} := rfl
  have e2 : s1.evalcount = 0 := rfl
  have e3 : s1.noisyEvalcount = 0 := rfl
  have e4 : s1.itercount = 0 := rfl
  clear_value s1 v
  have ha := addNode_spec s1 [] [] v
  set s2 := addNode s1 [] [] v
  have hall := ha.all
  rw [e1] at hall
  refine ⟨{ value := v, point := [], itercount := s2.itercount, evalcount := s2.evalcount + 1
            noisyEvalcount := s2.noisyEvalcount
            final := { s2 with evalcount := s2.evalcount + 1 } }, ?_, ?_⟩
  · unfold optimizeReturn
    simp only [hall, Table.append, argminVal, List.nil_append, List.getElem?_cons_zero]
  · refine ⟨hv', ?_, ?_, ?_, ?_⟩
    · show s2.evalcount + 1 = 1
      rw [ha.rest.2.1, e2]
    · show s2.noisyEvalcount = 0
      rw [ha.rest.2.2.1, e3]
    · show s2.itercount = 0
      rw [ha.ctl.1, e4]
    · show s2.log = _
      rw [ha.rest.1, hl, hv']

/-- A problem with a real and a categorical variable, both fixed. -/
def DemoFixed.vars : List Var := [⟨2, 2, .R⟩, ⟨1, 1, .C⟩]

example : DemoFixed.vars ≠ [] ∧ (∀ v ∈ DemoFixed.vars, v.isFixed (1/1000) = true) ∧
    (construct (1/1000) DemoFixed.vars).dim = 0 := by
  refine ⟨by decide, by decide +kernel, by decide +kernel⟩

/-- The run on this problem, with the objective of `Demo.env`. -/
example : ((optimizeTop { Demo.P with n := 0 }
    { Demo.env with decode := decodePt (construct (1/1000) DemoFixed.vars) }
    (construct (1/1000) DemoFixed.vars) 1 1 (Alg.init Demo.P 0)).result?.map
      (fun r => (r.value, r.evalcount, r.final.log))) = some (2, 1, [.acc [2, 1] 2]) := by
  decide +kernel

/-- **C31** (violated part) With the default settings the object cannot even be constructed: the
automatic choice of the domain scaling raises `IndexError` when no variable is free. -/
theorem C31_violated_default_settings {eps : ℚ} {vars : List Var}
    (h : ∀ v ∈ vars, v.isFixed eps = true) (h0 : Heap) :
    let I := construct eps vars
    setAutoParameters (h0 ++ [settingsFill []]) h0.length I.dim I.lower I.upper I.intVars =
      .error .indexError := by
  have hI := construct_all_fixed h
  dsimp only
  rw [hI]
  unfold setAutoParameters
  simp only [List.length_nil, List.not_mem_nil, false_implies, implies_true, and_self, if_true]
  have hc : (h0 ++ [settingsFill []]).length <
      ((h0 ++ [settingsFill []]) ++ [(h0 ++ [settingsFill []]).getD h0.length
        (fun _ => SVal.bool false)]).length := by
    simp
  have hs := (setAutoSimple_spec _ _ hc).2 "domain_scaling"
  rw [Heap.get_append_self] at hs
  have hd : (h0 ++ [settingsFill []]).getD h0.length (fun _ => SVal.bool false) "domain_scaling" =
      .str "auto" := by
    rw [List.getD_eq_getElem?_getD]
    simp [settingsFill, settingsDefaults, List.lookup]
  rw [hd] at hs
  unfold setAutoDomain
  rw [if_pos (by rw [hs]; simp)]
  simp [autoDomainScaling]

/-- **C31** (violated part) Each further call of `optimize()` evaluates the only feasible point
again: after the second call two evaluations have been made. -/
theorem C31_violated_second_call :
    ((optimizeTop { Demo.P with n := 0 }
      { Demo.env with decode := decodePt (construct (1/1000) DemoFixed.vars) }
      (construct (1/1000) DemoFixed.vars) 1 1 (Alg.init Demo.P 0)).result?.bind
        (fun r => (optimizeTop { Demo.P with n := 0 }
          { Demo.env with decode := decodePt (construct (1/1000) DemoFixed.vars) }
          (construct (1/1000) DemoFixed.vars) 1 1 r.final).result?.map
            (fun r => (r.evalcount, r.final.log)))) =
      some (2, [.acc [2, 1] 2, .acc [2, 1] 2]) := by
  decide +kernel

end Rbfopt
