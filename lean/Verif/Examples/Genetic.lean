import Verif.Props.Genetic

/-! # A concrete run of the genetic algorithm: one real and one categorical variable -/

namespace Rbfopt

/-- A ranking checked by evaluation. -/
theorem Ranks.of_getD {vals : List ℚ} {order : List ℕ} (h1 : order.Perm (List.range vals.length))
    (h2 : order.Pairwise (fun i j => vals.getD i 0 ≤ vals.getD j 0)) : Ranks vals order := by
  refine ⟨h1, h2.imp ?_⟩
  intro i j h a b ha hb
  rwa [getD_of ha, getD_of hb] at h

def gaVars : List Var := [⟨0, 1, .R⟩, ⟨0, 2, .C⟩]

def gaInitial : List Pt := (List.range 16).map (fun (i : ℕ) => [((i : ℚ) + 1) / 20, 1/2])

def gaDraws : GenDraws where
  rank := List.range 16
  father := [0, 1, 2, 3]
  mother := [3, 2, 1, 0]
  coin := fun _ j => j == 0
  fresh := fun _ => [1/2, 0]
  bestMut := ⟨[1], [9/10]⟩
  muts := fun i => if i = 0 then some ⟨[0], [1/3]⟩ else none

theorem gaVars_wf : WellFormed gaVars := by
  intro v hv
  simp only [gaVars, List.mem_cons, List.not_mem_nil, or_false] at hv
  rcases hv with rfl | rfl
  · exact ⟨by norm_num, fun h => absurd rfl h⟩
  · exact ⟨by norm_num, fun _ => ⟨⟨0, by norm_num⟩, ⟨2, by norm_num⟩⟩⟩

theorem gaDraws_ok : GenDrawsOk (construct (1/10000000000) gaVars) 16 1 0
    ((gaInitial.map (samplePoint (construct (1/10000000000) gaVars))).map (fun p => p.headD 0))
    gaDraws := by
  have hdim : workDim (construct (1/10000000000) gaVars) = 2 := by decide +kernel
  refine ⟨Ranks.of_getD (by decide +kernel) (by decide +kernel), by decide +kernel,
    by decide +kernel, ?_, ?_, ?_⟩
  · intro u
    rw [hdim]
    refine ⟨rfl, ?_⟩
    intro x hx
    change x ∈ ([1/2, 0] : Pt) at hx
    simp only [List.mem_cons, List.not_mem_nil, or_false] at hx
    rcases hx with rfl | rfl <;> norm_num
  · rw [hdim]
    refine ⟨by decide +kernel, by decide +kernel, by decide +kernel, rfl, ?_⟩
    intro u hu
    simp only [gaDraws, List.mem_cons, List.not_mem_nil, or_false] at hu
    subst hu; norm_num
  · intro i m hm
    rw [hdim]
    have : m = ⟨[0], [1/3]⟩ := by
      by_cases h : i = 0
      · simp only [gaDraws, h, if_true, Option.some.injEq] at hm; exact hm.symm
      · simp [gaDraws, h] at hm
    subst this
    refine ⟨by decide +kernel, by decide +kernel, by decide +kernel, rfl, ?_⟩
    intro u hu
    simp only [List.mem_cons, List.not_mem_nil, or_false] at hu
    subst hu; norm_num

def gaLast : List ℕ := [0, 4, 15, 5, 2, 6, 3, 7, 1, 8, 9, 10, 11, 12, 13, 14]

/-- The hypotheses of `C48_optimize` hold for this run (16 individuals, one generation); the
result is the individual with the smallest first coordinate. -/
example : gaOptimize (construct (1/10000000000) gaVars) 0 gaInitial [gaDraws] gaLast =
    .ok [1/20, 0, 1, 0] ∧
    DrawsOk (construct (1/10000000000) gaVars)
      (gaPopulationSize 0 (construct (1/10000000000) gaVars).dim) 1
      (fun pop => pop.map (fun p => p.headD 0)) 0
      (gaInitial.map (samplePoint (construct (1/10000000000) gaVars))) [gaDraws] ∧
    (∀ pop, gaGenerations (construct (1/10000000000) gaVars)
      (gaPopulationSize 0 (construct (1/10000000000) gaVars).dim) [gaDraws]
      (gaInitial.map (samplePoint (construct (1/10000000000) gaVars))) = .ok pop →
      Ranks (pop.map (fun p => p.headD 0)) gaLast) := by
  refine ⟨by decide +kernel, ?_, ?_⟩
  · have : gaPopulationSize 0 (construct (1/10000000000) gaVars).dim = 16 := by decide +kernel
    rw [this]
    exact ⟨gaDraws_ok, fun _ _ => trivial⟩
  · intro pop hpop
    have h : (match gaGenerations (construct (1/10000000000) gaVars)
      (gaPopulationSize 0 (construct (1/10000000000) gaVars).dim) [gaDraws]
      (gaInitial.map (samplePoint (construct (1/10000000000) gaVars))) with
      | .ok pop => decide (gaLast.Perm (List.range (pop.map (fun p => p.headD (0:ℚ))).length)) &&
        decide (gaLast.Pairwise (fun i j => (pop.map (fun p => p.headD (0:ℚ))).getD i 0 ≤
          (pop.map (fun p => p.headD (0:ℚ))).getD j 0))
      | .error _ => false) = true := by decide +kernel
    rw [hpop] at h
    simp only [Bool.and_eq_true, decide_eq_true_eq] at h
    exact Ranks.of_getD h.1 h.2

end Rbfopt
