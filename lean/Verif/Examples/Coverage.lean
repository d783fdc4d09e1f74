import Verif.Props.Coverage
import Verif.Examples.Serial

/-!
# C102 on a concrete run
-/

namespace Rbfopt.Demo

/-- The integers from 0 to 10. -/
def covPoints : List Pt := (List.range 11).map (fun i : ℕ => [(i : ℚ)])

/-- The point of `covPoints` farthest from the nodes. -/
def covFarthest (nodes : List Pt) : Pt :=
  match argmaxVal (covPoints.map (fun x => (getMinDistance dist1 x nodes).getD 0)) with
  | some (_, i) => covPoints.getD i [0]
  | none => [0]

/-- InfSteps search exactly, other steps propose 1, 2, 3, …. -/
def envCov : Env ℕ :=
  { env with
    search := fun s =>
      .ok (some (if s.step = 0 then covFarthest s.cur.pos else [(s.itercount : ℚ) + 1]), s.opq + 1) }

/-- Longer runs. -/
def PCov : Params := { P with maxIter := 30 }

theorem envCov_farthest : FarthestSearch envCov {p | p ∈ covPoints} 0 := by
  intro s res hs h
  have h' : res = (some (covFarthest s.cur.pos), s.opq + 1) := by
    simp only [envCov, hs, if_true] at h
    exact (Except.ok.inj h).symm
  subst h'
  generalize s.cur.pos = nodes
  unfold covFarthest
  cases hx : argmaxVal (covPoints.map (fun x => (getMinDistance dist1 x nodes).getD 0)) with
  | none => exact absurd (List.map_eq_nil_iff.mp (argmaxVal_none.mp hx)) (by decide)
  | some vi =>
    obtain ⟨v, i⟩ := vi
    obtain ⟨a1, a2, -⟩ := argmaxVal_some hx
    rw [List.getElem?_map] at a1
    obtain ⟨p, hp, hv⟩ := Option.map_eq_some_iff.mp a1
    have hpi : covPoints.getD i [0] = p := by rw [List.getD_eq_getElem?_getD, hp]; rfl
    refine ⟨p, by simp only [hpi], List.mem_of_getElem? hp, fun x hxm q' hq' => ?_⟩
    have hmin : ∀ y : Pt, ∃ d j, argminVal (nodes.map (dist1 y)) = some (d, j) ∧
        (getMinDistance dist1 y nodes).getD 0 = d := by
      intro y
      cases hy : argminVal (nodes.map (dist1 y)) with
      | none =>
        have := argminVal_none.mp hy
        simp only [List.map_eq_nil_iff] at this
        subst this
        cases hq'
      | some dj => exact ⟨dj.1, dj.2, rfl, by simp [getMinDistance, hy]⟩
    obtain ⟨d, j, e1, e2⟩ := hmin x
    obtain ⟨d', j', e1', e2'⟩ := hmin p
    have hle : d ≤ d' := by
      have := a2 _ (List.mem_map_of_mem (f := fun x => (getMinDistance dist1 x nodes).getD 0) hxm)
      rw [← hv] at this
      simpa only [e2, e2'] using this
    obtain ⟨b1, -, -⟩ := argminVal_some e1
    obtain ⟨-, b2', -⟩ := argminVal_some e1'
    rw [List.getElem?_map] at b1
    obtain ⟨q, hq, rfl⟩ := Option.map_eq_some_iff.mp b1
    refine ⟨q, List.mem_of_getElem? hq, ?_⟩
    have := b2' _ (List.mem_map_of_mem (f := dist1 p) hq')
    show dist1 x q ≤ dist1 p q' + 0
    linarith

/-- The states of the run after 0, 1, 2, … passes. -/
def covRun (k : ℕ) : Alg ℕ × Loc := (after PCov envCov 100 k).getD (Alg.init PCov 0, ⟨⊤, none⟩)

theorem covRun_pass (k : ℕ) (h : k < 7) : pass PCov envCov (covRun k).1 (covRun k).2 = .ok (covRun (k + 1)) := by
  have hs : ∀ k < 7, (after PCov envCov 100 (k + 1)).isSome = true := by decide +kernel
  obtain ⟨x, hx⟩ := Option.isSome_iff_exists.mp (hs k h)
  obtain ⟨y, h1, -, h3⟩ := after_succ hx
  unfold covRun
  rw [h1, hx]
  exact h3

/-- **C102** Non-vacuity: a run of seven passes on the integers of `[0, 10]` with three InfSteps; two boxes of
side 6 cover the interval.  All hypotheses of `C102_infsteps_cover` hold, and the nodes afterwards are
0, 10, 5, 2, 3, 7, 6, 1: every point is within 6 of one of them (in fact within 2). -/
theorem C102_example :
    FarthestSearch envCov {p | p ∈ covPoints} 0 ∧
    (∀ p ∈ covPoints, InBox PCov.lLower PCov.lUpper p) ∧
    (∀ p ∈ covPoints, ∀ q ∈ covPoints, (∀ i < PCov.lLower.length, |p.getD i 0 - q.getD i 0| ≤ 6) →
      envCov.dist p q ≤ 6) ∧
    (∀ k < 7, pass PCov envCov (covRun k).1 (covRun k).2 = .ok (covRun (k + 1))) ∧
    (∀ k < 7, (covRun k).1.cur.pos <+: (covRun (k + 1)).1.cur.pos) ∧
    (∀ k ∈ ({0, 3, 6} : Finset ℕ), k < 7 ∧ IsInfPass PCov envCov (covRun k).1) ∧
    cellCount PCov.lLower PCov.lUpper 6 < ({0, 3, 6} : Finset ℕ).card ∧
    (covRun 7).1.cur.pos = [[0], [10], [5], [2], [3], [7], [6], [1]] := by
  refine ⟨envCov_farthest, ?_, ?_, covRun_pass, by decide +kernel, ?_, ?_, by decide +kernel⟩
  · intro p hp
    obtain ⟨i, hi, rfl⟩ := List.mem_map.mp hp
    have h1 := List.mem_range.mp hi
    have h2 : (i : ℚ) ≤ 10 := by exact_mod_cast (show i ≤ 10 by omega)
    exact ⟨.cons (by positivity) .nil, .cons h2 .nil⟩
  · intro p hp q hq h
    obtain ⟨i, hi, rfl⟩ := List.mem_map.mp hp
    obtain ⟨j, hj, rfl⟩ := List.mem_map.mp hq
    exact h 0 (by decide)
  · have hb : ∀ k ∈ ({0, 3, 6} : Finset ℕ), k < 7 ∧ (covRun k).1.step = 0 ∧
        shouldRestart PCov (covRun k).1 = false := by decide +kernel
    intro k hk
    obtain ⟨h1, h2, h3⟩ := hb k hk
    exact ⟨h1, h2, rfl, h3, fun o => rfl⟩
  · have : cellCount PCov.lLower PCov.lUpper 6 = 2 := by
      unfold cellCount
      simp only [PCov, P, List.length_singleton, Finset.prod_range_one, List.getD_cons_zero]
      have : ⌊((10 : ℚ) - 0) / 6⌋₊ = 1 := by
        rw [Nat.floor_eq_iff (by norm_num)]
        norm_num
      rw [this]
    rw [this]
    decide

/-- **C102** Non-vacuity: in one dimension `|x - y|` is the Euclidean distance, and `√1 * 6 ≤ 6`. -/
theorem C102_euclid_example : DistWithin envCov {p | p ∈ covPoints} 0 ∧
    Real.sqrt PCov.lLower.length * (6 : ℚ) + 0 ≤ (6 : ℚ) := by
  refine ⟨?_, by simp [PCov, P]⟩
  intro p hp q hq
  obtain ⟨i, -, rfl⟩ := List.mem_map.mp hp
  obtain ⟨j, -, rfl⟩ := List.mem_map.mp hq
  refine ⟨_, by unfold distancePy; rw [if_pos (by simp)], ?_⟩
  have : envCov.dist [(i : ℚ)] [(j : ℚ)] = |(i : ℚ) - j| := rfl
  rw [this]
  simp [dotSelf, subPy, Real.sqrt_mul_self_eq_abs]
end Rbfopt.Demo
