import Verif.Props.RoundedRun
import Verif.Examples.Witness
import Verif.Examples.Demo
import Verif.Examples.Parallel

/-! # C105: a run in double precision -/

namespace Rbfopt.Demo

/-- A variable with bounds -0.2 and 0.1 in double precision. -/
def varsFl : List Var := [⟨rndBits 53 (-2/10), rndBits 53 (1/10), .R⟩]

/-- The unit interval, to which the variable is scaled; large values only are accepted as optimal. -/
def PFl : Params := { P with lUpper := [1], target := -10 }

/-- Affine scaling in double precision; the search always proposes the upper end; the objective is minus the
variable. -/
def envFl : Env ℕ := { env with
  toInternal := transformDomainR (rndBits 53) .affine [rndBits 53 (-2/10)] [rndBits 53 (1/10)] [] false
  toOrig := transformDomainR (rndBits 53) .affine [rndBits 53 (-2/10)] [rndBits 53 (1/10)] [] true
  evalAcc := fun _ x => - x.headD 0
  evalNoisy := fun _ x => (- x.headD 0, -1, 1)
  initNodes := fun s => .ok ([[rndBits 53 (-2/10)], [0]], s.opq)
  search := fun s => .ok (some [1], s.opq + 1)
  localSearch := fun s => .ok (⟨false, some [1], none, false, []⟩, s.opq)
  refStep := fun s => .ok (⟨some [1], 1, 0, false⟩, s.opq)
  restCand := fun _ _ => [1] }

theorem constructFl : construct (1/1000000) varsFl =
    { dim := 1, lower := [rndBits 53 (-2/10)], upper := [rndBits 53 (1/10)], intVars := [], categorical := [],
      notCategorical := [0], expansion := [], fixed := [] } := by decide +kernel

theorem runsOnFl : RunsOnR (rndBits 53) PFl envFl (1/1000000) varsFl := by
  refine ⟨?_, ?_, ?_, ?_, ?_⟩
  · rw [constructFl]; rfl
  · rw [constructFl]; rfl
  · intro p; rw [constructFl]; rfl
  · intro p; rw [constructFl]; rfl
  · intro p; rw [constructFl]; simp [decodePt, decodeCat, insertFixed, envFl, env]

theorem wellFormedFl : WellFormed varsFl := by
  intro v hv
  have : v = ⟨rndBits 53 (-2/10), rndBits 53 (1/10), .R⟩ := by simpa [varsFl] using hv
  subst this
  exact ⟨by decide +kernel, fun h => absurd rfl h⟩

theorem realFl : RealUnlessFixed (1/1000000) varsFl := by
  intro v hv _
  have : v = ⟨rndBits 53 (-2/10), rndBits 53 (1/10), .R⟩ := by simpa [varsFl] using hv
  subst this; rfl

theorem repFl : Representable (rndBits 53) (construct (1/1000000) varsFl).lower := by
  rw [constructFl]
  intro x hx
  have : x = rndBits 53 (-2/10) := by simpa using hx
  subst this
  exact (rndBits_rounding (by norm_num)).idem _

theorem propFl (x : ℚ) : Proposable (construct (1/1000000) varsFl) [x] := by
  rw [constructFl]; exact ⟨rfl, by simp, by simp⟩

theorem proposalsFl : ProposalsIn envFl (Proposable (construct (1/1000000) varsFl)) := by
  refine ⟨?_, ?_, ?_, ?_⟩
  · intro s p o h
    simp only [envFl, Except.ok.injEq, Prod.mk.injEq, Option.some.injEq] at h
    rw [← h.1]; exact propFl 1
  · intro s lp o p h h'
    simp only [envFl, Except.ok.injEq, Prod.mk.injEq] at h
    rw [← h.1] at h'; simp only [Option.some.injEq] at h'
    rw [← h']; exact propFl 1
  · intro s rp o p h h'
    simp only [envFl, Except.ok.injEq, Prod.mk.injEq] at h
    rw [← h.1] at h'; simp only [Option.some.injEq] at h'
    rw [← h']; exact propFl 1
  · intro s i; exact propFl 1

theorem samplesFl : SamplesIn envFl (FeasibleInternal (construct (1/1000000) varsFl)) := by
  intro s pts o h
  simp only [envFl, Except.ok.injEq, Prod.mk.injEq] at h
  rw [← h.1, constructFl]
  intro p hp
  have : p = [rndBits 53 (-2/10)] ∨ p = [0] := by simpa using hp
  rcases this with rfl | rfl
  · exact ⟨rfl, .cons le_rfl .nil, .cons (by decide +kernel) .nil, by simp, by simp⟩
  · exact ⟨rfl, .cons (by decide +kernel) .nil, .cons (by decide +kernel) .nil, by simp, by simp⟩

theorem run_Fl : ((optimize PFl envFl 40 100 (Alg.init PFl 0)).result?.map
    (fun r => (r.value, r.point, r.itercount, r.evalcount))) =
      some (-1801439850948199/18014398509481984, [1801439850948199/18014398509481984], 4, 3) := by
  decide +kernel

/-- **C105** (violation) A run that meets all the hypotheses of `C105_evaluations`, in double precision, and
returns a point above the upper bound 0.1 of the variable. -/
theorem C105_violated_returned_point : ∃ (P : Params) (env : Env ℕ) (v : Var) (r : OptResult ℕ) (x : ℚ),
    RunsOnR (rndBits 53) P env (1/1000000) [v] ∧ WellFormed [v] ∧ RealUnlessFixed (1/1000000) [v] ∧
    Representable (rndBits 53) [v.lower, v.upper] ∧
    ProposalsIn env (Proposable (construct (1/1000000) [v])) ∧
    SamplesIn env (FeasibleInternal (construct (1/1000000) [v])) ∧ P.initPos = [] ∧
    optimize P env 40 100 (Alg.init P 0) = .ret r ∧ r.point = [x] ∧ v.upper < x := by
  have hr := run_Fl
  cases h : optimize PFl envFl 40 100 (Alg.init PFl 0) with
  | ret r =>
    rw [h] at hr
    simp only [OptRes.result?, Option.map_some, Option.some.injEq, Prod.mk.injEq] at hr
    have hid := (rndBits_rounding (prec := 53) (by norm_num)).idem
    refine ⟨PFl, envFl, ⟨rndBits 53 (-2/10), rndBits 53 (1/10), .R⟩, r, _, runsOnFl, wellFormedFl, realFl, ?_,
      proposalsFl, samplesFl, rfl, h, hr.2.1, by decide +kernel⟩
    intro x hx
    have : x = rndBits 53 (-2/10) ∨ x = rndBits 53 (1/10) := by simpa using hx
    rcases this with rfl | rfl <;> exact hid _
  | raised e => rw [h] at hr; simp [OptRes.result?] at hr
  | outOfFuel => rw [h] at hr; simp [OptRes.result?] at hr

/-- Workers; searches propose points of dimension one. -/
def peFl : PEnv ℕ := { pe1 with proposes := fun p => p.length = 1 }

/-- **C105** (violation) With workers: a run that meets all the hypotheses of `C105_parallel_evaluations`, in
which a point above the upper bound is given to a worker for evaluation. -/
theorem C105_violated_parallel : RunsOnR (rndBits 53) PFl envFl (1/1000000) varsFl ∧ PFl.twoPhase = false ∧
    (∀ p, peFl.proposes p → Proposable (construct (1/1000000) varsFl) p) ∧
    ∃ s : PState ℕ, (∃ c, PReach PFl envFl peFl 0 c s) ∧ ∃ sub ∈ s.subs, ∃ x,
      envFl.decode sub.1 = [x] ∧ rndBits 53 (1/10) < x := by
  refine ⟨runsOnFl, rfl, ?_, ?_⟩
  · intro p hp
    match p, hp with
    | [x], _ => exact propFl x
  · have h : (firstCall PFl envFl peFl 0 100 [0, 0] (ticks 7 ++ [.harvest 0 (propose 1)])).map
        (fun s => s.subs.map (·.1)) = some [[rndBits 53 (-2/10)], [0], [1801439850948199/18014398509481984]] := by
      decide +kernel
    obtain ⟨s, h1, h2⟩ := firstCall_exists_ok (fun a ha => by
      have : a = .tick ∨ a = .harvest 0 (propose 1) := by simpa [ticks] using ha
      rcases this with rfl | rfl
      · trivial
      · intro p hp
        cases hp
        rfl) h
    have hm : ([1801439850948199/18014398509481984] : Pt) ∈ s.subs.map (·.1) := by rw [h2]; simp
    obtain ⟨sub, hs, e⟩ := List.mem_map.mp hm
    refine ⟨s, ⟨_, h1.reach⟩, sub, hs, 1801439850948199/18014398509481984, ?_, ?_⟩
    · exact e
    · decide +kernel

/-- The hypothesis on the tops holds for instance for the bounds 0 and 0.1. -/
example : rndBits 53 (rndBits 53 (rndBits 53 (1/10) - 0) + 0) ≤ rndBits 53 (1/10) := by decide +kernel

end Rbfopt.Demo
