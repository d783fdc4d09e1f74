import Verif.Props.Domain
import Verif.Props.NoRepeat
import Verif.Examples.Witness
import Verif.Examples.Demo

/-! # The hypotheses of C17 and C34 are satisfiable -/

namespace Rbfopt.Demo

def intVars1 : List Var := [⟨0, 10, .I⟩]

theorem construct1 : construct (1/1000000) intVars1 =
    { dim := 1, lower := [0], upper := [10], intVars := [0], categorical := [],
      notCategorical := [0], expansion := [], fixed := [] } := by decide +kernel

theorem runsOn : RunsOn P env (1/1000000) intVars1 .off := by
  refine ⟨?_, ?_, ?_, ?_, ?_⟩
  · rw [construct1]; rfl
  · rw [construct1]; rfl
  · intro p; simp [transformDomain, env]
  · intro p; simp [transformDomain, env]
  · intro p; rw [construct1]; simp [decodePt, decodeCat, insertFixed, env]

theorem prop1 (z : ℤ) : Proposable (construct (1/1000000) intVars1) [(z : ℚ)] := by
  rw [construct1]
  refine ⟨rfl, ?_, by simp⟩
  intro i hi
  have : i = 0 := by simpa using hi
  subst this; exact ⟨z, rfl⟩

theorem feas1 {z : ℤ} (h0 : 0 ≤ z) (h1 : z ≤ 10) :
    FeasibleInternal (construct (1/1000000) intVars1) [(z : ℚ)] := by
  have hp := prop1 z
  rw [construct1] at hp ⊢
  refine ⟨hp.length, ?_, ?_, hp.integral, hp.oneHot⟩
  · exact .cons (by exact_mod_cast h0) .nil
  · exact .cons (by exact_mod_cast h1) .nil

theorem proposals1 : ProposalsIn env (Proposable (construct (1/1000000) intVars1)) := by
  have key : ∀ s : Alg ℕ, Proposable (construct (1/1000000) intVars1) [(s.itercount : ℚ) + 1] := by
    intro s
    have := prop1 ((s.itercount : ℤ) + 1)
    push_cast at this; exact this
  refine ⟨?_, ?_, ?_, ?_⟩
  · intro s p o h
    simp only [env, Except.ok.injEq, Prod.mk.injEq, Option.some.injEq] at h
    rw [← h.1]; exact key s
  · intro s lp o p h h'
    simp only [env, Except.ok.injEq, Prod.mk.injEq] at h
    rw [← h.1] at h'; simp only [Option.some.injEq] at h'
    rw [← h']; exact key s
  · intro s rp o p h h'
    simp only [env, Except.ok.injEq, Prod.mk.injEq] at h
    rw [← h.1] at h'; simp only [Option.some.injEq] at h'
    rw [← h']; exact key s
  · intro s i
    have := prop1 5
    simpa [env] using this

theorem samples1 : SamplesIn env (FeasibleInternal (construct (1/1000000) intVars1)) := by
  intro s pts o h p hp
  simp only [env, Except.ok.injEq, Prod.mk.injEq] at h
  rw [← h.1] at hp
  simp only [List.mem_cons, List.not_mem_nil, or_false] at hp
  rcases hp with rfl | rfl
  · have := feas1 (z := 0) (by norm_num) (by norm_num); simpa using this
  · have := feas1 (z := 10) (by norm_num) (by norm_num); simpa using this

/-- C17 applies to every reachable state of the demonstration run (which makes six evaluations, see
`run_value`). -/
example {c : Ctl} {s : Alg ℕ} (h : Reach P env 0 c s) :
    ∀ call ∈ s.log, FeasibleUser (1/1000000) intVars1 call.point :=
  C17_feasible_evaluations (by decide +kernel) runsOn (Or.inl rfl) proposals1 samples1
    (by simp [P]) h

theorem distinct1 : ∀ (t : Alg ℕ) pts o, env.initNodes t = .ok (pts, o) → pts.Nodup := by
  intro t pts o h
  simp only [env, Except.ok.injEq, Prod.mk.injEq] at h
  rw [← h.1]; decide +kernel

/-- C77 applies to every reachable state of the demonstration run: its six evaluations are at
different points, and there are at most eleven, the number of feasible points. -/
example {c : Ctl} {s : Alg ℕ} (h : Reach P env 0 c s) :
    (s.log.map Call.point).Nodup ∧ s.evalcount ≤ 11 := by
  refine ⟨C77_never_twice (by decide +kernel) (by norm_num) runsOn (Or.inl rfl) proposals1 samples1
    distinct1 (by simp [P]) (by simp [P]) rfl (by simp [env, dist1]) (by norm_num [P])
    (by norm_num [P]) h, ?_⟩
  have := C77_finite (by decide +kernel) (by norm_num) runsOn (Or.inl rfl) proposals1 samples1
    distinct1 (by simp [P]) (by simp [P]) rfl (by simp [env, dist1]) (by norm_num [P])
    (by norm_num [P]) (by decide +kernel) h
  exact this.trans (by decide +kernel)

/-- **C77** (violation) The user's initial point 4, given without its value, is evaluated twice if
`optimize(0)` is called before `optimize(1)`. -/
theorem C77_violated_user_points : (twice { P with initPos := [[4]] } env 0 1).map
    (fun r => r.final.log.map Call.point) = some [[0], [10], [4], [4], [1]] := by
  decide +kernel

/-- **C77** (violation) A sample with a repeated point is evaluated as it is. -/
theorem C77_violated_repeated_sample :
    (optimize P { env with initNodes := fun s => .ok ([[0], [10], [0]], s.opq) } 60 1
      (Alg.init P 0)).result?.map (fun r => r.final.log.map Call.point) =
      some [[0], [10], [0], [1]] := by
  decide +kernel

/-- C34: a box on which the affine scaling is a bijection onto the unit box. -/
example : transformDomain .affine [-1, 0] [1, 4] [] false [0, 3] = [1/2, 3/4] ∧
    transformDomain .affine [-1, 0] [1, 4] [] true [1/2, 3/4] = [0, 3] ∧
    transformBounds .affine [-1, 0] [1, 4] = ([0, 0], [1, 1]) := by decide +kernel

end Rbfopt.Demo
