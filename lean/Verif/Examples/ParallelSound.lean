import Verif.Examples.Parallel
import Verif.Props.ParallelSound

/-!
# A parallel run on the problem `min (x - 3)² + 1`, `x ∈ [0, 10]` (C60, C97)
-/

namespace Rbfopt.Demo

def vars1 : List Var := [⟨0, 10, .R⟩]

theorem vars1_eq : construct (1/1000000) vars1 =
    { dim := 1, lower := [0], upper := [10], intVars := [], categorical := [], notCategorical := [0],
      expansion := [], fixed := [] } := by decide +kernel

/-- The target 1 is the minimum of the objective, to be reached within 5/4. -/
def P1 : Params := { PR with target := 1, epsOpt := 5/4 }

def env1 : Env ℕ :=
  { envR with decode := decodePt (construct (1/1000000) vars1) }

/-- The evaluations at 0, 10 and 2 return 10, 50 and 2; a search proposes points of dimension 1. -/
def pe6 : PEnv ℕ :=
  { numCpus := 2, minInit := 2, acc := fun i => [10, 50, 2][i]?.getD 3
    noisyRes := fun _ => (2, -1, 1), tempVal := fun _ _ => 5, noCvList := fun _ => false
    proposes := fun p => p.length = 1 }

def f1 (x : Pt) : ℚ := (x.headD 0 - 3)^2 + 1

theorem par_run : ParRun P1 env1 pe6 (1/1000000) vars1 .off where
  wellFormed := by decide +kernel
  runs := by
    refine ⟨?_, ?_, ?_, ?_, ?_⟩
    · rw [vars1_eq]; rfl
    · rw [vars1_eq]; rfl
    · intro p; simp [transformDomain, env1, envR, Demo.env]
    · intro p; simp [transformDomain, env1, envR, Demo.env]
    · intro p; rfl
  scaling := .inl rfl
  proposes := by
    intro p hp
    rw [vars1_eq]
    exact ⟨hp, by simp, by simp⟩
  samples := by
    intro s pts o h p hp
    rw [vars1_eq]
    simp only [env1, envR] at h
    cases h
    simp only [List.mem_cons, List.not_mem_nil, or_false] at hp
    rcases hp with rfl | rfl
    all_goals
      refine ⟨rfl, ?_, ?_, by simp, by simp⟩
      · simp only [List.forall₂_cons, List.forall₂_nil_left_iff]; norm_num
      · simp only [List.forall₂_cons, List.forall₂_nil_left_iff]; norm_num
  init := by simp [P1, PR, Demo.P]

theorem f1_ge (x : Pt) : 1 ≤ f1 x := by unfold f1; nlinarith [sq_nonneg (x.headD 0 - 3)]

/-- The run: sample 0 and 10, then a search proposes 2, whose value 2 reaches the target. -/
theorem C97_parallel_example : ∃ (s : PState ℕ) (r : OptResult ℕ),
    CallReach P1 env1 pe6 0 { alg := Alg.init P1 0 } 100 s ∧ s.pc = .done ∧
    PComputes P1 env1 pe6 s (1/1000000) vars1 f1 ∧ optimizeReturn s.alg = .ret r ∧
    ParNoLimit P1 env1 pe6 0 { alg := Alg.init P1 0 } 100 s ∧ (2, Fate.recorded) ∈ s.hist ∧
    1 ≤ r.value ∧ r.value ≤ 1 + 0 + 5/4 * 1 := by
  have h : (firstCall P1 env1 pe6 0 100 [0, 0]
      (ticks 7 ++ [.harvest 0 (propose 2)] ++ ticks 4 ++ [.collect 0] ++ ticks 3)).map
      (fun s => (decide (s.pc = .done ∧ s.alg.log = []), decide (s.subs.map (fun x => (x.1, x.2.1)) =
          [([0], false), ([10], false), ([2], false)]),
        decide (s.alg.itercount < 4 ∧ s.alg.evalcount < 100 ∧ s.alg.cyc < 50),
        decide (returned s = some (2, [2]) ∧ (2, Fate.recorded) ∈ s.hist))) =
      some (true, true, true, true) := by
    decide +kernel
  obtain ⟨s, h1, h2⟩ := firstCall_exists_ok (by
    intro a ha
    simp only [ticks, List.mem_append, List.mem_replicate, List.mem_singleton] at ha
    rcases ha with (((⟨-, rfl⟩ | rfl) | ⟨-, rfl⟩) | rfl) | ⟨-, rfl⟩
    · trivial
    · intro p hp
      simp only [propose, Option.some.injEq] at hp
      subst hp; rfl
    · trivial
    · trivial
    · trivial) h
  simp only [Prod.mk.injEq, decide_eq_true_eq] at h2
  obtain ⟨⟨hd, hlog⟩, hsubs, ⟨i1, i2, i3⟩, hret, hrec⟩ := h2
  have hcomp : PComputes P1 env1 pe6 s (1/1000000) vars1 f1 := by
    refine ⟨?_, ?_, ?_⟩
    · intro id x tag hid _
      have hm : (s.subs.map (fun x => (x.1, x.2.1)))[id]? = some (x, false) := by
        rw [List.getElem?_map, hid]; rfl
      rw [hsubs] at hm
      rcases id with _ | _ | _ | id
      · simp at hm; subst hm; decide +kernel
      · simp at hm; subst hm; decide +kernel
      · simp at hm; subst hm; decide +kernel
      · simp at hm
    · intro x v hx; rw [hlog] at hx; cases hx
    · rintro p v ⟨i, hi, -⟩
      simp [P1, PR, Demo.P] at hi
  unfold returned at hret
  cases hr : optimizeReturn s.alg with
  | raised e => rw [hr] at hret; cases hret
  | outOfFuel => rw [hr] at hret; cases hret
  | ret r =>
    have hlim : ParNoLimit P1 env1 pe6 0 { alg := Alg.init P1 0 } 100 s := by
      refine ⟨?_, i1, i2, WithTop.coe_lt_top _, i3, fun t _ => WithTop.coe_lt_top _⟩
      show s.alg.itercount < 0 + 100
      omega
    have := C97_parallel_success_is_near_optimal (P := P1) rfl (by norm_num [P1, PR, Demo.P]) par_run hcomp
      h1 hd hr hlim (m := 1) (tol := 0) (fun x _ => f1_ge x) (by norm_num [P1])
    refine ⟨s, r, h1, hd, hcomp, hr, hlim, hrec, this.1, ?_⟩
    have h3 := this.2
    norm_num [P1, PR, Demo.P] at h3 ⊢
    exact h3

end Rbfopt.Demo
