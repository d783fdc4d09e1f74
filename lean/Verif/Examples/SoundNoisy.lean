import Verif.Examples.Sound
import Verif.Examples.ParallelSound
import Verif.Props.SoundNoisy

/-! # Runs in two phases (C97) -/

namespace Rbfopt.StepDemo

/-- The run of `StepDemo` with noisy evaluations, which are off by at most 2. -/
def P2 : Params := { P with twoPhase := true }

theorem two_phase_value : ((optimize P2 env 60 100 (Alg.init P2 0)).result?.map
    (fun r => (r.value, decide (0 < r.noisyEvalcount),
      decide (r.final.all.pos[13]? = some r.point)))) = some (5/4, true, false) := by
  decide +kernel

theorem noisy_within (before : List Call) (x : Pt) (h : FeasibleUser (1/1000000) vars x) :
    |(env.evalNoisy before x).1 - objective x| ≤ 2 := by
  obtain ⟨a, b, rfl, hb⟩ : ∃ a b, x = [a, b] ∧ (⟨0, 2, .C⟩ : Var).Feasible (1/1000000) b := by
    cases h with
    | cons h1 h2 =>
      cases h2 with
      | cons h3 h4 => cases h4; exact ⟨_, _, rfl, h3⟩
  unfold Var.Feasible at hb
  norm_num at hb
  show |((a - 3)^2 + 2) - ((a - 3)^2 + b)| ≤ 2
  rw [abs_le]
  constructor <;> linarith [hb.1, hb.2.1]

/-- `C97_noisy_value` applies to the run, which makes noisy evaluations. -/
example : ∃ r, optimize P2 env 60 100 (Alg.init P2 0) = .ret r ∧ 0 < r.noisyEvalcount ∧
    0 - 2 ≤ r.value := by
  have h := two_phase_value
  cases hr : optimize P2 env 60 100 (Alg.init P2 0) with
  | raised e => rw [hr] at h; cases h
  | outOfFuel => rw [hr] at h; cases h
  | ret r =>
    rw [hr] at h
    simp only [OptRes.result?, Option.map_some, Option.some.injEq, Prod.mk.injEq,
      decide_eq_true_eq] at h
    have hc : CodeRun P2 env (1/1000000) vars .off initCfg :=
      ⟨code_run.wellFormed, ⟨runs_on.lower, runs_on.upper, runs_on.toInternal, runs_on.toOrig, runs_on.decode⟩,
        code_run.scaling, code_run.dim, code_run.steps, code_run.samples, code_run.dist, code_run.strategy,
        by simp [P2, P, Demo.P]⟩
    have hf : Computes P2 env (1/1000000) vars objective :=
      ⟨fun _ _ _ => rfl, by rintro p v ⟨i, hi, -⟩; simp [P2, P, Demo.P] at hi⟩
    exact ⟨r, rfl, h.2.1, (C97_noisy_value (o := 0) hc hf (by norm_num) noisy_within .init hr).2.1 0
      objective_nonneg⟩

end Rbfopt.StepDemo

namespace Rbfopt.Demo

/-- The parallel run of `C97_parallel_example` with noisy evaluations: the values at 0 and 10 are off
by 1; the point 2 is evaluated again without noise. -/
def pe7 : PEnv ℕ :=
  { pe6 with noisyRes := fun i => ([9, 51, 2][i]?.getD 3, -1, 1), acc := fun _ => 2 }

def P3 : Params := { P1 with twoPhase := true }

theorem C97_parallel_noisy_example : ∃ (s : PState ℕ) (r : OptResult ℕ),
    CallReach P3 env1 pe7 0 { alg := Alg.init P3 0 } 100 s ∧ optimizeReturn s.alg = .ret r ∧
    s.subs.map (fun x => (x.1, x.2.1)) = [([0], true), ([10], true), ([2], true), ([2], false)] ∧
    1 - 1 ≤ r.value := by
  have h : (firstCall P3 env1 pe7 0 100 [0, 0] (ticks 7 ++ [.harvest 0 (propose 2)] ++ ticks 4 ++
        [.collect 0] ++ ticks 2 ++ [.collect 0] ++ ticks 3)).map
      (fun s => (decide (s.alg.log = []), decide (s.subs.map (fun x => (x.1, x.2.1)) =
          [([0], true), ([10], true), ([2], true), ([2], false)]),
        decide (returned s = some (2, [2])))) =
      some (true, true, true) := by
    decide +kernel
  obtain ⟨s, h1, h2⟩ := firstCall_exists_ok (by
    intro a ha
    simp only [ticks, List.mem_append, List.mem_replicate, List.mem_singleton] at ha
    rcases ha with (((((⟨-, rfl⟩ | rfl) | ⟨-, rfl⟩) | rfl) | ⟨-, rfl⟩) | rfl) | ⟨-, rfl⟩
    · trivial
    · intro p hp
      simp only [propose, Option.some.injEq] at hp
      subst hp; rfl
    all_goals trivial) h
  simp only [Prod.mk.injEq, decide_eq_true_eq] at h2
  obtain ⟨hlog, hsubs, hret⟩ := h2
  have hget : ∀ (id : ℕ) (x : Pt) (b : Bool) (tag : Tag), s.subs[id]? = some (x, b, tag) →
      (id = 0 ∧ x = [0] ∧ b = true) ∨ (id = 1 ∧ x = [10] ∧ b = true) ∨ (id = 2 ∧ x = [2] ∧ b = true) ∨
      (id = 3 ∧ x = [2] ∧ b = false) := by
    intro id x b tag hid
    have hm : (s.subs.map (fun x => (x.1, x.2.1)))[id]? = some (x, b) := by
      rw [List.getElem?_map, hid]; rfl
    rw [hsubs] at hm
    rcases id with _ | _ | _ | _ | id
    all_goals simp at hm
    · exact Or.inl ⟨rfl, hm.1.symm, hm.2⟩
    · exact Or.inr (Or.inl ⟨rfl, hm.1.symm, hm.2⟩)
    · exact Or.inr (Or.inr (Or.inl ⟨rfl, hm.1.symm, hm.2⟩))
    · exact Or.inr (Or.inr (Or.inr ⟨rfl, hm.1.symm, hm.2⟩))
  have hcomp : PComputes P3 env1 pe7 s (1/1000000) vars1 f1 := by
    refine ⟨?_, ?_, ?_⟩
    · intro id x tag hid _
      rcases hget id x _ tag hid with ⟨rfl, rfl, hb⟩ | ⟨rfl, rfl, hb⟩ | ⟨rfl, rfl, hb⟩ | ⟨rfl, rfl, hb⟩
      all_goals first | cases hb; done | decide +kernel
    · intro x v hx; rw [hlog] at hx; cases hx
    · rintro p v ⟨i, hi, -⟩
      simp [P3, P1, PR, Demo.P] at hi
  have hrun : ParRun P3 env1 pe7 (1/1000000) vars1 .off :=
    ⟨par_run.wellFormed, ⟨par_run.runs.lower, par_run.runs.upper, par_run.runs.toInternal, par_run.runs.toOrig,
      par_run.runs.decode⟩, par_run.scaling, par_run.proposes, par_run.samples, par_run.init⟩
  unfold returned at hret
  cases hr : optimizeReturn s.alg with
  | raised e => rw [hr] at hret; cases hret
  | outOfFuel => rw [hr] at hret; cases hret
  | ret r =>
    refine ⟨s, r, h1, hr, hsubs, ?_⟩
    refine (C97_parallel_noisy_value hrun (fun _ => rfl) hcomp (δ := 1) (by norm_num) ?_ h1.reach hr).2.1 1
      (fun x _ => f1_ge x)
    intro id x tag hid _
    rcases hget id x _ tag hid with ⟨rfl, rfl, hb⟩ | ⟨rfl, rfl, hb⟩ | ⟨rfl, rfl, hb⟩ | ⟨rfl, rfl, hb⟩
    all_goals first | cases hb; done | decide +kernel

end Rbfopt.Demo
