import Verif.Lemmas.Refine
import Verif.Lemmas.Flags
import Verif.Examples.Demo

/-!
# Properties of the control flow of `optimize()` (one CPU): budgets, termination, search cycle
-/

namespace Rbfopt

variable {O : Type} {P : Params} {env : Env O} {o : O} {c : Ctl} {s : Alg O}

/-! ## C08 -/

/-- **C08** A call of `optimize(pause_after_iters=pause)` performs at most `pause` iterations, the
total never exceeds `max_iterations`, the counter never decreases. -/
theorem C08_iteration_limits {fuel pause : ℕ} {r : OptResult O} (hr : Reach P env o .idle s)
    (h : optimize P env fuel pause s = .ret r) :
    r.itercount ≤ P.maxIter ∧ s.itercount ≤ r.itercount ∧ r.itercount ≤ s.itercount + pause := by
  obtain ⟨s1, loc, s2, loc2, hs, hl, hf, -, -, e1, -⟩ := optimize_cases h
  obtain ⟨h1, h2⟩ := loop_reach (hr.call pause hs) hl
  obtain ⟨a, b, d, -⟩ := h1.iter
  rw [e1]; exact ⟨a, b, d⟩

/-- **C08** The limits hold at every moment between iterations. -/
theorem C08_iteration_limits_always {start pause : ℕ} {loc : Loc}
    (h : Reach P env o (.running start pause loc) s) :
    s.itercount ≤ P.maxIter ∧ start ≤ s.itercount ∧ s.itercount ≤ start + pause := by
  obtain ⟨a, b, d, -⟩ := h.iter
  exact ⟨a, b, d⟩

/-! ## C09 -/

/-- **C09** If initial samples have at most `S` points and the user supplied `u` points without
values, a call returns with at most `max_evaluations - 1` plus the evaluations of one last pass
(two restart samples, or one restart sample and a point), unless the evaluations made before this
call and by its own initialization already exceed this. -/
theorem C09_evaluation_overshoot {S fuel pause : ℕ} {r : OptResult O}
    (hS : ∀ s pts o, env.initNodes s = .ok (pts, o) → pts.length ≤ S)
    (hr : Reach P env o .idle s) (h : optimize P env fuel pause s = .ret r) :
    r.evalcount ≤ max (s.evalcount + (if s.itercount = 0 then S + P.initPos.length else 0))
      (P.maxEval - 1 + max (2 * (S + P.initPos.length)) (S + P.initPos.length + 1)) := by
  obtain ⟨s1, loc, s2, loc2, hs, hl, hf, -, -, -, e2, -⟩ := optimize_cases h
  have h1 := loop_evals hS (hr.call pause hs).wf hl
  have hu : userEvals P ≤ P.initPos.length := by unfold userEvals; split <;> omega
  have h2 : s1.evalcount ≤ s.evalcount + (if s.itercount = 0 then S + P.initPos.length else 0) := by
    obtain ⟨-, -, ⟨h0, hre⟩ | ⟨h0, rfl⟩⟩ := serialStart_cases hs
    · rw [if_pos h0]
      have := restart_evals hS hre
      omega
    · simp
  rw [e2]
  omega

/-! ## C10 -/

/-- **C10** The number of calls of `evaluate_noisy()` never exceeds `max(max_noisy_evaluations, 1)`
by more than the excess of an initial sample over `n + 1` points. -/
theorem C10_noisy_budget {S : ℕ}
    (hS : ∀ s pts o, env.initNodes s = .ok (pts, o) → pts.length ≤ S) (h : Reach P env o c s) :
    countNoisy s.log ≤ max P.maxNoisyEval 1 + (S - (P.n + 1)) := by
  have h1 := (h.noisy hS).1
  have h2 : CountsOK s := h.inv' (I := CountsOK) (by simp [CountsOK, Alg.init])
    (fun _ _ w hs hm => hs.micro w hm)
  rw [← h2.2]; exact h1

/-! ## C11 -/

/-- **C11** There is no infinite execution of the main loop. -/
theorem C11_no_infinite_run {start pause : ℕ} (f : ℕ → Alg O × Loc)
    (h0 : Reach P env o (.running start pause (f 0).2) (f 0).1)
    (hc : ∀ n, loopCond P env start pause (f n).1 (f n).2 = true)
    (hp : ∀ n, pass P env (f n).1 (f n).2 = .ok (f (n + 1))) : False := by
  have hr : ∀ n, Reach P env o (.running start pause (f n).2) (f n).1 := by
    intro n
    induction n with
    | zero => exact h0
    | succ n ih => exact ih.pass (hc n) (hp n)
  have key : ∀ n, passesLeft P (f n).1 + n ≤ passesLeft P (f 0).1 := by
    intro n
    induction n with
    | zero => simp
    | succ n ih =>
      have := passesLeft_pass (hr n).wf (hc n) (hp n)
      omega
  have := key (passesLeft P (f 0).1 + 1)
  omega

/-- **C11** A bound on the number of passes of one call: `optimize()` always returns or raises
within `2 * (max_iterations + max_cycles) + 3` passes. -/
theorem C11_terminates {fuel pause : ℕ} (hr : Reach P env o .idle s)
    (hf : 2 * (P.maxIter + P.maxCycles) + 3 ≤ fuel) :
    optimize P env fuel pause s ≠ .outOfFuel := by
  unfold optimize
  split
  · simp
  · rename_i s1 loc hs
    have h1 := hr.call pause hs
    obtain ⟨-, -, -, hcyc⟩ := h1.iter
    have hl : passesLeft P s1 ≤ fuel := by
      unfold passesLeft
      split <;> omega
    have h2 := loop_terminates (start := s.itercount) (pause := pause) fuel (loc := loc) h1.wf hl
    split
    · simp
    · rename_i h3; exact absurd h3 h2
    · unfold optimizeReturn
      split
      · simp
      · split <;> simp

/-- **C11** The bound on passes in the model is immaterial: any two sufficient bounds give the same
result. -/
theorem C11_fuel_irrelevant {fuel fuel' pause : ℕ} (hr : Reach P env o .idle s)
    (hf : 2 * (P.maxIter + P.maxCycles) + 3 ≤ fuel) (hf' : fuel ≤ fuel') :
    optimize P env fuel' pause s = optimize P env fuel pause s := by
  obtain ⟨k, rfl⟩ := Nat.exists_eq_add_of_le hf'
  have h := C11_terminates (pause := pause) hr hf
  unfold optimize at h ⊢
  split at h
  · rfl
  · rename_i s1 loc hs
    have h2 : loop P env s.itercount pause fuel s1 loc ≠ .outOfFuel := by
      intro h3; rw [h3] at h; simp at h
    rw [loop_fuel fuel k h2]

/-! ## C12 -/

/-- **C12** When `optimize()` returns, one of the declared reasons holds; without `evaluate_noisy`
the last one is that the returned value is within `eps_opt` (relative, absolute if
`|target_objval| < eps_zero`) of `target_objval`. -/
theorem C12_stop_reason (hP : P.twoPhase = false) (hd : ∀ p, env.dist p p = 0)
    (hm : 0 ≤ P.minDist) (hz : 0 < P.epsZero) {fuel pause : ℕ} {r : OptResult O}
    (hr : Reach P env o .idle s) (h : optimize P env fuel pause s = .ret r) :
    s.itercount + pause ≤ r.itercount ∨ P.maxIter ≤ r.itercount ∨ P.maxEval ≤ r.evalcount ∨
    P.searchSpace ≤ ((r.evalcount : ℚ) : EVal) ∨ (P.maxCycles : ℤ) ≤ r.final.cyc ∨
    (∃ s' : Alg O, r.final = { s' with elapsed := r.final.elapsed } ∧
      P.maxClock ≤ ((env.clock s' : ℚ) : EVal)) ∨
    r.value ≤ P.target + P.epsOpt * (if P.epsZero ≤ |P.target| then |P.target| else 1) := by
  obtain ⟨s1, loc, s2, loc2, hs, hl, hf, hleast, ⟨i, hi1, hi2⟩, e1, e2, -⟩ := optimize_cases h
  obtain ⟨h1, h2⟩ := loop_reach (hr.call pause hs) hl
  have h3 : ¬ loopCond P env s.itercount pause s2 loc2 = true := by rw [h2]; simp
  rw [loopCond_iff] at h3
  rw [e1, e2, hf]
  by_contra hne
  simp only [not_or, not_le] at hne
  obtain ⟨n1, n2, n3, n4, n5, n6, n7⟩ := hne
  apply h3
  have hit := h1.iter.2.1
  refine ⟨by omega, n2, n3, n4, n5, ?_, ?_⟩
  · by_contra hcl
    exact n6 ⟨s2, rfl, not_lt.mp hcl⟩
  · by_contra hgap
    have hgap := not_lt.mp hgap
    have hg : computeGap P s2.fbest ≤ loc2.gap := h1.gap hz hP
    have hne : s2.all.pos ≠ [] := by rintro h0; rw [h0] at hi1; simp at hi1
    rcases h1.best hP (fun p => by rw [hd p]; exact hm) with hb | ⟨f, b, M, -, hb, -, -, hbl, -⟩
    · exact hne (by rw [hb.1])
    · have hv : b = r.value :=
        le_antisymm (hbl.2 _ (List.mem_of_getElem? hi2)) (hleast.2 _ (List.mem_of_getElem? hbl.1))
      rw [hb, hv] at hg
      have h4 := hg.trans hgap
      simp only [computeGap, WithTop.map_coe] at h4
      have h5 := WithTop.coe_le_coe.mp h4
      unfold computeGapQ at h5
      dsimp only at h5
      have hden : 0 < (if P.epsZero ≤ |P.target| then |P.target| else 1) := by
        split
        · rename_i h; exact lt_of_lt_of_le hz h
        · norm_num
      have h6 : (r.value - P.target) / (if P.epsZero ≤ |P.target| then |P.target| else 1) ≤
          P.epsOpt := h5
      rw [div_le_iff₀ hden] at h6
      linarith

/-! ## C19 -/

/-- **C19** Advancing the step counter: the next step of the cycle, or, from the last step, the
first one and a new cycle. -/
theorem C19_advance (hs : s.step ≤ P.numGlobal + 1) :
    ((advanceStep P s).step = s.step + 1 ∧ (advanceStep P s).cyc = s.cyc ∧
      s.step < P.numGlobal + 1) ∨
    ((advanceStep P s).step = 0 ∧ (advanceStep P s).cyc = s.cyc + 1 ∧ s.step = P.numGlobal + 1) := by
  rcases Nat.lt_or_eq_of_le hs with h | h
  · left
    have e : (s.step + 1) % P.cycleLength = s.step + 1 :=
      Nat.mod_eq_of_lt (by simp only [Params.cycleLength]; omega)
    refine ⟨e, ?_, h⟩
    unfold advanceStep
    exact if_neg (by omega)
  · right
    have e : (s.step + 1) % P.cycleLength = 0 := by rw [h]; exact Nat.mod_self _
    refine ⟨e, ?_, h⟩
    unfold advanceStep
    exact if_pos (by omega)

/-- **C19** After as many advances as there are steps, the step is the same again and exactly one
cycle has been counted. -/
theorem C19_cycle (hs : s.step ≤ P.numGlobal + 1) :
    ((advanceStep P)^[P.numGlobal + 2] s).step = s.step ∧
    ((advanceStep P)^[P.numGlobal + 2] s).cyc = s.cyc + 1 := by
  have key : ∀ k ≤ P.numGlobal + 2,
      ((advanceStep P)^[k] s).step = (if s.step + k ≤ P.numGlobal + 1 then s.step + k
        else s.step + k - (P.numGlobal + 2)) ∧
      ((advanceStep P)^[k] s).cyc = (if s.step + k ≤ P.numGlobal + 1 then s.cyc else s.cyc + 1) := by
    intro k
    induction k with
    | zero => intro _; simp [hs]
    | succ k ih =>
      intro hk
      obtain ⟨i1, i2⟩ := ih (by omega)
      rw [Function.iterate_succ_apply']
      have hle : ((advanceStep P)^[k] s).step ≤ P.numGlobal + 1 := by rw [i1]; split <;> omega
      rcases C19_advance (P := P) hle with ⟨a, b, d⟩ | ⟨a, b, d⟩
      · rw [a, b, i1, i2]
        rw [i1] at d
        constructor <;> split <;> split <;> (try split at d) <;> omega
      · rw [a, b, i2]
        rw [i1] at d
        constructor <;> (try split) <;> (try split) <;> split at d <;> omega
  have := key (P.numGlobal + 2) (le_refl _)
  rw [if_neg (by omega), if_neg (by omega)] at this
  exact ⟨by rw [this.1]; omega, this.2⟩

/-- **C19** Between iterations the step is one of `0 .. numGlobal + 2`. -/
theorem C19_step_range (h : Reach P env o c s) : s.step ≤ P.numGlobal + 2 := h.step

/-- **C19** A pass never decreases the cycle counter, and moves to the next step of the cycle, or to
the first step (of a new cycle or after a restart), or to the step after the first (a restart came
first), or, after a failed restoration, to the step after it, or into or on with refinement - the
latter only from refinement or from the local step (the last global step if local search is
off). -/
theorem C19_pass_steps {s' : Alg O} {loc loc' : Loc} {start pause : ℕ}
    (h : Reach P env o (.running start pause loc) s) (hp : pass P env s loc = .ok (s', loc')) :
    s.cyc ≤ s'.cyc ∧
    (s'.step = (s.step + 1) % (P.numGlobal + 2) ∨
     s'.step = P.firstStep ∨ s'.step = (P.firstStep + 1) % (P.numGlobal + 2) ∨
     s'.step = (P.numGlobal + 4) % (P.numGlobal + 2) ∨
     (s'.step = P.numGlobal + 2 ∧ (s.step = P.numGlobal + 2 ∨ s.step = P.numGlobal + 1 ∨
      (s.step = P.numGlobal ∧ P.doLocal = false) ∨
      (P.firstStep = P.numGlobal ∧ P.doLocal = false) ∨ P.firstStep = P.numGlobal + 1))) := by
  refine ⟨?_, pass_step h.wf hp⟩
  rcases pass_progress h.wf hp with h | h | h <;> omega

/-! ## C20 -/

/-- **C20** (the property is violated) Whatever the nodes, the candidates and the matrix routine,
the restoration phase never returns a point. -/
theorem C20_restoration_never_succeeds (hd : ∀ p, env.dist p p = 0) (hm : 0 ≤ P.minDist)
    {q : Option Pt} {s' : Alg O} (h : restorationSearch P env s = .ok (q, s')) : q = none := by
  unfold restorationSearch at h
  rw [restorationLoop_none (fun p => by rw [hd p]; exact hm)] at h
  cases h
  rfl

/-- **C20** (witness) In the demo problem the candidate 5 is far from all nodes and the matrix would
be invertible, but the restoration phase gives up. -/
theorem C20_restoration_witness :
    ∃ s : Alg ℕ, s.cur.pos = [[0], [10], [2]] ∧
      (∀ i, ∀ q ∈ s.cur.pos, Demo.P.minDist < Demo.env.dist (Demo.env.restCand s i) q) ∧
      (∀ l, Demo.env.restInvertible s l = true) ∧
      ∃ s', restorationSearch Demo.P Demo.env s = .ok (none, s') := by
  refine ⟨{ Alg.init Demo.P 0 with cur := { pos := [[0], [10], [2]] } }, rfl, ?_, fun _ => rfl,
    ?_⟩
  · intro i q hq
    simp only [List.mem_cons, List.not_mem_nil, or_false] at hq
    rcases hq with rfl | rfl | rfl <;> norm_num [Demo.P, Demo.env, Demo.dist1]
  · unfold restorationSearch
    rw [restorationLoop_none (fun p => by norm_num [Demo.P, Demo.env, Demo.dist1])]
    exact ⟨_, rfl⟩

/-! ## C21 -/

/-- **C21** Consecutive passes that stay in the refinement step number fewer than
`max_consecutive_refinement` unless unlimited refinement is active at one of them (so at most
`max(1, max_consecutive_refinement)` points are evaluated before the phase ends); each adds one
node, and the phase goes on only while the radius is at least `ref_min_radius`. -/
theorem C21_refinement_limited (f : ℕ → Alg O × Loc) (k : ℕ) {start pause : ℕ}
    (h0 : Reach P env o (.running start pause (f 0).2) (f 0).1)
    (hp : ∀ i < k, pass P env (f i).1 (f i).2 = .ok (f (i + 1)))
    (hs : ∀ i ≤ k, (f i).1.step = P.numGlobal + 2)
    (hu : ∀ i < k, ¬ UnlimitedActive P (f i).1.itercount (f (i + 1)).1.evalcount (f i).1.elapsed
      (f i).1.numStalled) :
    (k = 0 ∨ k < P.maxConsRef) ∧ (∀ i < k, P.refMinRadius ≤ (f (i + 1)).1.refRadius) ∧
    (f k).1.cur.pos.length = (f 0).1.cur.pos.length + k := by
  have key : ∀ j ≤ k, WF env (f j).1 ∧ (f j).1.numCons = (f 0).1.numCons + j ∧
      (j = 0 ∨ (f j).1.numCons < P.maxConsRef) ∧
      (∀ i < j, P.refMinRadius ≤ (f (i + 1)).1.refRadius) ∧
      (f j).1.cur.pos.length = (f 0).1.cur.pos.length + j := by
    intro j
    induction j with
    | zero => intro _; exact ⟨h0.wf, rfl, Or.inl rfl, by simp, rfl⟩
    | succ j ih =>
      intro hj
      obtain ⟨w, e1, e2, e3, e4⟩ := ih (by omega)
      have hpj : pass P env (f j).1 (f j).2 = .ok ((f (j + 1)).1, (f (j + 1)).2) := hp j (by omega)
      obtain ⟨g1, g2, g3, g4⟩ := pass_refine w (hs j (by omega)) hpj (hs (j + 1) hj)
      have w' : WF env (f (j + 1)).1 :=
        Micros.inv (I := WF env) (fun _ _ hs hm => hs.micro hm) w (pass_micros hpj)
      refine ⟨w', by omega, Or.inr ?_, ?_, by omega⟩
      · rcases g3 with g3 | g3
        · omega
        · exact absurd g3 (hu j (by omega))
      · intro i hi
        rcases Nat.lt_succ_iff_lt_or_eq.mp hi with hi | rfl
        · exact e3 i hi
        · exact g2
  obtain ⟨w, e1, e2, e3, e4⟩ := key k (le_refl _)
  refine ⟨?_, e3, e4⟩
  rcases e2 with e2 | e2
  · exact Or.inl e2
  · right; omega

/-! ## C22 -/

/-- **C22** (serial engine, any black box) While a refinement phase is in progress (some refinement
iteration has been counted), its model set and its iterate denote existing nodes. -/
theorem C22_refinement_indices_valid (hd : ∀ p, env.dist p p = 0)
    (hm : 0 ≤ P.minDist)
    (hin : ∀ s set rad o, env.initRef s = .ok ((set, rad), o) → ∀ j ∈ set, j < s.cur.pos.length)
    (h : Reach P env o c s) (hn : 0 < s.numCons) :
    (∀ j ∈ s.refSet, j < s.cur.pos.length) ∧ s.refIter < s.cur.pos.length :=
  h.refOK (fun p => by rw [hd p]; exact hm) hin (by omega)

end Rbfopt
