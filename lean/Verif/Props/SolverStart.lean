import Verif.Model.SolverStart
import Verif.Props.Pyomo

/-!
# C99: starting points and options handed to the mathematical programming solvers
-/

namespace Rbfopt

open Finset

/-- **C99** A start chosen at random lies in the box, and consumes one random number per variable. -/
theorem C99_random_start_in_box {n : ℕ} {lo up : ℕ → ℝ} {r r' : Draws} {x : ℕ → ℝ}
    (hbox : ∀ i < n, lo i ≤ up i) (hr : ∀ i, 0 ≤ r i ∧ r i < 1)
    (h : initInstance n lo up none r = .ok (x, r')) :
    (∀ i < n, lo i ≤ x i ∧ x i ≤ up i) ∧ ∀ i, r' i = r (n + i) := by
  unfold initInstance at h
  cases h
  refine ⟨fun i hi => ?_, fun _ => rfl⟩
  have h1 := hbox i hi
  have h2 := hr i
  constructor <;> nlinarith

/-- **C99** On a problem without integer and categorical variables the random start is a feasible point of
every auxiliary problem (apart from the bound on the distance, see `C99_msrsm_start`). -/
theorem C99_random_start_feasible (p : PyProblem) (t : Rbf) {n : ℕ} {lo up : ℕ → ℝ} {r r' : Draws}
    {x : ℕ → ℝ} (hbox : ∀ i < n, lo i ≤ up i) (hr : ∀ i, 0 ≤ r i ∧ r i < 1)
    (h : initInstance n lo up none r = .ok (x, r')) : PyDomain p t n lo up [] [] x := by
  refine ⟨⟨(C99_random_start_in_box hbox hr h).1, fun _ => 0, fun l h => by simp at h⟩, fun _ e he => ?_⟩
  simp at he

/-- **C99** The minimization of the model starts at the node handed over, consumes no random number, and
its start is feasible exactly if this node is. -/
theorem C99_start_at_node (t : Rbf) {n len : ℕ} {lo up : ℕ → ℝ} {iv : List ℕ} {gs : List (List ℕ)}
    {r r' : Draws} {p x : ℕ → ℝ} (h : initInstance n lo up (some (len, p)) r = .ok (x, r')) :
    len = n ∧ r' = r ∧ x = p ∧
      (PyDomain .minRbf t n lo up iv gs x ↔ PyDomain .minRbf t n lo up iv gs p) := by
  unfold initInstance at h
  dsimp only at h
  split at h
  · rename_i hn
    cases h
    exact ⟨hn.symm, rfl, rfl, Iff.rfl⟩
  · cases h

/-- **C99** The start of the MSRSM problem: the auxiliary variable has the largest value that the distance
constraints admit at the starting point, and the start satisfies the constraints and the bound of this
variable exactly if the point is at least `sqrt(min_dist)` away from every node. -/
theorem C99_msrsm_start {minDist : ℝ} {n k : ℕ} {lo up : ℕ → ℝ} {nodes : ℕ → ℕ → ℝ} {r r' : Draws}
    {x : ℕ → ℝ} {m : ℝ} (hd : 0 ≤ minDist) (h : msrsmStart n k lo up nodes r = .ok ((x, m), r')) :
    (∀ i < k, Real.sqrt m ≤ euclid n x (nodes i)) ∧ (∃ i < k, Real.sqrt m = euclid n x (nodes i)) ∧
      (∀ m', (∀ i < k, m' ≤ sqDist n x (nodes i)) → m' ≤ m) ∧
      (PyMinDistSq minDist n k nodes x m ↔ ∀ i < k, Real.sqrt minDist ≤ euclid n x (nodes i)) := by
  unfold msrsmStart at h
  split at h
  · cases h
  · rename_i x0 r0 h0
    unfold initMinDistSq at h
    split at h
    · cases h
    · rename_i m0 hm
      split at hm
      · rename_i hk
        cases h
        have hm' : m = minSq n k nodes x hk := by
          cases hm
          unfold minSq sqDist
          congr 1
        have hle : ∀ i < k, m ≤ sqDist n x (nodes i) := by
          rw [hm']; exact le_minSq.mp le_rfl
        have hmax : ∀ m', (∀ i < k, m' ≤ sqDist n x (nodes i)) → m' ≤ m := by
          intro m' h'
          rw [hm']; exact le_minSq.mpr h'
        refine ⟨?_, ?_, hmax, ?_⟩
        · rw [hm']; exact sqrt_minSq.1
        · rw [hm']; exact sqrt_minSq.2
        · rw [← C56_min_dist_bound hd]
          constructor
          · exact fun h => ⟨m, h⟩
          · rintro ⟨m', h1, h2, h3⟩
            have := hmax m' h3
            exact ⟨h1.trans this, h2.trans this, hle⟩
      · cases hm

/-- The draws used in the examples: always one half. -/
noncomputable def halfDraws : Draws := fun _ => 1 / 2

theorem halfDraws_ok : ∀ i, 0 ≤ halfDraws i ∧ halfDraws i < 1 := fun _ => by norm_num [halfDraws]

/-- The hypotheses are met: on the interval [0, 10] with nodes 0 and 8 the start is 5, at squared distance 9
from the closest node. -/
theorem C99_example : ∃ r', msrsmStart 1 2 (fun _ => 0) (fun _ => 10) (fun i _ => 8 * i) halfDraws =
    .ok ((fun _ => 5, 9), r') := by
  refine ⟨fun i => halfDraws (1 + i), ?_⟩
  unfold msrsmStart initInstance initMinDistSq
  dsimp only
  rw [dif_pos (by norm_num)]
  simp only [Except.ok.injEq, Prod.mk.injEq, and_true]
  constructor
  · funext i; norm_num [halfDraws]
  · apply le_antisymm
    · refine (inf'_le _ (mem_range.mpr (show 1 < 2 by norm_num))).trans ?_
      rw [sum_range_one]; norm_num [halfDraws]
    · rw [le_inf'_iff]
      intro i hi
      rw [mem_range] at hi
      rw [sum_range_one]
      interval_cases i <;> norm_num [halfDraws]

/-- **C99, violated** Starts are not rounded: with integer variables the random start can violate the
integrality constraints of every auxiliary problem, and with categorical variables the sums need not be 1,
although both docstrings promise a feasible point. -/
theorem C99_violated_start_infeasible : ∃ r : Draws, (∀ i, 0 ≤ r i ∧ r i < 1) ∧
    (∃ x r', initInstance 1 (fun _ => 0) (fun _ => 3) none r = .ok (x, r') ∧
      ∀ p t gs, ¬ PyDomain p t 1 (fun _ => 0) (fun _ => 3) [0] gs x) ∧
    ∃ x r', initInstance 3 (fun _ => 0) (fun _ => 1) none r = .ok (x, r') ∧
      ¬ PyCat 3 [[0, 1, 2]] x := by
  refine ⟨halfDraws, halfDraws_ok, ⟨_, _, rfl, ?_⟩, _, _, rfl, ?_⟩
  · rintro p t gs ⟨⟨-, y, hy⟩, -⟩
    have h1 := (hy 0 (by simp)).2
    simp only [List.getElem_cons_zero, halfDraws] at h1
    have h2 : (3 : ℤ) = 2 * y 0 := by
      have : (3 : ℝ) = 2 * (y 0 : ℝ) := by linarith
      exact_mod_cast this
    omega
  · intro h
    have := h [0, 1, 2] (by simp)
    simp only [sum_range_succ, sum_range_zero, halfDraws] at this
    norm_num at this

theorem foldl_setOpt (l : List (String × OptVal)) (o : String → Option OptVal) (name : String) :
    (name ∉ l.map Prod.fst → (l.foldl (fun o p => setOpt o p.1 p.2) o) name = o name) ∧
    ((l.map Prod.fst).Nodup → ∀ v, (name, v) ∈ l →
      (l.foldl (fun o p => setOpt o p.1 p.2) o) name = some v) := by
  induction l generalizing o with
  | nil => simp
  | cons a l ih =>
    simp only [List.map_cons, List.mem_cons, not_or, List.foldl_cons, List.nodup_cons]
    refine ⟨fun ⟨h1, h2⟩ => ?_, fun ⟨h1, h2⟩ v hv => ?_⟩
    · rw [(ih _).1 h2]; simp [setOpt, h1]
    · rcases hv with rfl | hv
      · rw [(ih _).1 h1]; simp [setOpt]
      · exact (ih _).2 h2 v hv

/-- **C99** The options handed to the MINLP solver: the nine fixed options, whatever the settings (so also
whatever time limit the user gave), a seed between 0 and 2^31 - 3, for which one random number is
consumed, and nothing else is changed. -/
theorem C99_minlp_options {o o' : String → Option OptVal} {r r' : Draws} (hr : 0 ≤ r 0 ∧ r 0 < 1)
    (h : setMinlpOptions o r = (o', r')) :
    (∀ name v, (name, v) ∈ minlpOptions → o' name = some v) ∧
    (∃ seed < 2 ^ 31 - 2, o' "bonmin.random_generator_seed" = some (.int seed)) ∧
    (∀ name, name ∉ minlpOptions.map Prod.fst → name ≠ "bonmin.random_generator_seed" →
      o' name = o name) ∧ ∀ i, r' i = r (i + 1) := by
  unfold setMinlpOptions at h
  cases h
  refine ⟨fun name v hv => ?_, ⟨_, ?_, if_pos rfl⟩, fun name h1 h2 => ?_, fun _ => rfl⟩
  · have hne : name ≠ "bonmin.random_generator_seed" := by
      rintro rfl
      simp [minlpOptions] at hv
    simp only [setOpt, if_neg hne]
    exact (foldl_setOpt _ _ _).2 (by decide) v hv
  · rw [Nat.floor_lt (by nlinarith)]
    push_cast
    norm_num
    linarith
  · simp only [setOpt, if_neg h2]
    exact (foldl_setOpt _ _ _).1 h1

/-- **C99** The options handed to the NLP solver: the five fixed options; no random number is consumed. -/
theorem C99_nlp_options {o o' : String → Option OptVal} {r r' : Draws} (h : setNlpOptions o r = (o', r')) :
    (∀ name v, (name, v) ∈ nlpOptions → o' name = some v) ∧
    (∀ name, name ∉ nlpOptions.map Prod.fst → o' name = o name) ∧ r' = r := by
  unfold setNlpOptions at h
  cases h
  exact ⟨fun name v hv => (foldl_setOpt _ _ _).2 (by decide) v hv,
    fun name h1 => (foldl_setOpt _ _ _).1 h1, rfl⟩

/-- **C99** The values of the options, for any previous options: 20 seconds, 1000 iterations, tolerance `10⁻³`,
no relaxation of the bounds; for the MINLP solver branch-and-bound with its retries, for the NLP solver the
original bounds. -/
theorem C99_option_values {o o' o1 o1' : String → Option OptVal} {r r' : Draws}
    (hm : setMinlpOptions o r = (o', r')) {q q' : Draws} (hn : setNlpOptions o1 q = (o1', q')) :
    (∀ p ∈ [o', o1'], p "max_cpu_time" = some (.int 20) ∧ p "max_iter" = some (.int 1000) ∧
      p "acceptable_tol" = some (.real (1 / 1000)) ∧ p "bound_relax_factor" = some (.real 0)) ∧
    o' "bonmin.algorithm" = some (.str "B-BB") ∧ o' "bonmin.time_limit" = some (.int 45) ∧
    o' "bonmin.num_resolve_at_root" = some (.int 10) ∧
    o' "bonmin.num_resolve_at_infeasibles" = some (.int 5) ∧
    o' "bonmin.num_retry_unsolved_random_point" = some (.int 5) ∧
    o1' "honor_original_bounds" = some (.str "yes") := by
  cases hm
  cases hn
  simp [setOpt, minlpOptions, nlpOptions]

/-- The hypotheses are met by any dictionary of options, and the seed is used. -/
theorem C99_options_example : ∃ o' r', setMinlpOptions (fun _ => none) halfDraws = (o', r') ∧
    o' "max_iter" = some (.int 1000) ∧ o' "tol" = none := by
  refine ⟨_, _, rfl, ?_, ?_⟩ <;> simp [setOpt, minlpOptions]

end Rbfopt
