import Verif.Props.InitNodes

/-!
# Size and clean-up of the initial sample (C35, C38, C39), and feasibility of all evaluations with
actual samples (C17)
-/

namespace Rbfopt

/-! ## C38 -/

/-- **C38** The number of samples is at least two and at least the configured fraction of `n+1`
(times the parallel increase), rounded. -/
theorem C38_at_least (C : InitCfg) (n : ℕ) :
    2 ≤ numInitSamples C n ∧ 2 ≤ minNumInitSamplesParallel C n ∧
    (C.numCpus ≤ 1 → aroundEven ((n + 1) * C.sampleFraction) ≤ numInitSamples C n) ∧
    (1 < C.numCpus → aroundEven ((n + 1) * C.sampleFraction *
      (1 + C.numCpus * C.increaseParallel)) ≤ numInitSamples C n) := by
  unfold numInitSamples minNumInitSamplesParallel
  refine ⟨by split <;> omega, by omega, fun h => ?_, fun h => ?_⟩
  · rw [if_neg (by omega)]; omega
  · rw [if_pos h]; omega

/-- **C38** It is within one half of the exact fraction, unless the minimum of two applies. -/
theorem C38_close (C : InitCfg) (n : ℕ) (h1 : C.numCpus ≤ 1) (h2 : 2 < numInitSamples C n) :
    |(numInitSamples C n : ℚ) - (n + 1) * C.sampleFraction| ≤ 1/2 := by
  unfold numInitSamples at h2 ⊢
  rw [if_neg (by omega)] at h2 ⊢
  obtain ⟨g1, g2⟩ := aroundEven_near ((n + 1) * C.sampleFraction)
  have e : ((max 2 (aroundEven ((n + 1) * C.sampleFraction))).toNat : ℤ) =
      aroundEven ((n + 1) * C.sampleFraction) := by omega
  have e' : ((max 2 (aroundEven ((n + 1) * C.sampleFraction))).toNat : ℚ) =
      aroundEven ((n + 1) * C.sampleFraction) := by exact_mod_cast e
  rw [e', abs_le]
  constructor <;> linarith

/-- **C38** More variables never mean fewer samples. -/
theorem C38_monotone (C : InitCfg) (hf : 0 ≤ C.sampleFraction) (hi : 0 ≤ C.increaseParallel)
    {n m : ℕ} (h : n ≤ m) : numInitSamples C n ≤ numInitSamples C m ∧
      minNumInitSamplesParallel C n ≤ minNumInitSamplesParallel C m := by
  have hc : (n : ℚ) ≤ m := by exact_mod_cast h
  have h1 : ((n : ℚ) + 1) * C.sampleFraction ≤ (m + 1) * C.sampleFraction :=
    mul_le_mul_of_nonneg_right (by linarith) hf
  have h2 : ((n : ℚ) + 1) * C.sampleFraction * (1 + C.numCpus * C.increaseParallel) ≤
      (m + 1) * C.sampleFraction * (1 + C.numCpus * C.increaseParallel) :=
    mul_le_mul_of_nonneg_right h1 (by positivity)
  have g1 := aroundEven_mono h1
  have g2 := aroundEven_mono h2
  unfold numInitSamples minNumInitSamplesParallel
  constructor
  · split <;> omega
  · omega

/-- **C38** The number of results a parallel run waits for is at most the requested number of
samples. -/
theorem C38_required_le_requested (C : InitCfg) (hf : 0 ≤ C.sampleFraction)
    (hi : 0 ≤ C.increaseParallel) (n : ℕ) :
    minNumInitSamplesParallel C n ≤ numInitSamples C n := by
  have h1 : ((n : ℚ) + 1) * C.sampleFraction * 1 ≤
      (n + 1) * C.sampleFraction * (1 + C.numCpus * C.increaseParallel) := by
    apply mul_le_mul_of_nonneg_left _ (by positivity)
    have : 0 ≤ (C.numCpus : ℚ) * C.increaseParallel := by positivity
    linarith
  rw [mul_one] at h1
  have g1 := aroundEven_mono h1
  unfold numInitSamples minNumInitSamplesParallel
  split <;> omega

theorem lhdPoints_length {lower upper : Pt} {ints : List ℕ} {N : ℕ}
    {choose : List (List Pt) → Option (List Pt)} (hc : ∀ l r, choose l = some r → r ∈ l)
    {draws : List LhsDraw} {nodes : List Pt} (hn : lower.length ≠ 1)
    (h : lhdPoints lower upper ints N choose draws = some nodes) : nodes.length = N := by
  unfold lhdPoints at h
  rw [if_neg hn] at h
  split at h
  · cases h
  · rename_i lhd hl
    cases h
    obtain ⟨dr, hdr, rfl⟩ := List.mem_map.mp (hc _ _ hl)
    simp [uniformLhs]

theorem addMidpoint_length (C : InitCfg) (lower upper : Pt) (ints : List ℕ) (nodes : List Pt) :
    nodes.length ≤ (addMidpoint C lower upper ints nodes).length ∧
    (addMidpoint C lower upper ints nodes).length ≤ nodes.length + 1 := by
  unfold addMidpoint
  split
  · split
    · omega
    · split
      · simp
      · omega
  · omega

/-- **C38** With a Latin hypercube strategy and at least two variables, `initialize_nodes` returns
the requested number of points, or one more (the midpoint); hence never fewer than a parallel run
waits for. -/
theorem C38_enough_submitted {C : InitCfg} {I : Internal} (hs : C.strategy.isLhd = true)
    (hf : 0 ≤ C.sampleFraction) (hi : 0 ≤ C.increaseParallel) (hdim : sampleDim C I ≠ 1)
    {draws : ℕ → TrialDraw} {nodes : List Pt} (h : initializeNodes C I draws = some (.ok nodes)) :
    numInitSamples C I.lower.length ≤ nodes.length ∧
    nodes.length ≤ numInitSamples C I.lower.length + 1 ∧
    minNumInitSamplesParallel C I.lower.length ≤ nodes.length := by
  have key : ∀ d nds b, initTrial C I d = some (nds, b) →
      numInitSamples C I.lower.length ≤ nds.length ∧
      nds.length ≤ numInitSamples C I.lower.length + 1 := by
    intro d nds b ht
    have hstr : ∀ (lower upper : Pt) ints N l, lower.length ≠ 1 →
        strategyNodes C lower upper ints N d = some l → l.length = N := by
      intro lower upper ints N l hl hst
      unfold strategyNodes at hst
      split at hst <;> rename_i hst'
      · rw [hst'] at hs; cases hs
      · rw [hst'] at hs; cases hs
      · rw [hst'] at hs; cases hs
      · exact lhdPoints_length (fun _ _ g => choose_mem (.inl g)) hl hst
      · exact lhdPoints_length (fun _ _ g => choose_mem (.inr g)) hl hst
    unfold initTrial at ht
    dsimp only at ht
    split at ht
    · cases ht
    · rename_i l hl
      have := hstr _ _ _ _ l (by
        unfold sampleDim at hdim
        simp only [Bool.and_eq_true, decide_eq_true_eq]
        split at hdim <;> rename_i hc
        · rw [if_pos hc]; exact hdim
        · rw [if_neg hc]; exact hdim) hl
      cases ht
      have g := addMidpoint_length C
        (if (decide (I.expansion ≠ []) && C.strategy.isLhd) = true then compressBounds I I.lower
          else I.lower)
        (if (decide (I.expansion ≠ []) && C.strategy.isLhd) = true then compressBounds I I.upper
          else I.upper)
        (if (decide (I.expansion ≠ []) && C.strategy.isLhd) = true then compressIntVars I I.intVars
          else I.intVars)
        (l.map (roundInts (if (decide (I.expansion ≠ []) && C.strategy.isLhd) = true then
          compressIntVars I I.intVars else I.intVars)))
      rw [List.length_map, this] at g
      split <;> rename_i hc
      · rw [List.length_map]
        simp only [hc, if_true] at g ⊢; exact g
      · simp only [hc, if_false] at g ⊢; exact g
  have := C38_required_le_requested C hf hi I.lower.length
  unfold initializeNodes runTrials at h
  split at h
  · cases h
  · rename_i r it hl
    split at h
    · cases h
    · rcases initLoop_spec _ _ _ hl with ⟨nds, e1, -, -, e4, -⟩ | ⟨e1, -⟩
      · subst e1
        cases h
        have := key _ _ _ e4
        omega
      · subst e1; cases h

/-- **C38** (violation) In dimension one a Latin hypercube strategy yields at most three points,
whatever was requested: with fraction 4 a parallel run waits for 8 results but at most 3 points are
submitted. -/
theorem C38_violated_one_dimension {C : InitCfg} (hs : C.strategy.isLhd = true)
    (hf : C.sampleFraction = 4) {l u : ℚ} {I : Internal} (hl : I.lower = [l]) (hu : I.upper = [u])
    (he : I.expansion = []) {d : TrialDraw} {nodes : List Pt} {b : Bool}
    (h : initTrial C I d = some (nodes, b)) :
    minNumInitSamplesParallel C I.lower.length = 8 ∧ nodes.length ≤ 3 := by
  constructor
  · unfold minNumInitSamplesParallel
    rw [hf, hl, List.length_singleton]; decide +kernel
  · unfold initTrial at h
    simp only [he, ne_eq, not_true_eq_false, decide_false, Bool.false_and, Bool.false_eq_true,
      if_false, hl, hu] at h
    split at h
    · cases h
    · rename_i nds hn
      have : nds.length = 2 := by
        unfold strategyNodes at hn
        split at hn <;> rename_i hst
        · rw [hst] at hs; cases hs
        · rw [hst] at hs; cases hs
        · rw [hst] at hs; cases hs
        · simp only [lhdPoints, List.length_singleton, if_true] at hn; cases hn; rfl
        · simp only [lhdPoints, List.length_singleton, if_true] at hn; cases hn; rfl
      cases h
      have g := (addMidpoint_length C [l] [u] I.intVars (nds.map (roundInts I.intVars))).2
      rw [List.length_map, this] at g
      exact g

/-- **C38** (violation) The corner strategy `lower_corners` yields at most `n+2` points whatever
fraction is configured: with fraction 2 a parallel run waits for `2(n+1)` results, more than are ever
submitted when `n ≥ 1`. -/
theorem C38_violated_lower_corners {C : InitCfg} (hs : C.strategy = .lowerCorners)
    (hf : C.sampleFraction = 2) {I : Internal} (hn : 1 ≤ I.lower.length) {d : TrialDraw}
    {nodes : List Pt} {b : Bool} (h : initTrial C I d = some (nodes, b)) :
    minNumInitSamplesParallel C I.lower.length = 2 * (I.lower.length + 1) ∧
    nodes.length ≤ I.lower.length + 2 ∧
    (2 ≤ I.lower.length → nodes.length < minNumInitSamplesParallel C I.lower.length) := by
  have h1 : minNumInitSamplesParallel C I.lower.length = 2 * (I.lower.length + 1) := by
    unfold minNumInitSamplesParallel
    rw [hf]
    have : ((I.lower.length : ℚ) + 1) * 2 = ((2 * (I.lower.length + 1) : ℤ) : ℚ) := by push_cast; ring
    rw [this, aroundEven_int]; omega
  have h2 : nodes.length ≤ I.lower.length + 2 := by
    unfold initTrial at h
    simp only [hs, Strategy.isLhd, Bool.and_false, Bool.false_eq_true, if_false] at h
    unfold strategyNodes at h
    rw [hs] at h
    simp only at h
    cases h
    have g := (addMidpoint_length C I.lower I.upper I.intVars
      ((lowerCorners I.lower I.upper).map (roundInts I.intVars))).2
    rw [List.length_map] at g
    have : (lowerCorners I.lower I.upper).length = I.lower.length + 1 := by simp [lowerCorners]
    omega
  exact ⟨h1, h2, fun h => by omega⟩

/-- Premises of the preceding theorems: a configuration with all strategies. -/
def demoInitCfg (st : Strategy) (frac : ℚ) : InitCfg :=
  { strategy := st, numCpus := 4, sampleFraction := frac, increaseParallel := 1/2, midpoint := true,
    minDist := 1/100000, maxRandomInit := 5,
    dist := fun p q => (List.zipWith (fun a b => |a - b|) p q).sum,
    score := fun _ => 0, independent := fun _ => true }

def demoLhs : TrialDraw :=
  { bits := [], lhs := [{ perm := fun j i => if j = 0 then i else 11 - i, noise := fun _ _ => 1/2 }] }

-- A two dimensional problem sampled by a Latin hypercube: 9 points are requested, 3 required.
example : (initializeNodes (demoInitCfg .lhdMaximin 1)
      (construct (1/1000000) [⟨0, 10, .R⟩, ⟨0, 5, .I⟩]) (fun _ => demoLhs)).isSome = true ∧
    numInitSamples (demoInitCfg .lhdMaximin 1) 2 = 9 ∧
    minNumInitSamplesParallel (demoInitCfg .lhdMaximin 1) 2 = 3 ∧
    sampleDim (demoInitCfg .lhdMaximin 1)
      (construct (1/1000000) [⟨0, 10, .R⟩, ⟨0, 5, .I⟩]) = 2 := by
  refine ⟨by decide +kernel, by decide +kernel, by decide +kernel, by decide +kernel⟩

/-! ## C35: corner strategies and categorical variables -/

/-- **C35** (violation) With a categorical variable of three values the corner strategies sample
points that are not the encoding of any category: the black box is evaluated at category 0 although
the categories are 1 to 3. -/
theorem C35_violated_categorical : ∃ (C : InitCfg) (vars : List Var) (nodes : List Pt) (p : Pt),
    WellFormed vars ∧ C.strategy = .lowerCorners ∧
    initializeNodes C (construct (1/1000000) vars) (fun _ => demoLhs) = some (.ok nodes) ∧
    p ∈ nodes ∧ decodePt (construct (1/1000000) vars) p = [0] ∧ vars = [⟨1, 3, .C⟩] := by
  refine ⟨demoInitCfg .lowerCorners 1, [⟨1, 3, .C⟩],
    [[0, 0, 0], [1, 0, 0], [0, 1, 0], [0, 0, 1]], [0, 0, 0], ?_, rfl, by decide +kernel, by simp,
    by decide +kernel, rfl⟩
  intro v hv
  rw [List.mem_singleton.mp hv]
  exact ⟨by norm_num, fun _ => ⟨⟨1, by norm_num⟩, ⟨3, by norm_num⟩⟩⟩

/-! ## C39 -/

theorem cleanup_fold {dist : Pt → Pt → ℚ} {minDist : ℚ} {pts : List Pt} (bad : List ℕ)
    (flags : List Bool) (j : ℕ) :
    (bad.foldl (cleanupStep dist minDist pts) flags).getD j false =
      (flags.getD j false && decide (∀ i ∈ bad, ¬(i < j ∧
        dist (pts.getD i []) (pts.getD j []) ≤ minDist))) := by
  induction bad generalizing flags with
  | nil => simp
  | cons i is ih =>
    rw [List.foldl_cons, ih]
    have : (cleanupStep dist minDist pts flags i).getD j false = (flags.getD j false &&
        decide (¬(i < j ∧ dist (pts.getD i []) (pts.getD j []) ≤ minDist))) := by
      unfold cleanupStep
      rw [List.getD_eq_getElem?_getD, List.getElem?_mapIdx,
        List.getD_eq_getElem?_getD (l := flags)]
      cases hf : flags[j]? with
      | none => rfl
      | some b =>
        simp only [Option.map_some, Option.getD_some]
        by_cases hc : i < j ∧ dist (pts.getD i []) (pts.getD j []) ≤ minDist
        · rw [if_pos hc, decide_eq_false (not_not.mpr hc), Bool.and_false]
        · rw [if_neg hc, decide_eq_true hc, Bool.and_true]
    rw [this, Bool.and_assoc]
    congr 1
    simp only [List.forall_mem_cons, Bool.decide_and]

/-- **C39** A point is kept exactly if no earlier point of the list is within `min_dist` of it. -/
theorem C39_kept_iff (dist : Pt → Pt → ℚ) (minDist : ℚ) (pts : List Pt) (j : ℕ) :
    j ∈ initPointsCleanup dist minDist pts ↔ ∃ pj, pts[j]? = some pj ∧
      ∀ (i : ℕ) pi, i < j → pts[i]? = some pi → minDist < dist pi pj := by
  unfold initPointsCleanup
  simp only [List.mem_filter, List.mem_range]
  rw [cleanup_fold]
  simp only [Bool.and_eq_true, decide_eq_true_eq]
  constructor
  · rintro ⟨h1, -, h3⟩
    refine ⟨pts[j], List.getElem?_eq_getElem h1, fun i pi hij hi => ?_⟩
    by_contra hc
    rw [not_lt] at hc
    have hi' := (List.getElem?_eq_some_iff.mp hi).1
    have e1 : pts.getD i [] = pi := by rw [List.getD_eq_getElem?_getD, hi]; rfl
    have e2 : pts.getD j [] = pts[j] := by
      rw [List.getD_eq_getElem?_getD, List.getElem?_eq_getElem h1]; rfl
    refine h3 i ?_ ⟨hij, by rw [e1, e2]; exact hc⟩
    simp only [List.mem_filter, List.mem_range, List.any_eq_true, decide_eq_true_eq]
    exact ⟨hi', j, h1, hij, by rw [e1, e2]; exact hc⟩
  · rintro ⟨pj, hj, h⟩
    have h1 := (List.getElem?_eq_some_iff.mp hj).1
    refine ⟨h1, by rw [List.getD_eq_getElem?_getD, List.getElem?_map, hj]; rfl, ?_⟩
    rintro i hi ⟨hij, hd⟩
    have hi' : i < pts.length := by omega
    have e1 : pts.getD i [] = pts[i] := by
      rw [List.getD_eq_getElem?_getD, List.getElem?_eq_getElem hi']; rfl
    have e2 : pts.getD j [] = pj := by rw [List.getD_eq_getElem?_getD, hj]; rfl
    rw [e1, e2] at hd
    exact absurd (h i _ hij (List.getElem?_eq_getElem hi')) (not_lt.mpr hd)

/-- **C39** The kept points are listed in order without repetition, the first point is kept, and any
two kept points are farther than `min_dist` apart. -/
theorem C39_cleanup (dist : Pt → Pt → ℚ) (minDist : ℚ) (pts : List Pt) :
    (initPointsCleanup dist minDist pts).Pairwise (· < ·) ∧
    (pts ≠ [] → (initPointsCleanup dist minDist pts).head? = some 0) ∧
    (∀ i ∈ initPointsCleanup dist minDist pts, ∀ j ∈ initPointsCleanup dist minDist pts, i < j →
      ∀ pi pj, pts[i]? = some pi → pts[j]? = some pj → minDist < dist pi pj) := by
  have hp : (initPointsCleanup dist minDist pts).Pairwise (· < ·) :=
    List.Pairwise.filter _ List.pairwise_lt_range
  refine ⟨hp, fun hne => ?_, fun i _ j hj hij pi pj hpi hpj => ?_⟩
  · have h0 : 0 ∈ initPointsCleanup dist minDist pts := by
      rw [C39_kept_iff]
      cases pts with
      | nil => exact absurd rfl hne
      | cons a t => exact ⟨a, rfl, fun i pi hi => absurd hi (by omega)⟩
    cases hl : initPointsCleanup dist minDist pts with
    | nil => rw [hl] at h0; cases h0
    | cons a t =>
      rw [hl] at h0 hp
      rcases List.mem_cons.mp h0 with e | e
      · rw [← e]; rfl
      · exact absurd ((List.pairwise_cons.mp hp).1 0 e) (by omega)
  · obtain ⟨pj', e, h⟩ := (C39_kept_iff dist minDist pts j).mp hj
    rw [hpj] at e; cases e
    exact h i pi hij hpi

/-- **C39** A dropped point need not be close to a kept one: of three equally spaced points whose
neighbours are too close, only the first is kept although the third is far from it. -/
theorem C39_dropped_far_from_kept : ∃ (dist : Pt → Pt → ℚ) (minDist : ℚ) (pts : List Pt),
    initPointsCleanup dist minDist pts = [0] ∧ pts = [[0], [1], [2]] ∧ minDist < dist [0] [2] :=
  ⟨fun p q => |p.getD 0 0 - q.getD 0 0|, 1, [[0], [1], [2]], by decide +kernel, rfl,
    by decide +kernel⟩

example : initPointsCleanup (fun p q => |p.getD 0 0 - q.getD 0 0|) 1 [[0], [3], [1], [3], [6]] =
    [0, 1, 4] := by decide +kernel

/-! ## C17 with actual samples -/

/-- The initial samples of a run are computed by `initialize_nodes` on the reformulated problem, with
arbitrary random numbers (rbfopt_algorithm.py:1810-1832). -/
def SamplesComputed {O : Type} (env : Env O) (C : InitCfg) (I : Internal) : Prop :=
  ∀ s pts o, env.initNodes s = .ok (pts, o) → ∃ draws : ℕ → TrialDraw,
    (∀ i, (draws i).Valid (sampleDim C I) (numInitSamples C I.lower.length)) ∧
    initializeNodes C I draws = some (.ok pts)

/-- **C17** Every point the black box is ever evaluated at is feasible, including the initial samples
computed by `initialize_nodes` with whatever random numbers, under the same conditions as
`C17_feasible_evaluations`. -/
theorem C17_feasible_with_samples {O : Type} {eps : ℚ} {vars : List Var} {P : Params} {env : Env O}
    {o : O} {c : Ctl} {s : Alg O} {sc : Scaling} {C : InitCfg} (hw : WellFormed vars)
    (hrun : RunsOn P env eps vars sc)
    (hsc : sc = .off ∨ (construct eps vars).intVars = [])
    (hprop : ProposalsIn env (Proposable (construct eps vars)))
    (hsamp : SamplesComputed env C (construct eps vars)) (hdist : ∀ p, C.dist p p = 0)
    (hs : C.strategy.isLhd = true ∨ (construct eps vars).expansion = [])
    (huser : ∀ p ∈ P.initPos, FeasibleInternal (construct eps vars) p)
    (h : Reach P env o c s) : ∀ call ∈ s.log, FeasibleUser eps vars call.point := by
  refine C17_feasible_evaluations hw hrun hsc hprop ?_ huser h
  intro s pts o' he
  obtain ⟨draws, hd, hr⟩ := hsamp s pts o' he
  exact C36_samples_feasible hw hdist hs hd hr

end Rbfopt
