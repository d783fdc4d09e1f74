import Verif.Props.Samples
import Verif.Props.NoRepeat

/-!
# C77: sample points are different; runs that use `initialize_nodes`
-/

namespace Rbfopt

theorem round_corner {lower upper : Pt} {ints : List ℕ} (hb : GoodBox lower upper ints) {p : Pt}
    (h : IsCorner lower upper p) : roundInts ints p = p := by
  unfold roundInts
  apply List.ext_getElem
  · simp
  · intro i h1 h2
    rw [List.getElem_mapIdx]
    split
    · rename_i hi
      obtain ⟨g1, ⟨z1, g2⟩, ⟨z2, g3⟩⟩ := hb.int i hi
      have e : p.getD i 0 = p[i] := getD_of (List.getElem?_eq_getElem h2)
      rcases h.2 i g1 with e' | e'
      · rw [← e, e', g2, aroundEven_int]
      · rw [← e, e', g3, aroundEven_int]
    · rfl

theorem map_round_corners {lower upper : Pt} {ints : List ℕ} (hb : GoodBox lower upper ints)
    {nodes : List Pt} (h : ∀ p ∈ nodes, IsCorner lower upper p) :
    nodes.map (roundInts ints) = nodes := by
  conv_rhs => rw [← List.map_id nodes]
  exact List.map_congr_left (fun p hp => round_corner hb (h p hp))

theorem getD_scaleDesign {lower upper : Pt} {ints : List ℕ} {p : Pt} {j : ℕ} (hj : j < p.length)
    (hi : j ∉ ints) : (roundInts ints (scaleDesign lower upper ints p)).getD j 0 =
      p.getD j 0 * (upper.getD j 0 - lower.getD j 0) + lower.getD j 0 := by
  have hl : j < (scaleDesign lower upper ints p).length := by simpa [scaleDesign] using hj
  rw [roundInts_get _ _ hl, if_neg hi]
  unfold scaleDesign
  rw [List.getD_eq_getElem?_getD, List.getElem?_mapIdx, List.getElem?_eq_getElem hj]
  simp only [Option.map_some, Option.getD_some, hi, if_false]
  rw [getD_of (List.getElem?_eq_getElem hj)]
  ring

/-- The samples of one Latin hypercube differ in every coordinate. -/
theorem lhs_coord_ne {n N : ℕ} {d : LhsDraw} (hd : d.Valid n N) {i i' j : ℕ} (hi : i < N)
    (hi' : i' < N) (hj : j < n) (hne : i ≠ i') :
    ((uniformLhs n N d).getD i []).getD j 0 ≠ ((uniformLhs n N d).getD i' []).getD j 0 := by
  intro he
  obtain ⟨-, -, h⟩ := C36_latin_hypercube hd
  have hlt : d.perm j i < N := by
    have := (hd.perm j hj).mem_iff.mp (List.mem_map.mpr ⟨i, List.mem_range.mpr hi, rfl⟩)
    exact List.mem_range.mp this
  have hN : (0 : ℚ) < N := by exact_mod_cast (by omega : 0 < N)
  obtain ⟨k, -, hk⟩ := h j hj _ hlt
  have hcond : (d.perm j i : ℚ) / N ≤ ((uniformLhs n N d).getD i []).getD j 0 ∧
      ((uniformLhs n N d).getD i []).getD j 0 < ((d.perm j i : ℚ) + 1) / N := by
    rw [uniformLhs_get n N d hi hj, div_le_div_iff_of_pos_right hN, div_lt_div_iff_of_pos_right hN]
    obtain ⟨g1, g2⟩ := hd.noise i hi j hj
    constructor <;> linarith
  have e1 := hk i ⟨hi, hcond⟩
  have e2 := hk i' ⟨hi', by rw [← he]; exact hcond⟩
  exact hne (e1.trans e2.symm)

theorem lhdPoints_distinct {lower upper : Pt} {ints : List ℕ} (hb : GoodBox lower upper ints)
    (hp : ProperBox lower upper) {N : ℕ} {choose : List (List Pt) → Option (List Pt)}
    (hc : ∀ l r, choose l = some r → r ∈ l)
    {draws : List LhsDraw} (hd : ∀ l ∈ draws, l.Valid lower.length N) {nodes : List Pt}
    (hreal : lower.length = 1 ∨ ∃ j < lower.length, j ∉ ints)
    (h : lhdPoints lower upper ints N choose draws = some nodes) :
    (nodes.map (roundInts ints)).Nodup := by
  unfold lhdPoints at h
  split at h
  · rename_i h1
    cases h
    have hl := hb.length
    rw [map_round_corners hb (lower := lower) (upper := upper)]
    · have : lower ≠ upper := by
        intro e
        subst e
        have := (forall₂_iff_get.mp hp).2 0 lower[0] lower[0] (List.getElem?_eq_getElem _)
          (List.getElem?_eq_getElem _)
        exact absurd this (lt_irrefl _)
      simpa using this
    · intro p hp'
      simp only [List.mem_cons, List.not_mem_nil, or_false] at hp'
      rcases hp' with rfl | rfl
      · exact ⟨rfl, fun i _ => .inl rfl⟩
      · exact ⟨hl.symm, fun i _ => .inr rfl⟩
  · rename_i h1
    split at h
    · cases h
    · rename_i lhd hl
      cases h
      obtain ⟨dr, hdr, rfl⟩ := List.mem_map.mp (hc _ _ hl)
      obtain ⟨j, hj, hji⟩ := hreal.resolve_left h1
      have hv := hd dr hdr
      have e : (((uniformLhs lower.length N dr).map (scaleDesign lower upper ints)).map
          (roundInts ints)) = (List.range N).map (fun i => roundInts ints
            (scaleDesign lower upper ints ((uniformLhs lower.length N dr).getD i []))) := by
        apply List.ext_getElem
        · simp [uniformLhs]
        · intro i h1 h2
          simp only [List.length_map, List.length_range] at h2
          simp [uniformLhs, List.getD_eq_getElem?_getD, List.getElem?_range, h2]
      rw [e, List.nodup_map_iff_inj_on List.nodup_range]
      intro a ha b hb' hab
      rw [List.mem_range] at ha hb'
      by_contra hne
      have hlen : ∀ a < N, j < ((uniformLhs lower.length N dr).getD a []).length := by
        intro a ha
        simp [uniformLhs, List.getD_eq_getElem?_getD, List.getElem?_range, ha, hj]
      have h2 := congrArg (fun q : Pt => q.getD j 0) hab
      rw [getD_scaleDesign (hlen a ha) hji, getD_scaleDesign (hlen b hb') hji] at h2
      have hlu : lower.getD j 0 < upper.getD j 0 := by
        have hj' : j < upper.length := by rw [← hb.length]; exact hj
        rw [getD_of (List.getElem?_eq_getElem hj), getD_of (List.getElem?_eq_getElem hj')]
        exact (forall₂_iff_get.mp hp).2 j _ _ (List.getElem?_eq_getElem hj)
          (List.getElem?_eq_getElem hj')
      have h3 : upper.getD j 0 - lower.getD j 0 ≠ 0 := by intro h0; linarith
      exact lhs_coord_ne hv ha hb' hj hne (mul_right_cancel₀ h3 (by linarith))

theorem strategyNodes_distinct {C : InitCfg} (hdist : ∀ p, C.dist p p = 0) {lower upper : Pt}
    {ints : List ℕ} (hb : GoodBox lower upper ints) (hp : ProperBox lower upper) {N : ℕ}
    {d : TrialDraw} (hd : d.Valid lower.length N) {nodes : List Pt}
    (hreal : C.strategy.isLhd = false ∨ lower.length = 1 ∨ ∃ j < lower.length, j ∉ ints)
    (h : strategyNodes C lower upper ints N d = some nodes) :
    (nodes.map (roundInts ints)).Nodup := by
  unfold strategyNodes at h
  split at h
  · cases h
    rw [map_round_corners hb (fun p hp => (mem_allCorners hb.length).mp hp)]
    exact (C35_all_corners hp).2.1
  · cases h
    rw [map_round_corners hb (fun p hp => lowerCorners_corner hp)]
    exact (C35_lower_corners hp).2.2.2.1
  · have h1 := C35_random_corners hdist hb.length hd.bits h
    rw [map_round_corners hb h1.2.2]
    exact h1.2.1
  · rename_i hs
    exact lhdPoints_distinct hb hp (fun _ _ g => choose_mem (.inl g)) hd.lhs
      (hreal.resolve_left (by rw [hs]; simp [Strategy.isLhd])) h
  · rename_i hs
    exact lhdPoints_distinct hb hp (fun _ _ g => choose_mem (.inr g)) hd.lhs
      (hreal.resolve_left (by rw [hs]; simp [Strategy.isLhd])) h

theorem addMidpoint_distinct {C : InitCfg} (hdist : ∀ p, C.dist p p = 0) (hm : 0 ≤ C.minDist)
    {lower upper : Pt} {ints : List ℕ} {nodes : List Pt} (h : nodes.Nodup) :
    (addMidpoint C lower upper ints nodes).Nodup := by
  unfold addMidpoint
  split
  · split
    · exact h
    · rename_i d hd
      split
      · rename_i hlt
        rw [List.nodup_append]
        refine ⟨h, by simp, ?_⟩
        intro a ha b hb' e
        rw [List.mem_singleton] at hb'
        subst e
        have := (getMinDistance_some hd).2 a ha
        rw [hb', hdist] at this
        linarith
      · exact h
  · exact h

variable {eps : ℚ} {vars : List Var}

/-- **C77, C36** The points of a sample returned by `initialize_nodes` are pairwise different, whatever
the random numbers drawn: for the corner strategies on every problem, for the Latin hypercube
strategies if there is a single variable or at least one real variable that is not fixed. -/
theorem C77_sample_distinct {C : InitCfg} (hw : WellFormed vars) (heps : 0 ≤ eps)
    (hdist : ∀ p, C.dist p p = 0) (hm : 0 ≤ C.minDist)
    (hs : C.strategy.isLhd = false ∨ sampleDim C (construct eps vars) = 1 ∨
      ∃ v ∈ vars, v.type = .R ∧ eps < |v.lower - v.upper|) {draws : ℕ → TrialDraw}
    (hd : ∀ i, (draws i).Valid (sampleDim C (construct eps vars))
      (numInitSamples C (construct eps vars).lower.length)) {nodes : List Pt}
    (h : initializeNodes C (construct eps vars) draws = some (.ok nodes)) : nodes.Nodup := by
  have hprop := layout_proper (eps := eps) hw heps
  rw [← construct_eq hw] at hprop
  have htrial : ∀ d : TrialDraw, d.Valid (sampleDim C (construct eps vars))
      (numInitSamples C (construct eps vars).lower.length) → ∀ nds b,
      initTrial C (construct eps vars) d = some (nds, b) → nds.Nodup := by
    intro d hd nds b h
    unfold initTrial at h
    dsimp only at h
    by_cases hu : (construct eps vars).expansion ≠ [] ∧ C.strategy.isLhd = true
    · have hu' : (decide ((construct eps vars).expansion ≠ []) && C.strategy.isLhd) = true := by
        simp only [Bool.and_eq_true, decide_eq_true_eq]; exact hu
      rw [hu'] at h
      simp only [if_true] at h
      unfold sampleDim at hd hs
      rw [if_pos hu] at hd hs
      split at h
      · cases h
      · rename_i nds' hn
        cases h
        have hb := goodBox_compressed (eps := eps) hw
        have hpc : ProperBox (compressBounds (construct eps vars) (construct eps vars).lower)
            (compressBounds (construct eps vars) (construct eps vars).upper) := by
          rw [(C27_bounds hw).1, (C27_bounds hw).2]
          unfold ProperBox
          rw [List.forall₂_map_left_iff, List.forall₂_map_right_iff, List.forall₂_same]
          intro v hv
          obtain ⟨hv1, hv2⟩ := List.mem_filter.mp hv
          rcases lt_or_eq_of_le (hw v hv1).1 with g | g
          · exact g
          · unfold Var.isFixed at hv2
            simp [g, heps] at hv2
        have hreal : C.strategy.isLhd = false ∨
            (compressBounds (construct eps vars) (construct eps vars).lower).length = 1 ∨
            ∃ j < (compressBounds (construct eps vars) (construct eps vars).lower).length,
              j ∉ compressIntVars (construct eps vars) (construct eps vars).intVars := by
          rcases hs with hs | hs | ⟨v, hv, ht, hf⟩
          · exact .inl hs
          · exact .inr (.inl hs)
          · right; right
            have hvm : v ∈ vars.filter (fun v => !v.isFixed eps) := by
              rw [List.mem_filter]
              refine ⟨hv, ?_⟩
              unfold Var.isFixed
              simp [hf]
            obtain ⟨j, hj⟩ := List.mem_iff_getElem?.mp hvm
            refine ⟨j, ?_, ?_⟩
            · rw [(C27_bounds hw).1, List.length_map]
              exact (List.getElem?_eq_some_iff.mp hj).1
            · rw [(C27_integer_vars hw).2]
              rintro ⟨v', hv', ht'⟩
              rw [hj] at hv'
              cases hv'
              exact ht' ht
        have h1 := addMidpoint_distinct (lower := compressBounds (construct eps vars)
          (construct eps vars).lower) (upper := compressBounds (construct eps vars)
          (construct eps vars).upper) (ints := compressIntVars (construct eps vars)
          (construct eps vars).intVars) hdist hm
          (strategyNodes_distinct hdist hb hpc hd hreal hn)
        rw [List.nodup_map_iff_inj_on h1]
        have hgood : ∀ q ∈ addMidpoint C (compressBounds (construct eps vars)
            (construct eps vars).lower) (compressBounds (construct eps vars)
            (construct eps vars).upper) (compressIntVars (construct eps vars)
            (construct eps vars).intVars) (nds'.map (roundInts (compressIntVars (construct eps vars)
            (construct eps vars).intVars))), place (construct eps vars)
              (expandPt (construct eps vars) q) = q := by
          intro q hq
          have hg := addMidpoint_good hb (fun r hr => by
            obtain ⟨r', hr', rfl⟩ := List.mem_map.mp hr
            exact strategyNodes_good hdist hb hd hn r' hr') q hq
          obtain ⟨g1, g2, g3⟩ := hg
          rw [(C27_bounds (eps := eps) hw).1] at g1 g2
          rw [(C27_bounds (eps := eps) hw).2] at g2
          rw [List.length_map] at g1
          have hmem := (C27_integer_vars (eps := eps) hw).2
          have hf : List.Forall₂ Var.Feasible' (simpVars eps vars) q := by
            refine forall₂_simp.mpr ?_
            rw [forall₂_iff_get]
            refine ⟨g1, fun i v x hv hx => ?_⟩
            have hi := (List.getElem?_eq_some_iff.mp hv).1
            have h1 : ((vars.filter (fun v => !v.isFixed eps)).map Var.lower).getD i 0 = v.lower :=
              getD_of (by rw [List.getElem?_map]; unfold unfixedSpec at hv; rw [hv]; rfl)
            have h2 : ((vars.filter (fun v => !v.isFixed eps)).map Var.upper).getD i 0 = v.upper :=
              getD_of (by rw [List.getElem?_map]; unfold unfixedSpec at hv; rw [hv]; rfl)
            have := g2 i (by rw [List.length_map]; exact hi)
            rw [h1, h2, getD_of hx] at this
            refine ⟨this.1, this.2, fun ht => ?_⟩
            have := g3 i ((hmem i).mpr ⟨v, hv, ht⟩)
            rwa [getD_of hx] at this
          rw [construct_eq hw]
          exact place_expand (catLayout_layout eps vars) (forall₂_iff_get.mp hf).1
            (catValues_of_feasible hw.simp hf)
        intro p hp q hq e
        rw [← hgood p hp, ← hgood q hq, e]
    · have hu' : (decide ((construct eps vars).expansion ≠ []) && C.strategy.isLhd) = false := by
        rw [← Bool.not_eq_true, Bool.and_eq_true, decide_eq_true_eq]; exact hu
      rw [hu'] at h
      simp only [Bool.false_eq_true, if_false] at h
      unfold sampleDim at hd hs
      rw [if_neg hu] at hd hs
      split at h
      · cases h
      · rename_i nds' hn
        cases h
        have hb := goodBox_construct (eps := eps) hw
        have hreal : C.strategy.isLhd = false ∨ (construct eps vars).lower.length = 1 ∨
            ∃ j < (construct eps vars).lower.length, j ∉ (construct eps vars).intVars := by
          rcases hs with hs | hs | ⟨v, hv, ht, hf⟩
          · exact .inl hs
          · exact .inr (.inl hs)
          · right; right
            rw [construct_eq hw]
            have hvm : v.simplify ∈ nonCats (simpVars eps vars) := by
              unfold nonCats
              rw [List.mem_filter]
              have htS : v.simplify.type = .R := (simplify_R v).mpr ht
              refine ⟨List.mem_map_of_mem ?_, by simp [htS]⟩
              unfold unfixedSpec
              rw [List.mem_filter]
              refine ⟨hv, ?_⟩
              unfold Var.isFixed
              simp [hf]
            obtain ⟨j, hj⟩ := List.mem_iff_getElem?.mp hvm
            have hlt := (List.getElem?_eq_some_iff.mp hj).1
            refine ⟨j, ?_, ?_⟩
            · simp only [layout, List.length_append, List.length_map]; omega
            · intro hmem
              rcases List.mem_append.mp hmem with hmem | hmem
              · obtain ⟨w, hw', ht'⟩ := mem_where.mp hmem
                rw [hj] at hw'
                cases hw'
                simp [(simplify_R v).mpr ht] at ht'
              · rw [List.mem_range'_1] at hmem
                omega
        exact addMidpoint_distinct hdist hm (strategyNodes_distinct hdist hb hprop hd hreal hn)
  unfold initializeNodes runTrials at h
  split at h
  · cases h
  · rename_i r it hl
    split at h
    · cases h
    · rcases initLoop_spec _ _ _ hl with ⟨nds, e1, -, -, e4, -⟩ | ⟨e1, -⟩
      · subst e1
        cases h
        exact htrial _ (hd _) _ _ e4
      · subst e1; cases h

variable {O : Type} {P : Params} {env : Env O} {o : O} {c : Ctl} {s : Alg O}

/-- **C77** A run whose samples are computed by `initialize_nodes`, on a problem with a real variable
(or with a corner strategy and no categorical variables): the black box is never evaluated twice at
the same point. -/
theorem C77_run {sc : Scaling} {C : InitCfg} (hw : WellFormed vars) (heps : 0 ≤ eps)
    (hrun : RunsOn P env eps vars sc)
    (hsc : sc = .off ∨ (construct eps vars).intVars = [])
    (hprop : ProposalsIn env (Proposable (construct eps vars)))
    (hsample : SamplesComputed env C (construct eps vars)) (hC : ∀ p, C.dist p p = 0)
    (hCm : 0 ≤ C.minDist)
    (hs : (C.strategy.isLhd = false ∧ (construct eps vars).expansion = []) ∨
      (C.strategy.isLhd = true ∧ (sampleDim C (construct eps vars) = 1 ∨
        ∃ v ∈ vars, v.type = .R ∧ eps < |v.lower - v.upper|)))
    (huser : ∀ p ∈ P.initPos, FeasibleInternal (construct eps vars) p)
    (hval : P.initPos.length ≤ P.initVal.length)
    (hP : P.twoPhase = false) (hd : ∀ p, env.dist p p = 0) (hm : 0 ≤ P.minDist)
    (he : 0 < P.epsZero) (h : Reach P env o c s) : (s.log.map Call.point).Nodup := by
  refine C77_never_twice hw heps hrun hsc hprop ?_ ?_ huser hval hP hd hm he h
  · intro s pts o hin
    obtain ⟨draws, hv, hi⟩ := hsample s pts o hin
    refine C36_samples_feasible hw hC ?_ hv hi
    rcases hs with hs | hs
    · exact .inr hs.2
    · exact .inl hs.1
  · intro s pts o hin
    obtain ⟨draws, hv, hi⟩ := hsample s pts o hin
    refine C77_sample_distinct hw heps hC hCm ?_ hv hi
    rcases hs with hs | hs
    · exact .inl hs.1
    · exact .inr hs.2

/-- Two integer variables with values 1, 2; three samples, full rank (some two rows have a non-zero
determinant, as the singular value test requires). -/
def dupCfg : InitCfg :=
  { demoInitCfg .lhdMaximin 1 with
    numCpus := 1, midpoint := false
    independent := fun ps => ps.any (fun p => ps.any (fun q =>
      decide (p.getD 0 0 * q.getD 1 0 - p.getD 1 0 * q.getD 0 0 ≠ 0))) }

@[inherit_doc dupCfg] def dupDraw : TrialDraw :=
  { bits := [], lhs := [{ perm := fun j i => if j = 0 then i else 2 - i
                          noise := fun _ j => if j = 0 then 1/5 else 4/5 }] }

theorem dupDraw_valid : dupDraw.Valid 2 3 := by
  refine ⟨by simp [dupDraw], ?_⟩
  intro l hl
  simp only [dupDraw, List.mem_singleton] at hl
  subst hl
  refine ⟨?_, ?_⟩
  · intro j hj
    have : j = 0 ∨ j = 1 := by omega
    rcases this with rfl | rfl <;> decide
  · intro i _ j _
    dsimp only
    split <;> norm_num

/-- **C77** (violation) On a problem with integer variables only, a Latin hypercube design rounded to
integers may contain the same point twice; it is accepted, and the point is evaluated twice. -/
theorem C77_violated_lhd_sample : ∃ (vars : List Var) (draws : ℕ → TrialDraw) (nodes : List Pt),
    WellFormed vars ∧ (∀ i, (draws i).Valid (sampleDim dupCfg (construct (1/1000000) vars))
      (numInitSamples dupCfg (construct (1/1000000) vars).lower.length)) ∧
    initializeNodes dupCfg (construct (1/1000000) vars) draws = some (.ok nodes) ∧
    ¬ nodes.Nodup := by
  refine ⟨[⟨1, 2, .I⟩, ⟨1, 2, .I⟩], fun _ => dupDraw, [[1, 2], [1, 2], [2, 1]], ?_, ?_,
    by decide +kernel, by decide +kernel⟩
  · intro v hv
    simp only [List.mem_cons, List.not_mem_nil, or_false, or_self] at hv
    subst hv
    exact ⟨by norm_num, fun _ => ⟨⟨1, by norm_num⟩, ⟨2, by norm_num⟩⟩⟩
  · intro _
    have e1 : sampleDim dupCfg (construct (1/1000000) [⟨1, 2, .I⟩, ⟨1, 2, .I⟩]) = 2 := by
      decide +kernel
    have e2 : numInitSamples dupCfg
        (construct (1/1000000) [⟨1, 2, .I⟩, ⟨1, 2, .I⟩]).lower.length = 3 := by decide +kernel
    rw [e1, e2]
    exact dupDraw_valid

/-- The premises of `C77_sample_distinct`: the same draw on a problem with a real variable. -/
example : initializeNodes dupCfg (construct (1/1000000) [⟨1, 2, .R⟩, ⟨1, 2, .I⟩])
      (fun _ => dupDraw) = some (.ok [[16/15, 2], [7/5, 2], [26/15, 1]]) ∧
    sampleDim dupCfg (construct (1/1000000) [⟨1, 2, .R⟩, ⟨1, 2, .I⟩]) = 2 := by
  constructor <;> decide +kernel

end Rbfopt
