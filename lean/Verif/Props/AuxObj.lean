import Verif.Model.AuxObj
import Verif.Props.Rbf
import Verif.Props.Genetic

/-! # C49 and C68: objective functions of the auxiliary problems -/

namespace Rbfopt

/-! ## C49: the MSRSM score -/

theorem msrsmDenom_pos {e lo hi : ℚ} (he : 0 ≤ e) : 0 < msrsmDenom e lo hi := by
  unfold msrsmDenom; split <;> linarith

/-- A normalised value lies between 0 and 1. -/
theorem msrsm_unit {e lo hi x : ℚ} (he : 0 ≤ e) (he1 : e ≤ 1) (h : 0 ≤ x) (hx : x ≤ hi - lo) :
    0 ≤ x / msrsmDenom e lo hi ∧ x / msrsmDenom e lo hi ≤ 1 := by
  have hp := msrsmDenom_pos (lo := lo) (hi := hi) he
  refine ⟨div_nonneg h hp.le, ?_⟩
  rw [div_le_one hp]
  unfold msrsmDenom
  split
  · exact hx
  · rename_i h1; linarith

/-- **C49** The MSRSM score: one score per point; `+inf` exactly for the points within `min_dist` of a
node; the others have a score between 0 and `dist_weight + obj_weight`. -/
theorem C49_range {epsZero minDist w : ℚ} {modified : Bool} {obj dist : List ℚ} {scores : List EVal}
    (he : 0 ≤ epsZero) (he1 : epsZero ≤ 1) (hw : 0 ≤ w ∧ w ≤ 1) (hl : obj.length = dist.length)
    (h : msrsmScores epsZero minDist w modified obj dist = .ok scores) :
    scores.length = dist.length ∧
    ∀ (i : ℕ) (d : ℚ), dist[i]? = some d →
      (d ≤ minDist → scores[i]? = some ⊤) ∧
      (minDist < d → ∃ s : ℚ, scores[i]? = some (s : EVal) ∧ 0 ≤ s ∧
        s ≤ w + (if modified then 1 else 1 - w)) := by
  unfold msrsmScores at h
  split at h
  · rename_i minD i1 maxD i2 minO i3 maxO i4 e1 e2 e3 e4
    dsimp only at h
    cases h
    obtain ⟨-, hD1, -⟩ := argminVal_some e1
    obtain ⟨-, hD2, -⟩ := argmaxVal_some e2
    obtain ⟨-, hO1, -⟩ := argminVal_some e3
    obtain ⟨-, hO2, -⟩ := argmaxVal_some e4
    refine ⟨by rw [List.length_zipWith, hl, min_self], fun i d hd => ?_⟩
    have hi := (List.getElem?_eq_some_iff.mp hd).1
    have ho : obj[i]? = some (obj[i]'(by omega)) := List.getElem?_eq_getElem _
    generalize obj[i]'(by omega) = o at ho
    rw [List.getElem?_zipWith, ho, hd]
    refine ⟨fun hm => by simp [hm], fun hm => ?_⟩
    simp only [not_le.mpr hm, if_false]
    refine ⟨_, rfl, ?_⟩
    have hdm := List.mem_of_getElem? hd
    have hom := List.mem_of_getElem? ho
    have b1 := msrsm_unit (lo := minD) (hi := maxD) (x := maxD - d) he he1
      (by linarith [hD2 d hdm]) (by linarith [hD1 d hdm])
    have b2 := msrsm_unit (lo := minO) (hi := maxO) (x := o - minO) he he1
      (by linarith [hO1 o hom]) (by linarith [hO2 o hom])
    rw [mul_div_assoc, mul_div_assoc]
    have hw2 : 0 ≤ msrsmObjWeight modified w := by
      unfold msrsmObjWeight; split <;> linarith
    have hw3 : msrsmObjWeight modified w = if modified = true then 1 else 1 - w := rfl
    rw [← hw3]
    constructor
    · exact add_nonneg (mul_nonneg hw.1 b1.1) (mul_nonneg hw2 b2.1)
    · exact add_le_add (mul_le_of_le_one_right hw.1 b1.2) (mul_le_of_le_one_right hw2 b2.2)
  · cases h

/-- **C49** Of two points beyond `min_dist`, the one that is at least as far from the nodes and has at
most the same model value has at most the same score; the score is strictly smaller if it is strictly
farther and distances count, or if its model value is strictly smaller and values count. -/
theorem C49_monotone {epsZero minDist w : ℚ} {modified : Bool} {obj dist : List ℚ}
    {scores : List EVal} (he : 0 ≤ epsZero) (hw : 0 ≤ w ∧ w ≤ 1) (hl : obj.length = dist.length)
    (h : msrsmScores epsZero minDist w modified obj dist = .ok scores) {i j : ℕ} {d d' o o' : ℚ}
    (hd : dist[i]? = some d) (hd' : dist[j]? = some d') (ho : obj[i]? = some o)
    (ho' : obj[j]? = some o') (hm : minDist < d) (hm' : minDist < d') (h1 : d' ≤ d) (h2 : o ≤ o') :
    ∃ s s' : ℚ, scores[i]? = some (s : EVal) ∧ scores[j]? = some (s' : EVal) ∧ s ≤ s' ∧
      (d' < d → 0 < w → s < s') ∧ (o < o' → modified = true ∨ w < 1 → s < s') := by
  unfold msrsmScores at h
  split at h
  · rename_i minD i1 maxD i2 minO i3 maxO i4 e1 e2 e3 e4
    dsimp only at h
    cases h
    rw [List.getElem?_zipWith, List.getElem?_zipWith, ho, hd, ho', hd']
    simp only [not_le.mpr hm, not_le.mpr hm', if_false]
    refine ⟨_, _, rfl, rfl, ?_⟩
    have p1 := msrsmDenom_pos (lo := minD) (hi := maxD) he
    have p2 := msrsmDenom_pos (lo := minO) (hi := maxO) he
    generalize msrsmDenom epsZero minD maxD = a at p1
    generalize msrsmDenom epsZero minO maxO = b at p2
    have hw2 : 0 ≤ msrsmObjWeight modified w := by
      unfold msrsmObjWeight; split <;> linarith
    have q1 : w * (maxD - d) / a ≤ w * (maxD - d') / a :=
      div_le_div_of_nonneg_right (mul_le_mul_of_nonneg_left (by linarith) hw.1) p1.le
    have q2 : msrsmObjWeight modified w * (o - minO) / b ≤
        msrsmObjWeight modified w * (o' - minO) / b :=
      div_le_div_of_nonneg_right (mul_le_mul_of_nonneg_left (by linarith) hw2) p2.le
    refine ⟨add_le_add q1 q2, fun hlt hpos => ?_, fun hlt hpos => ?_⟩
    · have : w * (maxD - d) / a < w * (maxD - d') / a :=
        div_lt_div_of_pos_right (mul_lt_mul_of_pos_left (by linarith) hpos) p1
      linarith
    · have hw3 : 0 < msrsmObjWeight modified w := by
        unfold msrsmObjWeight
        rcases hpos with rfl | hpos
        · simp
        · split <;> linarith
      have : msrsmObjWeight modified w * (o - minO) / b <
          msrsmObjWeight modified w * (o' - minO) / b :=
        div_lt_div_of_pos_right (mul_lt_mul_of_pos_left (by linarith) hw3) p2
      linarith
  · cases h

/-- **C49** The score is defined for every nonempty set of points. -/
theorem C49_defined {epsZero minDist w : ℚ} {modified : Bool} {obj dist : List ℚ}
    (ho : obj ≠ []) (hd : dist ≠ []) :
    ∃ scores, msrsmScores epsZero minDist w modified obj dist = .ok scores := by
  obtain ⟨v1, i1, e1⟩ := argminVal_exists hd
  obtain ⟨v2, i2, e2⟩ := argmaxVal_exists hd
  obtain ⟨v3, i3, e3⟩ := argminVal_exists ho
  obtain ⟨v4, i4, e4⟩ := argmaxVal_exists ho
  unfold msrsmScores
  rw [e1, e2, e3, e4]
  exact ⟨_, rfl⟩

/-- **C49** (violated part) With the default setting `modified_msrsm_score` the weights do not add up
to 1: the score of a point can be larger than 1 (here 2). -/
theorem C49_violated_above_one : ∃ (obj dist : List ℚ),
    msrsmScores (1/10000000000) (1/10000) 1 true obj dist = .ok [0, 2] := by
  refine ⟨[0, 1], [5, 1], ?_⟩
  decide +kernel

/-- **C49** (violated part) The score depends on the whole population, and if every individual is
within `min_dist` of a node all scores are `+inf`, so that the search returns such a point. -/
theorem C49_all_too_close {epsZero minDist w : ℚ} {modified : Bool} {obj dist : List ℚ}
    {scores : List EVal} (hl : obj.length = dist.length) (hc : ∀ d ∈ dist, d ≤ minDist)
    (h : msrsmScores epsZero minDist w modified obj dist = .ok scores) : ∀ s ∈ scores, s = ⊤ := by
  unfold msrsmScores at h
  split at h
  · dsimp only at h
    cases h
    intro s hs
    obtain ⟨i, hi⟩ := List.getElem?_of_mem hs
    rw [List.getElem?_zipWith] at hi
    cases ho : obj[i]? with
    | none => simp [ho] at hi
    | some o =>
      cases hd : dist[i]? with
      | none => simp [ho, hd] at hi
      | some d =>
        rw [ho, hd] at hi
        simp only [hc d (List.mem_of_getElem? hd), if_true, Option.some.injEq] at hi
        exact hi.symm
  · cases h

/-- **C49** The maximin score of a point is minus its distance to the nearest node (the lower, the
farther from the nodes). -/
theorem C49_maximin {dist : Pt → Pt → ℚ} {nodes : List Pt} (hne : nodes ≠ []) (p : Pt) :
    ∃ q ∈ nodes, (∀ r ∈ nodes, dist p q ≤ dist p r) ∧
      maximinScore dist nodes p = some (-(dist p q)) := by
  cases hd : getMinDistance dist p nodes with
  | none => exact absurd (getMinDistance_none.mp hd) hne
  | some d =>
    obtain ⟨⟨q, hq, he⟩, hm⟩ := getMinDistance_some hd
    refine ⟨q, hq, fun r hr => he ▸ hm r hr, ?_⟩
    unfold maximinScore
    rw [hd, he]; rfl

/-- **C49** Of two points the one with the smaller maximin score is the one farther from the nodes:
all its distances exceed the distance of the other from some node. -/
theorem C49_maximin_order {dist : Pt → Pt → ℚ} {nodes : List Pt} {p p' : Pt} {x x' : ℚ}
    (h : maximinScore dist nodes p = some x) (h' : maximinScore dist nodes p' = some x') :
    x < x' ↔ ∃ q' ∈ nodes, ∀ q ∈ nodes, dist p' q' < dist p q := by
  have hne : nodes ≠ [] := by
    rintro rfl
    simp [maximinScore, getMinDistance, argminVal] at h
  obtain ⟨q, hq, hm, hs⟩ := C49_maximin (dist := dist) hne p
  obtain ⟨q', hq', hm', hs'⟩ := C49_maximin (dist := dist) hne p'
  rw [h] at hs; rw [h'] at hs'; cases hs; cases hs'
  constructor
  · intro hlt
    exact ⟨q', hq', fun r hr => lt_of_lt_of_le (by linarith) (hm r hr)⟩
  · rintro ⟨r, hr, hall⟩
    have := hall q hq
    linarith [hm' r hr]

example : ([[0, 0], [1, 0]] : List Pt) ≠ [] := by decide

theorem samplingSearch_in {I : Internal} {K : Pt → Prop} (hS : SearchSpace I K)
    {objfun : List Pt → List EVal} (hobj : ∀ pts, (objfun pts).length = pts.length) {us : List Pt}
    (hu : ∀ u ∈ us, UnitRow (workDim I) u) (hne : us ≠ []) :
    ∃ (p : Pt) (i : ℕ) (s : EVal), samplingSearch I objfun us = .ok p ∧
      K p ∧
      (us.map (samplePoint I))[i]? = some p ∧
      (objfun (us.map (samplePoint I)))[i]? = some s ∧
      ∀ s' ∈ objfun (us.map (samplePoint I)), s ≤ s' := by
  have h0 : objfun (us.map (samplePoint I)) ≠ [] := by
    intro h
    have := hobj (us.map (samplePoint I))
    rw [h] at this
    simp at this
    exact hne (List.length_eq_zero_iff.mp this.symm)
  obtain ⟨s, i, e⟩ := argminVal_exists h0
  obtain ⟨h1, h2, -⟩ := argminVal_some e
  have hi := (List.getElem?_eq_some_iff.mp h1).1
  rw [hobj] at hi
  have hg := List.getElem?_eq_getElem hi
  refine ⟨_, i, s, ?_, ?_, hg, h1, h2⟩
  · unfold samplingSearch
    dsimp only
    rw [e]
    dsimp only
    rw [getD_of hg]
  · obtain ⟨u, h, e⟩ := List.mem_map.mp (List.mem_of_getElem? hg)
    rw [← e]
    exact samplePoint_in hS (hu u h)

/-- **C49** Search by sampling returns a feasible point whose score is minimal among the samples. -/
theorem C49_sampling {eps : ℚ} {vars : List Var} (hw : WellFormed vars)
    {objfun : List Pt → List EVal} (hobj : ∀ pts, (objfun pts).length = pts.length) {us : List Pt}
    (hu : ∀ u ∈ us, UnitRow (workDim (construct eps vars)) u) (hne : us ≠ []) :
    ∃ (p : Pt) (i : ℕ) (s : EVal), samplingSearch (construct eps vars) objfun us = .ok p ∧
      FeasibleInternal (construct eps vars) p ∧
      (us.map (samplePoint (construct eps vars)))[i]? = some p ∧
      (objfun (us.map (samplePoint (construct eps vars))))[i]? = some s ∧
      ∀ s' ∈ objfun (us.map (samplePoint (construct eps vars))), s ≤ s' :=
  samplingSearch_in (searchSpace_construct hw) hobj hu hne

/-- A concrete case: three points, one of them too close to a node. -/
example : msrsmScores (1/10000000000) (1/10000) (1/2) false [0, 1, 3] [4, 2, 0] =
    .ok [0, ((5/12 : ℚ) : EVal), ⊤] := by decide +kernel

/-! ## C68: Gutmann's objective functions -/

open Finset

/-- The nodes with one more node added at the end. -/
def withNode (k : ℕ) (nodes : ℕ → ℕ → ℝ) (x : ℕ → ℝ) (i : ℕ) : ℕ → ℝ := if i < k then nodes i else x

/-- The interpolant on the nodes and `x` that is 1 at `x` and 0 at the nodes: coefficients `lam`
(`k + 1` of them) and `h`, with the orthogonality conditions of the degree of the polynomial; the
coefficients of the eliminated polynomial columns (one per categorical variable) are 0. -/
structure Cardinal (t : Rbf) (g : ℝ) (n k : ℕ) (nodes : ℕ → ℕ → ℝ) (groups : List (List ℕ))
    (x : ℕ → ℝ) (lam h : ℕ → ℝ) : Prop where
  zero : ∀ i < k, evaluateRbf t g n (k + 1) (withNode k nodes x) lam h (nodes i) = 0
  one : evaluateRbf t g n (k + 1) (withNode k nodes x) lam h x = 1
  orth : ∀ c < sizeP t n, k + c ∈ keptIndices t n k groups →
    ∑ j ∈ range (k + 1), lam j * matP t n (withNode k nodes x) j c = 0
  elim : ∀ c < sizeP t n, k + c ∉ keptIndices t n k groups → h c = 0

theorem zeroTiny_zero (x : ℝ) : zeroTiny 0 x = x := by
  unfold zeroTiny; rw [if_neg (not_lt.mpr (abs_nonneg x))]

theorem uPi_node {t : Rbf} {g : ℝ} {n k : ℕ} {nodes : ℕ → ℕ → ℝ} {i : ℕ} (hi : i < k) (j : ℕ) :
    uPi t g n k nodes (nodes i) j = rawMatrix t g n k nodes i j := by
  unfold uPi rawMatrix matP
  rw [if_pos hi]

/-- Value of the bordered interpolant at a point, in terms of the vector `u_pi`. -/
theorem evaluate_border (t : Rbf) (g : ℝ) (n k : ℕ) (nodes : ℕ → ℕ → ℝ) (x : ℕ → ℝ) (lam h : ℕ → ℝ)
    (y : ℕ → ℝ) :
    evaluateRbf t g n (k + 1) (withNode k nodes x) lam h y =
      ∑ j ∈ range (k + sizeP t n), uPi t g n k nodes y j * (if j < k then lam j else h (j - k)) +
        lam k * phi t g (euclid n y x) := by
  have hu : ∑ j ∈ range (k + sizeP t n), uPi t g n k nodes y j *
      (if j < k then lam j else h (j - k)) =
      ∑ j ∈ range k, phi t g (euclid n y (nodes j)) * lam j +
        ∑ c ∈ range (sizeP t n), matP t n (fun _ => y) 0 c * h c := by
    rw [sum_range_add]
    congr 1
    · refine sum_congr rfl fun j hj => ?_
      have := mem_range.mp hj
      simp [uPi, this]
    · refine sum_congr rfl fun c _ => ?_
      simp [uPi, matP]
  have he := evaluate_eq t g n (k + 1) (fun i => if i < k + 1 then withNode k nodes x i else y) lam h
    (k + 1)
  have hcong : evaluateRbf t g n (k + 1)
      (fun i => if i < k + 1 then withNode k nodes x i else y) lam h y =
      evaluateRbf t g n (k + 1) (withNode k nodes x) lam h y := by
    unfold evaluateRbf
    simp only
    congr 2
    refine sum_congr rfl fun j hj => ?_
    rw [if_pos (mem_range.mp hj)]
  simp only [lt_irrefl, if_false] at he
  rw [hcong] at he
  rw [he, hu, sum_range_succ]
  have h1 : ∀ j ∈ range k, phi t g (euclid n y (if j < k + 1 then withNode k nodes x j else y)) *
      lam j = phi t g (euclid n y (nodes j)) * lam j := by
    intro j hj
    have := mem_range.mp hj
    rw [if_pos (by omega), withNode, if_pos this]
  rw [sum_congr rfl h1, if_pos (by omega), withNode, if_neg (by omega)]
  have h2 : ∀ c ∈ range (sizeP t n),
      matP t n (fun i => if i < k + 1 then withNode k nodes x i else y) (k + 1) c * h c =
      matP t n (fun _ => y) 0 c * h c := by
    intro c _; simp [matP]
  rw [sum_congr rfl h2]
  ring

theorem quadForm_transpose (m : ℕ) (B : ℕ → ℕ → ℝ) (u : ℕ → ℝ) :
    quadForm m B u = ∑ j ∈ range m, u j * ∑ i ∈ range m, u i * B i j := by
  unfold quadForm
  exact sum_congr rfl fun j _ => mul_comm _ _

variable {inv : ℕ → (ℕ → ℕ → ℝ) → Option (ℕ → ℕ → ℝ)} {t : Rbf} {g : ℝ} {n k : ℕ}
  {nodes : ℕ → ℕ → ℝ} {groups : List (List ℕ)} {B : ℕ → ℕ → ℝ}

/-- With `eps_zero = 0`, the result of `get_matrix_inverse` is the inverse on the kept rows. -/
theorem inverse_exact (hinv : InverseOk inv)
    (hB : matrixInverse inv t 0 n k (rbfMatrix t g 0 n k nodes) groups = some B) :
    (∀ i ∈ keptIndices t n k groups, ∀ j ∈ keptIndices t n k groups,
      ∑ l ∈ range (k + sizeP t n), rawMatrix t g n k nodes i l * B l j = if i = j then 1 else 0) ∧
    (∀ i j, i ∉ keptIndices t n k groups ∨ j ∉ keptIndices t n k groups → B i j = 0) := by
  obtain ⟨h1, h2⟩ := C43_inverse hinv le_rfl hB
  refine ⟨fun i hi j hj => ?_, h2⟩
  have := h1 i hi j hj
  rw [zero_mul, abs_nonpos_iff, sub_eq_zero] at this
  rw [← this]
  exact sum_congr rfl fun l _ => by rw [rbfMatrix, zeroTiny_zero]

theorem rawMatrix_symm (i j : ℕ) : rawMatrix t g n k nodes i j = rawMatrix t g n k nodes j i := by
  have := C45_symmetric t g 0 n k nodes i j
  rwa [rbfMatrix, rbfMatrix, zeroTiny_zero, zeroTiny_zero] at this

/-- **C68** The new coefficient of the bordered interpolant is the inverse of
`phi(0) - u_pi^T A^{-1} u_pi`. -/
theorem cardinal_coefficient (hinv : InverseOk inv)
    (hB : matrixInverse inv t 0 n k (rbfMatrix t g 0 n k nodes) groups = some B)
    {x lam h : ℕ → ℝ} (hc : Cardinal t g n k nodes groups x lam h) :
    lam k * (phi t g 0 - quadForm (k + sizeP t n) B (uPi t g n k nodes x)) = 1 := by
  obtain ⟨hAB, hB0⟩ := inverse_exact hinv hB
  set m := k + sizeP t n with hm
  set K := keptIndices t n k groups with hK
  set u := uPi t g n k nodes x with hu
  set c : ℕ → ℝ := fun j => if j < k then lam j else h (j - k) with hcdef
  -- kept rows of the bordered system
  have hrow : ∀ r ∈ K, ∑ j ∈ range m, rawMatrix t g n k nodes r j * c j = -(lam k * u r) := by
    intro r hr
    by_cases hrk : r < k
    · have h1 := hc.zero r hrk
      rw [evaluate_border] at h1
      have h2 : u r = phi t g (euclid n (nodes r) x) := by
        rw [hu]; unfold uPi; rw [if_pos hrk, euclid_symm]
      have h3 : ∑ j ∈ range m, rawMatrix t g n k nodes r j * c j =
          ∑ j ∈ range (k + sizeP t n), uPi t g n k nodes (nodes r) j *
            (if j < k then lam j else h (j - k)) :=
        sum_congr rfl fun j _ => by rw [uPi_node hrk j]
      rw [h2, h3]
      linarith
    · have hrm : r < m := (kept_sublist t n k groups).2 r hr
      obtain ⟨d, rfl⟩ : ∃ d, r = k + d := ⟨r - k, by omega⟩
      have hd : d < sizeP t n := by omega
      have h1 := hc.orth d hd hr
      rw [sum_range_succ] at h1
      have h2 : ∑ j ∈ range m, rawMatrix t g n k nodes (k + d) j * c j =
          ∑ j ∈ range k, lam j * matP t n (withNode k nodes x) j d := by
        rw [hm, sum_range_add]
        have : ∀ e ∈ range (sizeP t n), rawMatrix t g n k nodes (k + d) (k + e) * c (k + e) = 0 := by
          intro e _; simp [rawMatrix]
        rw [sum_eq_zero this, add_zero]
        refine sum_congr rfl fun j hj => ?_
        have hj := mem_range.mp hj
        simp only [rawMatrix, hcdef, if_neg hrk, if_pos hj, Nat.add_sub_cancel_left]
        rw [mul_comm]
        congr 1
        simp [matP, withNode, hj]
      have h3 : matP t n (withNode k nodes x) k d = u (k + d) := by
        rw [hu]
        simp [matP, withNode, uPi]
      rw [h2]
      rw [h3] at h1
      linarith
  have hc0 : ∀ j < m, j ∉ K → c j = 0 := by
    intro j hj hjK
    have hjk : ¬ j < k := fun h => hjK (mem_kept_node h)
    have := hc.elim (j - k) (by omega) (by rwa [show k + (j - k) = j by omega])
    simp only [hcdef, if_neg hjk, this]
  -- `u · c = - lam k * u^T B u`
  have hq : ∑ j ∈ range m, u j * c j = -(lam k * quadForm m B u) := by
    have e1 : ∀ j ∈ range m, u j * c j =
        u j * ∑ i ∈ range m, B i j * (∑ l ∈ range m, rawMatrix t g n k nodes i l * c l) := by
      intro j hj
      congr 1
      by_cases hjK : j ∈ K
      · have : ∑ i ∈ range m, B i j * (∑ l ∈ range m, rawMatrix t g n k nodes i l * c l) =
            ∑ l ∈ range m, c l * ∑ i ∈ range m, rawMatrix t g n k nodes l i * B i j := by
          simp_rw [mul_sum]
          rw [sum_comm]
          refine sum_congr rfl fun l _ => sum_congr rfl fun i _ => ?_
          rw [rawMatrix_symm i l]; ring
        rw [this, sum_eq_single j]
        · rw [hAB j hjK j hjK, if_pos rfl, mul_one]
        · intro l hl hlj
          by_cases hlK : l ∈ K
          · rw [hAB l hlK j hjK, if_neg hlj, mul_zero]
          · rw [hc0 l (mem_range.mp hl) hlK, zero_mul]
        · intro h; exact absurd hj h
      · rw [hc0 j (mem_range.mp hj) hjK, sum_eq_zero]
        intro i _
        rw [hB0 i j (Or.inr hjK), zero_mul]
    rw [sum_congr rfl e1, quadForm_transpose, mul_sum, ← sum_neg_distrib]
    refine sum_congr rfl fun j _ => ?_
    rw [mul_comm (lam k), mul_assoc, ← mul_neg]
    congr 1
    rw [sum_mul, ← sum_neg_distrib]
    refine sum_congr rfl fun i _ => ?_
    by_cases hiK : i ∈ K
    · rw [hrow i hiK]; ring
    · rw [hB0 i j (Or.inl hiK)]; ring
  have h1 := hc.one
  rw [evaluate_border, euclid_self] at h1
  change ∑ j ∈ range m, u j * c j + _ = 1 at h1
  rw [hq] at h1
  linarith

/-- Bumpiness of an interpolant, `(-1)^(degree + 1) * lambda^T Phi lambda`. -/
noncomputable def bumpiness (t : Rbf) (g : ℝ) (n k : ℕ) (nodes : ℕ → ℕ → ℝ) (lam : ℕ → ℝ) : ℝ :=
  (-1 : ℝ) ^ (degreePolynomial t + 1) *
    ∑ i ∈ range k, ∑ j ∈ range k, lam i * phi t g (euclid n (nodes i) (nodes j)) * lam j

theorem sign_sq (t : Rbf) : muSign t * muSign t = 1 := by
  unfold muSign; cases t <;> simp [degreePolynomial]

theorem sign_succ (t : Rbf) : (-1 : ℝ) ^ (degreePolynomial t + 1) = -muSign t := by
  unfold muSign; cases t <;> simp [degreePolynomial]

/-- The bumpiness of the bordered interpolant is, up to sign, its new coefficient. -/
theorem cardinal_bumpiness {x lam h : ℕ → ℝ} (hc : Cardinal t g n k nodes groups x lam h) :
    bumpiness t g n (k + 1) (withNode k nodes x) lam = -(muSign t * lam k) := by
  unfold bumpiness
  rw [sign_succ, neg_mul]
  congr 2
  have hval : ∀ i ∈ range (k + 1), ∑ j ∈ range (k + 1),
      lam i * phi t g (euclid n (withNode k nodes x i) (withNode k nodes x j)) * lam j =
      lam i * ((if i = k then 1 else 0) -
        ∑ c ∈ range (sizeP t n), matP t n (withNode k nodes x) i c * h c) := by
    intro i hi
    have hi := mem_range.mp hi
    have hv : evaluateRbf t g n (k + 1) (withNode k nodes x) lam h (withNode k nodes x i) =
        if i = k then 1 else 0 := by
      by_cases e : i = k
      · subst e
        rw [if_pos rfl]
        have : withNode i nodes x i = x := by simp [withNode]
        rw [this]; exact hc.one
      · have hik : i < k := by omega
        rw [if_neg e]
        have : withNode k nodes x i = nodes i := by simp [withNode, hik]
        rw [this]; exact hc.zero i hik
    rw [evaluate_eq] at hv
    rw [← hv, add_sub_cancel_right, mul_sum]
    exact sum_congr rfl fun j _ => by ring
  rw [sum_congr rfl hval]
  simp_rw [mul_sub]
  rw [sum_sub_distrib]
  have h1 : ∑ i ∈ range (k + 1), lam i * (if i = k then (1 : ℝ) else 0) = lam k := by
    rw [sum_eq_single k]
    · simp
    · intro i _ h; simp [h]
    · intro h; exact absurd (mem_range.mpr (by omega)) h
  have h2 : ∑ i ∈ range (k + 1), lam i *
      ∑ c ∈ range (sizeP t n), matP t n (withNode k nodes x) i c * h c = 0 := by
    simp_rw [mul_sum]
    rw [sum_comm]
    apply sum_eq_zero
    intro c hcm
    by_cases hK : k + c ∈ keptIndices t n k groups
    · have := hc.orth c (mem_range.mp hcm) hK
      have e : ∀ i ∈ range (k + 1), lam i * (matP t n (withNode k nodes x) i c * h c) =
          (lam i * matP t n (withNode k nodes x) i c) * h c := fun i _ => by ring
      rw [sum_congr rfl e, ← sum_mul, this, zero_mul]
    · rw [hc.elim c (mem_range.mp hcm) hK]
      simp
  rw [h1, h2, sub_zero]

/-- **C68** Gutmann's `h_k` objective: minus the inverse of the bumpiness of the interpolant that
takes value 1 at the new point and 0 at the nodes, divided by the squared distance of the model value
from the target (kept at least `eps_zero`). -/
theorem C68_hk (hinv : InverseOk inv)
    (hB : matrixInverse inv t 0 n k (rbfMatrix t g 0 n k nodes) groups = some B)
    {x lam h : ℕ → ℝ} (hc : Cardinal t g n k nodes groups x lam h) (eps : ℝ) (lam0 h0 : ℕ → ℝ)
    (target : ℝ) :
    bumpiness t g n (k + 1) (withNode k nodes x) lam ≠ 0 ∧
    gutmannHk t g eps n k nodes lam0 h0 B target x =
      -(1 / bumpiness t g n (k + 1) (withNode k nodes x) lam) /
        max ((evaluateRbf t g n k nodes lam0 h0 x - target) ^ 2) eps := by
  have h1 := cardinal_coefficient hinv hB hc
  have hl : lam k ≠ 0 := by intro h; rw [h, zero_mul] at h1; exact zero_ne_one h1
  have hs : muSign t ≠ 0 := by intro h; have := sign_sq t; rw [h, zero_mul] at this; exact zero_ne_one this
  rw [cardinal_bumpiness hc]
  refine ⟨neg_ne_zero.mpr (mul_ne_zero hs hl), ?_⟩
  unfold gutmannHk
  rw [neg_div]
  congr 2
  have h2 : phi t g 0 - quadForm (k + sizeP t n) B (uPi t g n k nodes x) = 1 / lam k := by
    rw [eq_div_iff hl, mul_comm]; exact h1
  have h3 : quadForm (k + sizeP t n) B (uPi t g n k nodes x) - phi t g 0 = -(1 / lam k) := by
    rw [← h2]; ring
  rw [h3]
  have h4 := sign_sq t
  field_simp
  rw [sq, h4]

/-- **C68** The objective `mu_k` is minus the inverse of the bumpiness up to a constant that does not
depend on the point; so it ranks points in the same way. -/
theorem C68_muk_ranking (hinv : InverseOk inv)
    (hB : matrixInverse inv t 0 n k (rbfMatrix t g 0 n k nodes) groups = some B)
    {x y lam h lam' h' : ℕ → ℝ} (hx : Cardinal t g n k nodes groups x lam h)
    (hy : Cardinal t g n k nodes groups y lam' h') :
    gutmannMuk t g n k nodes B x =
      -(1 / bumpiness t g n (k + 1) (withNode k nodes x) lam) - 2 * muSign t * phi t g 0 ∧
    (gutmannMuk t g n k nodes B x ≤ gutmannMuk t g n k nodes B y ↔
      1 / bumpiness t g n (k + 1) (withNode k nodes y) lam' ≤
        1 / bumpiness t g n (k + 1) (withNode k nodes x) lam) := by
  have key : ∀ {x lam h : ℕ → ℝ}, Cardinal t g n k nodes groups x lam h →
      gutmannMuk t g n k nodes B x =
        -(1 / bumpiness t g n (k + 1) (withNode k nodes x) lam) - 2 * muSign t * phi t g 0 := by
    intro x lam h hc
    have h1 := cardinal_coefficient hinv hB hc
    have hl : lam k ≠ 0 := by intro h; rw [h, zero_mul] at h1; exact zero_ne_one h1
    have hs : muSign t ≠ 0 := by
      intro h; have := sign_sq t; rw [h, zero_mul] at this; exact zero_ne_one this
    rw [cardinal_bumpiness hc]
    unfold gutmannMuk
    have h2 : quadForm (k + sizeP t n) B (uPi t g n k nodes x) = phi t g 0 - 1 / lam k := by
      have : phi t g 0 - quadForm (k + sizeP t n) B (uPi t g n k nodes x) = 1 / lam k := by
        rw [eq_div_iff hl, mul_comm]; exact h1
      linarith
    rw [h2]
    have h4 := sign_sq t
    have h5 : muSign t * (1 / lam k) = 1 / (muSign t * lam k) := by
      field_simp
      rw [sq, h4]
    rw [one_div, one_div] at *
    rw [inv_neg, ← h5]
    ring
  refine ⟨key hx, ?_⟩
  rw [key hx, key hy]
  constructor <;> intro h <;> linarith

/-- At a node the quadratic form is `phi(0)`. -/
theorem quadForm_node (hinv : InverseOk inv)
    (hB : matrixInverse inv t 0 n k (rbfMatrix t g 0 n k nodes) groups = some B) {i : ℕ} (hi : i < k) :
    quadForm (k + sizeP t n) B (uPi t g n k nodes (nodes i)) = phi t g 0 := by
  obtain ⟨hAB, hB0⟩ := inverse_exact hinv hB
  have hiK : i ∈ keptIndices t n k groups := mem_kept_node hi
  unfold quadForm
  rw [sum_eq_single i]
  · have : ∑ l ∈ range (k + sizeP t n), uPi t g n k nodes (nodes i) l * B l i = 1 := by
      rw [sum_congr rfl (fun l _ => by rw [uPi_node hi l]), hAB i hiK i hiK, if_pos rfl]
    rw [this, one_mul, uPi, if_pos hi, euclid_self]
  · intro j hj hji
    by_cases hjK : j ∈ keptIndices t n k groups
    · rw [sum_congr rfl (fun l _ => by rw [uPi_node hi l]), hAB i hiK j hjK, if_neg (Ne.symm hji),
        zero_mul]
    · rw [sum_eq_zero, zero_mul]
      intro l _; rw [hB0 l j (Or.inr hjK), mul_zero]
  · intro h; exact absurd (mem_range.mpr (by omega)) h

/-- **C68** The `h_k` objective vanishes at every node. -/
theorem C68_hk_node (hinv : InverseOk inv)
    (hB : matrixInverse inv t 0 n k (rbfMatrix t g 0 n k nodes) groups = some B) {i : ℕ} (hi : i < k)
    (eps : ℝ) (lam0 h0 : ℕ → ℝ) (target : ℝ) :
    gutmannHk t g eps n k nodes lam0 h0 B target (nodes i) = 0 := by
  unfold gutmannHk
  rw [quadForm_node hinv hB hi]
  simp

/-- **C68** (violated part) The documented value `-1/mu_k` vanishes at the nodes, but the value
computed for the multiquadric and Gaussian functions does not: the shift is added instead of
subtracted (`GutmannHkObj` subtracts it). -/
theorem C68_violated_muk_node (hinv : InverseOk inv)
    (hB : matrixInverse inv t 0 n k (rbfMatrix t g 0 n k nodes) groups = some B) {i : ℕ} (hi : i < k)
    (hphi : phi t g 0 ≠ 0) : gutmannMuk t g n k nodes B (nodes i) ≠ 0 := by
  unfold gutmannMuk
  rw [quadForm_node hinv hB hi]
  have hs : muSign t ≠ 0 := by
    intro h; have := sign_sq t; rw [h, zero_mul] at this; exact zero_ne_one this
  rw [neg_ne_zero, ← two_mul]
  exact mul_ne_zero hs (mul_ne_zero two_ne_zero hphi)

/-- A concrete case: the linear function in dimension 1, one node at 0, the new point at 1. -/
example : Cardinal .linear 1 1 1 (fun _ _ => 0) [] (fun _ => 1)
    (fun i => if i = 0 then 1/2 else -1/2) (fun _ => 1/2) := by
  have e0 : euclid 1 (fun _ => 0) (fun _ => 0) = 0 := euclid_self 1 _
  have e1 : euclid 1 (fun _ => 0) (fun _ => 1) = 1 := by simp [euclid]
  have e2 : euclid 1 (fun _ => 1) (fun _ => 0) = 1 := by simp [euclid]
  have e3 : euclid 1 (fun _ => 1) (fun _ => 1) = 0 := euclid_self 1 _
  refine ⟨?_, ?_, ?_, ?_⟩
  · intro i hi
    have : i = 0 := by omega
    subst this
    simp only [evaluateRbf, sizeP, phi, withNode, sum_range_succ, sum_range_zero]
    simp [e0, e1]
    norm_num
  · simp only [evaluateRbf, sizeP, phi, withNode, sum_range_succ, sum_range_zero]
    simp [e2, e3]
    norm_num
  · intro c hc _
    simp only [sizeP] at hc
    have : c = 0 := by omega
    subst this
    simp only [matP, sizeP, withNode, sum_range_succ, sum_range_zero]
    norm_num
  · intro c hc hk
    exact absurd (by simp only [sizeP] at hc; simp [keptIndices, sizeP]; omega) hk

end Rbfopt
