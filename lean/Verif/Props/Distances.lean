import Verif.Model.Distances
import Verif.Lemmas.ListAux

/-!
# The distance functions of `rbfopt_utils` (C96)
-/

namespace Rbfopt

/-- A matrix with `n` columns. -/
def Cols (n : ℕ) (A : List (List ℝ)) : Prop := ∀ p ∈ A, p.length = n

/-- The Euclidean distance of two points with `n` coordinates. -/
noncomputable def eucl (n : ℕ) (p q : List ℝ) : ℝ :=
  Real.sqrt (∑ i ∈ Finset.range n, (p.getD i 0 - q.getD i 0) ^ 2)

theorem dotSelf_sub {n : ℕ} {p q : List ℝ} (hp : p.length = n) (hq : q.length = n) :
    dotSelf (subPy p q) = ∑ i ∈ Finset.range n, (p.getD i 0 - q.getD i 0) ^ 2 := by
  induction n generalizing p q with
  | zero =>
    rw [List.length_eq_zero_iff] at hp hq
    subst hp hq
    simp [dotSelf, subPy]
  | succ n ih =>
    cases p with
    | nil => simp at hp
    | cons a p =>
      cases q with
      | nil => simp at hq
      | cons b q =>
        rw [Finset.sum_range_succ', add_comm]
        have := ih (p := p) (q := q) (by simpa using hp) (by simpa using hq)
        unfold dotSelf subPy at this ⊢
        simp only [List.zipWith_cons_cons, List.map_cons, List.sum_cons, List.getD_cons_succ,
          List.getD_cons_zero]
        rw [this, sq]

/-- The point as an element of Euclidean space. -/
noncomputable def toE (n : ℕ) (p : List ℝ) : EuclideanSpace ℝ (Fin n) :=
  WithLp.toLp 2 (fun i => p.getD i 0)

theorem eucl_dist (n : ℕ) (p q : List ℝ) : eucl n p q = dist (toE n p) (toE n q) := by
  rw [EuclideanSpace.dist_eq]
  unfold eucl toE
  congr 1
  rw [Finset.sum_range]
  refine Finset.sum_congr rfl (fun i _ => ?_)
  rw [Real.dist_eq, sq_abs]

theorem toE_inj {n : ℕ} {p q : List ℝ} (hp : p.length = n) (hq : q.length = n)
    (h : toE n p = toE n q) : p = q := by
  refine List.ext_getElem (by omega) (fun i h1 h2 => ?_)
  have := congrArg (fun x : EuclideanSpace ℝ (Fin n) => x ⟨i, by omega⟩) h
  simpa [toE, List.getD_eq_getElem?_getD, h1, h2] using this

/-- **C96** `distance()` returns the Euclidean distance of points with the same number of coordinates, and
refuses points of different dimensions. -/
theorem C96_distance (p q : List ℝ) :
    (p.length = q.length → distancePy p q = .ok (eucl p.length p q)) ∧
    (p.length ≠ q.length → distancePy p q = .error .assertionError) := by
  unfold distancePy
  refine ⟨fun h => ?_, fun h => by rw [if_neg h]⟩
  rw [if_pos h, dotSelf_sub rfl h.symm]
  rfl

/-- **C96** The distance is a metric on the points with `n` coordinates. -/
theorem C96_metric (n : ℕ) :
    (∀ p q, 0 ≤ eucl n p q ∧ eucl n p q = eucl n q p) ∧
    (∀ p q : List ℝ, p.length = n → q.length = n → (eucl n p q = 0 ↔ p = q)) ∧
    (∀ p q r, eucl n p r ≤ eucl n p q + eucl n q r) := by
  refine ⟨fun p q => ⟨Real.sqrt_nonneg _, ?_⟩, fun p q hp hq => ?_, fun p q r => ?_⟩
  · rw [eucl_dist, eucl_dist, dist_comm]
  · rw [eucl_dist, dist_eq_zero]
    exact ⟨toE_inj hp hq, fun h => by rw [h]⟩
  · rw [eucl_dist, eucl_dist, eucl_dist]; exact dist_triangle _ _ _

/-- **C96** `norm()` is the distance from the origin. -/
theorem C96_norm (p : List ℝ) : normPy p = eucl p.length p (List.replicate p.length 0) := by
  unfold normPy eucl
  congr 1
  rw [← dotSelf_sub rfl (by simp)]
  congr 1
  unfold subPy
  induction p with
  | nil => rfl
  | cons a p ih => rw [List.length_cons, List.replicate_succ, List.zipWith_cons_cons, ← ih, sub_zero]

theorem cdist_ok {n : ℕ} {A B : List (List ℝ)} (hA : Cols n A) (hB : Cols n B) :
    cdistPy A B = .ok (A.map (fun p => B.map (fun q => eucl n p q))) := by
  unfold cdistPy
  rw [if_pos (fun p hp q hq => (hA p hp).trans (hB q hq).symm)]
  congr 1
  refine List.map_congr_left (fun p hp => List.map_congr_left (fun q hq => ?_))
  rw [dotSelf_sub (hA p hp) (hB q hq)]
  rfl

theorem hasEntries_iff {n : ℕ} (hn : 0 < n) {A : List (List ℝ)} (hA : Cols n A) :
    hasEntries A = true ↔ A ≠ [] := by
  unfold hasEntries
  rw [List.any_eq_true]
  constructor
  · rintro ⟨r, hr, -⟩ rfl; simp at hr
  · intro h
    obtain ⟨r, hr⟩ := List.exists_mem_of_ne_nil A h
    refine ⟨r, hr, ?_⟩
    have := hA r hr
    cases r with
    | nil => simp at this; omega
    | cons => rfl

theorem not_isEmpty {n : ℕ} (hn : 0 < n) {p : List ℝ} (hp : p.length = n) : (!p.isEmpty) = true := by
  cases p with
  | nil => simp at hp; omega
  | cons => rfl

/-- The value `d` is the distance from `p` of the `i`-th point, and the smallest; the points before are farther
away. -/
structure NearestAt (n : ℕ) (p : List ℝ) (others : List (List ℝ)) (d : ℝ) (i : ℕ) : Prop where
  at_i : ∃ q, others[i]? = some q ∧ d = eucl n p q
  le : ∀ q ∈ others, d ≤ eucl n p q
  first : ∀ (j : ℕ) (q : List ℝ), j < i → others[j]? = some q → d < eucl n p q

/-- The value `d` is the distance from `p` of the `i`-th point, and the largest; the points before are
nearer. -/
structure FarthestAt (n : ℕ) (p : List ℝ) (others : List (List ℝ)) (d : ℝ) (i : ℕ) : Prop where
  at_i : ∃ q, others[i]? = some q ∧ d = eucl n p q
  ge : ∀ q ∈ others, eucl n p q ≤ d
  first : ∀ (j : ℕ) (q : List ℝ), j < i → others[j]? = some q → eucl n p q < d

theorem argmin_row {n : ℕ} {p : List ℝ} {others : List (List ℝ)} (hne : others ≠ []) :
    ∃ d i, argminVal (others.map (fun q => eucl n p q)) = some (d, i) ∧ NearestAt n p others d i := by
  cases h : argminVal (others.map (fun q => eucl n p q)) with
  | none => rw [argminVal_none, List.map_eq_nil_iff] at h; exact absurd h hne
  | some r =>
    obtain ⟨d, i⟩ := r
    obtain ⟨h1, h2, h3⟩ := argminVal_some h
    rw [List.getElem?_map, Option.map_eq_some_iff] at h1
    obtain ⟨q, hq, e⟩ := h1
    refine ⟨d, i, rfl, ⟨q, hq, e.symm⟩, fun q hq => h2 _ (List.mem_map_of_mem hq), fun j q hj hq => ?_⟩
    exact h3 j _ hj (by rw [List.getElem?_map, hq]; rfl)

theorem argmax_row {n : ℕ} {p : List ℝ} {others : List (List ℝ)} (hne : others ≠ []) :
    ∃ d i, argmaxVal (others.map (fun q => eucl n p q)) = some (d, i) ∧ FarthestAt n p others d i := by
  cases h : argmaxVal (others.map (fun q => eucl n p q)) with
  | none => rw [argmaxVal_none, List.map_eq_nil_iff] at h; exact absurd h hne
  | some r =>
    obtain ⟨d, i⟩ := r
    obtain ⟨h1, h2, h3⟩ := argmaxVal_some h
    rw [List.getElem?_map, Option.map_eq_some_iff] at h1
    obtain ⟨q, hq, e⟩ := h1
    refine ⟨d, i, rfl, ⟨q, hq, e.symm⟩, fun q hq => h2 _ (List.mem_map_of_mem hq), fun j q hj hq => ?_⟩
    exact h3 j _ hj (by rw [List.getElem?_map, hq]; rfl)

/-- **C96** `get_min_distance()` and `get_min_distance_and_index()` return the smallest distance of the point from
the others, the latter with the index of the first point at this distance. -/
theorem C96_min_distance {n : ℕ} (hn : 0 < n) {p : List ℝ} {others : List (List ℝ)} (hp : p.length = n)
    (ho : Cols n others) (hne : others ≠ []) :
    ∃ d i, getMinDistancePy p others = .ok [d] ∧ getMinDistanceAndIndexPy p others = .ok (d, i) ∧
      NearestAt n p others d i := by
  obtain ⟨d, i, h1, h2⟩ := argmin_row (n := n) (p := p) hne
  have hc : cdistPy [p] others = .ok [others.map (fun q => eucl n p q)] :=
    cdist_ok (A := [p]) (fun r hr => by rw [List.mem_singleton.mp hr]; exact hp) ho
  have hcond : (!p.isEmpty) = true ∧ hasEntries others = true :=
    ⟨not_isEmpty hn hp, (hasEntries_iff hn ho).mpr hne⟩
  refine ⟨d, i, ?_, ?_, h2⟩
  · unfold getMinDistancePy
    rw [if_pos hcond, hc]
    simp [Except.map, amin1, h1]
  · unfold getMinDistanceAndIndexPy
    rw [if_pos hcond, hc]
    simp [h1]

/-- **C96** `get_max_distance()` and `get_max_distance_and_index()` return the largest distance, the latter with
the index of the first point at this distance. -/
theorem C96_max_distance {n : ℕ} (hn : 0 < n) {p : List ℝ} {others : List (List ℝ)} (hp : p.length = n)
    (ho : Cols n others) (hne : others ≠ []) :
    ∃ d i, getMaxDistancePy p others = .ok [d] ∧ getMaxDistanceAndIndexPy p others = .ok (d, i) ∧
      FarthestAt n p others d i := by
  obtain ⟨d, i, h1, h2⟩ := argmax_row (n := n) (p := p) hne
  have hc : cdistPy [p] others = .ok [others.map (fun q => eucl n p q)] :=
    cdist_ok (A := [p]) (fun r hr => by rw [List.mem_singleton.mp hr]; exact hp) ho
  have hcond : (!p.isEmpty) = true ∧ hasEntries others = true :=
    ⟨not_isEmpty hn hp, (hasEntries_iff hn ho).mpr hne⟩
  refine ⟨d, i, ?_, ?_, h2⟩
  · unfold getMaxDistancePy
    rw [if_pos hcond, hc]
    simp [Except.map, amax1, h1]
  · unfold getMaxDistanceAndIndexPy
    rw [if_pos hcond, hc]
    simp [h1]

/-- **C96** All four functions refuse an empty point or an empty set of points. -/
theorem C96_empty (p : List ℝ) (others : List (List ℝ)) (h : p = [] ∨ others = []) :
    getMinDistancePy p others = .error .assertionError ∧
    getMinDistanceAndIndexPy p others = .error .assertionError ∧
    getMaxDistancePy p others = .error .assertionError ∧
    getMaxDistanceAndIndexPy p others = .error .assertionError := by
  have hcond : ¬ ((!p.isEmpty) = true ∧ hasEntries others = true) := by
    rcases h with rfl | rfl
    · simp
    · simp [hasEntries]
  unfold getMinDistancePy getMinDistanceAndIndexPy getMaxDistancePy getMaxDistanceAndIndexPy
  simp only [if_neg hcond, and_self]

/-- **C96** A point and a set of points with different numbers of coordinates: the four functions raise
`ValueError`, the bulk version refuses them with `AssertionError`. -/
theorem C96_dimensions {n m : ℕ} (hn : 0 < n) (hm : 0 < m) (hnm : n ≠ m) {p : List ℝ} {others : List (List ℝ)}
    (hp : p.length = n) (ho : Cols m others) (hne : others ≠ []) :
    getMinDistancePy p others = .error .valueError ∧ getMinDistanceAndIndexPy p others = .error .valueError ∧
    getMaxDistancePy p others = .error .valueError ∧ getMaxDistanceAndIndexPy p others = .error .valueError ∧
    ∀ points : List (List ℝ), Cols n points → bulkMinDistancePy points others = .error .assertionError := by
  have hc : cdistPy [p] others = .error .valueError := by
    unfold cdistPy
    rw [if_neg]
    intro h
    obtain ⟨q, hq⟩ := List.exists_mem_of_ne_nil _ hne
    exact hnm (hp ▸ ho q hq ▸ h p (by simp) q hq)
  have hcond : (!p.isEmpty) = true ∧ hasEntries others = true :=
    ⟨not_isEmpty hn hp, (hasEntries_iff hm ho).mpr hne⟩
  refine ⟨?_, ?_, ?_, ?_, fun points hpt => ?_⟩
  · unfold getMinDistancePy; rw [if_pos hcond, hc]; rfl
  · unfold getMinDistanceAndIndexPy; rw [if_pos hcond, hc]
  · unfold getMaxDistancePy; rw [if_pos hcond, hc]; rfl
  · unfold getMaxDistanceAndIndexPy; rw [if_pos hcond, hc]
  · unfold bulkMinDistancePy
    rw [if_neg]
    rintro ⟨h1, -, h3⟩
    cases points with
    | nil => simp [hasEntries] at h1
    | cons a A =>
      cases others with
      | nil => exact hne rfl
      | cons b B => exact hnm (hpt a (by simp) ▸ ho b (by simp) ▸ h3)

/-- The hypotheses are met. -/
theorem C96_dimensions_example : getMinDistancePy [1, 2] [[3], [4]] = .error .valueError :=
  (C96_dimensions (n := 2) (m := 1) (by decide) (by decide) (by decide) rfl (by simp [Cols]) (by simp)).1

/-- **C96** `bulk_get_min_distance()` returns, for every point of the first set, what `get_min_distance()`
returns. -/
theorem C96_bulk {n : ℕ} (hn : 0 < n) {points others : List (List ℝ)} (hp : Cols n points)
    (ho : Cols n others) (hpne : points ≠ []) (hne : others ≠ []) :
    ∃ ds, bulkMinDistancePy points others = .ok ds ∧ ds.length = points.length ∧
      ∀ (i : ℕ) (p : List ℝ), points[i]? = some p →
        ∃ d, ds[i]? = some d ∧ getMinDistancePy p others = .ok [d] := by
  have hhead : ∀ {A : List (List ℝ)}, Cols n A → A ≠ [] → (A.headD []).length = n := by
    intro A hA hA'
    cases A with
    | nil => exact absurd rfl hA'
    | cons a A => exact hA a (by simp)
  have hcond : hasEntries points = true ∧ hasEntries others = true ∧
      (points.headD []).length = (others.headD []).length :=
    ⟨(hasEntries_iff hn hp).mpr hpne, (hasEntries_iff hn ho).mpr hne, (hhead hp hpne).trans (hhead ho hne).symm⟩
  choose f g hf using fun p : List ℝ => argmin_row (n := n) (p := p) hne
  have hrow : ∀ A : List (List ℝ), amin1 (A.map (fun p => others.map (fun q => eucl n p q))) = A.map f := by
    intro A
    induction A with
    | nil => rfl
    | cons a A ih =>
      unfold amin1 at ih ⊢
      rw [List.map_cons, List.filterMap_cons, (hf a).1, List.map_cons]
      exact congrArg (f a :: ·) ih
  refine ⟨points.map f, ?_, by simp, fun i p hi => ⟨f p, by rw [List.getElem?_map, hi]; rfl, ?_⟩⟩
  · unfold bulkMinDistancePy
    rw [if_pos hcond, cdist_ok hp ho]
    simp only [Except.map]
    rw [hrow]
  · obtain ⟨d, j, h1, -, h3⟩ := C96_min_distance hn (hp p (List.mem_of_getElem? hi)) ho hne
    rw [h1]
    congr 2
    obtain ⟨q, hq, e⟩ := h3.at_i
    obtain ⟨q', hq', e'⟩ := (hf p).2.at_i
    refine le_antisymm ?_ ?_
    · rw [e']; exact h3.le q' (List.mem_of_getElem? hq')
    · rw [e]; exact (hf p).2.le q (List.mem_of_getElem? hq)

/-- **C96** The distance from a set of points is zero exactly at its points, and changes by at most the distance
between two points. -/
theorem C96_distance_from_set {n : ℕ} {p p' : List ℝ} {others : List (List ℝ)}
    (hp : p.length = n) (ho : Cols n others) {d d' : ℝ} {i i' : ℕ}
    (h : NearestAt n p others d i) (h' : NearestAt n p' others d' i') :
    (d = 0 ↔ p ∈ others) ∧ |d - d'| ≤ eucl n p p' := by
  obtain ⟨hpos, hzero, htri⟩ := C96_metric n
  obtain ⟨q, hq, e⟩ := h.at_i
  obtain ⟨q', hq', e'⟩ := h'.at_i
  have hm := List.mem_of_getElem? hq
  have hm' := List.mem_of_getElem? hq'
  refine ⟨⟨fun h0 => ?_, fun hmem => ?_⟩, ?_⟩
  · rw [h0] at e
    rw [(hzero p q hp (ho q hm)).mp e.symm]
    exact hm
  · have h1 := h.le p hmem
    rw [(hzero p p hp hp).mpr rfl] at h1
    have h2 := (hpos p q).1
    linarith
  · have h1 := h.le q' hm'
    have h2 := h'.le q hm
    have h3 := htri p p' q'
    have h4 := htri p' p q
    have h5 := (hpos p p').2
    rw [abs_le]
    constructor <;> linarith

/-- The distances of (0, 0) from (3, 4) and (6, 8). -/
example : eucl 2 [0, 0] [3, 4] = 5 ∧
    NearestAt 2 [0, 0] [[6, 8], [3, 4]] 5 1 ∧ FarthestAt 2 [0, 0] [[6, 8], [3, 4]] 10 0 := by
  have h1 : eucl 2 [0, 0] [3, 4] = 5 := by
    unfold eucl
    rw [show ∑ i ∈ Finset.range 2, (([0, 0] : List ℝ).getD i 0 - ([3, 4] : List ℝ).getD i 0) ^ 2 = 5 ^ 2 by
      norm_num [Finset.sum_range_succ], Real.sqrt_sq (by norm_num)]
  have h2 : eucl 2 [0, 0] [6, 8] = 10 := by
    unfold eucl
    rw [show ∑ i ∈ Finset.range 2, (([0, 0] : List ℝ).getD i 0 - ([6, 8] : List ℝ).getD i 0) ^ 2 = 10 ^ 2 by
      norm_num [Finset.sum_range_succ], Real.sqrt_sq (by norm_num)]
  refine ⟨h1, ⟨⟨_, rfl, h1.symm⟩, ?_, ?_⟩, ⟨⟨_, rfl, h2.symm⟩, ?_, ?_⟩⟩
  · intro q hq
    simp only [List.mem_cons, List.not_mem_nil, or_false] at hq
    rcases hq with rfl | rfl
    · rw [h2]; norm_num
    · rw [h1]
  · intro j q hj hq
    obtain rfl : j = 0 := by omega
    obtain rfl : [6, 8] = q := by simpa using hq
    rw [h2]; norm_num
  · intro q hq
    simp only [List.mem_cons, List.not_mem_nil, or_false] at hq
    rcases hq with rfl | rfl
    · rw [h2]
    · rw [h1]; norm_num
  · intro j q hj; omega

end Rbfopt
