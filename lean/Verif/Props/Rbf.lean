import Verif.Model.Rbf
import Mathlib.Tactic.Positivity
import Mathlib.Tactic.FieldSimp
import Mathlib.Tactic.IntervalCases
import Mathlib.Algebra.Order.BigOperators.Group.Finset

/-!
# RBF interpolants (C43, C44, C45)
-/

namespace Rbfopt

open Finset

/-- What is assumed of `np.linalg.solve`: a returned vector solves the system (exact arithmetic). -/
def SolverOk (solve : ℕ → (ℕ → ℕ → ℝ) → (ℕ → ℝ) → Option (ℕ → ℝ)) : Prop :=
  ∀ m A b x, solve m A b = some x → ∀ i < m, ∑ j ∈ range m, A i j * x j = b i

/-- What is assumed of `np.linalg.inv`: a returned matrix is a right inverse. -/
def InverseOk (inv : ℕ → (ℕ → ℕ → ℝ) → Option (ℕ → ℕ → ℝ)) : Prop :=
  ∀ m A B, inv m A = some B → ∀ i < m, ∀ j < m, ∑ l ∈ range m, A i l * B l j = if i = j then 1 else 0

/-! ## C45 -/

theorem euclid_symm (n : ℕ) (p q : ℕ → ℝ) : euclid n p q = euclid n q p := by
  unfold euclid
  congr 1
  exact sum_congr rfl fun i _ => by ring

theorem euclid_self (n : ℕ) (p : ℕ → ℝ) : euclid n p p = 0 := by
  unfold euclid; simp

theorem euclid_nonneg (n : ℕ) (p q : ℕ → ℝ) : 0 ≤ euclid n p q := Real.sqrt_nonneg _

theorem zeroTiny_near {eps : ℝ} (h : 0 ≤ eps) (x : ℝ) : |x - zeroTiny eps x| ≤ eps := by
  unfold zeroTiny
  split
  · rename_i hx; rw [sub_zero]; exact hx.le
  · simpa using h

/-- **C45** The RBF matrix is symmetric, for every RBF type, shape parameter and node set. -/
theorem C45_symmetric (t : Rbf) (g eps : ℝ) (n k : ℕ) (nodes : ℕ → ℕ → ℝ) (i j : ℕ) :
    rbfMatrix t g eps n k nodes i j = rbfMatrix t g eps n k nodes j i := by
  unfold rbfMatrix rawMatrix
  by_cases hi : i < k <;> by_cases hj : j < k <;> simp [hi, hj, euclid_symm n (nodes i)]

/-- **C45** Block structure: the basis function of the distances in the upper left `k × k` block, the
node coordinates followed by a column of ones (degree 1), a column of ones (degree 0) or nothing to
its right, the transpose below, and zeros in the lower right block; entries smaller than `eps_zero`
are replaced by zero.  The size is `k + n + 1`, `k + 1` or `k`. -/
theorem C45_blocks (t : Rbf) (g eps : ℝ) (n k : ℕ) (nodes : ℕ → ℕ → ℝ) :
    (∀ i < k, ∀ j < k, rbfMatrix t g eps n k nodes i j =
      zeroTiny eps (phi t g (euclid n (nodes i) (nodes j)))) ∧
    (∀ i < k, (degreePolynomial t = 1 → (∀ c < n, rbfMatrix t g eps n k nodes i (k + c) =
        zeroTiny eps (nodes i c)) ∧ rbfMatrix t g eps n k nodes i (k + n) = zeroTiny eps 1) ∧
      (degreePolynomial t = 0 → rbfMatrix t g eps n k nodes i k = zeroTiny eps 1)) ∧
    (∀ c d, rbfMatrix t g eps n k nodes (k + c) (k + d) = 0) ∧
    (degreePolynomial t = 1 → sizeP t n = n + 1) ∧ (degreePolynomial t = 0 → sizeP t n = 1) ∧
    (degreePolynomial t = -1 → sizeP t n = 0) := by
  refine ⟨?_, ?_, ?_, ?_, ?_, ?_⟩
  · intro i hi j hj; simp [rbfMatrix, rawMatrix, hi, hj]
  · intro i hi
    have hx : ∀ c, rbfMatrix t g eps n k nodes i (k + c) = zeroTiny eps (matP t n nodes i c) := by
      intro c
      simp only [rbfMatrix, rawMatrix, if_pos hi, if_neg (show ¬ k + c < k by omega),
        Nat.add_sub_cancel_left]
    refine ⟨fun ht => ⟨fun c hc => ?_, ?_⟩, fun ht => ?_⟩
    · have hp : sizeP t n = n + 1 := by cases t <;> simp_all [degreePolynomial, sizeP]
      rw [hx, matP, if_pos hp, if_neg (by omega)]
    · have hp : sizeP t n = n + 1 := by cases t <;> simp_all [degreePolynomial, sizeP]
      rw [hx, matP, if_pos hp, if_pos rfl]
    · have hp : sizeP t n = 1 := by cases t <;> simp_all [degreePolynomial, sizeP]
      have := hx 0
      rw [add_zero] at this
      rw [this, matP, hp]
      by_cases hn : n = 0
      · subst hn; simp
      · rw [if_neg (by omega)]
  · intro c d
    simp [rbfMatrix, rawMatrix, zeroTiny]
  · cases t <;> simp [degreePolynomial, sizeP]
  · cases t <;> simp [degreePolynomial, sizeP]
  · cases t <;> simp [degreePolynomial, sizeP]

/-- **C45** The basis functions: value on the diagonal, and their documented formulas for
nonnegative distances. -/
theorem C45_basis_functions (g r : ℝ) (hr : 0 ≤ r) :
    phi .cubic g r = r ^ 3 ∧ phi .linear g r = r ∧
    phi .thinPlateSpline g r = r ^ 2 * Real.log r ∧
    phi .multiquadric g r = Real.sqrt (r ^ 2 + g ^ 2) ∧ phi .gaussian g r = Real.exp (-g * r ^ 2) ∧
    phi .cubic g 0 = 0 ∧ phi .linear g 0 = 0 ∧ phi .thinPlateSpline g 0 = 0 ∧
    phi .multiquadric g 0 = |g| ∧ phi .gaussian g 0 = 1 := by
  refine ⟨by simp only [phi]; ring, rfl, ?_, ?_, ?_, by simp [phi], rfl, by simp [phi], ?_,
    by simp [phi]⟩
  · rcases hr.eq_or_lt with h | h
    · subst h; simp [phi]
    · simp only [phi, Real.sign_of_pos h]
      simp; left; ring
  · simp only [phi]; congr 1; ring
  · simp only [phi]; congr 1; ring
  · simp only [phi, mul_zero, zero_add]
    exact Real.sqrt_mul_self_eq_abs g

/-! ## Scattering the reduced solution -/

theorem kept_sublist (t : Rbf) (n k : ℕ) (groups : List (List ℕ)) :
    (keptIndices t n k groups).Nodup ∧ ∀ j ∈ keptIndices t n k groups, j < k + sizeP t n := by
  unfold keptIndices
  split
  · exact ⟨List.nodup_range.filter _, fun j hj => List.mem_range.mp (List.mem_of_mem_filter hj)⟩
  · exact ⟨List.nodup_range, fun j hj => List.mem_range.mp hj⟩

theorem mem_kept_node {t : Rbf} {n k : ℕ} {groups : List (List ℕ)} {i : ℕ} (h : i < k) :
    i ∈ keptIndices t n k groups := by
  unfold keptIndices
  split
  · rw [List.mem_filter]
    refine ⟨List.mem_range.mpr (by omega), ?_⟩
    simp only [decide_eq_true_eq]
    intro e _; omega
  · exact List.mem_range.mpr (by omega)

/-- Summing over the kept columns of the reduced system is summing over all columns with the
scattered solution. -/
theorem sum_scatterCoef {kept : List ℕ} (hn : kept.Nodup) {m : ℕ} (hm : ∀ j ∈ kept, j < m)
    (a x : ℕ → ℝ) :
    ∑ j ∈ range kept.length, a (kept.getD j 0) * x j = ∑ j ∈ range m, a j * scatterCoef kept x j := by
  have h1 : ∑ j ∈ range m, a j * scatterCoef kept x j = ∑ j ∈ kept.toFinset, a j * x (kept.idxOf j) := by
    symm
    have : ∑ j ∈ kept.toFinset, a j * x (kept.idxOf j) =
        ∑ j ∈ kept.toFinset, a j * scatterCoef kept x j := by
      apply sum_congr rfl
      intro j hj
      rw [List.mem_toFinset] at hj
      rw [scatterCoef, if_pos hj]
    rw [this]
    apply sum_subset
    · intro j hj
      rw [List.mem_toFinset] at hj
      exact mem_range.mpr (hm j hj)
    · intro j _ hj
      rw [List.mem_toFinset] at hj
      rw [scatterCoef, if_neg hj, mul_zero]
  rw [h1]
  apply sum_nbij' (fun j => kept.getD j 0) (fun j => kept.idxOf j)
  · intro j hj
    rw [mem_range] at hj
    rw [List.mem_toFinset, List.getD_eq_getElem?_getD, List.getElem?_eq_getElem hj]
    exact List.getElem_mem hj
  · intro j hj
    rw [List.mem_toFinset] at hj
    exact mem_range.mpr (List.idxOf_lt_length_of_mem hj)
  · intro j hj
    rw [mem_range] at hj
    simp only [List.getD_eq_getElem?_getD, List.getElem?_eq_getElem hj, Option.getD_some]
    exact hn.idxOf_getElem j hj
  · intro j hj
    rw [List.mem_toFinset] at hj
    have := List.idxOf_lt_length_of_mem hj
    simp [List.getD_eq_getElem?_getD, List.getElem?_eq_getElem this]
  · intro j hj
    rw [mem_range] at hj
    simp only [List.getD_eq_getElem?_getD, List.getElem?_eq_getElem hj, Option.getD_some]
    rw [hn.idxOf_getElem j hj]

/-- Every kept row of the full system is satisfied by the scattered solution. -/
theorem kept_row {solve : ℕ → (ℕ → ℕ → ℝ) → (ℕ → ℝ) → Option (ℕ → ℝ)} (hs : SolverOk solve) {t : Rbf}
    {n k : ℕ} {A : ℕ → ℕ → ℝ} {val lam h : ℕ → ℝ} {groups : List (List ℕ)}
    (hc : rbfCoefficients solve t n k A val groups = some (lam, h)) {r : ℕ}
    (hr : r ∈ keptIndices t n k groups) :
    ∑ j ∈ range k, A r j * lam j + ∑ c ∈ range (sizeP t n), A r (k + c) * h c =
      if r < k then val r else 0 := by
  unfold rbfCoefficients at hc
  dsimp only at hc
  split at hc
  · cases hc
  · rename_i x hx
    simp only [Option.some.injEq, Prod.mk.injEq] at hc
    obtain ⟨rfl, rfl⟩ := hc
    obtain ⟨hn, hm⟩ := kept_sublist t n k groups
    have hlt := List.idxOf_lt_length_of_mem hr
    have := hs _ _ _ _ hx _ hlt
    have e : (keptIndices t n k groups).getD ((keptIndices t n k groups).idxOf r) 0 = r := by
      simp [List.getD_eq_getElem?_getD, List.getElem?_eq_getElem hlt]
    rw [e] at this
    rw [sum_scatterCoef hn hm (A r) x] at this
    rw [← this, sum_range_add]

theorem evaluate_eq (t : Rbf) (g : ℝ) (n k : ℕ) (nodes : ℕ → ℕ → ℝ) (lam h : ℕ → ℝ) (i : ℕ) :
    evaluateRbf t g n k nodes lam h (nodes i) =
      ∑ j ∈ range k, phi t g (euclid n (nodes i) (nodes j)) * lam j +
        ∑ c ∈ range (sizeP t n), matP t n nodes i c * h c := by
  unfold evaluateRbf
  simp only
  rw [add_assoc]
  congr 1
  · exact sum_congr rfl fun j _ => mul_comm _ _
  · cases t <;> simp only [sizeP, matP, Nat.add_sub_cancel, if_true]
    · rw [sum_range_succ]
      simp only [if_true, one_mul, Nat.zero_lt_succ, gt_iff_lt]
      congr 1
      apply sum_congr rfl
      intro c hc
      rw [if_neg (by have := mem_range.mp hc; omega), mul_comm]
    · rw [sum_range_succ]
      simp only [if_true, one_mul, Nat.zero_lt_succ, gt_iff_lt]
      congr 1
      apply sum_congr rfl
      intro c hc
      rw [if_neg (by have := mem_range.mp hc; omega), mul_comm]
    · by_cases hn : n = 0
      · subst hn; simp
      · simp [hn]
    · by_cases hn : n = 0
      · subst hn; simp
      · simp [hn]
    · simp

/-! ## C43 -/

/-- **C43** The interpolant built from the solution of the linear system takes the given value at
every node, up to `eps_zero` times the sum of the absolute coefficients (the error of zeroing small
matrix entries); for every RBF type, shape parameter, node set, values and groups of categorical
binaries. -/
theorem C43_interpolates {solve : ℕ → (ℕ → ℕ → ℝ) → (ℕ → ℝ) → Option (ℕ → ℝ)} (hs : SolverOk solve)
    {t : Rbf} {g eps : ℝ} (he : 0 ≤ eps) {n k : ℕ} {nodes : ℕ → ℕ → ℝ} {val lam h : ℕ → ℝ}
    {groups : List (List ℕ)}
    (hc : rbfCoefficients solve t n k (rbfMatrix t g eps n k nodes) val groups = some (lam, h))
    {i : ℕ} (hi : i < k) :
    |evaluateRbf t g n k nodes lam h (nodes i) - val i| ≤
      eps * (∑ j ∈ range k, |lam j| + ∑ c ∈ range (sizeP t n), |h c|) := by
  have hrow := kept_row hs hc (mem_kept_node (t := t) (n := n) (groups := groups) hi)
  rw [if_pos hi] at hrow
  rw [evaluate_eq, ← hrow]
  have h1 : ∀ j ∈ range k, rbfMatrix t g eps n k nodes i j * lam j =
      zeroTiny eps (phi t g (euclid n (nodes i) (nodes j))) * lam j := by
    intro j hj
    rw [rbfMatrix, rawMatrix, if_pos hi, if_pos (mem_range.mp hj)]
  have h2 : ∀ c ∈ range (sizeP t n), rbfMatrix t g eps n k nodes i (k + c) * h c =
      zeroTiny eps (matP t n nodes i c) * h c := by
    intro c _
    rw [rbfMatrix, rawMatrix, if_pos hi, if_neg (by omega), Nat.add_sub_cancel_left]
  rw [sum_congr rfl h1, sum_congr rfl h2]
  have h3 : ∑ j ∈ range k, phi t g (euclid n (nodes i) (nodes j)) * lam j +
      ∑ c ∈ range (sizeP t n), matP t n nodes i c * h c -
      (∑ j ∈ range k, zeroTiny eps (phi t g (euclid n (nodes i) (nodes j))) * lam j +
        ∑ c ∈ range (sizeP t n), zeroTiny eps (matP t n nodes i c) * h c) =
      ∑ j ∈ range k, (phi t g (euclid n (nodes i) (nodes j)) -
        zeroTiny eps (phi t g (euclid n (nodes i) (nodes j)))) * lam j +
      ∑ c ∈ range (sizeP t n), (matP t n nodes i c - zeroTiny eps (matP t n nodes i c)) * h c := by
    rw [sum_congr rfl (fun j _ => sub_mul _ _ _), sum_congr rfl (fun j _ => sub_mul _ _ _),
      sum_sub_distrib, sum_sub_distrib]
    ring
  rw [h3, mul_add, mul_sum, mul_sum]
  refine (abs_add_le _ _).trans (add_le_add ?_ ?_)
  · refine (abs_sum_le_sum_abs _ _).trans (sum_le_sum fun j _ => ?_)
    rw [abs_mul]
    exact mul_le_mul_of_nonneg_right (zeroTiny_near he _) (abs_nonneg _)
  · refine (abs_sum_le_sum_abs _ _).trans (sum_le_sum fun j _ => ?_)
    rw [abs_mul]
    exact mul_le_mul_of_nonneg_right (zeroTiny_near he _) (abs_nonneg _)

/-- **C43** Without zeroing (`eps_zero = 0`) the interpolation is exact. -/
theorem C43_interpolates_exactly {solve : ℕ → (ℕ → ℕ → ℝ) → (ℕ → ℝ) → Option (ℕ → ℝ)}
    (hs : SolverOk solve) {t : Rbf} {g : ℝ} {n k : ℕ} {nodes : ℕ → ℕ → ℝ} {val lam h : ℕ → ℝ}
    {groups : List (List ℕ)}
    (hc : rbfCoefficients solve t n k (rbfMatrix t g 0 n k nodes) val groups = some (lam, h))
    {i : ℕ} (hi : i < k) : evaluateRbf t g n k nodes lam h (nodes i) = val i := by
  have := C43_interpolates hs le_rfl hc hi
  rw [zero_mul, abs_nonpos_iff, sub_eq_zero] at this
  exact this

/-- The nodes encode categorical variables: the groups consist of different coordinates below `n`, no
coordinate is in two groups, and in every node exactly one coordinate of each group is 1. -/
structure OneHotNodes (n k : ℕ) (nodes : ℕ → ℕ → ℝ) (groups : List (List ℕ)) : Prop where
  nonempty : ∀ e ∈ groups, e ≠ []
  lt : ∀ e ∈ groups, ∀ c ∈ e, c < n
  nodup : ∀ e ∈ groups, e.Nodup
  disjoint : ∀ e ∈ groups, ∀ f ∈ groups, ∀ c, c ∈ e → c ∈ f → e = f
  binary : ∀ i < k, ∀ e ∈ groups, ∀ c ∈ e, nodes i c = 0 ∨ nodes i c = 1
  sum_one : ∀ i < k, ∀ e ∈ groups, (e.map (nodes i)).sum = 1

/-- **C43** Eliminating the last column of each categorical group loses nothing: the side condition
`∑ λ_j x_j = 0` of the eliminated coordinate holds as well, and so does the one for every other
coordinate and for the constant (`eps_zero ≤ 1`; entries below `eps_zero` count as zero). -/
theorem C43_side_conditions {solve : ℕ → (ℕ → ℕ → ℝ) → (ℕ → ℝ) → Option (ℕ → ℝ)}
    (hs : SolverOk solve) {t : Rbf} (ht : degreePolynomial t = 1) {g eps : ℝ} (he1 : eps ≤ 1)
    {n k : ℕ} {nodes : ℕ → ℕ → ℝ} {val lam h : ℕ → ℝ} {groups : List (List ℕ)}
    (hg : OneHotNodes n k nodes groups)
    (hc : rbfCoefficients solve t n k (rbfMatrix t g eps n k nodes) val groups = some (lam, h)) :
    ∑ j ∈ range k, lam j = 0 ∧
    ∀ c < n, ∑ j ∈ range k, zeroTiny eps (nodes j c) * lam j = 0 := by
  have hp : sizeP t n = n + 1 := by cases t <;> simp_all [degreePolynomial, sizeP]
  -- kept rows
  have hrow : ∀ c ≤ n, (∀ e ∈ groups, c ≠ e.getLastD 0) →
      ∑ j ∈ range k, zeroTiny eps (if c = n then 1 else nodes j c) * lam j = 0 := by
    intro c hcn hce
    have hk : k + c ∈ keptIndices t n k groups := by
      unfold keptIndices
      rw [if_pos hp, List.mem_filter]
      refine ⟨List.mem_range.mpr (by omega), ?_⟩
      simp only [decide_eq_true_eq]
      intro e he h; exact hce e he (by omega)
    have := kept_row hs hc hk
    rw [if_neg (by omega)] at this
    have h2 : ∑ d ∈ range (sizeP t n), rbfMatrix t g eps n k nodes (k + c) (k + d) * h d = 0 := by
      apply sum_eq_zero
      intro d _
      rw [(C45_blocks t g eps n k nodes).2.2.1, zero_mul]
    rw [h2, add_zero] at this
    rw [← this]
    apply sum_congr rfl
    intro j hj
    have hjk := mem_range.mp hj
    rw [rbfMatrix, rawMatrix, if_neg (by omega : ¬ k + c < k), if_pos hjk, Nat.add_sub_cancel_left,
      matP, if_pos hp]
  have hone : ∑ j ∈ range k, lam j = 0 := by
    have hl : ∀ e ∈ groups, n ≠ e.getLastD 0 := by
      intro e he hne
      have hne' := hg.nonempty e he
      have : e.getLastD 0 ∈ e := by
        rw [List.getLastD_eq_getLast?, List.getLast?_eq_some_getLast hne']
        exact List.getLast_mem hne'
      have := hg.lt e he _ this
      omega
    have := hrow n le_rfl hl
    rw [← this]
    apply sum_congr rfl
    intro j _
    rw [if_pos rfl, zeroTiny, if_neg (by rw [abs_one]; exact not_lt.mpr he1), one_mul]
  refine ⟨hone, fun c hcn => ?_⟩
  by_cases hd : ∃ e ∈ groups, c = e.getLastD 0
  · obtain ⟨e, he, hce⟩ := hd
    have hne := hg.nonempty e he
    have hlast : e.getLast hne = c := by
      rw [hce, List.getLastD_eq_getLast?, List.getLast?_eq_some_getLast hne]; rfl
    -- the other columns of the group are kept
    have hsplit : e = e.dropLast ++ [c] := by
      rw [← hlast]; exact (List.dropLast_append_getLast hne).symm
    have hnod := hg.nodup e he
    have hnotin : c ∉ e.dropLast := by
      rw [hsplit] at hnod
      have := (List.nodup_append.mp hnod).2.2
      intro hmem
      exact this c hmem c (List.mem_singleton.mpr rfl) rfl
    have hzero : ∀ d ∈ e.dropLast, ∑ j ∈ range k, nodes j d * lam j = 0 := by
      intro d hde
      have hdm : d ∈ e := List.mem_of_mem_dropLast hde
      have hdn := hg.lt e he d hdm
      have hr := hrow d hdn.le (by
        intro f hf hdf
        have hnef := hg.nonempty f hf
        have hfm : f.getLastD 0 ∈ f := by
          rw [List.getLastD_eq_getLast?, List.getLast?_eq_some_getLast hnef]
          exact List.getLast_mem hnef
        have := hg.disjoint e he f hf d hdm (hdf ▸ hfm)
        subst this
        rw [hdf, ← hce] at hde
        exact hnotin hde)
      rw [← hr]
      apply sum_congr rfl
      intro j hj
      rw [if_neg (by omega)]
      rcases hg.binary j (mem_range.mp hj) e he d hdm with hb | hb
      · rw [hb]; simp [zeroTiny]
      · rw [hb, zeroTiny, if_neg (by rw [abs_one]; exact not_lt.mpr he1)]
    have hall : ∀ l : List ℕ, (∀ d ∈ l, ∑ j ∈ range k, nodes j d * lam j = 0) →
        ∑ j ∈ range k, (l.map (nodes j)).sum * lam j = 0 := by
      intro l
      induction l with
      | nil => intro _; simp
      | cons d l ih =>
        intro hl
        simp only [List.map_cons, List.sum_cons, add_mul]
        rw [sum_add_distrib, hl d (by simp), ih (fun d' h' => hl d' (by simp [h'])), add_zero]
    have hd := hall _ hzero
    have key : ∀ j ∈ range k, zeroTiny eps (nodes j c) * lam j =
        lam j - (e.dropLast.map (nodes j)).sum * lam j := by
      intro j hj
      have h1 := hg.sum_one j (mem_range.mp hj) e he
      rw [hsplit, List.map_append, List.sum_append] at h1
      simp only [List.map_cons, List.map_nil, List.sum_singleton] at h1
      have hz : zeroTiny eps (nodes j c) = nodes j c := by
        have hcm : c ∈ e := hlast ▸ List.getLast_mem hne
        rcases hg.binary j (mem_range.mp hj) e he c hcm with hb | hb
        · rw [hb]; simp [zeroTiny]
        · rw [hb, zeroTiny, if_neg (by rw [abs_one]; exact not_lt.mpr he1)]
      rw [hz]
      have : nodes j c = 1 - (e.dropLast.map (nodes j)).sum := by linarith
      rw [this]; ring
    rw [sum_congr rfl key, sum_sub_distrib, hone, hd, sub_zero]
  · have hd' : ∀ e ∈ groups, c ≠ e.getLastD 0 := fun e he h => hd ⟨e, he, h⟩
    have := hrow c hcn.le hd'
    rw [← this]
    apply sum_congr rfl
    intro j _
    rw [if_neg (by omega)]

/-- **C43** The computed inverse is an inverse on the kept rows and columns, up to `eps_zero` times
the absolute row sum of the matrix, and zero on eliminated rows and columns. -/
theorem C43_inverse {inv : ℕ → (ℕ → ℕ → ℝ) → Option (ℕ → ℕ → ℝ)} (hinv : InverseOk inv) {t : Rbf}
    {eps : ℝ} (he : 0 ≤ eps) {n k : ℕ} {A B : ℕ → ℕ → ℝ} {groups : List (List ℕ)}
    (hb : matrixInverse inv t eps n k A groups = some B) :
    (∀ i ∈ keptIndices t n k groups, ∀ j ∈ keptIndices t n k groups,
      |∑ l ∈ range (k + sizeP t n), A i l * B l j - if i = j then 1 else 0| ≤
        eps * ∑ l ∈ range (k + sizeP t n), |A i l|) ∧
    (∀ i j, i ∉ keptIndices t n k groups ∨ j ∉ keptIndices t n k groups → B i j = 0) := by
  unfold matrixInverse at hb
  dsimp only at hb
  split at hb
  · cases hb
  · rename_i C hC
    simp only [Option.some.injEq] at hb
    subst hb
    obtain ⟨hn, hm⟩ := kept_sublist t n k groups
    constructor
    · intro i hi j hj
      have hli := List.idxOf_lt_length_of_mem hi
      have hlj := List.idxOf_lt_length_of_mem hj
      have hrow := hinv _ _ _ hC _ hli _ hlj
      have e : (keptIndices t n k groups).getD ((keptIndices t n k groups).idxOf i) 0 = i := by
        simp [List.getD_eq_getElem?_getD, List.getElem?_eq_getElem hli]
      rw [e] at hrow
      rw [sum_scatterCoef hn hm (A i)
        (fun l => C l ((keptIndices t n k groups).idxOf j))] at hrow
      have hiff : ((keptIndices t n k groups).idxOf i = (keptIndices t n k groups).idxOf j) ↔
          i = j := by
        constructor
        · intro h
          have e2 : (keptIndices t n k groups).getD ((keptIndices t n k groups).idxOf j) 0 = j := by
            simp [List.getD_eq_getElem?_getD, List.getElem?_eq_getElem hlj]
          rw [← e, h, e2]
        · rintro rfl; rfl
      simp only [hiff] at hrow
      rw [← hrow, ← sum_sub_distrib, mul_sum]
      refine (abs_sum_le_sum_abs _ _).trans (sum_le_sum fun l _ => ?_)
      have : (if l ∈ keptIndices t n k groups ∧ j ∈ keptIndices t n k groups then
          C ((keptIndices t n k groups).idxOf l) ((keptIndices t n k groups).idxOf j) else 0) =
          scatterCoef (keptIndices t n k groups)
            (fun l => C l ((keptIndices t n k groups).idxOf j)) l := by
        unfold scatterCoef
        by_cases hl : l ∈ keptIndices t n k groups <;> simp [hl, hj]
      simp only [this]
      rw [← mul_sub, abs_mul, mul_comm]
      apply mul_le_mul_of_nonneg_right _ (abs_nonneg _)
      rw [abs_sub_comm]
      exact zeroTiny_near he _
    · rintro i j h
      have : ¬ (i ∈ keptIndices t n k groups ∧ j ∈ keptIndices t n k groups) := by
        rintro ⟨h1, h2⟩
        rcases h with h | h
        · exact h h1
        · exact h h2
      simp [zeroTiny, this]

/-! ## C44 -/

/-- **C44** `bulk_evaluate_rbf` returns at each position the value of `evaluate_rbf` at that point,
for every RBF type. -/
theorem C44_bulk_eq_single (t : Rbf) (g : ℝ) (n k : ℕ) (nodes : ℕ → ℕ → ℝ) (lam h : ℕ → ℝ)
    (points : ℕ → ℕ → ℝ) (r : ℕ) :
    bulkEvaluateRbf t g n k nodes lam h points r =
      evaluateRbf t g n k nodes lam h (points r) := by
  unfold bulkEvaluateRbf evaluateRbf
  simp only
  congr 1
  congr 1
  · exact sum_congr rfl fun i _ => mul_comm _ _
  · cases t <;> simp [degreePolynomial, sizeP, mul_comm]

/-- **C44** The minimum distance returned along is attained at some node and is a lower bound for
all. -/
theorem C44_min_distance (n : ℕ) (nodes points : ℕ → ℕ → ℝ) (r k : ℕ) (hk : 0 < k) :
    (∃ i < k, bulkMinDistance n nodes points r k = euclid n (points r) (nodes i)) ∧
    ∀ i < k, bulkMinDistance n nodes points r k ≤ euclid n (points r) (nodes i) := by
  induction k with
  | zero => omega
  | succ k ih =>
    cases k with
    | zero =>
      refine ⟨⟨0, by omega, rfl⟩, fun i hi => ?_⟩
      have : i = 0 := by omega
      subst this; exact le_rfl
    | succ k =>
      obtain ⟨⟨i, hi, e⟩, hle⟩ := ih (by omega)
      rw [bulkMinDistance]
      constructor
      · rcases min_choice (bulkMinDistance n nodes points r (k + 1))
          (euclid n (points r) (nodes (k + 1))) with h | h
        · exact ⟨i, by omega, by rw [h, e]⟩
        · exact ⟨k + 1, by omega, h⟩
      · intro j hj
        rcases Nat.lt_or_ge j (k + 1) with h | h
        · exact (min_le_left _ _).trans (hle j h)
        · have : j = k + 1 := by omega
          subst this; exact min_le_right _ _

/-! ## Premises -/

open Classical in
/-- A solver meeting `SolverOk`. -/
noncomputable def exactSolve (m : ℕ) (A : ℕ → ℕ → ℝ) (b : ℕ → ℝ) : Option (ℕ → ℝ) :=
  if h : ∃ x : ℕ → ℝ, ∀ i < m, ∑ j ∈ range m, A i j * x j = b i then some h.choose else none

theorem exactSolve_ok : SolverOk exactSolve := by
  intro m A b x h
  unfold exactSolve at h
  split at h
  · rename_i hx
    cases h
    exact hx.choose_spec
  · cases h

-- A cubic RBF on three nodes that encode a categorical variable with three values: the elimination of
-- the last column leaves a solvable system.
example : ∃ lam h, rbfCoefficients exactSolve .cubic 3 3
    (rbfMatrix .cubic (1/10) (1/1000000) 3 3 (fun i c => if i = c then 1 else 0))
    (fun i => i) [[0, 1, 2]] = some (lam, h) ∧
    OneHotNodes 3 3 (fun i c => if i = c then (1 : ℝ) else 0) [[0, 1, 2]] := by
  have hk : keptIndices .cubic 3 3 [[0, 1, 2]] = [0, 1, 2, 3, 4, 6] := by decide
  have hex : ∃ x : ℕ → ℝ, ∀ i < 6, ∑ j ∈ range 6,
      rbfMatrix .cubic (1/10) (1/1000000) 3 3 (fun i c => if i = c then 1 else 0)
        (([0, 1, 2, 3, 4, 6] : List ℕ).getD i 0) (([0, 1, 2, 3, 4, 6] : List ℕ).getD j 0) * x j =
      (if ([0, 1, 2, 3, 4, 6] : List ℕ).getD i 0 < 3 then
        ((([0, 1, 2, 3, 4, 6] : List ℕ).getD i 0 : ℕ) : ℝ) else 0) := by
    -- h = (-2, -1, ., 2) interpolates the values 0, 1, 2 with zero weights
    refine ⟨fun j => if j = 3 then -2 else if j = 4 then -1 else if j = 5 then 2 else 0, ?_⟩
    intro i hi
    interval_cases i <;>
      norm_num [sum_range_succ, rbfMatrix, rawMatrix, matP, sizeP, zeroTiny]
  refine ⟨fun i => scatterCoef [0, 1, 2, 3, 4, 6] hex.choose i,
    fun c => scatterCoef [0, 1, 2, 3, 4, 6] hex.choose (3 + c), ?_, ?_⟩
  · unfold rbfCoefficients
    simp only [hk]
    have hsol : exactSolve ([0, 1, 2, 3, 4, 6] : List ℕ).length
        (fun i j => rbfMatrix .cubic (1/10) (1/1000000) 3 3 (fun i c => if i = c then 1 else 0)
          (([0, 1, 2, 3, 4, 6] : List ℕ).getD i 0) (([0, 1, 2, 3, 4, 6] : List ℕ).getD j 0))
        (fun i => if ([0, 1, 2, 3, 4, 6] : List ℕ).getD i 0 < 3 then
          ((([0, 1, 2, 3, 4, 6] : List ℕ).getD i 0 : ℕ) : ℝ) else 0) = some hex.choose := dif_pos hex
    rw [hsol]
  · refine ⟨by simp, by simp, by simp, by simp, ?_, ?_⟩
    · intro i _ e _ c _
      by_cases h : i = c <;> simp [h]
    · intro i hi e he
      rw [List.mem_singleton.mp he]
      interval_cases i <;> simp

end Rbfopt
