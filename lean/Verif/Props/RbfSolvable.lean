import Verif.Lemmas.RbfPD
import Verif.Props.Rbf
import Verif.Props.InitNodes
import Mathlib.LinearAlgebra.Matrix.ToLin
import Mathlib.LinearAlgebra.FiniteDimensional.Basic
import Mathlib.LinearAlgebra.FiniteDimensional.Lemmas

/-!
# C92: the interpolation system is uniquely solvable

For which node sets does the linear system of the RBF model have a unique solution?
-/

namespace Rbfopt

open Finset

/-- No two of the first `k` nodes have the same coordinates. -/
def DistinctNodes (n k : ℕ) (nodes : ℕ → ℕ → ℝ) : Prop :=
  ∀ i < k, ∀ j < k, (∀ c < n, nodes i c = nodes j c) → i = j

/-- No nonzero polynomial of the degree of the model vanishes at all nodes.  In degree 1 the polynomial
is `∑ h_c x_c + b`, without a term for the last binary of a categorical variable; in degree 0 it is a
constant, so that one node is enough. -/
def Unisolvent (t : Rbf) (n k : ℕ) (nodes : ℕ → ℕ → ℝ) (groups : List (List ℕ)) : Prop :=
  (degreePolynomial t = 1 → ∀ (h : ℕ → ℝ) (b : ℝ), (∀ e ∈ groups, h (e.getLastD 0) = 0) →
    (∀ i < k, ∑ c ∈ range n, h c * nodes i c + b = 0) → (∀ c < n, h c = 0) ∧ b = 0) ∧
  (degreePolynomial t = 0 → 0 < k)

/-- The homogeneous system with the `m` by `m` matrix `A` has only the trivial solution. -/
def Nonsingular (m : ℕ) (A : ℕ → ℕ → ℝ) : Prop :=
  ∀ x : ℕ → ℝ, (∀ i < m, ∑ j ∈ range m, A i j * x j = 0) → ∀ j < m, x j = 0

/-! ## Definiteness in the terms of the code -/

theorem euclid_eq_sqrt_sq {n k : ℕ} (nodes : ℕ → ℕ → ℝ) (i j : Fin k) :
    euclid n (nodes i) (nodes j) =
      Real.sqrt (PD.sq (fun (i : Fin k) (a : Fin n) => nodes i a) i j) := by
  unfold euclid PD.sq
  congr 1
  rw [Finset.sum_range]
  exact sum_congr rfl (fun a _ => by ring)

/-- **C92** (definiteness) For distinct nodes and coefficients that are not all zero and satisfy the side
conditions of the model, the quadratic form of the basis function is positive for the Gaussian, cubic and
thin plate spline functions and negative for the linear and multiquadric ones. -/
theorem C92_definite {t : Rbf} {g : ℝ} (hg : t = .gaussian → 0 < g) {n k : ℕ} {nodes : ℕ → ℕ → ℝ}
    (hd : DistinctNodes n k nodes) (lam : ℕ → ℝ) (hne : ∃ i < k, lam i ≠ 0)
    (hs0 : 0 ≤ degreePolynomial t → ∑ i ∈ range k, lam i = 0)
    (hs1 : degreePolynomial t = 1 → ∀ c < n, ∑ i ∈ range k, lam i * nodes i c = 0) :
    0 < (if degreePolynomial t = 0 then -1 else 1) *
      ∑ i ∈ range k, ∑ j ∈ range k, lam i * lam j * phi t g (euclid n (nodes i) (nodes j)) := by
  set x : Fin k → Fin n → ℝ := fun i a => nodes i a with hx
  set l : Fin k → ℝ := fun i => lam i with hl
  have hinj : Function.Injective x := by
    intro i j e
    exact Fin.ext (hd i i.isLt j j.isLt (fun c hc => congrFun e ⟨c, hc⟩))
  have hl0 : l ≠ 0 := by
    obtain ⟨i, hi, h⟩ := hne
    exact fun e => h (congrFun e ⟨i, hi⟩)
  have e0 : 0 ≤ degreePolynomial t → ∑ i, l i = 0 := fun h => by
    rw [← hs0 h, Finset.sum_range]
  have e1 : degreePolynomial t = 1 → ∀ a, ∑ i, l i * x i a = 0 := fun h a => by
    rw [← hs1 h a a.isLt, Finset.sum_range]
  have hquad : ∑ i ∈ range k, ∑ j ∈ range k, lam i * lam j * phi t g (euclid n (nodes i) (nodes j)) =
      PD.quad (fun i j => phi t g (Real.sqrt (PD.sq x i j))) l := by
    unfold PD.quad
    rw [Finset.sum_range]
    refine sum_congr rfl (fun i _ => ?_)
    rw [Finset.sum_range]
    exact sum_congr rfl (fun j _ => by rw [euclid_eq_sqrt_sq])
  rw [hquad]
  have hn := fun i j => PD.sq_nonneg' x i j
  cases t with
  | cubic =>
    rw [if_neg (by simp [degreePolynomial]), one_mul]
    have : (fun i j => phi .cubic g (Real.sqrt (PD.sq x i j))) =
        fun i j => PD.sq x i j ^ (3 / 2 : ℝ) := by
      funext i j
      simp only [phi]
      rw [Real.sqrt_eq_rpow, ← Real.rpow_add_of_nonneg (hn i j) (by norm_num) (by norm_num),
        ← Real.rpow_add_of_nonneg (hn i j) (by norm_num) (by norm_num)]
      norm_num
    rw [this]
    exact PD.cubic_pos hinj hl0 (e0 (by simp [degreePolynomial])) (e1 rfl)
  | thinPlateSpline =>
    rw [if_neg (by simp [degreePolynomial]), one_mul]
    have : (fun i j => phi .thinPlateSpline g (Real.sqrt (PD.sq x i j))) =
        fun i j => (1 / 2) * (PD.sq x i j * Real.log (PD.sq x i j)) := by
      funext i j
      simp only [phi]
      rw [Real.mul_self_sqrt (hn i j)]
      rcases (hn i j).eq_or_lt with h | h
      · rw [← h]; simp
      · rw [Real.sign_of_pos (Real.sqrt_pos.mpr h), if_neg one_ne_zero, Real.log_sqrt (hn i j)]
        ring
    rw [this, PD.quad_smul]
    exact mul_pos (by norm_num)
      (PD.tps_pos hinj hl0 (e0 (by simp [degreePolynomial])) (e1 rfl))
  | linear =>
    rw [if_pos (by simp [degreePolynomial])]
    have := PD.sqrt_neg hinj hl0 (e0 (by simp [degreePolynomial])) (le_refl 0)
    simp only [add_zero] at this
    simp only [phi]
    linarith
  | multiquadric =>
    rw [if_pos (by simp [degreePolynomial])]
    have := PD.sqrt_neg hinj hl0 (e0 (by simp [degreePolynomial])) (mul_self_nonneg g)
    have e : (fun i j => phi .multiquadric g (Real.sqrt (PD.sq x i j))) =
        fun i j => Real.sqrt (PD.sq x i j + g * g) := by
      funext i j
      simp only [phi]
      rw [Real.mul_self_sqrt (hn i j)]
    rw [e]
    linarith
  | gaussian =>
    rw [if_neg (by simp [degreePolynomial]), one_mul]
    have e : (fun i j => phi .gaussian g (Real.sqrt (PD.sq x i j))) =
        fun i j => Real.exp (-g * PD.sq x i j) := by
      funext i j
      simp only [phi]
      rw [mul_assoc, Real.mul_self_sqrt (hn i j)]
    rw [e]
    exact PD.gauss_pos hinj hl0 (hg rfl)

/-! ## The system in terms of the coefficients -/

/-- The columns of the polynomial part that the code keeps. -/
theorem kept_poly {t : Rbf} {n k : ℕ} {groups : List (List ℕ)} {c : ℕ} :
    k + c ∈ keptIndices t n k groups ↔
      c < sizeP t n ∧ (sizeP t n = n + 1 → ∀ e ∈ groups, c ≠ e.getLastD 0) := by
  unfold keptIndices
  split
  · rename_i h
    rw [List.mem_filter, List.mem_range]
    simp only [decide_eq_true_eq]
    constructor
    · rintro ⟨h1, h2⟩
      exact ⟨by omega, fun _ e he hh => h2 e he (by omega)⟩
    · rintro ⟨h1, h2⟩
      exact ⟨by omega, fun e he hh => h2 h e he (by omega)⟩
  · rename_i h
    rw [List.mem_range]
    constructor
    · intro h1; exact ⟨by omega, fun h' => absurd h' h⟩
    · rintro ⟨h1, _⟩; omega

/-- A vector for the kept columns solves the reduced system if and only if the scattered vector satisfies
the kept rows of the full one. -/
theorem reduced_iff {t : Rbf} {n k : ℕ} {groups : List (List ℕ)} {A : ℕ → ℕ → ℝ} {b x : ℕ → ℝ} :
    (∀ i < (keptIndices t n k groups).length, ∑ j ∈ range (keptIndices t n k groups).length,
        A ((keptIndices t n k groups).getD i 0) ((keptIndices t n k groups).getD j 0) * x j =
          b ((keptIndices t n k groups).getD i 0)) ↔
    ∀ r ∈ keptIndices t n k groups,
      ∑ j ∈ range k, A r j * scatterCoef (keptIndices t n k groups) x j +
        ∑ c ∈ range (sizeP t n), A r (k + c) * scatterCoef (keptIndices t n k groups) x (k + c) =
          b r := by
  obtain ⟨hn, hm⟩ := kept_sublist t n k groups
  have key : ∀ r, ∑ j ∈ range (keptIndices t n k groups).length,
      A r ((keptIndices t n k groups).getD j 0) * x j =
      ∑ j ∈ range k, A r j * scatterCoef (keptIndices t n k groups) x j +
        ∑ c ∈ range (sizeP t n), A r (k + c) * scatterCoef (keptIndices t n k groups) x (k + c) := by
    intro r
    rw [sum_scatterCoef hn hm (A r) x, sum_range_add]
  constructor
  · intro h r hr
    have hlt := List.idxOf_lt_length_of_mem hr
    have := h _ hlt
    have e : (keptIndices t n k groups).getD ((keptIndices t n k groups).idxOf r) 0 = r := by
      simp [List.getD_eq_getElem?_getD, List.getElem?_eq_getElem hlt]
    rw [e, key] at this
    exact this
  · intro h i hi
    rw [key]
    refine h _ ?_
    rw [List.getD_eq_getElem?_getD, List.getElem?_eq_getElem hi]
    exact List.getElem_mem hi

/-- Coefficients that vanish on the dropped columns are the scattering of a reduced vector. -/
theorem scatter_gather {t : Rbf} {n k : ℕ} {groups : List (List ℕ)} (y : ℕ → ℝ)
    (hy : ∀ j < k + sizeP t n, j ∉ keptIndices t n k groups → y j = 0) :
    ∀ j < k + sizeP t n, scatterCoef (keptIndices t n k groups)
      (fun l => y ((keptIndices t n k groups).getD l 0)) j = y j := by
  intro j hj
  unfold scatterCoef
  split
  · rename_i h
    have hlt := List.idxOf_lt_length_of_mem h
    simp [List.getD_eq_getElem?_getD, List.getElem?_eq_getElem hlt]
  · rename_i h
    exact (hy j hj h).symm

/-- If the side conditions hold for the constant and for all coordinates but the last of each categorical
group, they hold for all coordinates. -/
theorem side_all {n k : ℕ} {nodes : ℕ → ℕ → ℝ} {groups : List (List ℕ)}
    (hg : OneHotNodes n k nodes groups) {lam : ℕ → ℝ} (h0 : ∑ j ∈ range k, lam j = 0)
    (h1 : ∀ c < n, (∀ e ∈ groups, c ≠ e.getLastD 0) → ∑ j ∈ range k, lam j * nodes j c = 0) :
    ∀ c < n, ∑ j ∈ range k, lam j * nodes j c = 0 := by
  intro c hcn
  by_cases hd : ∃ e ∈ groups, c = e.getLastD 0
  · obtain ⟨e, he, hce⟩ := hd
    have hne := hg.nonempty e he
    have hlast : e.getLast hne = c := by
      rw [hce, List.getLastD_eq_getLast?, List.getLast?_eq_some_getLast hne]; rfl
    have hsplit : e = e.dropLast ++ [c] := by
      rw [← hlast]; exact (List.dropLast_append_getLast hne).symm
    have hnod := hg.nodup e he
    have hnotin : c ∉ e.dropLast := by
      rw [hsplit] at hnod
      have := (List.nodup_append.mp hnod).2.2
      intro hmem
      exact this c hmem c (List.mem_singleton.mpr rfl) rfl
    have hzero : ∀ d ∈ e.dropLast, ∑ j ∈ range k, lam j * nodes j d = 0 := by
      intro d hde
      have hdm : d ∈ e := List.mem_of_mem_dropLast hde
      refine h1 d (hg.lt e he d hdm) ?_
      intro f hf hdf
      have hnef := hg.nonempty f hf
      have hfm : f.getLastD 0 ∈ f := by
        rw [List.getLastD_eq_getLast?, List.getLast?_eq_some_getLast hnef]
        exact List.getLast_mem hnef
      have := hg.disjoint e he f hf d hdm (hdf ▸ hfm)
      subst this
      rw [hdf, ← hce] at hde
      exact hnotin hde
    have hall : ∀ l : List ℕ, (∀ d ∈ l, ∑ j ∈ range k, lam j * nodes j d = 0) →
        ∑ j ∈ range k, lam j * (l.map (nodes j)).sum = 0 := by
      intro l
      induction l with
      | nil => intro _; simp
      | cons d l ih =>
        intro hl
        simp only [List.map_cons, List.sum_cons, mul_add]
        rw [sum_add_distrib, hl d (by simp), ih (fun d' h' => hl d' (by simp [h'])), add_zero]
    have hd := hall _ hzero
    have key : ∀ j ∈ range k, lam j * nodes j c =
        lam j - lam j * (e.dropLast.map (nodes j)).sum := by
      intro j hj
      have h1 := hg.sum_one j (mem_range.mp hj) e he
      rw [hsplit, List.map_append, List.sum_append] at h1
      simp only [List.map_cons, List.map_nil, List.sum_singleton] at h1
      have : nodes j c = 1 - (e.dropLast.map (nodes j)).sum := by linarith
      rw [this]; ring
    rw [sum_congr rfl key, sum_sub_distrib, h0, hd, sub_zero]
  · exact h1 c hcn (fun e he h => hd ⟨e, he, h⟩)

/-- The two sides of the homogeneous system: the values at the nodes, and the side conditions. -/
theorem raw_node_row (t : Rbf) (g : ℝ) (n k : ℕ) (nodes : ℕ → ℕ → ℝ) (lam h : ℕ → ℝ) {i : ℕ}
    (hi : i < k) :
    ∑ j ∈ range k, rawMatrix t g n k nodes i j * lam j +
      ∑ c ∈ range (sizeP t n), rawMatrix t g n k nodes i (k + c) * h c =
    ∑ j ∈ range k, phi t g (euclid n (nodes i) (nodes j)) * lam j +
      ∑ c ∈ range (sizeP t n), matP t n nodes i c * h c := by
  congr 1
  · refine sum_congr rfl (fun j hj => ?_)
    rw [rawMatrix, if_pos hi, if_pos (mem_range.mp hj)]
  · refine sum_congr rfl (fun c _ => ?_)
    rw [rawMatrix, if_pos hi, if_neg (by omega), Nat.add_sub_cancel_left]

theorem raw_poly_row (t : Rbf) (g : ℝ) (n k : ℕ) (nodes : ℕ → ℕ → ℝ) (lam h : ℕ → ℝ) (c : ℕ) :
    ∑ j ∈ range k, rawMatrix t g n k nodes (k + c) j * lam j +
      ∑ d ∈ range (sizeP t n), rawMatrix t g n k nodes (k + c) (k + d) * h d =
    ∑ j ∈ range k, lam j * matP t n nodes j c := by
  have : ∑ d ∈ range (sizeP t n), rawMatrix t g n k nodes (k + c) (k + d) * h d = 0 := by
    refine sum_eq_zero (fun d _ => ?_)
    rw [rawMatrix, if_neg (by omega), if_neg (by omega), zero_mul]
  rw [this, add_zero]
  refine sum_congr rfl (fun j hj => ?_)
  rw [rawMatrix, if_neg (by omega), if_pos (mem_range.mp hj), Nat.add_sub_cancel_left, mul_comm]

theorem sizeP_of_one {t : Rbf} (h : degreePolynomial t = 1) (n : ℕ) : sizeP t n = n + 1 := by
  cases t <;> simp_all [degreePolynomial, sizeP]

theorem sizeP_of_zero {t : Rbf} (h : degreePolynomial t = 0) (n : ℕ) : sizeP t n = 1 := by
  cases t <;> simp_all [degreePolynomial, sizeP]

theorem sizeP_of_neg {t : Rbf} (h : degreePolynomial t = -1) (n : ℕ) : sizeP t n = 0 := by
  cases t <;> simp_all [degreePolynomial, sizeP]

theorem degree_cases (t : Rbf) :
    degreePolynomial t = 1 ∨ degreePolynomial t = 0 ∨ degreePolynomial t = -1 := by
  cases t <;> simp [degreePolynomial]

theorem last_lt {n k : ℕ} {nodes : ℕ → ℕ → ℝ} {groups : List (List ℕ)}
    (hg : OneHotNodes n k nodes groups) {e : List ℕ} (he : e ∈ groups) : e.getLastD 0 < n := by
  have hne := hg.nonempty e he
  refine hg.lt e he _ ?_
  rw [List.getLastD_eq_getLast?, List.getLast?_eq_some_getLast hne]
  exact List.getLast_mem hne

/-- Coefficients of an interpolant of the zero values are zero. -/
theorem homogeneous_zero {t : Rbf} {g : ℝ} (hg : t = .gaussian → 0 < g) {n k : ℕ}
    {nodes : ℕ → ℕ → ℝ} {groups : List (List ℕ)} (hot : OneHotNodes n k nodes groups)
    (hd : DistinctNodes n k nodes) (hu : Unisolvent t n k nodes groups) {lam h : ℕ → ℝ}
    (hv : ∀ i < k, ∑ j ∈ range k, phi t g (euclid n (nodes i) (nodes j)) * lam j +
      ∑ c ∈ range (sizeP t n), matP t n nodes i c * h c = 0)
    (hs : ∀ c, k + c ∈ keptIndices t n k groups → ∑ j ∈ range k, lam j * matP t n nodes j c = 0)
    (hz : ∀ c < sizeP t n, k + c ∉ keptIndices t n k groups → h c = 0) :
    (∀ i < k, lam i = 0) ∧ ∀ c < sizeP t n, h c = 0 := by
  -- all side conditions
  have hall : ∀ c < sizeP t n, ∑ j ∈ range k, lam j * matP t n nodes j c = 0 := by
    rcases degree_cases t with ht | ht | ht
    · have hp := sizeP_of_one ht n
      have hm : ∀ j c, c < n → matP t n nodes j c = nodes j c := fun j c hc => by
        rw [matP, if_pos hp, if_neg (by omega)]
      have hmn : ∀ j, matP t n nodes j n = 1 := fun j => by rw [matP, if_pos hp, if_pos rfl]
      have h0 : ∑ j ∈ range k, lam j = 0 := by
        have := hs n (kept_poly.mpr ⟨by omega, fun _ e he => (last_lt hot he).ne'⟩)
        simpa [hmn] using this
      have h1 := side_all hot h0 (fun c hc hl => by
        have := hs c (kept_poly.mpr ⟨by omega, fun _ => hl⟩)
        simpa [hm _ c hc] using this)
      intro c hc
      rcases Nat.lt_or_ge c n with hcn | hcn
      · simpa [hm _ c hcn] using h1 c hcn
      · have : c = n := by omega
        subst this
        simpa [hmn] using h0
    · intro c hc
      refine hs c (kept_poly.mpr ⟨hc, fun hp e he => ?_⟩)
      have := last_lt hot he
      have := sizeP_of_zero ht n
      omega
    · intro c hc
      rw [sizeP_of_neg ht] at hc
      omega
  have hlam : ∀ i < k, lam i = 0 := by
    by_contra hcon
    push Not at hcon
    have hs0 : 0 ≤ degreePolynomial t → ∑ i ∈ range k, lam i = 0 := by
      intro h0
      rcases degree_cases t with ht | ht | ht
      · have hp := sizeP_of_one ht n
        have := hall n (by omega)
        simpa [matP, hp] using this
      · have hp := sizeP_of_zero ht n
        have := hall 0 (by omega)
        rcases Nat.eq_zero_or_pos n with hn | hn
        · simpa [matP, hn] using this
        · rw [← this]
          refine sum_congr rfl (fun j _ => ?_)
          rw [matP, if_neg (by omega), mul_one]
      · omega
    have hs1 : degreePolynomial t = 1 → ∀ c < n, ∑ i ∈ range k, lam i * nodes i c = 0 := by
      intro ht c hc
      have hp := sizeP_of_one ht n
      have := hall c (by omega)
      rw [← this]
      refine sum_congr rfl (fun j _ => ?_)
      rw [matP, if_pos hp, if_neg (by omega)]
    have hdef := C92_definite hg hd lam hcon hs0 hs1
    have hzero : ∑ i ∈ range k, ∑ j ∈ range k,
        lam i * lam j * phi t g (euclid n (nodes i) (nodes j)) = 0 := by
      have e1 : ∑ i ∈ range k, lam i * (∑ j ∈ range k, phi t g (euclid n (nodes i) (nodes j)) * lam j +
          ∑ c ∈ range (sizeP t n), matP t n nodes i c * h c) = 0 :=
        sum_eq_zero (fun i hi => by rw [hv i (mem_range.mp hi), mul_zero])
      have e2 : ∑ i ∈ range k, lam i * ∑ c ∈ range (sizeP t n), matP t n nodes i c * h c = 0 := by
        have : ∑ i ∈ range k, lam i * ∑ c ∈ range (sizeP t n), matP t n nodes i c * h c =
            ∑ c ∈ range (sizeP t n), h c * ∑ i ∈ range k, lam i * matP t n nodes i c := by
          simp only [mul_sum]
          rw [sum_comm]
          exact sum_congr rfl (fun c _ => sum_congr rfl (fun i _ => by ring))
        rw [this]
        exact sum_eq_zero (fun c hc => by rw [hall c (mem_range.mp hc), mul_zero])
      simp only [mul_add, sum_add_distrib] at e1
      rw [e2, add_zero] at e1
      rw [← e1]
      refine sum_congr rfl (fun i _ => ?_)
      rw [mul_sum]
      exact sum_congr rfl (fun j _ => by ring)
    rw [hzero, mul_zero] at hdef
    exact lt_irrefl _ hdef
  refine ⟨hlam, ?_⟩
  have hpoly : ∀ i < k, ∑ c ∈ range (sizeP t n), matP t n nodes i c * h c = 0 := by
    intro i hi
    have := hv i hi
    rw [sum_eq_zero (fun j hj => by rw [hlam j (mem_range.mp hj), mul_zero]), zero_add] at this
    exact this
  rcases degree_cases t with ht | ht | ht
  · have hp := sizeP_of_one ht n
    obtain ⟨u1, u2⟩ := hu.1 ht h (h n) (fun e he => by
        have hl := last_lt hot he
        refine hz _ (by omega) (fun hk => ?_)
        exact (kept_poly.mp hk).2 hp e he rfl) (fun i hi => by
        have := hpoly i hi
        rw [hp, sum_range_succ] at this
        rw [← this]
        congr 1
        · refine sum_congr rfl (fun c hc => ?_)
          have := mem_range.mp hc
          rw [matP, if_pos hp, if_neg (by omega), mul_comm]
        · rw [matP, if_pos hp, if_pos rfl, one_mul])
    intro c hc
    rcases Nat.lt_or_ge c n with hcn | hcn
    · exact u1 c hcn
    · have : c = n := by omega
      subst this; exact u2
  · have hp := sizeP_of_zero ht n
    intro c hc
    have := hpoly 0 (hu.2 ht)
    rw [hp] at this hc
    have hc0 : c = 0 := by omega
    subst hc0
    rw [sum_range_one] at this
    have h1 : matP t n nodes 0 0 = 1 := by
      rw [matP, hp]
      rcases Nat.eq_zero_or_pos n with hn | hn
      · simp [hn]
      · rw [if_neg (by omega)]
    rwa [h1, one_mul] at this
  · intro c hc
    rw [sizeP_of_neg ht] at hc
    omega

/-- **C92** The matrix of the interpolation system, after removing the columns of the last binaries of
categorical variables, is nonsingular if and only if no two nodes coincide and no nonzero polynomial of the
degree of the model vanishes at all nodes.  For each of the five basis functions, any dimension, number of
nodes and shape parameter (positive for the Gaussian). -/
theorem C92_nonsingular_iff {t : Rbf} {g : ℝ} (hg : t = .gaussian → 0 < g) {n k : ℕ}
    {nodes : ℕ → ℕ → ℝ} {groups : List (List ℕ)} (hot : OneHotNodes n k nodes groups) :
    Nonsingular (keptIndices t n k groups).length (fun i j => rawMatrix t g n k nodes
      ((keptIndices t n k groups).getD i 0) ((keptIndices t n k groups).getD j 0)) ↔
    DistinctNodes n k nodes ∧ Unisolvent t n k nodes groups := by
  constructor
  · intro hN
    -- a homogeneous solution of the full system is zero
    have key : ∀ y : ℕ → ℝ, (∀ j < k + sizeP t n, j ∉ keptIndices t n k groups → y j = 0) →
        (∀ r ∈ keptIndices t n k groups, ∑ j ∈ range k, rawMatrix t g n k nodes r j * y j +
          ∑ c ∈ range (sizeP t n), rawMatrix t g n k nodes r (k + c) * y (k + c) = 0) →
        ∀ j ∈ keptIndices t n k groups, y j = 0 := by
      intro y hy hr j hj
      have hsg := scatter_gather y hy
      have := hN (fun l => y ((keptIndices t n k groups).getD l 0))
        ((reduced_iff (A := rawMatrix t g n k nodes) (b := fun _ => 0)).mpr (fun r hr' => by
          rw [← hr r hr']
          congr 1
          · refine sum_congr rfl (fun j hj => ?_)
            rw [hsg j (by have := mem_range.mp hj; omega)]
          · refine sum_congr rfl (fun c hc => ?_)
            rw [hsg (k + c) (by have := mem_range.mp hc; omega)]))
        _ (List.idxOf_lt_length_of_mem hj)
      have hlt := List.idxOf_lt_length_of_mem hj
      simpa [List.getD_eq_getElem?_getD, List.getElem?_eq_getElem hlt] using this
    have split : ∀ lam h : ℕ → ℝ, (∀ c < sizeP t n, k + c ∉ keptIndices t n k groups → h c = 0) →
        (∀ i < k, ∑ j ∈ range k, phi t g (euclid n (nodes i) (nodes j)) * lam j +
          ∑ c ∈ range (sizeP t n), matP t n nodes i c * h c = 0) →
        (∀ c, k + c ∈ keptIndices t n k groups → ∑ j ∈ range k, lam j * matP t n nodes j c = 0) →
        (∀ i < k, lam i = 0) ∧ ∀ c < sizeP t n, h c = 0 := by
      intro lam h hz hv hs
      set y : ℕ → ℝ := fun j => if j < k then lam j else h (j - k) with hy
      have ylt : ∀ j < k, y j = lam j := fun j hj => by rw [hy]; simp [hj]
      have yge : ∀ c, y (k + c) = h c := fun c => by rw [hy]; simp
      have hyz : ∀ j < k + sizeP t n, j ∉ keptIndices t n k groups → y j = 0 := by
        intro j hj hnj
        rcases Nat.lt_or_ge j k with hjk | hjk
        · exact absurd (mem_kept_node hjk) hnj
        · obtain ⟨c, rfl⟩ := Nat.exists_eq_add_of_le hjk
          rw [yge]
          exact hz c (by omega) hnj
      have := key y hyz (fun r hr => by
        have e1 : ∑ j ∈ range k, rawMatrix t g n k nodes r j * y j =
            ∑ j ∈ range k, rawMatrix t g n k nodes r j * lam j :=
          sum_congr rfl (fun j hj => by rw [ylt j (mem_range.mp hj)])
        simp only [yge]
        rw [e1]
        rcases Nat.lt_or_ge r k with hrk | hrk
        · rw [raw_node_row _ _ _ _ _ _ _ hrk]
          exact hv r hrk
        · obtain ⟨c, rfl⟩ := Nat.exists_eq_add_of_le hrk
          rw [raw_poly_row]
          exact hs c hr)
      refine ⟨fun i hi => by rw [← ylt i hi]; exact this i (mem_kept_node hi), fun c hc => ?_⟩
      by_cases hk : k + c ∈ keptIndices t n k groups
      · rw [← yge]; exact this _ hk
      · exact hz c hc hk
    refine ⟨?_, ?_, ?_⟩
    · intro i hi j hj he
      by_contra hne
      have hmat : ∀ c < sizeP t n, matP t n nodes i c = matP t n nodes j c := by
        intro c hc
        unfold matP
        split
        · rename_i hp
          split
          · rfl
          · exact he c (by omega)
        · rfl
      have heu : ∀ r, euclid n (nodes r) (nodes i) = euclid n (nodes r) (nodes j) := by
        intro r
        unfold euclid
        congr 1
        exact sum_congr rfl (fun c hc => by rw [he c (mem_range.mp hc)])
      have hsum : ∀ f : ℕ → ℝ, ∑ l ∈ range k, f l * (if l = i then 1 else if l = j then -1 else 0) =
          f i - f j := by
        intro f
        have : ∀ l ∈ range k, f l * (if l = i then 1 else if l = j then -1 else 0) =
            (if l = i then f l else 0) - (if l = j then f l else 0) := by
          intro l _
          by_cases h1 : l = i
          · have : l ≠ j := fun h2 => hne (h1.symm.trans h2)
            rw [if_pos h1, if_pos h1, if_neg this]; ring
          · by_cases h2 : l = j
            · rw [if_neg h1, if_pos h2, if_neg h1, if_pos h2]; ring
            · rw [if_neg h1, if_neg h2, if_neg h1, if_neg h2]; ring
        rw [sum_congr rfl this, sum_sub_distrib, sum_ite_eq', sum_ite_eq',
          if_pos (mem_range.mpr hi), if_pos (mem_range.mpr hj)]
      have := (split (fun l => if l = i then 1 else if l = j then -1 else 0) (fun _ => 0)
        (fun _ _ _ => rfl) (fun r hr => by
          rw [hsum, heu r, sub_self]; simp) (fun c hc => by
          have := hsum (fun l => matP t n nodes l c)
          simp only [mul_comm (matP t n nodes _ c)] at this
          rw [this, hmat c (kept_poly.mp hc).1, sub_self])).1 i hi
      simp at this
    · intro ht h b hl hv
      have hp := sizeP_of_one ht n
      have := (split (fun _ => 0) (fun c => if c = n then b else h c) (fun c hc hk => by
          have : ∃ e ∈ groups, c = e.getLastD 0 := by
            by_contra hcon
            push Not at hcon
            exact hk (kept_poly.mpr ⟨hc, fun _ => hcon⟩)
          obtain ⟨e, he, rfl⟩ := this
          rw [if_neg (last_lt hot he).ne]
          exact hl e he) (fun i hi => by
          rw [sum_eq_zero (s := range k) (fun j _ => mul_zero _), zero_add, hp, sum_range_succ,
            if_pos rfl, ← hv i hi]
          congr 1
          · refine sum_congr rfl (fun c hc => ?_)
            have := mem_range.mp hc
            rw [matP, if_pos hp, if_neg (by omega), if_neg (by omega), mul_comm]
          · rw [matP, if_pos hp, if_pos rfl, one_mul]) (fun c _ => by simp)).2
      refine ⟨fun c hc => ?_, ?_⟩
      · have h1 := this c (by omega)
        rwa [if_neg hc.ne] at h1
      · have h1 := this n (by omega)
        rwa [if_pos rfl] at h1
    · intro ht
      by_contra hk
      have hk0 : k = 0 := by omega
      subst hk0
      have hp := sizeP_of_zero ht n
      have := (split (fun _ => 0) (fun _ => 1) (fun c hc hk => by
          refine absurd (kept_poly.mpr ⟨hc, fun hp' e he => ?_⟩) hk
          have := last_lt hot he
          omega) (fun i hi => by omega) (fun c _ => by simp)).2 0 (by omega)
      exact one_ne_zero this
  · rintro ⟨hd, hu⟩ x hx j hj
    have hr := (reduced_iff (A := rawMatrix t g n k nodes) (b := fun _ => 0)).mp hx
    set kept := keptIndices t n k groups with hkept
    obtain ⟨hn, hm⟩ := kept_sublist t n k groups
    obtain ⟨z1, z2⟩ := homogeneous_zero hg hot hd hu (lam := fun i => scatterCoef kept x i)
      (h := fun c => scatterCoef kept x (k + c)) (fun i hi => by
        rw [← raw_node_row (h := fun c => scatterCoef kept x (k + c)) _ _ _ _ _ _ hi]
        exact hr i (mem_kept_node hi)) (fun c hc => by
        rw [← raw_poly_row t g n k nodes _ (fun c => scatterCoef kept x (k + c)) c]
        exact hr (k + c) hc) (fun c _ hk => by
        simp only [scatterCoef]
        rw [if_neg hk])
    have hmem : kept.getD j 0 ∈ kept := by
      rw [List.getD_eq_getElem?_getD, List.getElem?_eq_getElem hj]
      exact List.getElem_mem hj
    have hval : scatterCoef kept x (kept.getD j 0) = x j := by
      rw [scatterCoef, if_pos hmem]
      congr 1
      rw [List.getD_eq_getElem?_getD, List.getElem?_eq_getElem hj]
      exact hn.idxOf_getElem j hj
    rw [← hval]
    have hlt := hm _ hmem
    rcases Nat.lt_or_ge (kept.getD j 0) k with hjk | hjk
    · exact z1 _ hjk
    · obtain ⟨c, hc⟩ := Nat.exists_eq_add_of_le hjk
      rw [hc]
      exact z2 c (by omega)

/-! ## Existence and uniqueness of the interpolant -/

/-- A nonsingular square system has a solution for every right hand side. -/
theorem Nonsingular.solvable {m : ℕ} {A : ℕ → ℕ → ℝ} (h : Nonsingular m A) (b : ℕ → ℝ) :
    ∃ x : ℕ → ℝ, ∀ i < m, ∑ j ∈ range m, A i j * x j = b i := by
  let L : (Fin m → ℝ) →ₗ[ℝ] (Fin m → ℝ) := Matrix.mulVecLin (Matrix.of (fun i j : Fin m => A i j))
  have hL : ∀ (x : Fin m → ℝ) (i : Fin m), L x i = ∑ j : Fin m, A i j * x j := fun x i => rfl
  have hext : ∀ (x : Fin m → ℝ) (i : ℕ),
      ∑ j ∈ range m, A i j * (if hj : j < m then x ⟨j, hj⟩ else 0) = ∑ j : Fin m, A i j * x j := by
    intro x i
    rw [Finset.sum_range]
    refine sum_congr rfl (fun j _ => ?_)
    rw [dif_pos j.isLt]
  have hinj : Function.Injective L := by
    rw [injective_iff_map_eq_zero]
    intro x hx
    funext j
    have := h (fun j => if hj : j < m then x ⟨j, hj⟩ else 0) (fun i hi => by
      rw [hext, ← hL x ⟨i, hi⟩, hx]; rfl) j j.isLt
    simpa using this
  obtain ⟨x, hx⟩ := (LinearMap.injective_iff_surjective.mp hinj) (fun i => b i)
  refine ⟨fun j => if hj : j < m then x ⟨j, hj⟩ else 0, fun i hi => ?_⟩
  rw [hext, ← hL x ⟨i, hi⟩, hx]

/-- What is assumed of `np.linalg.solve` here, beyond `SolverOk`: it raises `LinAlgError` exactly for
singular matrices (exact arithmetic). -/
def SolverExact (solve : ℕ → (ℕ → ℕ → ℝ) → (ℕ → ℝ) → Option (ℕ → ℝ)) : Prop :=
  SolverOk solve ∧ ∀ m A b, solve m A b = none ↔ ¬ Nonsingular m A

/-- No entry of the matrix lies strictly between 0 and `eps_zero` in absolute value, so that the
zeroing of small entries does not change the matrix. -/
def NoTinyEntries (t : Rbf) (g eps : ℝ) (n k : ℕ) (nodes : ℕ → ℕ → ℝ) : Prop :=
  ∀ i < k + sizeP t n, ∀ j < k + sizeP t n,
    rawMatrix t g n k nodes i j = 0 ∨ eps ≤ |rawMatrix t g n k nodes i j|

theorem NoTinyEntries.eq {t : Rbf} {g eps : ℝ} {n k : ℕ} {nodes : ℕ → ℕ → ℝ}
    (h : NoTinyEntries t g eps n k nodes) {i j : ℕ} (hi : i < k + sizeP t n)
    (hj : j < k + sizeP t n) : rbfMatrix t g eps n k nodes i j = rawMatrix t g n k nodes i j := by
  unfold rbfMatrix zeroTiny
  rcases h i hi j hj with h0 | h0
  · rw [h0]; simp
  · rw [if_neg (not_lt.mpr h0)]

theorem Nonsingular.congr {m : ℕ} {A B : ℕ → ℕ → ℝ} (h : ∀ i < m, ∀ j < m, A i j = B i j) :
    Nonsingular m A ↔ Nonsingular m B := by
  unfold Nonsingular
  refine forall_congr' (fun x => ?_)
  have : (∀ i < m, ∑ j ∈ range m, A i j * x j = 0) ↔ ∀ i < m, ∑ j ∈ range m, B i j * x j = 0 := by
    refine forall_congr' (fun i => forall_congr' (fun hi => ?_))
    rw [sum_congr rfl (fun j hj => by rw [h i hi j (mem_range.mp hj)])]
  rw [this]

theorem kept_getD_lt {t : Rbf} {n k : ℕ} {groups : List (List ℕ)} {i : ℕ}
    (hi : i < (keptIndices t n k groups).length) :
    (keptIndices t n k groups).getD i 0 < k + sizeP t n := by
  refine (kept_sublist t n k groups).2 _ ?_
  rw [List.getD_eq_getElem?_getD, List.getElem?_eq_getElem hi]
  exact List.getElem_mem hi

/-- **C92** `get_rbf_coefficients` raises `LinAlgError` if and only if two nodes coincide or a nonzero
polynomial of the degree of the model vanishes at all nodes: whatever the values at the nodes. -/
theorem C92_coefficients_iff {solve : ℕ → (ℕ → ℕ → ℝ) → (ℕ → ℝ) → Option (ℕ → ℝ)}
    (hs : SolverExact solve) {t : Rbf} {g eps : ℝ} (hg : t = .gaussian → 0 < g) {n k : ℕ}
    {nodes : ℕ → ℕ → ℝ} {groups : List (List ℕ)} (hot : OneHotNodes n k nodes groups)
    (hz : NoTinyEntries t g eps n k nodes) (val : ℕ → ℝ) :
    rbfCoefficients solve t n k (rbfMatrix t g eps n k nodes) val groups = none ↔
      ¬ (DistinctNodes n k nodes ∧ Unisolvent t n k nodes groups) := by
  rw [← C92_nonsingular_iff hg hot, ← Nonsingular.congr (fun i hi j hj =>
    hz.eq (kept_getD_lt hi) (kept_getD_lt hj))]
  unfold rbfCoefficients
  dsimp only
  rw [← hs.2 _ _ (fun i => if (keptIndices t n k groups).getD i 0 < k then
    val ((keptIndices t n k groups).getD i 0) else 0)]
  generalize solve (keptIndices t n k groups).length _ _ = q
  cases q <;> simp

/-- **C92** Likewise `get_matrix_inverse`, if `np.linalg.inv` raises `LinAlgError` exactly for singular
matrices. -/
theorem C92_inverse_iff {inv : ℕ → (ℕ → ℕ → ℝ) → Option (ℕ → ℕ → ℝ)}
    (hs : ∀ m A, inv m A = none ↔ ¬ Nonsingular m A) {t : Rbf} {g eps : ℝ}
    (hg : t = .gaussian → 0 < g) {n k : ℕ} {nodes : ℕ → ℕ → ℝ} {groups : List (List ℕ)}
    (hot : OneHotNodes n k nodes groups) (hz : NoTinyEntries t g eps n k nodes) :
    matrixInverse inv t eps n k (rbfMatrix t g eps n k nodes) groups = none ↔
      ¬ (DistinctNodes n k nodes ∧ Unisolvent t n k nodes groups) := by
  rw [← C92_nonsingular_iff hg hot, ← Nonsingular.congr (fun i hi j hj =>
    hz.eq (kept_getD_lt hi) (kept_getD_lt hj))]
  unfold matrixInverse
  dsimp only
  rw [← hs]
  generalize inv (keptIndices t n k groups).length _ = q
  cases q <;> simp

/-- The coefficients `(lam, h)` define a model of the form used by the code: no polynomial coefficient
for the last binary of a categorical variable, and the side conditions. -/
structure IsModel (t : Rbf) (n k : ℕ) (nodes : ℕ → ℕ → ℝ) (groups : List (List ℕ)) (lam h : ℕ → ℝ) :
    Prop where
  dropped : degreePolynomial t = 1 → ∀ e ∈ groups, h (e.getLastD 0) = 0
  const : 0 ≤ degreePolynomial t → ∑ j ∈ range k, lam j = 0
  coord : degreePolynomial t = 1 → ∀ c < n, ∑ j ∈ range k, lam j * nodes j c = 0

/-- **C92** For distinct nodes on which no polynomial of the degree of the model vanishes there is at most
one model with given values at the nodes. -/
theorem C92_interpolant_unique {t : Rbf} {g : ℝ} (hg : t = .gaussian → 0 < g) {n k : ℕ}
    {nodes : ℕ → ℕ → ℝ} {groups : List (List ℕ)} (hot : OneHotNodes n k nodes groups)
    (hd : DistinctNodes n k nodes) (hu : Unisolvent t n k nodes groups) {lam h lam' h' : ℕ → ℝ}
    (hm : IsModel t n k nodes groups lam h) (hm' : IsModel t n k nodes groups lam' h')
    (heq : ∀ i < k, evaluateRbf t g n k nodes lam h (nodes i) =
      evaluateRbf t g n k nodes lam' h' (nodes i)) :
    ∀ x, evaluateRbf t g n k nodes lam h x = evaluateRbf t g n k nodes lam' h' x := by
  have hz := homogeneous_zero hg hot hd hu (lam := fun i => lam i - lam' i)
    (h := fun c => h c - h' c) (fun i hi => by
      have := heq i hi
      rw [evaluate_eq, evaluate_eq] at this
      simp only [mul_sub, sum_sub_distrib]
      linarith) (fun c hc => by
      simp only [sub_mul, sum_sub_distrib]
      have hc' := (kept_poly.mp hc).1
      rcases degree_cases t with ht | ht | ht
      · have hp := sizeP_of_one ht n
        rcases Nat.lt_or_ge c n with hcn | hcn
        · have e : ∀ j, matP t n nodes j c = nodes j c := fun j => by
            rw [matP, if_pos hp, if_neg (by omega)]
          simp only [e]
          rw [hm.coord ht c hcn, hm'.coord ht c hcn, sub_zero]
        · have e : ∀ j, matP t n nodes j c = 1 := fun j => by
            rw [matP, if_pos hp, if_pos (by omega)]
          simp only [e, mul_one]
          rw [hm.const (by omega), hm'.const (by omega), sub_zero]
      · have hp := sizeP_of_zero ht n
        have e : ∀ j, matP t n nodes j c = 1 := fun j => by
          rcases Nat.eq_zero_or_pos n with hn | hn
          · rw [matP, if_pos (by omega), if_pos (by omega)]
          · rw [matP, if_neg (by omega)]
        simp only [e, mul_one]
        rw [hm.const (by omega), hm'.const (by omega), sub_zero]
      · rw [sizeP_of_neg ht] at hc'; omega) (fun c hc hk => by
      have : sizeP t n = n + 1 ∧ ∃ e ∈ groups, c = e.getLastD 0 := by
        by_contra hcon
        refine hk (kept_poly.mpr ⟨hc, fun hp e he hce => hcon ⟨hp, e, he, hce⟩⟩)
      obtain ⟨hp, e, he, rfl⟩ := this
      have hl := last_lt hot he
      have ht : degreePolynomial t = 1 := by
        rcases degree_cases t with ht | ht | ht
        · exact ht
        · rw [sizeP_of_zero ht] at hp; omega
        · rw [sizeP_of_neg ht] at hp; omega
      rw [hm.dropped ht e he, hm'.dropped ht e he, sub_zero])
  intro x
  have h1 : ∀ i < k, lam i = lam' i := fun i hi => sub_eq_zero.mp (hz.1 i hi)
  have h2 : ∀ c < sizeP t n, h c = h' c := fun c hc => sub_eq_zero.mp (hz.2 c hc)
  unfold evaluateRbf
  dsimp only
  congr 1
  · congr 1
    · exact sum_congr rfl (fun i hi => by rw [h1 i (mem_range.mp hi)])
    · refine sum_congr rfl (fun c hc => ?_)
      rw [h2 c (by have := mem_range.mp hc; omega)]
  · split
    · exact h2 _ (by omega)
    · rfl

/-! ## Sufficient conditions and exceptions -/

/-- Nodes at positive distance from each other are distinct. -/
theorem C92_spaced_nodes {n k : ℕ} {nodes : ℕ → ℕ → ℝ} {d : ℝ} (hd : 0 ≤ d)
    (h : ∀ i < k, ∀ j < k, i ≠ j → d < euclid n (nodes i) (nodes j)) : DistinctNodes n k nodes := by
  intro i hi j hj he
  by_contra hne
  have h0 : euclid n (nodes i) (nodes j) = 0 := by
    unfold euclid
    rw [sum_eq_zero (fun c hc => by rw [he c (mem_range.mp hc), sub_self, mul_zero]), Real.sqrt_zero]
  have := h i hi j hj hne
  linarith

/-- **C92** Adding nodes keeps the system solvable, as long as the nodes remain distinct. -/
theorem C92_more_nodes {t : Rbf} {n k k' : ℕ} {nodes : ℕ → ℕ → ℝ} {groups : List (List ℕ)}
    (hk : k ≤ k') (hu : Unisolvent t n k nodes groups) : Unisolvent t n k' nodes groups :=
  ⟨fun ht h b hl hv => hu.1 ht h b hl (fun i hi => hv i (hi.trans_le hk)),
    fun ht => (hu.2 ht).trans_le hk⟩

/-- The rows of a list of points, as real numbers. -/
noncomputable def nodesOf (pts : List Pt) (i c : ℕ) : ℝ := ((pts.getD i []).getD c 0 : ℚ)

/-- **C92** A list of different points that contains the corners of `lower_corners` is a node set for which
the interpolation system is uniquely solvable, whatever the basis function. -/
theorem C92_corner_samples {lower upper : Pt} (hbox : ProperBox lower upper) {pts : List Pt}
    (hn : pts.Nodup) (hl : ∀ p ∈ pts, p.length = lower.length)
    (hc : ∀ p ∈ lowerCorners lower upper, p ∈ pts) (t : Rbf) :
    DistinctNodes lower.length pts.length (nodesOf pts) ∧
      Unisolvent t lower.length pts.length (nodesOf pts) [] := by
  obtain ⟨c1, c2, c3, -, -⟩ := C35_lower_corners hbox
  have hget : ∀ p ∈ pts, ∃ i < pts.length, pts.getD i [] = p := by
    intro p hp
    obtain ⟨i, hi, e⟩ := List.getElem_of_mem hp
    exact ⟨i, hi, by rw [List.getD_eq_getElem?_getD, List.getElem?_eq_getElem hi]; exact e⟩
  have hlow : lower ∈ pts := hc _ (List.mem_of_getElem? c2)
  refine ⟨?_, ?_, fun _ => List.length_pos_of_mem hlow⟩
  · intro i hi j hj h
    have ei : pts.getD i [] = pts[i] := by
      rw [List.getD_eq_getElem?_getD, List.getElem?_eq_getElem hi]; rfl
    have ej : pts.getD j [] = pts[j] := by
      rw [List.getD_eq_getElem?_getD, List.getElem?_eq_getElem hj]; rfl
    have li := hl _ (List.getElem_mem hi)
    have lj := hl _ (List.getElem_mem hj)
    refine (List.Nodup.getElem_inj_iff hn).mp (List.ext_getElem (li.trans lj.symm) ?_)
    intro c h1 h2
    have := h c (by omega)
    unfold nodesOf at this
    rw [ei, ej] at this
    have := Rat.cast_injective this
    simpa [List.getD_eq_getElem?_getD, List.getElem?_eq_getElem h1, List.getElem?_eq_getElem h2]
      using this
  · intro _ h b _ hv
    have key : ∀ p ∈ pts, ∑ c ∈ range lower.length, h c * ((p.getD c 0 : ℚ) : ℝ) + b = 0 := by
      intro p hp
      obtain ⟨i, hi, e⟩ := hget p hp
      have := hv i hi
      unfold nodesOf at this
      rwa [e] at this
    have h0 := key lower hlow
    have hz : ∀ i < lower.length, h i = 0 := by
      intro i hi
      obtain ⟨p, hp, -, hpv⟩ := c3 i hi
      have h1 := key p (hc _ (List.mem_of_getElem? hp))
      have hdiff : ∑ c ∈ range lower.length, h c * ((p.getD c 0 : ℚ) : ℝ) -
          ∑ c ∈ range lower.length, h c * ((lower.getD c 0 : ℚ) : ℝ) =
          h i * (((upper.getD i 0 : ℚ) : ℝ) - ((lower.getD i 0 : ℚ) : ℝ)) := by
        rw [← sum_sub_distrib]
        have : ∀ c ∈ range lower.length, h c * ((p.getD c 0 : ℚ) : ℝ) -
            h c * ((lower.getD c 0 : ℚ) : ℝ) = if c = i then
              h i * (((upper.getD i 0 : ℚ) : ℝ) - ((lower.getD i 0 : ℚ) : ℝ)) else 0 := by
          intro c hcr
          rw [hpv c (mem_range.mp hcr)]
          split
          · rename_i e; subst e; ring
          · ring
        rw [sum_congr rfl this, sum_ite_eq', if_pos (mem_range.mpr hi)]
      have hlt : lower.getD i 0 < upper.getD i 0 := by
        have hlu := hbox.length_eq
        rw [List.getD_eq_getElem?_getD, List.getD_eq_getElem?_getD, List.getElem?_eq_getElem hi,
          List.getElem?_eq_getElem (by omega)]
        have := (List.forall₂_iff_get.mp hbox).2 i hi (by omega)
        simpa using this
      have hlt' : ((lower.getD i 0 : ℚ) : ℝ) < ((upper.getD i 0 : ℚ) : ℝ) := by exact_mod_cast hlt
      have : h i * (((upper.getD i 0 : ℚ) : ℝ) - ((lower.getD i 0 : ℚ) : ℝ)) = 0 := by
        rw [← hdiff]; linarith
      rcases mul_eq_zero.mp this with h' | h'
      · exact h'
      · exact absurd h' (by linarith)
    refine ⟨hz, ?_⟩
    rw [sum_eq_zero (fun c hc => by rw [hz c (mem_range.mp hc), zero_mul]), zero_add] at h0
    exact h0

/-- **C92** The samples of the strategies `lower_corners` and `all_corners`, with or without the midpoint
(or other points that are not corners): the interpolation system is uniquely solvable. -/
theorem C92_corner_strategies {lower upper : Pt} (hbox : ProperBox lower upper) {extra : List Pt}
    (he : extra.Nodup) (hx : ∀ p ∈ extra, p.length = lower.length ∧ ¬ IsCorner lower upper p)
    (t : Rbf) {pts : List Pt} (hp : pts = lowerCorners lower upper ∨ pts = allCorners lower upper) :
    DistinctNodes lower.length (pts ++ extra).length (nodesOf (pts ++ extra)) ∧
      Unisolvent t lower.length (pts ++ extra).length (nodesOf (pts ++ extra)) [] := by
  obtain ⟨-, -, -, c4, c5⟩ := C35_lower_corners hbox
  obtain ⟨-, a2, a3⟩ := C35_all_corners hbox
  have hcor : ∀ p ∈ pts, IsCorner lower upper p := by
    rcases hp with rfl | rfl
    · exact c5
    · exact fun p hp => (a3 p).mp hp
  refine C92_corner_samples hbox ?_ ?_ ?_ t
  · rw [List.nodup_append]
    refine ⟨by rcases hp with rfl | rfl <;> assumption, he, fun a ha b hb e => ?_⟩
    subst e
    exact (hx a hb).2 (hcor a ha)
  · intro p hpm
    rcases List.mem_append.mp hpm with h | h
    · exact (hcor p h).1
    · exact (hx p h).1
  · intro p hpm
    refine List.mem_append_left _ ?_
    rcases hp with rfl | rfl
    · exact hpm
    · exact (a3 p).mpr (c5 p hpm)

/-- **C92** Nodes with integer coordinates and the linear or cubic basis function: no matrix entry is
small, so that the statements above hold for the matrix computed by the code, with `eps_zero ≤ 1`. -/
theorem C92_integer_nodes {t : Rbf} (ht : t = .linear ∨ t = .cubic) {g eps : ℝ} (he : eps ≤ 1)
    {n k : ℕ} {nodes : ℕ → ℕ → ℝ} (hi : ∀ i < k, ∀ c < n, ∃ z : ℤ, nodes i c = z) :
    NoTinyEntries t g eps n k nodes := by
  have hz : ∀ z : ℤ, (z : ℝ) = 0 ∨ eps ≤ |(z : ℝ)| := by
    intro z
    rcases eq_or_ne z 0 with h | h
    · left; exact_mod_cast h
    · right
      have : (1 : ℤ) ≤ |z| := Int.one_le_abs h
      have : (1 : ℝ) ≤ |(z : ℝ)| := by exact_mod_cast this
      linarith
  have hm : ∀ i < k, ∀ c < sizeP t n, matP t n nodes i c = 0 ∨ eps ≤ |matP t n nodes i c| := by
    intro i hik c hc
    unfold matP
    have h1 : (1 : ℝ) = 0 ∨ eps ≤ |(1 : ℝ)| := Or.inr (by rw [abs_one]; exact he)
    split
    · split
      · exact h1
      · obtain ⟨z, e⟩ := hi i hik c (by omega)
        rw [e]; exact hz z
    · exact h1
  have hd : ∀ i < k, ∀ j < k, euclid n (nodes i) (nodes j) = 0 ∨ 1 ≤ euclid n (nodes i) (nodes j) := by
    intro i hik j hjk
    have : ∃ z : ℤ, ∑ c ∈ range n, (nodes i c - nodes j c) * (nodes i c - nodes j c) = z := by
      have : ∀ m ≤ n, ∃ z : ℤ, ∑ c ∈ range m, (nodes i c - nodes j c) * (nodes i c - nodes j c) = z := by
        intro m
        induction m with
        | zero => intro _; exact ⟨0, by simp⟩
        | succ m ih =>
          intro hmn
          obtain ⟨z, e⟩ := ih (by omega)
          obtain ⟨a, ea⟩ := hi i hik m (by omega)
          obtain ⟨b, eb⟩ := hi j hjk m (by omega)
          refine ⟨z + (a - b) * (a - b), ?_⟩
          rw [sum_range_succ, e, ea, eb]
          push_cast; ring
      exact this n le_rfl
    obtain ⟨z, e⟩ := this
    have hnn : 0 ≤ ∑ c ∈ range n, (nodes i c - nodes j c) * (nodes i c - nodes j c) :=
      sum_nonneg (fun c _ => mul_self_nonneg _)
    unfold euclid
    rw [e] at hnn ⊢
    have hz0 : 0 ≤ z := by exact_mod_cast hnn
    rcases hz0.eq_or_lt with h | h
    · left; rw [← h]; simp
    · right
      rw [Real.one_le_sqrt]
      exact_mod_cast h
  intro i hit j hjt
  unfold rawMatrix
  split
  · split
    · rename_i h1 h2
      rcases hd i h1 j h2 with h | h
      · left; rw [h]; rcases ht with rfl | rfl <;> simp [phi]
      · right
        rw [abs_of_nonneg]
        · rcases ht with rfl | rfl
          · simp only [phi]; linarith
          · simp only [phi]; nlinarith [mul_self_nonneg (euclid n (nodes i) (nodes j))]
        · rcases ht with rfl | rfl
          · simp only [phi]; linarith
          · simp only [phi]; positivity
    · rename_i h1 h2
      exact hm i h1 _ (by omega)
  · split
    · rename_i h1 h2
      exact hm j h2 _ (by omega)
    · left; rfl

/-- **C92** (exception) With the Gaussian basis function and shape parameter 0 (`rbf_shape_parameter` is
not validated) the matrix of two or more nodes is singular, however the nodes are placed. -/
theorem C92_gaussian_zero_shape {n k : ℕ} (hk : 2 ≤ k) (nodes : ℕ → ℕ → ℝ) (groups : List (List ℕ)) :
    ¬ Nonsingular (keptIndices .gaussian n k groups).length (fun i j =>
      rawMatrix .gaussian 0 n k nodes ((keptIndices .gaussian n k groups).getD i 0)
        ((keptIndices .gaussian n k groups).getD j 0)) := by
  have hkept : keptIndices .gaussian n k groups = List.range k := by
    unfold keptIndices
    rw [if_neg (by simp [sizeP])]
    simp [sizeP]
  rw [hkept]
  intro h
  have := h (fun j => if j = 0 then 1 else if j = 1 then -1 else 0) (fun i hi => by
    simp only [List.length_range] at hi ⊢
    obtain ⟨k, rfl⟩ := Nat.exists_eq_add_of_le hk
    rw [sum_range_add, sum_eq_zero (s := range k) (fun j _ => by simp; omega), add_zero]
    have hg : ∀ j < 2 + k, (List.range (2 + k)).getD j 0 = j := fun j hj => by
      simp [List.getD_eq_getElem?_getD, hj]
    rw [sum_range_succ, sum_range_one, hg i hi, hg 0 (by omega), hg 1 (by omega)]
    simp [rawMatrix, hi, phi, show 1 < 2 + k by omega]) 0 (by rw [List.length_range]; omega)
  simp at this

/-- **C92** (exception) Two nodes at a distance below `eps_zero`, linear basis function: the code's matrix
is singular although the nodes are distinct, because the small entries are zeroed. -/
theorem C92_close_nodes_singular {g eps : ℝ} {n : ℕ} (hn : 0 < n)
    {nodes : ℕ → ℕ → ℝ} (hc : euclid n (nodes 0) (nodes 1) < eps) :
    ¬ Nonsingular (keptIndices .linear n 2 []).length (fun i j =>
      rbfMatrix .linear g eps n 2 nodes ((keptIndices .linear n 2 []).getD i 0)
        ((keptIndices .linear n 2 []).getD j 0)) := by
  have hkept : keptIndices .linear n 2 [] = [0, 1, 2] := by
    unfold keptIndices
    rw [if_neg (by simp [sizeP]; omega)]
    simp [sizeP, List.range_succ]
  have hp : ¬ sizeP .linear n = n + 1 := by simp [sizeP]; omega
  have h01 : |euclid n (nodes 0) (nodes 1)| < eps := by
    rwa [abs_of_nonneg (euclid_nonneg _ _ _)]
  have h10 : |euclid n (nodes 1) (nodes 0)| < eps := by rwa [euclid_symm]
  rw [hkept]
  intro h
  have := h (fun j => if j = 0 then 1 else if j = 1 then -1 else 0) (fun i hi => by
    simp only [List.length_cons, List.length_nil] at hi
    interval_cases i
    · simp [sum_range_succ, rbfMatrix, rawMatrix, phi, zeroTiny, euclid_self, h01, matP, hp]
    · simp [sum_range_succ, rbfMatrix, rawMatrix, phi, zeroTiny, euclid_self, h10, matP, hp]
    · simp [sum_range_succ, rbfMatrix, rawMatrix, zeroTiny, matP, hp]) 0 (by simp)
  simp at this

/-! ## Premises -/

open Classical in
/-- A solver meeting `SolverExact`. -/
noncomputable def exactSolver (m : ℕ) (A : ℕ → ℕ → ℝ) (b : ℕ → ℝ) : Option (ℕ → ℝ) :=
  if h : Nonsingular m A then some (h.solvable b).choose else none

theorem exactSolver_exact : SolverExact exactSolver := by
  refine ⟨fun m A b x hx => ?_, fun m A b => ?_⟩
  · unfold exactSolver at hx
    split at hx
    · rename_i h
      cases hx
      exact (h.solvable b).choose_spec
    · cases hx
  · unfold exactSolver
    split
    · rename_i h; simp [h]
    · rename_i h; simp [h]

-- Four nodes in the plane, all five basis functions: the hypotheses are met (with the zeroing of small
-- entries for the linear and cubic ones), so the coefficients exist for every vector of values.
def squareNodes (i c : ℕ) : ℝ := if c = 0 then (if i = 1 ∨ i = 3 then 1 else 0) else
  (if i = 2 ∨ i = 3 then 1 else 0)

theorem squareNodes_ok (t : Rbf) : OneHotNodes 2 4 squareNodes [] ∧ DistinctNodes 2 4 squareNodes ∧
    Unisolvent t 2 4 squareNodes [] := by
  refine ⟨⟨by simp, by simp, by simp, by simp, by simp, by simp⟩, ?_, ?_, fun _ => by omega⟩
  · intro i hi j hj h
    have h0 := h 0 (by omega)
    have h1 := h 1 (by omega)
    interval_cases i <;> interval_cases j <;> simp [squareNodes] at h0 h1 ⊢
  · intro _ h b _ hv
    have v0 := hv 0 (by omega)
    have v1 := hv 1 (by omega)
    have v2 := hv 2 (by omega)
    simp [squareNodes, sum_range_succ] at v0 v1 v2
    refine ⟨fun c hc => ?_, v0⟩
    interval_cases c <;> linarith

example (t : Rbf) (val : ℕ → ℝ) : ∃ lam h, rbfCoefficients exactSolver t 2 4
    (rbfMatrix t (1/10) 0 2 4 squareNodes) val [] = some (lam, h) := by
  obtain ⟨h1, h2, h3⟩ := squareNodes_ok t
  have := (C92_coefficients_iff exactSolver_exact (g := 1/10) (eps := 0) (fun _ => by norm_num) h1
    (fun i _ j _ => Or.inr (abs_nonneg _)) val).not.mpr (not_not.mpr ⟨h2, h3⟩)
  obtain ⟨⟨lam, h⟩, e⟩ := Option.ne_none_iff_exists'.mp this
  exact ⟨lam, h, e⟩

example (val : ℕ → ℝ) : ∃ lam h, rbfCoefficients exactSolver .cubic 2 4
    (rbfMatrix .cubic (1/10) (1/1000000) 2 4 squareNodes) val [] = some (lam, h) := by
  obtain ⟨h1, h2, h3⟩ := squareNodes_ok .cubic
  have := (C92_coefficients_iff exactSolver_exact (g := 1/10) (eps := 1/1000000)
    (fun h => by cases h) h1 (C92_integer_nodes (Or.inr rfl) (by norm_num) (fun i hi c hc => by
      unfold squareNodes
      split <;> split
      · exact ⟨1, by simp⟩
      · exact ⟨0, by simp⟩
      · exact ⟨1, by simp⟩
      · exact ⟨0, by simp⟩)) val).not.mpr (not_not.mpr ⟨h2, h3⟩)
  obtain ⟨⟨lam, h⟩, e⟩ := Option.ne_none_iff_exists'.mp this
  exact ⟨lam, h, e⟩

-- Three nodes on a line in the plane: for the cubic basis function the system is singular.
example (val : ℕ → ℝ) : rbfCoefficients exactSolver .cubic 2 3
    (rbfMatrix .cubic (1/10) 0 2 3 (fun i _ => i)) val [] = none := by
  refine (C92_coefficients_iff exactSolver_exact (fun h => by cases h)
    ⟨by simp, by simp, by simp, by simp, by simp, by simp⟩
    (fun i _ j _ => Or.inr (abs_nonneg _)) val).mpr ?_
  rintro ⟨_, hu⟩
  have := (hu.1 rfl (fun c => if c = 0 then 1 else -1) 0 (by simp) (fun i _ => by
    simp [sum_range_succ])).1 0 (by omega)
  simp at this

-- Three nodes that encode the three values of a categorical variable, cubic basis function.
example (val : ℕ → ℝ) : ∃ lam h, rbfCoefficients exactSolver .cubic 3 3
    (rbfMatrix .cubic (1/10) 0 3 3 (fun i c => if i = c then 1 else 0)) val [[0, 1, 2]] =
      some (lam, h) := by
  have h1 : OneHotNodes 3 3 (fun i c => if i = c then (1 : ℝ) else 0) [[0, 1, 2]] := by
    refine ⟨by simp, by simp, by simp, by simp, ?_, ?_⟩
    · intro i _ e _ c _
      by_cases h : i = c <;> simp [h]
    · intro i hi e he
      rw [List.mem_singleton.mp he]
      interval_cases i <;> simp
  have := (C92_coefficients_iff exactSolver_exact (t := .cubic) (g := 1/10) (eps := 0)
    (fun h => by cases h) h1 (fun i _ j _ => Or.inr (abs_nonneg _)) val).not.mpr (not_not.mpr ⟨?_, ?_, ?_⟩)
  · obtain ⟨⟨lam, h⟩, e⟩ := Option.ne_none_iff_exists'.mp this
    exact ⟨lam, h, e⟩
  · intro i hi j hj h
    have h0 := h i hi
    by_contra hne
    simp [Ne.symm hne] at h0
  · intro _ h b hl hv
    have l2 := hl _ (List.mem_singleton.mpr rfl)
    have v0 := hv 0 (by omega)
    have v1 := hv 1 (by omega)
    have v2 := hv 2 (by omega)
    simp [sum_range_succ] at v0 v1 v2 l2
    have hb : b = 0 := by linarith
    refine ⟨fun c hc => ?_, hb⟩
    interval_cases c <;> linarith
  · intro h; simp [degreePolynomial] at h

end Rbfopt
