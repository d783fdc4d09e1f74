import Verif.Props.Pyomo
import Verif.Props.RbfSolvable

/-!
# C100: the least bumpy model through the error intervals

In two-phase optimization the surrogate model is the solution of a quadratic program
(rbfopt_aux_problems.py:586-713 `get_noisy_rbf_coefficients`, `create_min_bump_model` of the model files).
Is this model determined by the data, and is a local solver enough to find it?
-/

namespace Rbfopt

open Finset

/-- The model with coefficients `(lam, h)` is admitted by the quadratic program of the nodes `nodes`. -/
def BumpFeasible (t : Rbf) (g eps : ℝ) (n k : ℕ) (nodes : ℕ → ℕ → ℝ) (val errLo errUp lam h : ℕ → ℝ) : Prop :=
  PyBumpFeasible t n k (rbfMatrix t g eps n k nodes) (fun i c => rbfMatrix t g eps n k nodes i (k + c))
    val errLo errUp lam h

/-- ... and no admitted model is less bumpy. -/
structure BumpOptimal (t : Rbf) (g eps : ℝ) (n k : ℕ) (nodes : ℕ → ℕ → ℝ) (val errLo errUp lam h : ℕ → ℝ) :
    Prop where
  feas : BumpFeasible t g eps n k nodes val errLo errUp lam h
  best : ∀ lam' h', BumpFeasible t g eps n k nodes val errLo errUp lam' h' →
    pyBump t k (rbfMatrix t g eps n k nodes) lam ≤ pyBump t k (rbfMatrix t g eps n k nodes) lam'

/-- The polynomial of the model. -/
def polyPart (t : Rbf) (n : ℕ) (h x : ℕ → ℝ) : ℝ :=
  ∑ c ∈ range (sizeP t n - 1), h c * x c + (if sizeP t n > 0 then h (sizeP t n - 1) else 0)

variable {t : Rbf} {g eps : ℝ} {n k : ℕ} {nodes : ℕ → ℕ → ℝ} {val errLo errUp lam lam' h h' : ℕ → ℝ}

theorem evaluateRbf_eq_poly (x : ℕ → ℝ) : evaluateRbf t g n k nodes lam h x =
    ∑ i ∈ range k, lam i * phi t g (euclid n x (nodes i)) + polyPart t n h x := by
  unfold evaluateRbf polyPart
  simp only
  rw [add_assoc]

theorem polyPart_node (i : ℕ) : polyPart t n h (nodes i) = ∑ c ∈ range (sizeP t n), matP t n nodes i c * h c := by
  have h1 := evaluate_eq t 0 n 0 nodes (fun _ => 0) h i
  rw [evaluateRbf_eq_poly] at h1
  simpa using h1

theorem polyPart_sub (x : ℕ → ℝ) :
    polyPart t n (fun c => h c - h' c) x = polyPart t n h x - polyPart t n h' x := by
  unfold polyPart
  simp only [sub_mul, sum_sub_distrib]
  split <;> ring

/-- The bumpiness along a segment. -/
theorem pyBump_segment (t : Rbf) (k : ℕ) (Phi : ℕ → ℕ → ℝ) (a b : ℕ → ℝ) (s : ℝ) :
    pyBump t k Phi (fun i => (1 - s) * a i + s * b i) =
      (1 - s) * pyBump t k Phi a + s * pyBump t k Phi b -
        s * (1 - s) * pyBump t k Phi (fun i => a i - b i) := by
  have key : ∑ i ∈ range k, ∑ j ∈ range k, Phi i j * ((1 - s) * a i + s * b i) * ((1 - s) * a j + s * b j) =
      (1 - s) * (∑ i ∈ range k, ∑ j ∈ range k, Phi i j * a i * a j) +
        s * (∑ i ∈ range k, ∑ j ∈ range k, Phi i j * b i * b j) -
        s * (1 - s) * (∑ i ∈ range k, ∑ j ∈ range k, Phi i j * (a i - b i) * (a j - b j)) := by
    simp only [mul_sum, ← sum_add_distrib, ← sum_sub_distrib]
    exact sum_congr rfl fun i _ => sum_congr rfl fun j _ => by ring
  cases t <;> simp only [pyBump] <;> rw [key] <;> ring

theorem matrix_entry (hz : NoTinyEntries t g eps n k nodes) {i j : ℕ} (hi : i < k) (hj : j < k) :
    rbfMatrix t g eps n k nodes i j = phi t g (euclid n (nodes i) (nodes j)) := by
  rw [hz.eq (by omega) (by omega), rawMatrix, if_pos hi, if_pos hj]

theorem matrix_poly (hz : NoTinyEntries t g eps n k nodes) {i c : ℕ} (hi : i < k) (hc : c < sizeP t n) :
    rbfMatrix t g eps n k nodes i (k + c) = matP t n nodes i c := by
  rw [hz.eq (by omega) (by omega), rawMatrix, if_pos hi, if_neg (by omega), Nat.add_sub_cancel_left]

/-- The constraints, in terms of the model. -/
theorem bumpFeasible_iff (hz : NoTinyEntries t g eps n k nodes) (hle : ∀ i < k, errLo i ≤ errUp i) :
    BumpFeasible t g eps n k nodes val errLo errUp lam h ↔
      (∀ i < k, val i + errLo i ≤ evaluateRbf t g n k nodes lam h (nodes i) ∧
        evaluateRbf t g n k nodes lam h (nodes i) ≤ val i + errUp i) ∧
      ∀ c < sizeP t n, ∑ j ∈ range k, lam j * matP t n nodes j c = 0 := by
  unfold BumpFeasible
  rw [C56_min_bump_constraints hle]
  have h1 : ∀ i < k, pyIntr t n k (rbfMatrix t g eps n k nodes)
      (fun i c => rbfMatrix t g eps n k nodes i (k + c)) lam h i =
      evaluateRbf t g n k nodes lam h (nodes i) := by
    intro i hi
    rw [evaluate_eq, pyIntr]
    congr 1
    · exact sum_congr rfl fun j hj => by rw [matrix_entry hz hi (mem_range.mp hj)]
    · exact sum_congr rfl fun c hc => by rw [matrix_poly hz hi (mem_range.mp hc)]
  have h2 : ∀ c < sizeP t n, ∑ j ∈ range k, rbfMatrix t g eps n k nodes j (k + c) * lam j =
      ∑ j ∈ range k, lam j * matP t n nodes j c := fun c hc =>
    sum_congr rfl fun j hj => by rw [matrix_poly hz (mem_range.mp hj) hc, mul_comm]
  refine and_congr (forall₂_congr fun i hi => by rw [h1 i hi]) (forall₂_congr fun c hc => by rw [h2 c hc])

/-- Coefficients that satisfy the side conditions have positive bumpiness unless they are all zero. -/
theorem pyBump_pos (hg : t = .gaussian → 0 < g) (hz : NoTinyEntries t g eps n k nodes)
    (hd : DistinctNodes n k nodes)
    (hside : ∀ c < sizeP t n, ∑ j ∈ range k, lam j * matP t n nodes j c = 0) (hne : ∃ i < k, lam i ≠ 0) :
    0 < pyBump t k (rbfMatrix t g eps n k nodes) lam := by
  have h0 := C92_definite hg hd lam hne (fun hdeg => by
    rcases degree_cases t with ht | ht | ht
    · have hp := sizeP_of_one ht n
      have := hside n (by omega)
      simpa [matP, hp] using this
    · have hp := sizeP_of_zero ht n
      have := hside 0 (by omega)
      have hm : ∀ j, matP t n nodes j 0 = 1 := by
        intro j
        unfold matP
        split
        · rename_i e
          rw [if_pos (by omega)]
        · rfl
      simpa [hm] using this
    · rw [ht] at hdeg
      exact absurd hdeg (by norm_num)) (fun ht c hc => by
    have hp := sizeP_of_one ht n
    have := hside c (by omega)
    simpa [matP, hp, hc.ne] using this)
  have e : ∑ i ∈ range k, ∑ j ∈ range k, rbfMatrix t g eps n k nodes i j * lam i * lam j =
      ∑ i ∈ range k, ∑ j ∈ range k, lam i * lam j * phi t g (euclid n (nodes i) (nodes j)) :=
    sum_congr rfl fun i hi => sum_congr rfl fun j hj => by
      rw [matrix_entry hz (mem_range.mp hi) (mem_range.mp hj)]; ring
  cases t <;> simp only [pyBump, e] <;> simpa [degreePolynomial] using h0

/-- The side conditions on the difference of two admitted models. -/
theorem side_sub (hz : NoTinyEntries t g eps n k nodes) (hle : ∀ i < k, errLo i ≤ errUp i)
    {val' errLo' errUp' : ℕ → ℝ} (hle' : ∀ i < k, errLo' i ≤ errUp' i)
    (h1 : BumpFeasible t g eps n k nodes val errLo errUp lam h)
    (h2 : BumpFeasible t g eps n k nodes val' errLo' errUp' lam' h') :
    ∀ c < sizeP t n, ∑ j ∈ range k, (lam j - lam' j) * matP t n nodes j c = 0 := by
  intro c hc
  simp only [sub_mul, sum_sub_distrib]
  rw [((bumpFeasible_iff hz hle).mp h1).2 c hc, ((bumpFeasible_iff hz hle').mp h2).2 c hc, sub_zero]

theorem segment_value (x : ℕ → ℝ) (s : ℝ) :
    evaluateRbf t g n k nodes (fun i => (1 - s) * lam i + s * lam' i) (fun i => (1 - s) * h i + s * h' i) x =
      (1 - s) * evaluateRbf t g n k nodes lam h x + s * evaluateRbf t g n k nodes lam' h' x := by
  simp only [evaluateRbf_eq_poly, polyPart, add_mul, mul_add, sum_add_distrib, mul_assoc, ← mul_sum]
  split <;> ring

/-- **C100** The models admitted by the program form a convex set, and on the way from one to a less bumpy
one the bumpiness decreases from the start.  Hence a point at which a local solver cannot improve is a
global optimum. -/
theorem C100_local_is_global (hg : t = .gaussian → 0 < g) (hz : NoTinyEntries t g eps n k nodes)
    (hd : DistinctNodes n k nodes) (hle : ∀ i < k, errLo i ≤ errUp i)
    (h1 : BumpFeasible t g eps n k nodes val errLo errUp lam h)
    (h2 : BumpFeasible t g eps n k nodes val errLo errUp lam' h')
    (hb : pyBump t k (rbfMatrix t g eps n k nodes) lam' < pyBump t k (rbfMatrix t g eps n k nodes) lam)
    {s : ℝ} (h0 : 0 < s) (hs : s ≤ 1) :
    BumpFeasible t g eps n k nodes val errLo errUp (fun i => (1 - s) * lam i + s * lam' i)
      (fun i => (1 - s) * h i + s * h' i) ∧
    pyBump t k (rbfMatrix t g eps n k nodes) (fun i => (1 - s) * lam i + s * lam' i) <
      pyBump t k (rbfMatrix t g eps n k nodes) lam := by
  obtain ⟨a1, a2⟩ := (bumpFeasible_iff hz hle).mp h1
  obtain ⟨b1, b2⟩ := (bumpFeasible_iff hz hle).mp h2
  constructor
  · rw [bumpFeasible_iff hz hle]
    refine ⟨fun i hi => ?_, fun c hc => ?_⟩
    · rw [segment_value]
      have := a1 i hi
      have := b1 i hi
      constructor <;> nlinarith
    · simp only [add_mul, sum_add_distrib, mul_assoc, ← mul_sum]
      rw [a2 c hc, b2 c hc]; ring
  · rw [pyBump_segment]
    have hnn : 0 ≤ pyBump t k (rbfMatrix t g eps n k nodes) (fun i => lam i - lam' i) := by
      by_cases hne : ∃ i < k, lam i - lam' i ≠ 0
      · exact (pyBump_pos hg hz hd (side_sub hz hle hle h1 h2) hne).le
      · push Not at hne
        have : ∑ i ∈ range k, ∑ j ∈ range k, rbfMatrix t g eps n k nodes i j * (lam i - lam' i) *
            (lam j - lam' j) = 0 :=
          sum_eq_zero fun i hi => sum_eq_zero fun j _ => by rw [hne i (mem_range.mp hi)]; ring
        cases t <;> simp [pyBump, this]
    nlinarith [mul_nonneg h0.le (sub_nonneg.mpr hs)]

/-- **C100** Two optimal solutions have the same radial part: the quadratic program determines the
coefficients of the basis functions. -/
theorem C100_unique (hg : t = .gaussian → 0 < g) (hz : NoTinyEntries t g eps n k nodes)
    (hd : DistinctNodes n k nodes) (hle : ∀ i < k, errLo i ≤ errUp i)
    (h1 : BumpOptimal t g eps n k nodes val errLo errUp lam h)
    (h2 : BumpOptimal t g eps n k nodes val errLo errUp lam' h') : ∀ i < k, lam i = lam' i := by
  by_contra hc
  push Not at hc
  obtain ⟨i, hi, hne⟩ := hc
  have hpos := pyBump_pos hg hz hd (side_sub hz hle hle h1.feas h2.feas) ⟨i, hi, sub_ne_zero.mpr hne⟩
  have heq : pyBump t k (rbfMatrix t g eps n k nodes) lam = pyBump t k (rbfMatrix t g eps n k nodes) lam' :=
    le_antisymm (h1.best _ _ h2.feas) (h2.best _ _ h1.feas)
  obtain ⟨a1, a2⟩ := (bumpFeasible_iff hz hle).mp h1.feas
  obtain ⟨b1, b2⟩ := (bumpFeasible_iff hz hle).mp h2.feas
  have hf : BumpFeasible t g eps n k nodes val errLo errUp (fun i => (1 - 1 / 2) * lam i + 1 / 2 * lam' i)
      (fun i => (1 - 1 / 2) * h i + 1 / 2 * h' i) := by
    rw [bumpFeasible_iff hz hle]
    refine ⟨fun i hi => ?_, fun c hc => ?_⟩
    · rw [segment_value]
      have := a1 i hi
      have := b1 i hi
      constructor <;> linarith
    · simp only [add_mul, sum_add_distrib, mul_assoc, ← mul_sum]
      rw [a2 c hc, b2 c hc]; ring
  have := h1.best _ _ hf
  rw [pyBump_segment] at this
  linarith

/-- **C100** Where the polynomial is determined by the nodes with exact values (every polynomial that
vanishes at all nodes whose interval is a single point vanishes at `x`), the value of the model is determined:
two optimal solutions have the same value at `x`. -/
theorem C100_unique_value (hg : t = .gaussian → 0 < g) (hz : NoTinyEntries t g eps n k nodes)
    (hd : DistinctNodes n k nodes) (hle : ∀ i < k, errLo i ≤ errUp i)
    (h1 : BumpOptimal t g eps n k nodes val errLo errUp lam h)
    (h2 : BumpOptimal t g eps n k nodes val errLo errUp lam' h') {x : ℕ → ℝ}
    (hx : ∀ d : ℕ → ℝ, (∀ i < k, errLo i = errUp i → polyPart t n d (nodes i) = 0) → polyPart t n d x = 0) :
    evaluateRbf t g n k nodes lam h x = evaluateRbf t g n k nodes lam' h' x := by
  have hl := C100_unique hg hz hd hle h1 h2
  have hsum : ∀ y, ∑ i ∈ range k, lam i * phi t g (euclid n y (nodes i)) =
      ∑ i ∈ range k, lam' i * phi t g (euclid n y (nodes i)) := fun y =>
    sum_congr rfl fun i hi => by rw [hl i (mem_range.mp hi)]
  have := hx (fun c => h c - h' c) (fun i hi he => by
    have a := ((bumpFeasible_iff hz hle).mp h1.feas).1 i hi
    have b := ((bumpFeasible_iff hz hle).mp h2.feas).1 i hi
    rw [evaluateRbf_eq_poly] at a b
    rw [hsum] at a
    rw [polyPart_sub]
    linarith [a.1, a.2, b.1, b.2])
  rw [polyPart_sub] at this
  rw [evaluateRbf_eq_poly, evaluateRbf_eq_poly, hsum]
  linarith

/-- **C100** If all values are exact, there is nothing to choose: every admitted model has the coefficients
of the ordinary interpolant (C43), and its value wherever the nodes determine the polynomial. -/
theorem C100_exact {solve : ℕ → (ℕ → ℕ → ℝ) → (ℕ → ℝ) → Option (ℕ → ℝ)} (hs : SolverOk solve)
    (hg : t = .gaussian → 0 < g) (hz : NoTinyEntries t g eps n k nodes) (he1 : eps ≤ 1)
    (hd : DistinctNodes n k nodes) {groups : List (List ℕ)} (hot : OneHotNodes n k nodes groups)
    (hc : rbfCoefficients solve t n k (rbfMatrix t g eps n k nodes) val groups = some (lam, h))
    (hf : BumpFeasible t g eps n k nodes val (fun _ => 0) (fun _ => 0) lam' h') :
    (∀ i < k, lam' i = lam i) ∧ ∀ x, (∀ d : ℕ → ℝ, (∀ i < k, polyPart t n d (nodes i) = 0) →
      polyPart t n d x = 0) → evaluateRbf t g n k nodes lam' h' x = evaluateRbf t g n k nodes lam h x := by
  have hf0 : BumpFeasible t g eps n k nodes val (fun _ => 0) (fun _ => 0) lam h :=
    (C56_fallback_feasible hs he1 hot hc (fun _ _ => ⟨le_rfl, le_rfl⟩)).2
  have hle : ∀ i < k, (fun _ : ℕ => (0 : ℝ)) i ≤ (fun _ : ℕ => (0 : ℝ)) i := fun _ _ => le_rfl
  have a := ((bumpFeasible_iff hz hle).mp hf).1
  have b := ((bumpFeasible_iff hz hle).mp hf0).1
  have hside := side_sub hz hle hle hf hf0
  -- the difference is a homogeneous solution
  have hval : ∀ i < k, ∑ j ∈ range k, (lam' j - lam j) * phi t g (euclid n (nodes i) (nodes j)) +
      polyPart t n (fun c => h' c - h c) (nodes i) = 0 := by
    intro i hi
    have a1 := a i hi
    have b1 := b i hi
    rw [evaluateRbf_eq_poly] at a1 b1
    rw [polyPart_sub]
    simp only [sub_mul, sum_sub_distrib]
    linarith [a1.1, a1.2, b1.1, b1.2]
  have hq : ∑ i ∈ range k, ∑ j ∈ range k, rbfMatrix t g eps n k nodes i j * (lam' i - lam i) *
      (lam' j - lam j) = 0 := by
    have e : ∀ i ∈ range k, ∑ j ∈ range k, rbfMatrix t g eps n k nodes i j * (lam' i - lam i) *
        (lam' j - lam j) =
        -∑ c ∈ range (sizeP t n), (lam' i - lam i) * matP t n nodes i c * (h' c - h c) := by
      intro i hi
      have := hval i (mem_range.mp hi)
      rw [polyPart_node] at this
      have e1 : ∑ j ∈ range k, rbfMatrix t g eps n k nodes i j * (lam' i - lam i) * (lam' j - lam j) =
          (lam' i - lam i) * ∑ j ∈ range k, (lam' j - lam j) * phi t g (euclid n (nodes i) (nodes j)) := by
        rw [mul_sum]
        exact sum_congr rfl fun j hj => by
          rw [matrix_entry hz (mem_range.mp hi) (mem_range.mp hj)]; ring
      rw [e1, eq_neg_of_add_eq_zero_left this, mul_neg, mul_sum]
      congr 1
      exact sum_congr rfl fun c _ => by ring
    rw [sum_congr rfl e, sum_neg_distrib, sum_comm]
    simp only [← sum_mul]
    rw [sum_eq_zero (fun c hc => by rw [hside c (mem_range.mp hc), zero_mul]), neg_zero]
  have hl : ∀ i < k, lam' i = lam i := by
    by_contra hcon
    push Not at hcon
    obtain ⟨i, hi, hne⟩ := hcon
    have := pyBump_pos hg hz hd hside ⟨i, hi, sub_ne_zero.mpr hne⟩
    cases t <;> simp only [pyBump, hq] at this <;> linarith
  refine ⟨hl, fun x hx => ?_⟩
  have hsum : ∀ y, ∑ i ∈ range k, lam' i * phi t g (euclid n y (nodes i)) =
      ∑ i ∈ range k, lam i * phi t g (euclid n y (nodes i)) := fun y =>
    sum_congr rfl fun i hi => by rw [hl i (mem_range.mp hi)]
  have := hx (fun c => h' c - h c) (fun i hi => by
    have := hval i hi
    simp only [sub_mul, sum_sub_distrib] at this
    rw [hsum] at this
    linarith)
  rw [polyPart_sub] at this
  rw [evaluateRbf_eq_poly, evaluateRbf_eq_poly, hsum]
  linarith

/-- **C100** The least bumpy model is at most as bumpy as the ordinary interpolant, if every interval
contains the value; and larger intervals do not increase the bumpiness. -/
theorem C100_at_most_interpolant {solve : ℕ → (ℕ → ℕ → ℝ) → (ℕ → ℝ) → Option (ℕ → ℝ)} (hs : SolverOk solve)
    (he1 : eps ≤ 1) {groups : List (List ℕ)} (hot : OneHotNodes n k nodes groups)
    (hc : rbfCoefficients solve t n k (rbfMatrix t g eps n k nodes) val groups = some (lam, h))
    (he : ∀ i < k, errLo i ≤ 0 ∧ 0 ≤ errUp i)
    (ho : BumpOptimal t g eps n k nodes val errLo errUp lam' h') :
    pyBump t k (rbfMatrix t g eps n k nodes) lam' ≤ pyBump t k (rbfMatrix t g eps n k nodes) lam :=
  ho.best _ _ (C56_fallback_feasible hs he1 hot hc he).2

theorem C100_wider_intervals {errLo' errUp' : ℕ → ℝ} (hle : ∀ i < k, errLo i ≤ errUp i)
    (hw : ∀ i < k, errLo' i ≤ errLo i ∧ errUp i ≤ errUp' i)
    (h1 : BumpOptimal t g eps n k nodes val errLo errUp lam h)
    (h2 : BumpOptimal t g eps n k nodes val errLo' errUp' lam' h') :
    pyBump t k (rbfMatrix t g eps n k nodes) lam' ≤ pyBump t k (rbfMatrix t g eps n k nodes) lam := by
  refine h2.best _ h ?_
  have hle' : ∀ i < k, errLo' i ≤ errUp' i := fun i hi => by
    have := hle i hi; have := hw i hi; linarith
  have := h1.feas
  unfold BumpFeasible at this ⊢
  rw [C56_min_bump_constraints hle] at this
  rw [C56_min_bump_constraints hle']
  exact ⟨fun i hi => ⟨by linarith [(this.1 i hi).1, hw i hi], by linarith [(this.1 i hi).2, hw i hi]⟩, this.2⟩

end Rbfopt
