import Verif.Props.NoisyUnique
import Mathlib.Analysis.Normed.Module.FiniteDimension
import Mathlib.Topology.Algebra.Module.FiniteDimension
import Mathlib.Topology.Order.Compact
import Mathlib.LinearAlgebra.Matrix.ToLin

/-!
# C100: the quadratic program for noisy nodes has a solution
-/

namespace Rbfopt

open Finset

variable {t : Rbf} {g eps : ℝ} {n k : ℕ} {nodes : ℕ → ℕ → ℝ} {val errLo errUp lam lam' h h' : ℕ → ℝ}

/-- A vector as a function on the natural numbers. -/
def extend {m : ℕ} (l : Fin m → ℝ) (i : ℕ) : ℝ := if hi : i < m then l ⟨i, hi⟩ else 0

theorem extend_lt {m : ℕ} (l : Fin m → ℝ) {i : ℕ} (hi : i < m) : extend l i = l ⟨i, hi⟩ := dif_pos hi

theorem extend_restrict {m : ℕ} (a : ℕ → ℝ) {i : ℕ} (hi : i < m) :
    extend (fun j : Fin m => a j) i = a i := extend_lt _ hi

theorem continuous_extend {m : ℕ} (i : ℕ) : Continuous (fun l : Fin m → ℝ => extend l i) := by
  by_cases hi : i < m
  · simp only [extend, dif_pos hi]; exact continuous_apply _
  · simp only [extend, dif_neg hi]; exact continuous_const

theorem pyBump_congr {Phi : ℕ → ℕ → ℝ} (e : ∀ i < k, lam i = lam' i) :
    pyBump t k Phi lam = pyBump t k Phi lam' := by
  have : ∑ i ∈ range k, ∑ j ∈ range k, Phi i j * lam i * lam j =
      ∑ i ∈ range k, ∑ j ∈ range k, Phi i j * lam' i * lam' j :=
    sum_congr rfl fun i hi => sum_congr rfl fun j hj => by
      rw [e i (mem_range.mp hi), e j (mem_range.mp hj)]
  cases t <;> simp only [pyBump, this]

theorem pyBump_smul {Phi : ℕ → ℕ → ℝ} (a : ℝ) :
    pyBump t k Phi (fun i => a * lam i) = a ^ 2 * pyBump t k Phi lam := by
  have : ∑ i ∈ range k, ∑ j ∈ range k, Phi i j * (a * lam i) * (a * lam j) =
      a ^ 2 * ∑ i ∈ range k, ∑ j ∈ range k, Phi i j * lam i * lam j := by
    simp only [mul_sum]
    exact sum_congr rfl fun i _ => sum_congr rfl fun j _ => by ring
  cases t <;> simp only [pyBump, this] <;> ring

theorem continuous_pyBump (Phi : ℕ → ℕ → ℝ) :
    Continuous (fun l : Fin k → ℝ => pyBump t k Phi (extend l)) := by
  have : Continuous (fun l : Fin k → ℝ => ∑ i ∈ range k, ∑ j ∈ range k, Phi i j * extend l i * extend l j) :=
    continuous_finsetSum _ fun i _ => continuous_finsetSum _ fun j _ =>
      ((continuous_const.mul (continuous_extend i)).mul (continuous_extend j))
  cases t <;> simp only [pyBump]
  all_goals first | exact this | exact this.neg

/-- The vectors that satisfy the side conditions. -/
def sideSet (t : Rbf) (n k : ℕ) (nodes : ℕ → ℕ → ℝ) : Set (Fin k → ℝ) :=
  {l | ∀ c < sizeP t n, ∑ j ∈ range k, extend l j * matP t n nodes j c = 0}

theorem isClosed_sideSet : IsClosed (sideSet t n k nodes) := by
  unfold sideSet
  simp only [Set.setOf_forall]
  exact isClosed_iInter fun c => isClosed_iInter fun _ => isClosed_eq
    (continuous_finsetSum _ fun j _ => (continuous_extend j).mul continuous_const) continuous_const

/-- On the side conditions the bumpiness grows at least quadratically. -/
theorem pyBump_coercive (hg : t = .gaussian → 0 < g) (hz : NoTinyEntries t g eps n k nodes)
    (hd : DistinctNodes n k nodes) : ∃ m > 0, ∀ l ∈ sideSet t n k nodes,
      m * ‖l‖ ^ 2 ≤ pyBump t k (rbfMatrix t g eps n k nodes) (extend l) := by
  have hpos : ∀ l ∈ sideSet t n k nodes, l ≠ 0 → 0 < pyBump t k (rbfMatrix t g eps n k nodes) (extend l) := by
    intro l hl h0
    refine pyBump_pos hg hz hd hl ?_
    obtain ⟨i, hi⟩ := Function.ne_iff.mp h0
    exact ⟨i, i.isLt, by rw [extend_lt _ i.isLt]; exact hi⟩
  have hzero : pyBump t k (rbfMatrix t g eps n k nodes) (extend (0 : Fin k → ℝ)) = 0 := by
    rw [pyBump_congr (lam' := fun _ => 0) (fun i hi => by rw [extend_lt _ hi]; rfl)]
    cases t <;> simp [pyBump]
  have hcomp : IsCompact (Metric.sphere (0 : Fin k → ℝ) 1 ∩ sideSet t n k nodes) :=
    (isCompact_sphere _ _).inter_right isClosed_sideSet
  have hscale : ∀ l ∈ sideSet t n k nodes, l ≠ 0 →
      ‖l‖⁻¹ • l ∈ Metric.sphere (0 : Fin k → ℝ) 1 ∩ sideSet t n k nodes ∧
      pyBump t k (rbfMatrix t g eps n k nodes) (extend l) =
        ‖l‖ ^ 2 * pyBump t k (rbfMatrix t g eps n k nodes) (extend (‖l‖⁻¹ • l)) := by
    intro l hl h0
    have hn : ‖l‖ ≠ 0 := norm_ne_zero_iff.mpr h0
    have he : ∀ i < k, extend (‖l‖⁻¹ • l) i = ‖l‖⁻¹ * extend l i := fun i hi => by
      rw [extend_lt _ hi, extend_lt _ hi]; rfl
    refine ⟨⟨?_, ?_⟩, ?_⟩
    · rw [mem_sphere_zero_iff_norm, norm_smul, norm_inv, norm_norm, inv_mul_cancel₀ hn]
    · intro c hc
      rw [sum_congr rfl (fun j hj => by rw [he j (mem_range.mp hj), mul_assoc]), ← mul_sum, hl c hc, mul_zero]
    · rw [pyBump_congr he, pyBump_smul, inv_pow, mul_inv_cancel_left₀ (pow_ne_zero 2 hn)]
  by_cases hemp : (Metric.sphere (0 : Fin k → ℝ) 1 ∩ sideSet t n k nodes).Nonempty
  · obtain ⟨u, hu, hmin⟩ := hcomp.exists_isMinOn hemp (continuous_pyBump _).continuousOn
    have hu0 : u ≠ 0 := by
      rintro rfl
      have := mem_sphere_zero_iff_norm.mp hu.1
      simp at this
    refine ⟨_, hpos u hu.2 hu0, fun l hl => ?_⟩
    rcases eq_or_ne l 0 with rfl | h0
    · rw [hzero]; simp
    · obtain ⟨h1, h2⟩ := hscale l hl h0
      rw [h2, mul_comm]
      exact mul_le_mul_of_nonneg_left (isMinOn_iff.mp hmin _ h1) (by positivity)
  · refine ⟨1, one_pos, fun l hl => ?_⟩
    rcases eq_or_ne l 0 with rfl | h0
    · rw [hzero]; simp
    · exact absurd ⟨_, (hscale l hl h0).1⟩ hemp

/-- **C100** If the quadratic program admits any model (the ordinary interpolant, for example), it has an
optimal solution. -/
theorem C100_exists (hg : t = .gaussian → 0 < g) (hz : NoTinyEntries t g eps n k nodes)
    (hd : DistinctNodes n k nodes) (hle : ∀ i < k, errLo i ≤ errUp i)
    (hf : BumpFeasible t g eps n k nodes val errLo errUp lam h) :
    ∃ lam' h', BumpOptimal t g eps n k nodes val errLo errUp lam' h' := by
  set Q : (Fin k → ℝ) → ℝ := fun l => pyBump t k (rbfMatrix t g eps n k nodes) (extend l) with hQ
  have hQc : Continuous Q := continuous_pyBump _
  set R : (Fin k → ℝ) → ℕ → ℝ := fun l i =>
    ∑ j ∈ range k, extend l j * phi t g (euclid n (nodes i) (nodes j)) with hR
  have hRc : ∀ i, Continuous (fun l => R l i) := fun i =>
    continuous_finsetSum _ fun j _ => (continuous_extend j).mul continuous_const
  set L : (Fin (sizeP t n) → ℝ) →ₗ[ℝ] (Fin k → ℝ) :=
    Matrix.mulVecLin (Matrix.of fun (i : Fin k) (c : Fin (sizeP t n)) => matP t n nodes i c) with hL
  have hLv : ∀ (a : ℕ → ℝ) (i : Fin k), L (fun c => a c) i = polyPart t n a (nodes i) := by
    intro a i
    rw [polyPart_node, Finset.sum_range]
    rfl
  have hLc : IsClosed (LinearMap.range L : Set (Fin k → ℝ)) := Submodule.closed_of_finiteDimensional _
  obtain ⟨m, hm, hcoer⟩ := pyBump_coercive hg hz hd
  -- admitted models as pairs
  set l0 : Fin k → ℝ := fun i => lam i
  set K : Set ((Fin k → ℝ) × (Fin k → ℝ)) :=
    {z | z.1 ∈ sideSet t n k nodes ∧ z.2 ∈ (LinearMap.range L : Set (Fin k → ℝ)) ∧
      (∀ i : Fin k, val i + errLo i ≤ R z.1 i + z.2 i ∧ R z.1 i + z.2 i ≤ val i + errUp i) ∧
      Q z.1 ≤ Q l0} with hK
  have hev : ∀ (a b : ℕ → ℝ) (i : Fin k), evaluateRbf t g n k nodes a b (nodes i) =
      R (fun j : Fin k => a j) i + L (fun c => b c) i := by
    intro a b i
    rw [evaluateRbf_eq_poly, hLv]
    congr 1
    exact sum_congr rfl fun j hj => by rw [extend_restrict a (mem_range.mp hj)]
  have hmem : ∀ a b : ℕ → ℝ, BumpFeasible t g eps n k nodes val errLo errUp a b →
      Q (fun j : Fin k => a j) ≤ Q l0 → ((fun j : Fin k => a j), L (fun c => b c)) ∈ K := by
    intro a b hab hq
    obtain ⟨h1, h2⟩ := (bumpFeasible_iff hz hle).mp hab
    refine ⟨fun c hc => ?_, ⟨_, rfl⟩, fun i => ?_, hq⟩
    · rw [← h2 c hc]
      exact sum_congr rfl fun j hj => by rw [extend_restrict a (mem_range.mp hj)]
    · dsimp only
      rw [← hev]
      exact h1 i i.isLt
  have hne : K.Nonempty := ⟨_, hmem lam h hf le_rfl⟩
  have hclosed : IsClosed K := by
    have e : K = (Prod.fst ⁻¹' sideSet t n k nodes) ∩
        ((Prod.snd ⁻¹' (LinearMap.range L : Set (Fin k → ℝ))) ∩
        ({z | ∀ i : Fin k, val i + errLo i ≤ R z.1 i + z.2 i ∧ R z.1 i + z.2 i ≤ val i + errUp i} ∩
        {z | Q z.1 ≤ Q l0})) := rfl
    rw [e]
    refine (isClosed_sideSet.preimage continuous_fst).inter ((hLc.preimage continuous_snd).inter
      (IsClosed.inter ?_ (isClosed_le (hQc.comp continuous_fst) continuous_const)))
    simp only [Set.setOf_forall]
    refine isClosed_iInter fun i => ?_
    have hc : Continuous (fun z : (Fin k → ℝ) × (Fin k → ℝ) => R z.1 i + z.2 i) :=
      ((hRc i).comp continuous_fst).add ((continuous_apply i).comp continuous_snd)
    exact (isClosed_le continuous_const hc).inter (isClosed_le hc continuous_const)
  have hcompact : IsCompact K := by
    set B := max 1 (Q l0 / m)
    have himg : IsCompact ((fun z : (Fin k → ℝ) × (Fin k → ℝ) => (z.1, fun i : Fin k => z.2 i - R z.1 i)) ''
        (Metric.closedBall (0 : Fin k → ℝ) B ×ˢ
          Set.Icc (fun i : Fin k => val i + errLo i) (fun i : Fin k => val i + errUp i))) := by
      refine ((isCompact_closedBall _ _).prod isCompact_Icc).image ?_
      refine continuous_fst.prodMk (continuous_pi fun i => ?_)
      exact ((continuous_apply i).comp continuous_snd).sub ((hRc i).comp continuous_fst)
    refine himg.of_isClosed_subset hclosed ?_
    rintro ⟨l, w⟩ ⟨h1, -, h3, h4⟩
    dsimp only at h1 h3 h4
    refine ⟨(l, fun i => R l i + w i), ⟨?_, ?_⟩, ?_⟩
    · rw [mem_closedBall_zero_iff]
      have h5 : m * ‖l‖ ^ 2 ≤ Q l0 := (hcoer l h1).trans h4
      have h6 : ‖l‖ ^ 2 ≤ Q l0 / m := by rw [le_div_iff₀ hm]; linarith
      by_cases h7 : ‖l‖ ≤ 1
      · exact h7.trans (le_max_left _ _)
      · refine le_trans ?_ (h6.trans (le_max_right _ _))
        nlinarith
    · exact ⟨fun i => (h3 i).1, fun i => (h3 i).2⟩
    · simp
  obtain ⟨⟨l, w⟩, hz1, hmin⟩ := hcompact.exists_isMinOn hne (hQc.comp continuous_fst).continuousOn
  obtain ⟨k1, ⟨b, hb⟩, k3, k4⟩ := hz1
  dsimp only at k1 hb k3 k4
  have hbx : L (fun c => extend b c) = w := by
    rw [← hb]
    congr 1
    funext c
    exact extend_lt _ c.isLt
  have hlx : (fun j : Fin k => extend l j) = l := funext fun j => extend_lt _ j.isLt
  refine ⟨extend l, extend b, (bumpFeasible_iff hz hle).mpr ⟨fun i hi => ?_, k1⟩, fun a c hac => ?_⟩
  · have := hev (extend l) (extend b) ⟨i, hi⟩
    dsimp only at this
    rw [this, hlx, hbx]
    exact k3 ⟨i, hi⟩
  · have e : pyBump t k (rbfMatrix t g eps n k nodes) a = Q (fun j : Fin k => a j) :=
      pyBump_congr fun i hi => (extend_restrict a hi).symm
    rw [e]
    show Q l ≤ Q (fun j : Fin k => a j)
    clear_value Q R L K
    by_cases hq : Q (fun j : Fin k => a j) ≤ Q l0
    · have h1 := isMinOn_iff.mp hmin (_, _) (hmem a c hac hq)
      simpa only [Function.comp_apply] using h1
    · exact k4.trans (not_le.mp hq).le

/-- **C100** For distinct nodes that determine the polynomial, and intervals that contain the values, the
quadratic program has an optimal solution and all optimal solutions have the same coefficients of the basis
functions; none is bumpier than the ordinary interpolant, which exists. -/
theorem C100_well_posed {solve : ℕ → (ℕ → ℕ → ℝ) → (ℕ → ℝ) → Option (ℕ → ℝ)} (hs : SolverExact solve)
    (hg : t = .gaussian → 0 < g) (hz : NoTinyEntries t g eps n k nodes) (he1 : eps ≤ 1)
    {groups : List (List ℕ)} (hot : OneHotNodes n k nodes groups) (hd : DistinctNodes n k nodes)
    (hu : Unisolvent t n k nodes groups) (he : ∀ i < k, errLo i ≤ 0 ∧ 0 ≤ errUp i) :
    ∃ lam₀ h₀ lam₁, rbfCoefficients solve t n k (rbfMatrix t g eps n k nodes) val groups = some (lam₀, h₀) ∧
      (∃ h₁, BumpOptimal t g eps n k nodes val errLo errUp lam₁ h₁) ∧
      ∀ lam h, BumpOptimal t g eps n k nodes val errLo errUp lam h →
        (∀ i < k, lam i = lam₁ i) ∧
        pyBump t k (rbfMatrix t g eps n k nodes) lam ≤ pyBump t k (rbfMatrix t g eps n k nodes) lam₀ := by
  have hle : ∀ i < k, errLo i ≤ errUp i := fun i hi => (he i hi).1.trans (he i hi).2
  cases hc : rbfCoefficients solve t n k (rbfMatrix t g eps n k nodes) val groups with
  | none => exact absurd ⟨hd, hu⟩ ((C92_coefficients_iff hs hg hot hz val).mp hc)
  | some p =>
    obtain ⟨lam₀, h₀⟩ := p
    obtain ⟨lam₁, h₁, ho⟩ := C100_exists hg hz hd hle (C56_fallback_feasible hs.1 he1 hot hc he).2
    exact ⟨lam₀, h₀, lam₁, rfl, ⟨h₁, ho⟩, fun lam h hl =>
      ⟨C100_unique hg hz hd hle hl ho, C100_at_most_interpolant hs.1 he1 hot hc he hl⟩⟩

end Rbfopt
