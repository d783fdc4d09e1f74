import Verif.Model.Refinement
import Mathlib.Tactic.Positivity
import Mathlib.Tactic.Linarith
import Mathlib.Tactic.FieldSimp
import Mathlib.Algebra.Order.BigOperators.Group.Finset

/-! # C50: the continuous refinement candidate -/

namespace Rbfopt

open Finset

theorem minOver_le {n : ℕ} (t : ℝ) (loc : Fin n → Prop) [DecidablePred loc] (f : Fin n → ℝ) :
    minOver t loc f ≤ t := by
  unfold minOver
  rw [Finset.fold_min_le]
  exact .inl le_rfl

theorem minOver_le_of {n : ℕ} (t : ℝ) (loc : Fin n → Prop) [DecidablePred loc] (f : Fin n → ℝ)
    {i : Fin n} (h : loc i) : minOver t loc f ≤ f i := by
  unfold minOver
  rw [Finset.fold_min_le]
  exact .inr ⟨i, by simpa using h, le_rfl⟩

theorem le_minOver {n : ℕ} {t c : ℝ} {loc : Fin n → Prop} [DecidablePred loc] {f : Fin n → ℝ}
    (h1 : c ≤ t) (h2 : ∀ i, loc i → c ≤ f i) : c ≤ minOver t loc f := by
  unfold minOver
  rw [Finset.le_fold_min]
  exact ⟨h1, fun i hi => h2 i (by simpa using hi)⟩

theorem lt_minOver {n : ℕ} {t c : ℝ} {loc : Fin n → Prop} [DecidablePred loc] {f : Fin n → ℝ}
    (h1 : c < t) (h2 : ∀ i, loc i → c < f i) : c < minOver t loc f := by
  unfold minOver
  rw [Finset.lt_fold_min]
  exact ⟨h1, fun i hi => h2 i (by simpa using hi)⟩

theorem vnorm_nonneg {n : ℕ} (v : Fin n → ℝ) : 0 ≤ vnorm v := Real.sqrt_nonneg _

theorem clipR_mem {x lo hi : ℝ} (h : lo ≤ hi) : lo ≤ clipR x lo hi ∧ clipR x lo hi ≤ hi :=
  ⟨le_min (le_max_right _ _) h, min_le_right _ _⟩

/-- Clipping does not move a point away from a point of the box, nor past it. -/
theorem clipR_between {s y lo hi : ℝ} (h1 : lo ≤ s) (h2 : s ≤ hi) :
    (s ≤ y → s ≤ clipR y lo hi ∧ clipR y lo hi ≤ y) ∧
    (y ≤ s → clipR y lo hi ≤ s ∧ y ≤ clipR y lo hi) := by
  unfold clipR
  refine ⟨fun h => ⟨le_min (h.trans (le_max_left _ _)) h2, ?_⟩,
    fun h => ⟨(min_le_left _ _).trans (max_le h h1), le_min (le_max_left _ _) (h.trans h2)⟩⟩
  exact (min_le_left _ _).trans (max_le le_rfl (h1.trans h))

variable {n : ℕ} {epsZero minDist radius : ℝ} {lower upper h start : Fin n → ℝ}

open Classical in
theorem maxStep_nonneg (hr : 0 ≤ radius) (hb : ∀ i, lower i ≤ start i ∧ start i ≤ upper i) :
    0 ≤ maxStep minDist lower upper h start radius := by
  refine le_minOver (le_minOver (div_nonneg hr (vnorm_nonneg _)) ?_) ?_
  · rintro i ⟨hi, -⟩
    exact div_nonneg (by linarith [(hb i).1]) (by linarith)
  · rintro i ⟨hi, -⟩
    exact div_nonneg_of_nonpos (by linarith [(hb i).2]) (by linarith)

theorem maxStep_le : maxStep minDist lower upper h start radius ≤ radius / vnorm h :=
  (minOver_le _ _ _).trans (minOver_le _ _ _)

/-- Each coordinate moves against the gradient, by at most the step length. -/
theorem candidate_coord (hr : 0 ≤ radius) (hb : ∀ i, lower i ≤ start i ∧ start i ≤ upper i)
    (i : Fin n) :
    let t := maxStep minDist lower upper h start radius
    let c := clipR (start i - t * h i) (lower i) (upper i)
    (0 ≤ h i → c ≤ start i ∧ start i - c ≤ t * h i) ∧
    (h i ≤ 0 → start i ≤ c ∧ c - start i ≤ t * (-h i)) := by
  intro t c
  have ht : 0 ≤ t := maxStep_nonneg hr hb
  obtain ⟨k1, k2⟩ := clipR_between (y := start i - t * h i) (hb i).1 (hb i).2
  refine ⟨fun hh => ?_, fun hh => ?_⟩
  · have := k2 (by nlinarith)
    exact ⟨this.1, by linarith [this.2]⟩
  · have := k1 (by nlinarith)
    exact ⟨this.1, by linarith [this.2]⟩

/-- **C50** The candidate lies in the box. -/
theorem C50_in_box (hr : 0 ≤ radius) (hb : ∀ i, lower i ≤ start i ∧ start i ≤ upper i)
    (i : Fin n) :
    lower i ≤ (candidatePoint epsZero minDist lower upper h start radius).1 i ∧
    (candidatePoint epsZero minDist lower upper h start radius).1 i ≤ upper i := by
  unfold candidatePoint
  split
  · exact hb i
  · exact clipR_mem ((hb i).1.trans (hb i).2)

/-- **C50** The candidate is within the refinement radius of the starting point. -/
theorem C50_in_radius (hr : 0 ≤ radius) (he : 0 ≤ epsZero)
    (hb : ∀ i, lower i ≤ start i ∧ start i ≤ upper i) :
    Real.sqrt (∑ i, ((candidatePoint epsZero minDist lower upper h start radius).1 i - start i) ^ 2)
      ≤ radius := by
  unfold candidatePoint
  split
  · simpa using hr
  · rename_i hn
    rw [not_le] at hn
    have hpos : 0 < vnorm h := lt_of_le_of_lt he hn
    have ht := maxStep_nonneg (minDist := minDist) (h := h) hr hb
    have htl := maxStep_le (minDist := minDist) (lower := lower) (upper := upper) (h := h)
      (start := start) (radius := radius)
    set t := maxStep minDist lower upper h start radius with htd
    have key : ∑ i, (clipR (start i - t * h i) (lower i) (upper i) - start i) ^ 2 ≤
        ∑ i, t ^ 2 * (h i * h i) := by
      refine Finset.sum_le_sum fun i _ => ?_
      have := candidate_coord (minDist := minDist) (h := h) hr hb i
      simp only [← htd] at this
      rcases le_total 0 (h i) with hh | hh
      · obtain ⟨a, b⟩ := this.1 hh
        nlinarith
      · obtain ⟨a, b⟩ := this.2 hh
        nlinarith
    rw [← Finset.mul_sum] at key
    have h2 : ∑ i, h i * h i = vnorm h ^ 2 := by
      rw [vnorm, Real.sq_sqrt (Finset.sum_nonneg fun i _ => mul_self_nonneg _)]
    rw [h2, ← mul_pow] at key
    refine (Real.sqrt_le_sqrt key).trans ?_
    rw [Real.sqrt_sq (mul_nonneg ht hpos.le)]
    calc t * vnorm h ≤ radius / vnorm h * vnorm h := mul_le_mul_of_nonneg_right htl hpos.le
      _ = radius := by field_simp

/-- **C50** The reported improvement is the decrease of the linear model `h·x + b`. -/
theorem C50_improvement_eq (b : ℝ) :
    (candidatePoint epsZero minDist lower upper h start radius).2.1 =
      (∑ i, h i * start i + b) -
      (∑ i, h i * (candidatePoint epsZero minDist lower upper h start radius).1 i + b) := by
  unfold candidatePoint
  split
  · simp
  · simp only [mul_sub, Finset.sum_sub_distrib]
    ring

/-- **C50** … and is never negative. -/
theorem C50_improvement_nonneg (hr : 0 ≤ radius)
    (hb : ∀ i, lower i ≤ start i ∧ start i ≤ upper i) :
    0 ≤ (candidatePoint epsZero minDist lower upper h start radius).2.1 := by
  unfold candidatePoint
  split
  · exact le_rfl
  · dsimp only
    apply Finset.sum_nonneg
    intro i _
    have := candidate_coord (minDist := minDist) (h := h) hr hb i
    dsimp only at this
    rcases le_total 0 (h i) with hh | hh
    · exact mul_nonneg hh (by linarith [(this.1 hh).1])
    · exact mul_nonneg_of_nonpos_of_nonpos hh (by linarith [(this.2 hh).1])

open Classical in
/-- **C50** With a positive radius and a gradient that is not (numerically) zero, the model really
improves exactly if some coordinate can move against the gradient: the candidate is the starting
point itself only at a stationary point of the linear model in the box. -/
theorem C50_improvement_pos_iff (hr : 0 < radius) (hm : 0 < minDist) (he : 0 ≤ epsZero)
    (hg : epsZero < vnorm h) (hb : ∀ i, lower i ≤ start i ∧ start i ≤ upper i) :
    0 < (candidatePoint epsZero minDist lower upper h start radius).2.1 ↔
      ∃ i, (0 < h i ∧ lower i < start i) ∨ (h i < 0 ∧ start i < upper i) := by
  have hpos : 0 < vnorm h := lt_of_le_of_lt he hg
  have ht : 0 < maxStep minDist lower upper h start radius := by
    refine lt_minOver (lt_minOver (div_pos hr hpos) ?_) ?_
    · rintro i ⟨hi, hs⟩
      exact div_pos (by linarith) hi
    · rintro i ⟨hi, hs⟩
      exact div_pos_of_neg_of_neg (by linarith) hi
  have hcp : candidatePoint epsZero minDist lower upper h start radius =
      (fun i => clipR (start i - maxStep minDist lower upper h start radius * h i)
        (lower i) (upper i),
       ∑ i, h i * (start i - clipR (start i - maxStep minDist lower upper h start radius * h i)
        (lower i) (upper i)), vnorm h) := by
    unfold candidatePoint
    rw [if_neg (not_le.mpr hg)]
  rw [hcp]
  dsimp only
  set t := maxStep minDist lower upper h start radius with htd
  have hterm : ∀ i, 0 ≤ h i * (start i - clipR (start i - t * h i) (lower i) (upper i)) := by
    intro i
    have := candidate_coord (minDist := minDist) (h := h) hr.le hb i
    simp only [← htd] at this
    rcases le_total 0 (h i) with hh | hh
    · exact mul_nonneg hh (by linarith [(this.1 hh).1])
    · exact mul_nonneg_of_nonpos_of_nonpos hh (by linarith [(this.2 hh).1])
  rw [Finset.sum_pos_iff_of_nonneg (fun i _ => hterm i)]
  constructor
  · rintro ⟨i, -, hi⟩
    refine ⟨i, ?_⟩
    rcases lt_trichotomy (h i) 0 with hh | hh | hh
    · right
      refine ⟨hh, ?_⟩
      by_contra hc
      have hse : start i = upper i := le_antisymm (hb i).2 (not_lt.mp hc)
      have : clipR (start i - t * h i) (lower i) (upper i) ≤ start i := by
        rw [hse]; exact min_le_right _ _
      nlinarith
    · rw [hh] at hi; simp at hi
    · left
      refine ⟨hh, ?_⟩
      by_contra hc
      have hse : start i = lower i := le_antisymm (not_lt.mp hc) (hb i).1
      have : start i ≤ clipR (start i - t * h i) (lower i) (upper i) := by
        rw [hse]; exact (clipR_mem ((hb i).1.trans (hb i).2)).1
      nlinarith
  · rintro ⟨i, ⟨hh, hs⟩ | ⟨hh, hs⟩⟩
    · refine ⟨i, mem_univ _, mul_pos hh ?_⟩
      have : clipR (start i - t * h i) (lower i) (upper i) < start i := by
        unfold clipR
        refine (min_le_left _ _).trans_lt (max_lt ?_ hs)
        nlinarith
      linarith
    · refine ⟨i, mem_univ _, mul_pos_of_neg_of_neg hh ?_⟩
      have : start i < clipR (start i - t * h i) (lower i) (upper i) := by
        unfold clipR
        refine lt_min (lt_of_lt_of_le ?_ (le_max_left _ _)) hs
        nlinarith
      linarith

-- a case meeting the hypotheses, with a positive improvement
example : 0 < (candidatePoint (n := 2) 0 (1/10) (fun _ => 0) (fun _ => 5) ![1, 0]
    (fun _ => 2) 1).2.1 := by
  refine (C50_improvement_pos_iff (by norm_num) (by norm_num) le_rfl ?_
    (fun i => by constructor <;> norm_num)).mpr ⟨0, .inl ⟨by simp, by norm_num⟩⟩
  unfold vnorm
  refine Real.sqrt_pos.mpr ?_
  simp [Fin.sum_univ_two]

/-- **C50** (limit of the claim) With a gradient whose norm is at most `eps_zero` the step does not
move, although the model could be improved. -/
theorem C50_small_gradient (hg : vnorm h ≤ epsZero) :
    (candidatePoint epsZero minDist lower upper h start radius).1 = start ∧
    (candidatePoint epsZero minDist lower upper h start radius).2.1 = 0 := by
  unfold candidatePoint
  rw [if_pos hg]
  exact ⟨rfl, rfl⟩

/-- **C50** The third component is the norm of the gradient of the linear model, in every case. -/
theorem C50_gradient_norm :
    (candidatePoint epsZero minDist lower upper h start radius).2.2 =
      Real.sqrt (∑ i, h i ^ 2) := by
  have h2 : vnorm h = Real.sqrt (∑ i, h i ^ 2) := by
    unfold vnorm; simp only [pow_two]
  rw [← h2]
  unfold candidatePoint
  split <;> rfl

end Rbfopt
