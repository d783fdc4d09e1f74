import Verif.Model.Target
import Verif.Model.Serial
import Verif.Spec.Problem
import Verif.Lemmas.ListAux
import Mathlib.Algebra.Order.Floor.Ring
import Mathlib.Tactic.Positivity
import Mathlib.Tactic.FieldSimp

/-!
# Optimality gap (C40) and targets of the global search (C42)
-/

namespace Rbfopt

/-! ## C40 -/

/-- **C40** With a nonzero target, the gap is at most `e` exactly when the value is at most
`target + e |target|`; with a target that is zero (up to `eps_zero`) exactly when it is at most
`target + e`. -/
theorem C40_gap_iff (P : Params) (h0 : 0 < P.epsZero) (f e : ℚ) :
    (P.epsZero ≤ |P.target| →
      (computeGap P (f : EVal) ≤ (e : EVal) ↔ f ≤ P.target + e * |P.target|)) ∧
    (|P.target| < P.epsZero →
      (computeGap P (f : EVal) ≤ (e : EVal) ↔ f ≤ P.target + e)) := by
  have hmap : computeGap P (f : EVal) = ((computeGapQ P f : ℚ) : EVal) := rfl
  rw [hmap, WithTop.coe_le_coe]
  unfold computeGapQ
  constructor
  · intro h
    have hp : 0 < |P.target| := lt_of_lt_of_le h0 h
    rw [if_pos h, div_le_iff₀ hp]
    constructor <;> intro g <;> linarith
  · intro h
    rw [if_neg (not_le.mpr h), div_one]
    constructor <;> intro g <;> linarith

/-- **C40** The gap is strictly increasing in the value, zero at the target, nonnegative exactly for
values not below the target, and infinite only for an infinite value. -/
theorem C40_gap_monotone (P : Params) (h0 : 0 < P.epsZero) :
    (∀ f g : EVal, computeGap P f ≤ computeGap P g ↔ f ≤ g) ∧
    computeGap P (P.target : EVal) = ((0 : ℚ) : EVal) ∧
    (∀ f : ℚ, ((0 : ℚ) : EVal) ≤ computeGap P (f : EVal) ↔ P.target ≤ f) ∧
    (∀ f : EVal, computeGap P f = ⊤ ↔ f = ⊤) := by
  have hd : (0 : ℚ) < (if P.epsZero ≤ |P.target| then |P.target| else 1) := by
    split
    · rename_i h; exact lt_of_lt_of_le h0 h
    · norm_num
  have hq : ∀ f, computeGapQ P f = (f - P.target) /
    (if P.epsZero ≤ |P.target| then |P.target| else 1) := fun _ => rfl
  have htop : ∀ f : EVal, computeGap P f = ⊤ ↔ f = ⊤ := by
    intro f
    unfold computeGap
    exact WithTop.map_eq_top_iff
  refine ⟨?_, ?_, ?_, htop⟩
  · intro f g
    induction g using WithTop.recTopCoe with
    | top => simp [(htop ⊤).mpr rfl]
    | coe g =>
      induction f using WithTop.recTopCoe with
      | top =>
        rw [(htop ⊤).mpr rfl]
        have : computeGap P (g : EVal) = ((computeGapQ P g : ℚ) : EVal) := rfl
        rw [this]; simp
      | coe f =>
        have e1 : computeGap P (g : EVal) = ((computeGapQ P g : ℚ) : EVal) := rfl
        have e2 : computeGap P (f : EVal) = ((computeGapQ P f : ℚ) : EVal) := rfl
        rw [e1, e2, WithTop.coe_le_coe, WithTop.coe_le_coe, hq, hq, div_le_div_iff_of_pos_right hd]
        constructor <;> intro h <;> linarith
  · have e1 : computeGap P (P.target : EVal) =
      ((computeGapQ P P.target : ℚ) : EVal) := rfl
    rw [e1, hq, sub_self, zero_div]
  · intro f
    have e1 : computeGap P (f : EVal) = ((computeGapQ P f : ℚ) : EVal) := rfl
    rw [e1, WithTop.coe_le_coe, hq, le_div_iff₀ hd, zero_mul]
    constructor <;> intro h <;> linarith

/-! ## C42: the index -/

/-- Closed form of `get_sigma_n`. -/
theorem sigmaN_eq {k g : ℕ} (nInit : ℤ) (hg : 0 < g) {step : ℕ} (hs : 1 ≤ step) :
    sigmaN k g nInit step =
      .ok ((k : ℤ) - 1 - ((step : ℤ) - 1) * (((k : ℤ) - nInit) / (g : ℤ))) := by
  have hf : ⌊(((k : ℤ) - nInit : ℤ) : ℚ) / (g : ℚ)⌋ = ((k : ℤ) - nInit) / (g : ℤ) := by
    exact Rat.floor_intCast_div_natCast _ _
  induction step with
  | zero => omega
  | succ step ih =>
    cases step with
    | zero => simp [sigmaN]
    | succ step =>
      rw [sigmaN, ih (by omega)]
      simp only [if_neg (Nat.pos_iff_ne_zero.mp hg), hf]
      congr 1
      push_cast
      ring

/-- **C42** If there are at least as many nodes as initial points, then in each of the `g` global
steps the index of the clipped maximum is a valid position among the `k` nodes, is the last position
in the first step, and never increases from one step to the next; it stays at or above the number of
initial points minus one. -/
theorem C42_index_valid {k g : ℕ} {nInit : ℤ} (hk : 1 ≤ k) (h0 : 0 ≤ nInit) (hn : nInit ≤ k) :
    (∀ step, 1 ≤ step → step ≤ g → ∃ s : ℤ, sigmaN k g nInit step = .ok s ∧ 0 ≤ s ∧ s < k ∧
      nInit - 1 ≤ s) ∧
    (1 ≤ g → sigmaN k g nInit 1 = .ok ((k : ℤ) - 1)) ∧
    (∀ step s t, 1 ≤ step → step < g → sigmaN k g nInit step = .ok s →
      sigmaN k g nInit (step + 1) = .ok t → t ≤ s) := by
  refine ⟨?_, fun _ => rfl, ?_⟩
  · intro step h1 h2
    have hg : 0 < g := by omega
    refine ⟨_, sigmaN_eq nInit hg h1, ?_⟩
    have hq0 : 0 ≤ ((k : ℤ) - nInit) / (g : ℤ) := Int.ediv_nonneg (by omega) (by omega)
    have hq1 : ((k : ℤ) - nInit) / (g : ℤ) * g ≤ (k : ℤ) - nInit :=
      Int.ediv_mul_le _ (by omega)
    generalize ((k : ℤ) - nInit) / (g : ℤ) = q at *
    have a1 : ((step : ℤ) - 1) * q ≤ ((g : ℤ) - 1) * q :=
      mul_le_mul_of_nonneg_right (by omega) hq0
    have a2 : 0 ≤ ((step : ℤ) - 1) * q := mul_nonneg (by omega) hq0
    have a3 : ((g : ℤ) - 1) * q = q * g - q := by ring
    refine ⟨?_, by omega, by omega⟩
    by_cases hq : q = 0
    · rw [hq]; simp; omega
    · omega
  · intro step s t h1 h2 hs ht
    have hg : 0 < g := by omega
    rw [sigmaN_eq nInit hg h1] at hs
    rw [sigmaN_eq nInit hg (by omega)] at ht
    cases hs; cases ht
    have hq0 : 0 ≤ ((k : ℤ) - nInit) / (g : ℤ) := Int.ediv_nonneg (by omega) (by omega)
    push_cast
    nlinarith

/-- **C42** (violation) If there are fewer nodes than the nominal number of initial points, every
global step after the first raises `IndexError` (targetval_clipping is on by default). -/
theorem C42_violated_too_few_nodes {g : ℕ} {nInit : ℤ} {vals : List ℚ} {step : ℕ}
    (hn : (vals.length : ℤ) < nInit) (h1 : 2 ≤ step) (h2 : step ≤ g) :
    fmaxCurrentIter g nInit step vals = .error .indexError := by
  unfold fmaxCurrentIter
  rw [sigmaN_eq nInit (by omega) (by omega)]
  have hq : ((vals.length : ℤ) - nInit) / (g : ℤ) < 0 :=
    Int.ediv_neg_of_neg_of_pos (by omega) (by omega)
  simp only
  generalize ((vals.length : ℤ) - nInit) / (g : ℤ) = q at *
  have : (step : ℤ) - 1 ≤ -(((step : ℤ) - 1) * q) := by nlinarith
  unfold pyIndex
  simp only
  rw [if_neg (by omega), if_neg (by omega)]
  have : (vals.insertionSort (· ≤ ·))[((vals.length : ℤ) - 1 - ((step : ℤ) - 1) * q).toNat]? =
      none := by
    rw [List.getElem?_eq_none_iff, List.length_insertionSort]
    omega
  rw [this]

-- The situation arises: in dimension one with fraction 2 the nominal number of initial points is 4,
-- but the sample has at most 3 points (`C38_violated_one_dimension`).
example : fmaxCurrentIter 5 4 2 [1, 2, 3] = .error .indexError :=
  C42_violated_too_few_nodes (by decide) (by decide) (by decide)

/-! ## C42: target values -/

theorem sort_get_mem {vals : List ℚ} {i : ℤ} {x : ℚ}
    (h : pyIndex (vals.insertionSort (· ≤ ·)) i = .ok x) : x ∈ vals := by
  unfold pyIndex at h
  extract_lets j at h
  by_cases hj : j < 0
  · rw [if_pos hj] at h; cases h
  · rw [if_neg hj] at h
    split at h
    · rename_i y hy
      cases h
      exact (List.mem_insertionSort _).mp (List.mem_of_getElem? hy)
    · cases h

/-- The clipped maximum of a step is one of the node values. -/
theorem fmaxCurrentIter_mem {g : ℕ} {nInit : ℤ} {step : ℕ} {vals : List ℚ} {x : ℚ}
    (h : fmaxCurrentIter g nInit step vals = .ok x) : x ∈ vals := by
  unfold fmaxCurrentIter at h
  split at h
  · cases h
  · exact sort_get_mem h

/-- **C42** The clipped maximum of a global step is an order statistic of the node values: with `s` the index
of the step (C42_index_valid), at least `s + 1` values are at most it and at least `k - s` are at least it.  In
the first step it is the largest value. -/
theorem C42_clipped_max {g : ℕ} {nInit : ℤ} {vals : List ℚ} {step : ℕ} {s : ℤ} {x : ℚ}
    (hs : sigmaN vals.length g nInit step = .ok s) (h0 : 0 ≤ s)
    (h : fmaxCurrentIter g nInit step vals = .ok x) :
    x ∈ vals ∧ s.toNat + 1 ≤ vals.countP (fun v => decide (v ≤ x)) ∧
    vals.length ≤ s.toNat + vals.countP (fun v => decide (x ≤ v)) := by
  refine ⟨fmaxCurrentIter_mem h, ?_⟩
  unfold fmaxCurrentIter at h
  rw [hs] at h
  unfold pyIndex at h
  simp only [if_neg (not_lt.mpr h0)] at h
  have hperm := List.perm_insertionSort (· ≤ ·) vals
  have hp : (vals.insertionSort (· ≤ ·)).Pairwise (· ≤ ·) := List.pairwise_insertionSort _ _
  rw [← hperm.countP_eq, ← hperm.countP_eq, ← hperm.length_eq]
  generalize vals.insertionSort (· ≤ ·) = l at *
  split at h
  · rename_i y hy
    cases h
    obtain ⟨hl, hx⟩ := List.getElem?_eq_some_iff.mp hy
    generalize s.toNat = i at *
    constructor
    · have h1 : (l.take (i + 1)).countP (fun v => decide (v ≤ x)) = (l.take (i + 1)).length := by
        rw [List.countP_eq_length]
        intro v hv
        obtain ⟨j, hj, rfl⟩ := List.mem_take_iff_getElem.mp hv
        rw [decide_eq_true_iff, ← hx]
        rcases Nat.lt_or_ge j i with h | h
        · exact (List.pairwise_iff_getElem.mp hp) _ _ _ _ h
        · have : j = i := by omega
          subst this; exact le_rfl
      have h2 := (List.take_sublist (i + 1) l).countP_le (p := fun v => decide (v ≤ x))
      rw [h1, List.length_take] at h2
      omega
    · have h1 : (l.drop i).countP (fun v => decide (x ≤ v)) = (l.drop i).length := by
        rw [List.countP_eq_length]
        intro v hv
        obtain ⟨j, hj, rfl⟩ := List.mem_drop_iff_getElem.mp hv
        rw [decide_eq_true_iff, ← hx]
        rcases Nat.eq_zero_or_pos j with h | h
        · subst h; simp
        · exact (List.pairwise_iff_getElem.mp hp) _ _ _ _ (by omega)
      have h2 := (List.drop_sublist i l).countP_le (p := fun v => decide (x ≤ v))
      rw [h1, List.length_drop] at h2
      omega
  · cases h

example : sigmaN 6 2 2 2 = .ok 3 ∧ fmaxCurrentIter 2 2 2 [5, 1, 4, 2, 3, 6] = .ok 4 := by decide +kernel

/-- The clipped maximum never increases from one step to the next. -/
theorem fmaxCurrentIter_mono {g : ℕ} {nInit : ℤ} {vals : List ℚ} (hk : 1 ≤ vals.length)
    (h0 : 0 ≤ nInit) (hn : nInit ≤ vals.length) {step : ℕ} (h1 : 1 ≤ step) (h2 : step < g)
    {x y : ℚ} (hx : fmaxCurrentIter g nInit step vals = .ok x)
    (hy : fmaxCurrentIter g nInit (step + 1) vals = .ok y) : y ≤ x := by
  obtain ⟨a1, a2, a3⟩ := C42_index_valid (g := g) hk h0 hn
  obtain ⟨s, hs, s0, sk, -⟩ := a1 step h1 (by omega)
  obtain ⟨t, ht, t0, tk, -⟩ := a1 (step + 1) (by omega) (by omega)
  have hts := a3 step s t h1 h2 hs ht
  unfold fmaxCurrentIter at hx hy
  rw [hs] at hx
  rw [ht] at hy
  unfold pyIndex at hx hy
  simp only [if_neg (not_lt.mpr s0), if_neg (not_lt.mpr t0)] at hx hy
  have hlen : (vals.insertionSort (· ≤ ·)).length = vals.length := List.length_insertionSort _ _
  have hsl : s.toNat < (vals.insertionSort (· ≤ ·)).length := by omega
  have htl : t.toNat < (vals.insertionSort (· ≤ ·)).length := by omega
  rw [List.getElem?_eq_getElem hsl] at hx
  rw [List.getElem?_eq_getElem htl] at hy
  cases hx; cases hy
  have hp : (vals.insertionSort (· ≤ ·)).Pairwise (· ≤ ·) := List.pairwise_insertionSort _ _
  rcases Nat.lt_or_ge t.toNat s.toNat with h | h
  · exact (List.pairwise_iff_getElem.mp hp) _ _ _ _ h
  · have e : s.toNat = t.toNat := by omega
    simp [e]

/-- The facts about the node values that `transform_function_values` provides: `fmin` is the
smallest and `fmax` the largest scaled value. -/
structure ValsOk (vals : List ℚ) (fmin fmax : ℚ) : Prop where
  nonempty : vals ≠ []
  fmin_le : ∀ v ∈ vals, fmin ≤ v
  le_fmax : ∀ v ∈ vals, v ≤ fmax

theorem ValsOk.le {vals : List ℚ} {fmin fmax : ℚ} (h : ValsOk vals fmin fmax) : fmin ≤ fmax := by
  obtain ⟨v, hv⟩ := List.exists_mem_of_ne_nil _ h.nonempty
  exact (h.fmin_le v hv).trans (h.le_fmax v hv)

theorem targetScaling_bounds {C : TargetCfg} {step : ℕ} (h1 : 1 ≤ step)
    (h2 : step ≤ C.numGlobalSearches) : 0 < targetScaling C step ∧ targetScaling C step ≤ 1 := by
  have hg : (0 : ℚ) < C.numGlobalSearches := by exact_mod_cast (by omega : 0 < C.numGlobalSearches)
  have hs : (1 : ℚ) ≤ step := by exact_mod_cast h1
  have hs2 : (step : ℚ) ≤ C.numGlobalSearches := by exact_mod_cast h2
  have a : 0 ≤ ((step : ℚ) - 1) / C.numGlobalSearches := div_nonneg (by linarith) hg.le
  have b : ((step : ℚ) - 1) / C.numGlobalSearches < 1 := by
    rw [div_lt_one hg]; linarith
  unfold targetScaling
  constructor
  · have : 0 < 1 - ((step : ℚ) - 1) / C.numGlobalSearches := by linarith
    positivity
  · exact pow_le_one₀ (by linarith) (by linarith)

theorem targetScaling_anti {C : TargetCfg} {step : ℕ} (h1 : 1 ≤ step)
    (h2 : step < C.numGlobalSearches) : targetScaling C (step + 1) < targetScaling C step := by
  have hg : (0 : ℚ) < C.numGlobalSearches := by exact_mod_cast (by omega : 0 < C.numGlobalSearches)
  have hs2 : (step : ℚ) + 1 ≤ C.numGlobalSearches := by exact_mod_cast h2
  have b : ((step : ℚ) + 1 - 1) / C.numGlobalSearches < 1 := by
    rw [div_lt_one hg]; linarith
  have c : ((step : ℚ) - 1) / C.numGlobalSearches < ((step : ℚ) + 1 - 1) / C.numGlobalSearches := by
    rw [div_lt_div_iff_of_pos_right hg]; linarith
  unfold targetScaling
  push_cast
  exact pow_lt_pow_left₀ (by linarith) (by linarith) (by norm_num)

/-- **C42** In every global step the target value is at most the value of the model minimum the step
starts from, up to `eps_zero` for Gutmann's method; with MSRSM it is at most the best value.  For
every outcome of the minimization of the model. -/
theorem C42_target_below {C : TargetCfg} {ints : List ℕ} {lower upper best : Pt}
    {rbfMin : Option (Pt × ℚ)} {vals : List ℚ} {fmin fmax : ℚ} {step : ℕ} {r : GlobalInputs}
    (he : 0 ≤ C.epsZero) (hv : ValsOk vals fmin fmax) (h1 : 1 ≤ step)
    (h2 : step ≤ C.numGlobalSearches)
    (h : globalInputs C ints lower upper rbfMin best vals fmin fmax step = .ok r) :
    r.target ≤ (modelMin C rbfMin best fmin).2 + C.epsZero ∧
    ((modelMin C rbfMin best fmin).2 ≤ fmin → r.target ≤ (modelMin C rbfMin best fmin).2) ∧
    (C.gutmann = false → r.target ≤ fmin) := by
  obtain ⟨s0, s1⟩ := targetScaling_bounds h1 h2
  have key : ∃ lf, fmin ≤ lf ∧ r.target = (modelMin C rbfMin best fmin).2 - targetScaling C step *
      (lf - (modelMin C rbfMin best fmin).2) := by
    unfold globalInputs at h
    dsimp only at h
    split at h
    · cases h
    · rename_i lf hlf
      split at h
      · cases h
      · cases h
        refine ⟨lf, ?_, rfl⟩
        split at hlf
        · exact hv.fmin_le _ (fmaxCurrentIter_mem hlf)
        · cases hlf; exact hv.le
  obtain ⟨lf, hlf, e⟩ := key
  have hmm : (modelMin C rbfMin best fmin).2 ≤ fmin + C.epsZero ∧
      (C.gutmann = false → (modelMin C rbfMin best fmin).2 = fmin) := by
    unfold modelMin
    split
    · rename_i hg
      refine ⟨?_, fun hc => by rw [hc] at hg; cases hg⟩
      split
      · exact le_add_of_nonneg_right he
      · split
        · exact le_add_of_nonneg_right he
        · rename_i hlt; exact (not_le.mp hlt).le
    · exact ⟨le_add_of_nonneg_right he, fun _ => rfl⟩
  generalize (modelMin C rbfMin best fmin).2 = m at *
  have a : r.target ≤ m + C.epsZero := by
    rw [e]
    nlinarith
  refine ⟨a, fun hm => ?_, fun hg => ?_⟩
  · rw [e]; nlinarith
  · have := hmm.2 hg
    subst this
    rw [e]; nlinarith

/-- **C42** For the same nodes, model minimum and values, the target never decreases from one global
step to the next (it comes closer to the model minimum), provided the index of the clipped maximum is
valid. -/
theorem C42_target_monotone {C : TargetCfg} {ints : List ℕ} {lower upper best : Pt}
    {rbfMin : Option (Pt × ℚ)} {vals : List ℚ} {fmin fmax : ℚ} {step : ℕ} {r r' : GlobalInputs}
    (hv : ValsOk vals fmin fmax) (h0 : 0 ≤ C.nInit) (hn : C.nInit ≤ vals.length)
    (hm : (modelMin C rbfMin best fmin).2 ≤ fmin)
    (h1 : 1 ≤ step) (h2 : step < C.numGlobalSearches)
    (h : globalInputs C ints lower upper rbfMin best vals fmin fmax step = .ok r)
    (h' : globalInputs C ints lower upper rbfMin best vals fmin fmax (step + 1) = .ok r') :
    r.target ≤ r'.target := by
  have hk : 1 ≤ vals.length := List.length_pos_of_ne_nil hv.nonempty
  unfold globalInputs at h h'
  dsimp only at h h'
  split at h
  · cases h
  · rename_i lf hlf
    split at h'
    · cases h'
    · rename_i lf' hlf'
      rw [if_neg (by omega)] at h h'
      cases h; cases h'
      simp only
      have hle : lf' ≤ lf ∧ fmin ≤ lf' := by
        split at hlf
        · rename_i hc
          rw [if_pos hc] at hlf'
          exact ⟨fmaxCurrentIter_mono hk h0 hn h1 h2 hlf hlf',
            hv.fmin_le _ (fmaxCurrentIter_mem hlf')⟩
        · rename_i hc
          rw [if_neg hc] at hlf'
          cases hlf; cases hlf'
          exact ⟨le_rfl, hv.le⟩
      obtain ⟨s0, -⟩ := targetScaling_bounds (C := C) (step := step + 1) (by omega) h2
      have s1 := targetScaling_anti h1 h2
      generalize (modelMin C rbfMin best fmin).2 = m at *
      have a : targetScaling C (step + 1) * (lf' - m) ≤ targetScaling C step * (lf - m) :=
        mul_le_mul s1.le (by linarith) (by linarith) (by linarith)
      linarith

/-- **C42** With at least as many nodes as initial points, no global step raises. -/
theorem C42_no_exception {C : TargetCfg} {ints : List ℕ} {lower upper best : Pt}
    {rbfMin : Option (Pt × ℚ)} {vals : List ℚ} {fmin fmax : ℚ} {step : ℕ} (hk : vals ≠ [])
    (h0 : 0 ≤ C.nInit) (hn : C.nInit ≤ vals.length) (h1 : 1 ≤ step)
    (h2 : step ≤ C.numGlobalSearches) :
    ∃ r, globalInputs C ints lower upper rbfMin best vals fmin fmax step = .ok r := by
  have hlf : ∃ lf, (if C.targetvalClipping then
      fmaxCurrentIter C.numGlobalSearches C.nInit step vals else .ok fmax) = .ok lf := by
    split
    · obtain ⟨s, hs, s0, sk, -⟩ := (C42_index_valid (g := C.numGlobalSearches)
        (List.length_pos_of_ne_nil hk) h0 hn).1 step h1 h2
      unfold fmaxCurrentIter pyIndex
      rw [hs]
      simp only [if_neg (not_lt.mpr s0)]
      have : s.toNat < (vals.insertionSort (· ≤ ·)).length := by
        rw [List.length_insertionSort]; omega
      rw [List.getElem?_eq_getElem this]
      exact ⟨_, rfl⟩
    · exact ⟨_, rfl⟩
  obtain ⟨lf, hlf⟩ := hlf
  unfold globalInputs
  dsimp only
  rw [hlf]
  simp only
  rw [if_neg (by omega)]
  exact ⟨_, rfl⟩

/-! ## C42: distance weight -/

/-- **C42** The distance weight lies strictly between 0 and 1 in every global step, and with at most
20 global searches it never increases. -/
theorem C42_dist_weight {C : TargetCfg} {step : ℕ} (h1 : 1 ≤ step)
    (h2 : step ≤ C.numGlobalSearches) :
    0 < distWeight C step ∧ distWeight C step < 1 ∧
    (step < C.numGlobalSearches → C.numGlobalSearches ≤ 20 →
      distWeight C (step + 1) ≤ distWeight C step) := by
  have hg : (0 : ℚ) < C.numGlobalSearches := by exact_mod_cast (by omega : 0 < C.numGlobalSearches)
  have hs : (1 : ℚ) ≤ step := by exact_mod_cast h1
  have hpos : 0 < (step : ℚ) / C.numGlobalSearches := by positivity
  refine ⟨?_, ?_, ?_⟩
  · unfold distWeight
    split
    · rename_i h
      have : (step : ℚ) / C.numGlobalSearches < 1 := by
        rw [div_lt_one hg]; exact_mod_cast h
      linarith
    · norm_num
  · unfold distWeight
    split
    · linarith
    · norm_num
  · intro h3 h4
    unfold distWeight
    rw [if_pos h3]
    split
    · have : (step : ℚ) / C.numGlobalSearches ≤ ((step + 1 : ℕ) : ℚ) / C.numGlobalSearches := by
        rw [div_le_div_iff_of_pos_right hg]; push_cast; linarith
      linarith
    · have h20 : (C.numGlobalSearches : ℚ) ≤ 20 := by exact_mod_cast h4
      have hlt : (step : ℚ) + 1 ≤ C.numGlobalSearches := by exact_mod_cast h3
      have : (step : ℚ) / C.numGlobalSearches ≤ 95/100 := by
        rw [div_le_iff₀ hg]; linarith
      linarith

/-- **C42** (violation) With more than 20 global searches the distance weight increases in the last
global step. -/
theorem C42_violated_weight_increases {C : TargetCfg} (h : 20 < C.numGlobalSearches) :
    distWeight C (C.numGlobalSearches - 1) < distWeight C C.numGlobalSearches := by
  have hg : (20 : ℚ) < C.numGlobalSearches := by exact_mod_cast h
  unfold distWeight
  rw [if_pos (by omega), if_neg (by omega)]
  rw [Nat.cast_sub (by omega), sub_lt_iff_lt_add, ← sub_lt_iff_lt_add', lt_div_iff₀ (by linarith)]
  push_cast
  linarith

/-! ## C42: the search box -/

/-- The box around a point of the box: inside the box, contains the point, integral. -/
theorem localBox_bounds {C : TargetCfg} {ints : List ℕ} {lower upper c : Pt}
    (hb : 0 ≤ C.localSearchBoxScaling) (hl : lower.length = upper.length)
    (hint : ∀ i ∈ ints, i < lower.length → IsInt (lower.getD i 0) ∧ IsInt (upper.getD i 0))
    (hm : ∀ i < lower.length, lower.getD i 0 ≤ c.getD i 0 ∧ c.getD i 0 ≤ upper.getD i 0) :
    (localBox C ints lower upper c).1.length = lower.length ∧
    (localBox C ints lower upper c).2.length = upper.length ∧
    ∀ i < lower.length, lower.getD i 0 ≤ (localBox C ints lower upper c).1.getD i 0 ∧
      (localBox C ints lower upper c).1.getD i 0 ≤ c.getD i 0 ∧
      c.getD i 0 ≤ (localBox C ints lower upper c).2.getD i 0 ∧
      (localBox C ints lower upper c).2.getD i 0 ≤ upper.getD i 0 ∧
      (i ∈ ints → IsInt ((localBox C ints lower upper c).1.getD i 0) ∧
        IsInt ((localBox C ints lower upper c).2.getD i 0)) := by
  unfold localBox
  simp only
  refine ⟨by simp [roundLower], by simp [roundUpper, hl], fun i hi => ?_⟩
  have hiu : i < upper.length := by omega
  obtain ⟨m1, m2⟩ := hm i hi
  have el : lower.getD i 0 = lower[i] := by
    rw [List.getD_eq_getElem?_getD, List.getElem?_eq_getElem hi]; rfl
  have eu : upper.getD i 0 = upper[i] := by
    rw [List.getD_eq_getElem?_getD, List.getElem?_eq_getElem hiu]; rfl
  have hw : 0 ≤ C.localSearchBoxScaling * (33/100) * (upper.getD i 0 - lower.getD i 0) := by
    apply mul_nonneg (by positivity); linarith
  have gl : (roundLower (lower.mapIdx (fun i l => max (c.getD i 0 -
      C.localSearchBoxScaling * (33/100) * (upper.getD i 0 - l)) l)) ints).getD i 0 =
      if i ∈ ints then (⌊max (c.getD i 0 - C.localSearchBoxScaling * (33/100) *
        (upper.getD i 0 - lower.getD i 0)) (lower.getD i 0)⌋ : ℚ)
      else max (c.getD i 0 - C.localSearchBoxScaling * (33/100) *
        (upper.getD i 0 - lower.getD i 0)) (lower.getD i 0) := by
    rw [List.getD_eq_getElem?_getD]
    simp only [roundLower, List.getElem?_mapIdx, List.getElem?_eq_getElem hi,
      Option.map_some, Option.getD_some, el]
  have gu : (roundUpper (lower.mapIdx (fun i l => min (c.getD i 0 +
      C.localSearchBoxScaling * (33/100) * (upper.getD i 0 - l)) (upper.getD i 0))) ints).getD
        i 0 =
      if i ∈ ints then (⌈min (c.getD i 0 + C.localSearchBoxScaling * (33/100) *
        (upper.getD i 0 - lower.getD i 0)) (upper.getD i 0)⌉ : ℚ)
      else min (c.getD i 0 + C.localSearchBoxScaling * (33/100) *
        (upper.getD i 0 - lower.getD i 0)) (upper.getD i 0) := by
    rw [List.getD_eq_getElem?_getD]
    simp only [roundUpper, List.getElem?_mapIdx, List.getElem?_eq_getElem hi,
      Option.map_some, Option.getD_some, el]
  rw [gl, gu]
  have x1 : max (c.getD i 0 - C.localSearchBoxScaling * (33/100) *
        (upper.getD i 0 - lower.getD i 0)) (lower.getD i 0) ≤ c.getD i 0 :=
    max_le (by linarith) m1
  have x2 := le_max_right (c.getD i 0 - C.localSearchBoxScaling * (33/100) *
        (upper.getD i 0 - lower.getD i 0)) (lower.getD i 0)
  have y1 : c.getD i 0 ≤ min (c.getD i 0 + C.localSearchBoxScaling * (33/100) *
        (upper.getD i 0 - lower.getD i 0)) (upper.getD i 0) :=
    le_min (by linarith) m2
  have y2 := min_le_right (c.getD i 0 + C.localSearchBoxScaling * (33/100) *
        (upper.getD i 0 - lower.getD i 0)) (upper.getD i 0)
  generalize max (c.getD i 0 - C.localSearchBoxScaling * (33/100) *
        (upper.getD i 0 - lower.getD i 0)) (lower.getD i 0) = X at *
  generalize min (c.getD i 0 + C.localSearchBoxScaling * (33/100) *
        (upper.getD i 0 - lower.getD i 0)) (upper.getD i 0) = Y at *
  by_cases hii : i ∈ ints
  · simp only [if_pos hii]
    obtain ⟨⟨a, ha⟩, ⟨b, hb'⟩⟩ := hint i hii hi
    refine ⟨?_, (Int.floor_le X).trans x1, y1.trans (Int.le_ceil Y), ?_,
      fun _ => ⟨⟨_, rfl⟩, ⟨_, rfl⟩⟩⟩
    · rw [ha] at x2 ⊢
      exact_mod_cast Int.le_floor.mpr x2
    · rw [hb'] at y2 ⊢
      exact_mod_cast Int.ceil_le.mpr y2
  · simp only [if_neg hii]
    exact ⟨x2, x1, y1, y2, fun h => absurd h hii⟩

/-- **C42** The box handed to the global search is inside the box of the problem and contains the
model minimum, whichever step; bounds of integer variables are integral if those of the problem
are. -/
theorem C42_local_box {C : TargetCfg} {ints : List ℕ} {lower upper best : Pt}
    {rbfMin : Option (Pt × ℚ)} {vals : List ℚ} {fmin fmax : ℚ} {step : ℕ} {r : GlobalInputs}
    (hb : 0 ≤ C.localSearchBoxScaling) (hl : lower.length = upper.length)
    (hint : ∀ i ∈ ints, i < lower.length → IsInt (lower.getD i 0) ∧ IsInt (upper.getD i 0))
    (hm : ∀ i < lower.length, lower.getD i 0 ≤ (modelMin C rbfMin best fmin).1.getD i 0 ∧
      (modelMin C rbfMin best fmin).1.getD i 0 ≤ upper.getD i 0)
    (h : globalInputs C ints lower upper rbfMin best vals fmin fmax step = .ok r) :
    r.lower.length = lower.length ∧ r.upper.length = upper.length ∧
    ∀ i < lower.length, lower.getD i 0 ≤ r.lower.getD i 0 ∧
      r.lower.getD i 0 ≤ (modelMin C rbfMin best fmin).1.getD i 0 ∧
      (modelMin C rbfMin best fmin).1.getD i 0 ≤ r.upper.getD i 0 ∧
      r.upper.getD i 0 ≤ upper.getD i 0 ∧
      (i ∈ ints → IsInt (r.lower.getD i 0) ∧ IsInt (r.upper.getD i 0)) := by
  unfold globalInputs at h
  dsimp only at h
  split at h
  · cases h
  · split at h
    · cases h
    · cases h
      simp only
      generalize (modelMin C rbfMin best fmin).1 = c at *
      split
      · exact localBox_bounds hb hl hint hm
      · refine ⟨rfl, rfl, fun i hi => ?_⟩
        obtain ⟨m1, m2⟩ := hm i hi
        exact ⟨le_rfl, m1, m2, le_rfl, fun hii => hint i hii hi⟩

/-- A five-search cycle with six nodes, three of them initial: all premises hold and the targets of
the first and last step are as expected. -/
def demoTarget : TargetCfg :=
  { gutmann := false, numGlobalSearches := 5, targetvalClipping := true, nInit := 3, epsZero := 0,
    localSearchThreshold := 1/4, localSearchBoxScaling := 1/2 }

example : ValsOk [3, 1, 2, 5, 4, 9] 1 9 ∧
    (globalInputs demoTarget [1] [0, 0] [10, 4] none [2, 2] [3, 1, 2, 5, 4, 9] 1 9 1).toOption.map
      (fun r => (r.target, r.lower, r.upper)) = some (-7, [0, 0], [10, 4]) ∧
    (globalInputs demoTarget [1] [0, 0] [10, 4] none [2, 2] [3, 1, 2, 5, 4, 9] 1 9 5).toOption.map
      (fun r => (r.target, r.lower, r.upper)) = some (17/25, [7/20, 1], [73/20, 3]) := by
  refine ⟨⟨by simp, by decide +kernel, by decide +kernel⟩, by decide +kernel, by decide +kernel⟩

end Rbfopt
