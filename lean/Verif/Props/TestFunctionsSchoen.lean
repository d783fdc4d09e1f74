import Verif.Props.TestFunctionsMore
import Mathlib.Analysis.Real.Pi.Bounds

/-!
# C88: the schoen functions
-/

namespace Rbfopt
namespace TestFns
open Real

theorem prodOthers_nonneg {m : ℕ} {dist : Fin m → ℝ} (h : ∀ i, 0 ≤ dist i) (i : Fin m) :
    0 ≤ prodOthers dist i := by
  unfold prodOthers
  refine Finset.prod_nonneg fun j _ => ?_
  split
  · exact h j
  · norm_num

theorem prodOthers_pos {m : ℕ} {dist : Fin m → ℝ} {i : Fin m} (h : ∀ j, j ≠ i → 0 < dist j) :
    0 < prodOthers dist i := by
  unfold prodOthers
  refine Finset.prod_pos fun j _ => ?_
  split
  · rename_i hne
    exact h j (Ne.symm hne)
  · norm_num

theorem prodOthers_zero {m : ℕ} {dist : Fin m → ℝ} {i j : Fin m} (hij : i ≠ j) (h : dist j = 0) :
    prodOthers dist i = 0 := by
  unfold prodOthers
  exact Finset.prod_eq_zero (Finset.mem_univ j) (by rw [if_pos hij, h])

/-- A weighted mean of values that are all at least `m` is at least `m`. -/
theorem schoenLoop_ge {m : ℕ} {f w : Fin m → ℝ} {b : ℝ} (hw : ∀ i, 0 ≤ w i) {i : Fin m} (hi : 0 < w i)
    (hf : ∀ i, b ≤ f i) : ∃ v, schoenLoop f w = some v ∧ b ≤ v := by
  have hs : 0 < ∑ i, w i := Finset.sum_pos' (fun i _ => hw i) ⟨i, Finset.mem_univ i, hi⟩
  refine ⟨_, if_neg hs.ne', ?_⟩
  rw [le_div_iff₀ hs, Finset.mul_sum]
  exact Finset.sum_le_sum fun i _ => mul_le_mul_of_nonneg_right (hf i) (hw i)

/-- When all the weight is on one point, the mean is its value. -/
theorem schoenLoop_single {m : ℕ} {f w : Fin m → ℝ} {i : Fin m} (hi : 0 < w i)
    (h : ∀ j, j ≠ i → w j = 0) : schoenLoop f w = some (f i) := by
  have hs : ∑ j, w j = w i := Finset.sum_eq_single i (fun j _ hj => h j hj) (by simp)
  have hn : ∑ j, f j * w j = f i * w i :=
    Finset.sum_eq_single i (fun j _ hj => by rw [h j hj, mul_zero]) (by simp)
  unfold schoenLoop
  rw [hs, hn, if_neg hi.ne', mul_div_cancel_right₀ _ hi.ne']

/-- No two rows of the table are equal. -/
def RowsDiffer (n : ℕ) (z : List (List ℕ)) : Prop :=
  ∀ i i' : Fin 50, i ≠ i' → ∃ j : Fin n, (z.getD i []).getD j 0 ≠ (z.getD i' []).getD j 0

theorem RowsDiffer.eq {n : ℕ} {z : List (List ℕ)} (h : RowsDiffer n z) {i i' : Fin 50}
    (he : ∀ j : Fin n, zAt z i j = zAt z i' j) : i = i' := by
  by_contra hne
  obtain ⟨j, hj⟩ := h i i' hne
  have := he j
  unfold zAt at this
  rw [div_left_inj' (by norm_num)] at this
  exact hj (by exact_mod_cast this)

theorem fAt_ge {f : List ℤ} (h : ∀ i : Fin 50, -10000 ≤ f.getD i 0) (i : Fin 50) : -1000 ≤ fAt f i := by
  unfold fAt
  have : ((-10000 : ℤ) : ℝ) ≤ (f.getD i 0 : ℤ) := by exact_mod_cast h i
  rw [le_div_iff₀ (by norm_num)]
  push_cast at this
  linarith

theorem fAt_eq {f : List ℤ} {i : Fin 50} (h : f.getD i 0 = -10000) : fAt f i = -1000 := by
  unfold fAt
  rw [h]
  norm_num

theorem schoen_optimum {n : ℕ} {z : List (List ℕ)} {f : List ℤ} {scale : ℝ} (hs : scale ≠ 0)
    (hz : RowsDiffer n z) (hf : ∀ i : Fin 50, -10000 ≤ f.getD i 0) :
    (∀ x, ∃ v, schoen n z f scale x = some v ∧ -1000 ≤ v) ∧
    (∀ i : Fin 50, f.getD i 0 = -10000 → ∀ p : Fin n → ℝ, (∀ j, p j = scale * zAt z i j) →
      schoen n z f scale p = some (-1000)) := by
  have nonneg : ∀ (x : Fin n → ℝ) (i : Fin 50), 0 ≤ ∑ j : Fin n, (x j / scale - zAt z i j) ^ 2 :=
    fun x i => Finset.sum_nonneg fun _ _ => sq_nonneg _
  have zero : ∀ (x : Fin n → ℝ) (i : Fin 50), ∑ j : Fin n, (x j / scale - zAt z i j) ^ 2 = 0 →
      ∀ j, x j / scale = zAt z i j := by
    intro x i h j
    have := (Finset.sum_eq_zero_iff_of_nonneg (fun _ _ => sq_nonneg _)).mp h j (Finset.mem_univ j)
    have := pow_eq_zero_iff (two_ne_zero) |>.mp this
    linarith
  have others : ∀ (x : Fin n → ℝ) (i : Fin 50), (∀ j, x j / scale = zAt z i j) → ∀ i', i' ≠ i →
      0 < ∑ j : Fin n, (x j / scale - zAt z i' j) ^ 2 := by
    intro x i h i' hne
    refine lt_of_le_of_ne (nonneg x i') (fun h0 => hne (hz.eq fun j => ?_))
    rw [← h j, ← zero x i' h0.symm j]
  constructor
  · intro x
    unfold schoen
    by_cases hex : ∃ i : Fin 50, ∀ j, x j / scale = zAt z i j
    · obtain ⟨i, hi⟩ := hex
      exact schoenLoop_ge (prodOthers_nonneg (nonneg x)) (prodOthers_pos (others x i hi)) (fAt_ge hf)
    · push Not at hex
      refine schoenLoop_ge (prodOthers_nonneg (nonneg x)) (i := 0) (prodOthers_pos fun i _ => ?_) (fAt_ge hf)
      refine lt_of_le_of_ne (nonneg x i) (fun h0 => ?_)
      obtain ⟨j, hj⟩ := hex i
      exact hj (zero x i h0.symm j)
  · intro i hi p hp
    have hp' : ∀ j, p j / scale = zAt z i j := fun j => by rw [hp, mul_div_cancel_left₀ _ hs]
    unfold schoen
    rw [schoenLoop_single (i := i) (prodOthers_pos (others p i hp')), fAt_eq hi]
    intro i' hne
    refine prodOthers_zero hne ?_
    refine Finset.sum_eq_zero fun j _ => ?_
    rw [hp' j, sub_self]
    norm_num

/-- What the functions applied to the coordinate differences have in common on [-1, 1]: they are
nonnegative, and zero at most at 0. -/
def Gauge (g : ℝ → ℝ) : Prop := ∀ t, -1 ≤ t → t ≤ 1 → 0 ≤ g t ∧ (g t = 0 → t = 0)

theorem gauge_sq : Gauge (fun t => t ^ 2) := fun t _ _ => ⟨sq_nonneg t, fun h => by simpa using h⟩

theorem gauge_abs : Gauge (fun t => |t + 50|) := fun t h _ =>
  ⟨abs_nonneg _, fun h0 => by have := abs_eq_zero.mp h0; linarith⟩

theorem gauge_log : Gauge (fun t => log (t + 10)) := fun t h _ => by
  have := Real.log_pos (by linarith : (1 : ℝ) < t + 10)
  exact ⟨this.le, fun h0 => absurd h0 this.ne'⟩

theorem gauge_sin : Gauge (fun t => sin t ^ 2) := fun t h h' => by
  refine ⟨sq_nonneg _, fun h0 => ?_⟩
  have h1 : sin t = 0 := by simpa using h0
  have hp := Real.pi_gt_three
  by_contra hne
  rcases lt_or_gt_of_ne hne with hl | hg
  · have := Real.sin_pos_of_pos_of_lt_pi (x := -t) (by linarith) (by linarith)
    rw [Real.sin_neg] at this
    linarith
  · have := Real.sin_pos_of_pos_of_lt_pi hg (by linarith)
    linarith

theorem schoenCat_ge {z : List (List ℕ)} {f : List ℤ} (hz : RowsDiffer 10 z)
    (hz1 : ∀ (i : Fin 50) (j : Fin 10), (z.getD i []).getD j 0 ≤ 1000000)
    (hf : ∀ i : Fin 50, -10000 ≤ f.getD i 0) {x : Fin 12 → ℝ} {k1 k2 : ℤ} (hk1 : x 0 = k1)
    (h1 : 0 ≤ k1 ∧ k1 ≤ 3) (hk2 : x 1 = k2) (h2 : 0 ≤ k2 ∧ k2 ≤ 3)
    (hx : ∀ j : Fin 10, 0 ≤ x (j.natAdd 2) ∧ x (j.natAdd 2) ≤ 1) :
    ∃ v, schoenCat z f x = some v ∧ -1000 ≤ v := by
  have key : ∀ g1 g2 : ℝ → ℝ, Gauge g1 → Gauge g2 →
      ∃ v, schoenLoop (m := 50) (fun i => fAt f i)
        (fun i => if (i : ℕ) < 25
          then prodOthers (fun i : Fin 50 => ∑ j : Fin 10, g1 (x (j.natAdd 2) - zAt z i j)) i
          else prodOthers (fun i : Fin 50 => ∑ j : Fin 10, g2 (x (j.natAdd 2) - zAt z i j)) i)
        = some v ∧ -1000 ≤ v := by
    intro g1 g2 G1 G2
    have rng : ∀ (i : Fin 50) (j : Fin 10), -1 ≤ x (j.natAdd 2) - zAt z i j
        ∧ x (j.natAdd 2) - zAt z i j ≤ 1 := by
      intro i j
      have a : 0 ≤ zAt z i j := by unfold zAt; positivity
      have b : zAt z i j ≤ 1 := by
        unfold zAt
        rw [div_le_one (by norm_num)]
        exact_mod_cast hz1 i j
      have := hx j
      constructor <;> linarith
    have nonneg : ∀ g, Gauge g → ∀ i : Fin 50, 0 ≤ ∑ j : Fin 10, g (x (j.natAdd 2) - zAt z i j) :=
      fun g G i => Finset.sum_nonneg fun j _ => (G _ (rng i j).1 (rng i j).2).1
    have pos' : ∀ g, Gauge g → ∀ i : Fin 50, (∃ j : Fin 10, x (j.natAdd 2) ≠ zAt z i j) →
        0 < ∑ j : Fin 10, g (x (j.natAdd 2) - zAt z i j) := by
      intro g G i ⟨j, hj⟩
      refine Finset.sum_pos' (fun j _ => (G _ (rng i j).1 (rng i j).2).1) ⟨j, Finset.mem_univ j, ?_⟩
      refine lt_of_le_of_ne (G _ (rng i j).1 (rng i j).2).1 (fun h0 => hj ?_)
      have := (G _ (rng i j).1 (rng i j).2).2 h0.symm
      linarith
    have hw : ∀ i : Fin 50, 0 ≤ (if (i : ℕ) < 25
          then prodOthers (fun i : Fin 50 => ∑ j : Fin 10, g1 (x (j.natAdd 2) - zAt z i j)) i
          else prodOthers (fun i : Fin 50 => ∑ j : Fin 10, g2 (x (j.natAdd 2) - zAt z i j)) i) := by
      intro i
      split
      · exact prodOthers_nonneg (nonneg g1 G1) i
      · exact prodOthers_nonneg (nonneg g2 G2) i
    have hex : ∃ i : Fin 50, ∀ i', i' ≠ i → ∃ j : Fin 10, x (j.natAdd 2) ≠ zAt z i' j := by
      by_cases h : ∃ i : Fin 50, ∀ j : Fin 10, x (j.natAdd 2) = zAt z i j
      · obtain ⟨i, hi⟩ := h
        refine ⟨i, fun i' hne => ?_⟩
        by_contra hall
        push Not at hall
        exact hne (hz.eq fun j => by rw [← hall j, ← hi j])
      · push Not at h
        exact ⟨0, fun i' _ => h i'⟩
    obtain ⟨i, hi⟩ := hex
    refine schoenLoop_ge hw (i := i) ?_ (fAt_ge hf)
    split
    · exact prodOthers_pos fun i' hne => pos' g1 G1 i' (hi i' hne)
    · exact prodOthers_pos fun i' hne => pos' g2 G2 i' (hi i' hne)
  have c1 : k1 = 0 ∨ k1 = 1 ∨ k1 = 2 ∨ k1 = 3 := by omega
  have c2 : k2 = 0 ∨ k2 = 1 ∨ k2 = 2 ∨ k2 = 3 := by omega
  have e1 : ∃ g : ℝ → ℝ, (if x 0 = 0 then some (fun t => t ^ 2) else if x 0 = 1 then some (fun t => |t + 50|)
    else if x 0 = 2 then some (fun t => log (t + 10))
    else if x 0 = 3 then some (fun t => sin t ^ 2) else none) = some g ∧ Gauge g := by
    rw [hk1]
    rcases c1 with rfl | rfl | rfl | rfl
    · exact ⟨_, if_pos (by norm_num), gauge_sq⟩
    · exact ⟨_, by rw [if_neg (by norm_num), if_pos (by norm_num)], gauge_abs⟩
    · exact ⟨_, by rw [if_neg (by norm_num), if_neg (by norm_num), if_pos (by norm_num)], gauge_log⟩
    · exact ⟨_, by rw [if_neg (by norm_num), if_neg (by norm_num), if_neg (by norm_num),
        if_pos (by norm_num)], gauge_sin⟩
  have e2 : ∃ g : ℝ → ℝ, (if x 1 = 0 then some (fun t => log (t + 10)) else if x 1 = 1 then some (fun t => |t + 50|)
    else if x 1 = 2 then some (fun t => t ^ 2)
    else if x 1 = 3 then some (fun t => sin t ^ 2) else none) = some g ∧ Gauge g := by
    rw [hk2]
    rcases c2 with rfl | rfl | rfl | rfl
    · exact ⟨_, if_pos (by norm_num), gauge_log⟩
    · exact ⟨_, by rw [if_neg (by norm_num), if_pos (by norm_num)], gauge_abs⟩
    · exact ⟨_, by rw [if_neg (by norm_num), if_neg (by norm_num), if_pos (by norm_num)], gauge_sq⟩
    · exact ⟨_, by rw [if_neg (by norm_num), if_neg (by norm_num), if_neg (by norm_num),
        if_pos (by norm_num)], gauge_sin⟩
  obtain ⟨g1, q1, G1⟩ := e1
  obtain ⟨g2, q2, G2⟩ := e2
  unfold schoenCat
  dsimp only
  rw [q1, q2]
  exact key g1 g2 G1 G2

theorem schoenCat_at {z : List (List ℕ)} {f : List ℤ} (hz : RowsDiffer 10 z)
    (hf : f.getD 0 0 = -10000) {x : Fin 12 → ℝ} (h0 : x 0 = 0) (h1 : x 1 = 2)
    (hx : ∀ j : Fin 10, x (j.natAdd 2) = zAt z 0 j) : schoenCat z f x = some (-1000) := by
  have nonneg : ∀ i : Fin 50, 0 ≤ ∑ j : Fin 10, (x (j.natAdd 2) - zAt z i j) ^ 2 :=
    fun i => Finset.sum_nonneg fun _ _ => sq_nonneg _
  have others : ∀ i : Fin 50, i ≠ 0 → 0 < ∑ j : Fin 10, (x (j.natAdd 2) - zAt z i j) ^ 2 := by
    intro i hne
    refine lt_of_le_of_ne (nonneg i) (fun h => hne (hz.eq fun j => ?_))
    have := (Finset.sum_eq_zero_iff_of_nonneg (fun _ _ => sq_nonneg _)).mp h.symm j (Finset.mem_univ j)
    have := pow_eq_zero_iff (two_ne_zero) |>.mp this
    have h2 := hx j
    simp only [Fin.val_zero]
    linarith
  unfold schoenCat
  rw [h0, h1]
  norm_num
  rw [schoenLoop_single (i := 0)]
  · rw [fAt_eq (i := 0) hf]
  · exact prodOthers_pos others
  · intro i hne
    have hz0 : ∑ j : Fin 10, (x (j.natAdd 2) - zAt z ((0 : Fin 50) : ℕ) j) ^ 2 = 0 := by
      refine Finset.sum_eq_zero fun j _ => ?_
      rw [hx j]
      simp
    exact prodOthers_zero hne hz0


theorem C88_schoen_6_1 : schoen_6_1.OptimumIs 0 := by
  have hz : RowsDiffer 6 SchoenData.z_6_1 := by unfold RowsDiffer; decide +kernel
  have hf : ∀ i : Fin 50, -10000 ≤ SchoenData.f_6_1.getD i 0 := by decide +kernel
  have hv : schoen_6_1.vars = fun _ => ⟨0, 1, .R⟩ := rfl
  have ho : schoen_6_1.optPoint = ![0.298854, 0.181010, 0.984817, 0.125272, 0.548396, 0.894658] := rfl
  have hq : schoen_6_1.optVal = -1000 := rfl
  have he : ∀ x, schoen_6_1.eval x = schoen 6 SchoenData.z_6_1 SchoenData.f_6_1 1 x := fun _ => rfl
  obtain ⟨h1, h2⟩ := schoen_optimum (n := 6) (scale := 1) (by norm_num) hz hf
  refine optimumIs_of_feasible ?_ ⟨-1000, ?_, by norm_num [hq]⟩ rfl ?_
  · intro i
    rw [hv, ho]
    fin_cases i <;> norm_num [intLit_zero, intLit_one, intLit_ofNat]
  · rw [he]
    refine h2 0 (by decide +kernel) _ ?_
    intro j
    rw [ho]
    fin_cases j <;> norm_num [zAt, SchoenData.z_6_1]
  · intro x _
    rw [he, hq]
    obtain ⟨v, hv, hl⟩ := h1 x
    exact ⟨v, hv, by linarith⟩

theorem C88_schoen_6_2 : schoen_6_2.OptimumIs 0 := by
  have hz : RowsDiffer 6 SchoenData.z_6_2 := by unfold RowsDiffer; decide +kernel
  have hf : ∀ i : Fin 50, -10000 ≤ SchoenData.f_6_2.getD i 0 := by decide +kernel
  have hv : schoen_6_2.vars = fun _ => ⟨0, 1, .R⟩ := rfl
  have ho : schoen_6_2.optPoint = ![0.669711, 0.815540, 0.646120, 0.377447, 0.111538, 0.040529] := rfl
  have hq : schoen_6_2.optVal = -1000 := rfl
  have he : ∀ x, schoen_6_2.eval x = schoen 6 SchoenData.z_6_2 SchoenData.f_6_2 1 x := fun _ => rfl
  obtain ⟨h1, h2⟩ := schoen_optimum (n := 6) (scale := 1) (by norm_num) hz hf
  refine optimumIs_of_feasible ?_ ⟨-1000, ?_, by norm_num [hq]⟩ rfl ?_
  · intro i
    rw [hv, ho]
    fin_cases i <;> norm_num [intLit_zero, intLit_one, intLit_ofNat]
  · rw [he]
    refine h2 0 (by decide +kernel) _ ?_
    intro j
    rw [ho]
    fin_cases j <;> norm_num [zAt, SchoenData.z_6_2]
  · intro x _
    rw [he, hq]
    obtain ⟨v, hv, hl⟩ := h1 x
    exact ⟨v, hv, by linarith⟩

theorem C88_schoen_10_1 : schoen_10_1.OptimumIs 0 := by
  have hz : RowsDiffer 10 SchoenData.z_10_1 := by unfold RowsDiffer; decide +kernel
  have hf : ∀ i : Fin 50, -10000 ≤ SchoenData.f_10_1.getD i 0 := by decide +kernel
  have hv : schoen_10_1.vars = fun _ => ⟨0, 1, .R⟩ := rfl
  have ho : schoen_10_1.optPoint = ![0.914871, 0.765230, 0.139426, 0.617466, 0.823635, 0.794003, 0.801171, 0.568811, 0.279434, 0.540422] := rfl
  have hq : schoen_10_1.optVal = -1000 := rfl
  have he : ∀ x, schoen_10_1.eval x = schoen 10 SchoenData.z_10_1 SchoenData.f_10_1 1 x := fun _ => rfl
  obtain ⟨h1, h2⟩ := schoen_optimum (n := 10) (scale := 1) (by norm_num) hz hf
  refine optimumIs_of_feasible ?_ ⟨-1000, ?_, by norm_num [hq]⟩ rfl ?_
  · intro i
    rw [hv, ho]
    fin_cases i <;> norm_num [intLit_zero, intLit_one, intLit_ofNat]
  · rw [he]
    refine h2 0 (by decide +kernel) _ ?_
    intro j
    rw [ho]
    fin_cases j <;> norm_num [zAt, SchoenData.z_10_1]
  · intro x _
    rw [he, hq]
    obtain ⟨v, hv, hl⟩ := h1 x
    exact ⟨v, hv, by linarith⟩

theorem C88_schoen_10_2 : schoen_10_2.OptimumIs 0 := by
  have hz : RowsDiffer 10 SchoenData.z_10_2 := by unfold RowsDiffer; decide +kernel
  have hf : ∀ i : Fin 50, -10000 ≤ SchoenData.f_10_2.getD i 0 := by decide +kernel
  have hv : schoen_10_2.vars = fun _ => ⟨0, 1, .R⟩ := rfl
  have ho : schoen_10_2.optPoint = ![0.131461, 0.965235, 0.046134, 0.983011, 0.719813, 0.827542, 0.662422, 0.570546, 0.578707, 0.013264] := rfl
  have hq : schoen_10_2.optVal = -1000 := rfl
  have he : ∀ x, schoen_10_2.eval x = schoen 10 SchoenData.z_10_2 SchoenData.f_10_2 1 x := fun _ => rfl
  obtain ⟨h1, h2⟩ := schoen_optimum (n := 10) (scale := 1) (by norm_num) hz hf
  refine optimumIs_of_feasible ?_ ⟨-1000, ?_, by norm_num [hq]⟩ rfl ?_
  · intro i
    rw [hv, ho]
    fin_cases i <;> norm_num [intLit_zero, intLit_one, intLit_ofNat]
  · rw [he]
    refine h2 0 (by decide +kernel) _ ?_
    intro j
    rw [ho]
    fin_cases j <;> norm_num [zAt, SchoenData.z_10_2]
  · intro x _
    rw [he, hq]
    obtain ⟨v, hv, hl⟩ := h1 x
    exact ⟨v, hv, by linarith⟩

theorem C88_schoen_6_1_int : schoen_6_1_int.OptimumIs 0 := by
  have hz : RowsDiffer 6 SchoenData.z_6_1_int := by unfold RowsDiffer; decide +kernel
  have hf : ∀ i : Fin 50, -10000 ≤ SchoenData.f_6_1_int.getD i 0 := by decide +kernel
  have hv : schoen_6_1_int.vars = ![⟨0, 10, .I⟩, ⟨0, 10, .I⟩, ⟨0, 10, .I⟩, ⟨0, 10, .I⟩, ⟨0, 10, .R⟩, ⟨0, 10, .R⟩] := rfl
  have ho : schoen_6_1_int.optPoint = ![4.0, 6.0, 1.0, 4.0, 6.37412, 2.04038] := rfl
  have hq : schoen_6_1_int.optVal = -1000 := rfl
  have he : ∀ x, schoen_6_1_int.eval x = schoen 6 SchoenData.z_6_1_int SchoenData.f_6_1_int 10 x := fun _ => rfl
  obtain ⟨h1, h2⟩ := schoen_optimum (n := 6) (scale := 10) (by norm_num) hz hf
  refine optimumIs_of_feasible ?_ ⟨-1000, ?_, by norm_num [hq]⟩ rfl ?_
  · intro i
    rw [hv, ho]
    fin_cases i <;> norm_num [intLit_zero, intLit_one, intLit_ofNat]
  · rw [he]
    refine h2 47 (by decide +kernel) _ ?_
    intro j
    rw [ho]
    fin_cases j <;> norm_num [zAt, SchoenData.z_6_1_int]
  · intro x _
    rw [he, hq]
    obtain ⟨v, hv, hl⟩ := h1 x
    exact ⟨v, hv, by linarith⟩

theorem C88_schoen_6_2_int : schoen_6_2_int.OptimumIs 0 := by
  have hz : RowsDiffer 6 SchoenData.z_6_2_int := by unfold RowsDiffer; decide +kernel
  have hf : ∀ i : Fin 50, -10000 ≤ SchoenData.f_6_2_int.getD i 0 := by decide +kernel
  have hv : schoen_6_2_int.vars = ![⟨0, 10, .I⟩, ⟨0, 10, .I⟩, ⟨0, 10, .I⟩, ⟨0, 10, .I⟩, ⟨0, 10, .R⟩, ⟨0, 10, .R⟩] := rfl
  have ho : schoen_6_2_int.optPoint = ![3.0, 7.0, 4.0, 1.0, 2.58563, 9.32004] := rfl
  have hq : schoen_6_2_int.optVal = -1000 := rfl
  have he : ∀ x, schoen_6_2_int.eval x = schoen 6 SchoenData.z_6_2_int SchoenData.f_6_2_int 10 x := fun _ => rfl
  obtain ⟨h1, h2⟩ := schoen_optimum (n := 6) (scale := 10) (by norm_num) hz hf
  refine optimumIs_of_feasible ?_ ⟨-1000, ?_, by norm_num [hq]⟩ rfl ?_
  · intro i
    rw [hv, ho]
    fin_cases i <;> norm_num [intLit_zero, intLit_one, intLit_ofNat]
  · rw [he]
    refine h2 47 (by decide +kernel) _ ?_
    intro j
    rw [ho]
    fin_cases j <;> norm_num [zAt, SchoenData.z_6_2_int]
  · intro x _
    rw [he, hq]
    obtain ⟨v, hv, hl⟩ := h1 x
    exact ⟨v, hv, by linarith⟩

theorem C88_schoen_10_1_int : schoen_10_1_int.OptimumIs 0 := by
  have hz : RowsDiffer 10 SchoenData.z_10_1_int := by unfold RowsDiffer; decide +kernel
  have hf : ∀ i : Fin 50, -10000 ≤ SchoenData.f_10_1_int.getD i 0 := by decide +kernel
  have hv : schoen_10_1_int.vars = ![⟨0, 10, .I⟩, ⟨0, 10, .I⟩, ⟨0, 10, .I⟩, ⟨0, 10, .R⟩, ⟨0, 10, .R⟩, ⟨0, 10, .I⟩, ⟨0, 10, .I⟩, ⟨0, 10, .I⟩, ⟨0, 10, .R⟩, ⟨0, 10, .R⟩] := rfl
  have ho : schoen_10_1_int.optPoint = ![6.0, 7.0, 0.0, 3.55500, 2.94700, 3.0, 5.0, 5.0, 7.59223, 5.08432] := rfl
  have hq : schoen_10_1_int.optVal = -1000 := rfl
  have he : ∀ x, schoen_10_1_int.eval x = schoen 10 SchoenData.z_10_1_int SchoenData.f_10_1_int 10 x := fun _ => rfl
  obtain ⟨h1, h2⟩ := schoen_optimum (n := 10) (scale := 10) (by norm_num) hz hf
  refine optimumIs_of_feasible ?_ ⟨-1000, ?_, by norm_num [hq]⟩ rfl ?_
  · intro i
    rw [hv, ho]
    fin_cases i <;> norm_num [intLit_zero, intLit_one, intLit_ofNat]
  · rw [he]
    refine h2 47 (by decide +kernel) _ ?_
    intro j
    rw [ho]
    fin_cases j <;> norm_num [zAt, SchoenData.z_10_1_int]
  · intro x _
    rw [he, hq]
    obtain ⟨v, hv, hl⟩ := h1 x
    exact ⟨v, hv, by linarith⟩

theorem C88_schoen_10_2_int : schoen_10_2_int.OptimumIs 0 := by
  have hz : RowsDiffer 10 SchoenData.z_10_2_int := by unfold RowsDiffer; decide +kernel
  have hf : ∀ i : Fin 50, -10000 ≤ SchoenData.f_10_2_int.getD i 0 := by decide +kernel
  have hv : schoen_10_2_int.vars = ![⟨0, 10, .I⟩, ⟨0, 10, .I⟩, ⟨0, 10, .I⟩, ⟨0, 10, .R⟩, ⟨0, 10, .R⟩, ⟨0, 10, .I⟩, ⟨0, 10, .I⟩, ⟨0, 10, .I⟩, ⟨0, 10, .R⟩, ⟨0, 10, .R⟩] := rfl
  have ho : schoen_10_2_int.optPoint = ![0.0, 6.0, 8.0, 6.77718, 9.61189, 2.0, 8.0, 8.0, 5.24970, 8.15489] := rfl
  have hq : schoen_10_2_int.optVal = -1000 := rfl
  have he : ∀ x, schoen_10_2_int.eval x = schoen 10 SchoenData.z_10_2_int SchoenData.f_10_2_int 10 x := fun _ => rfl
  obtain ⟨h1, h2⟩ := schoen_optimum (n := 10) (scale := 10) (by norm_num) hz hf
  refine optimumIs_of_feasible ?_ ⟨-1000, ?_, by norm_num [hq]⟩ rfl ?_
  · intro i
    rw [hv, ho]
    fin_cases i <;> norm_num [intLit_zero, intLit_one, intLit_ofNat]
  · rw [he]
    refine h2 47 (by decide +kernel) _ ?_
    intro j
    rw [ho]
    fin_cases j <;> norm_num [zAt, SchoenData.z_10_2_int]
  · intro x _
    rw [he, hq]
    obtain ⟨v, hv, hl⟩ := h1 x
    exact ⟨v, hv, by linarith⟩

theorem C88_schoen_10_1_cat : schoen_10_1_cat.OptimumIs 0 := by
  have hz : RowsDiffer 10 SchoenData.z_10_1_cat := by unfold RowsDiffer; decide +kernel
  have hz1 : ∀ (i : Fin 50) (j : Fin 10), (SchoenData.z_10_1_cat.getD i []).getD j 0 ≤ 1000000 := by
    decide +kernel
  have hf : ∀ i : Fin 50, -10000 ≤ SchoenData.f_10_1_cat.getD i 0 := by decide +kernel
  have hv : schoen_10_1_cat.vars = ![⟨0, 3, .C⟩, ⟨0, 3, .C⟩, ⟨0, 1, .R⟩, ⟨0, 1, .R⟩, ⟨0, 1, .R⟩, ⟨0, 1, .R⟩, ⟨0, 1, .R⟩, ⟨0, 1, .R⟩, ⟨0, 1, .R⟩, ⟨0, 1, .R⟩, ⟨0, 1, .R⟩, ⟨0, 1, .R⟩] := rfl
  have ho : schoen_10_1_cat.optPoint = ![0, 2, 0.914871, 0.765230, 0.139426, 0.617466, 0.823635, 0.794003, 0.801171, 0.568811, 0.279434, 0.540422] := rfl
  have hq : schoen_10_1_cat.optVal = -1000 := rfl
  have he : ∀ x, schoen_10_1_cat.eval x = schoenCat SchoenData.z_10_1_cat SchoenData.f_10_1_cat x := fun _ => rfl
  refine optimumIs_of_feasible ?_ ⟨-1000, ?_, by norm_num [hq]⟩ rfl ?_
  · intro i
    rw [hv, ho]
    fin_cases i <;> norm_num [intLit_zero, intLit_one, intLit_ofNat]
  · rw [he]
    refine schoenCat_at hz (by decide +kernel) rfl rfl ?_
    intro j
    rw [ho]
    fin_cases j <;> norm_num [zAt, SchoenData.z_10_1_cat, Fin.natAdd]
  · intro x hx
    rw [he, hq]
    obtain ⟨k1, e1, l1⟩ := intCoord hx 0 0 3 (by simp [hv]) (by simp [hv]) (by simp [hv])
    obtain ⟨k2, e2, l2⟩ := intCoord hx 1 0 3 (by simp [hv]) (by simp [hv]) (by simp [hv])
    obtain ⟨v, hv', hl⟩ := schoenCat_ge hz hz1 hf e1 l1 e2 l2 (x := x) (by
      intro j
      have := hx (j.natAdd 2)
      rw [hv] at this
      have hj : (![⟨0, 3, .C⟩, ⟨0, 3, .C⟩, ⟨0, 1, .R⟩, ⟨0, 1, .R⟩, ⟨0, 1, .R⟩, ⟨0, 1, .R⟩, ⟨0, 1, .R⟩,
        ⟨0, 1, .R⟩, ⟨0, 1, .R⟩, ⟨0, 1, .R⟩, ⟨0, 1, .R⟩, ⟨0, 1, .R⟩] : Fin 12 → Var) (j.natAdd 2)
          = ⟨0, 1, .R⟩ := by fin_cases j <;> rfl
      rw [hj] at this
      exact ⟨by simpa using this.1, by simpa using this.2.1⟩)
    exact ⟨v, hv', by linarith⟩

theorem C88_schoen_10_2_cat : schoen_10_2_cat.OptimumIs 0 := by
  have hz : RowsDiffer 10 SchoenData.z_10_2_cat := by unfold RowsDiffer; decide +kernel
  have hz1 : ∀ (i : Fin 50) (j : Fin 10), (SchoenData.z_10_2_cat.getD i []).getD j 0 ≤ 1000000 := by
    decide +kernel
  have hf : ∀ i : Fin 50, -10000 ≤ SchoenData.f_10_2_cat.getD i 0 := by decide +kernel
  have hv : schoen_10_2_cat.vars = ![⟨0, 3, .C⟩, ⟨0, 3, .C⟩, ⟨0, 1, .R⟩, ⟨0, 1, .R⟩, ⟨0, 1, .R⟩, ⟨0, 1, .R⟩, ⟨0, 1, .R⟩, ⟨0, 1, .R⟩, ⟨0, 1, .R⟩, ⟨0, 1, .R⟩, ⟨0, 1, .R⟩, ⟨0, 1, .R⟩] := rfl
  have ho : schoen_10_2_cat.optPoint = ![0, 2, 0.131461, 0.965235, 0.046134, 0.983011, 0.719813, 0.827542, 0.662422, 0.570546, 0.578707, 0.013264] := rfl
  have hq : schoen_10_2_cat.optVal = -1000 := rfl
  have he : ∀ x, schoen_10_2_cat.eval x = schoenCat SchoenData.z_10_2_cat SchoenData.f_10_2_cat x := fun _ => rfl
  refine optimumIs_of_feasible ?_ ⟨-1000, ?_, by norm_num [hq]⟩ rfl ?_
  · intro i
    rw [hv, ho]
    fin_cases i <;> norm_num [intLit_zero, intLit_one, intLit_ofNat]
  · rw [he]
    refine schoenCat_at hz (by decide +kernel) rfl rfl ?_
    intro j
    rw [ho]
    fin_cases j <;> norm_num [zAt, SchoenData.z_10_2_cat, Fin.natAdd]
  · intro x hx
    rw [he, hq]
    obtain ⟨k1, e1, l1⟩ := intCoord hx 0 0 3 (by simp [hv]) (by simp [hv]) (by simp [hv])
    obtain ⟨k2, e2, l2⟩ := intCoord hx 1 0 3 (by simp [hv]) (by simp [hv]) (by simp [hv])
    obtain ⟨v, hv', hl⟩ := schoenCat_ge hz hz1 hf e1 l1 e2 l2 (x := x) (by
      intro j
      have := hx (j.natAdd 2)
      rw [hv] at this
      have hj : (![⟨0, 3, .C⟩, ⟨0, 3, .C⟩, ⟨0, 1, .R⟩, ⟨0, 1, .R⟩, ⟨0, 1, .R⟩, ⟨0, 1, .R⟩, ⟨0, 1, .R⟩,
        ⟨0, 1, .R⟩, ⟨0, 1, .R⟩, ⟨0, 1, .R⟩, ⟨0, 1, .R⟩, ⟨0, 1, .R⟩] : Fin 12 → Var) (j.natAdd 2)
          = ⟨0, 1, .R⟩ := by fin_cases j <;> rfl
      rw [hj] at this
      exact ⟨by simpa using this.1, by simpa using this.2.1⟩)
    exact ⟨v, hv', by linarith⟩

end TestFns
end Rbfopt
