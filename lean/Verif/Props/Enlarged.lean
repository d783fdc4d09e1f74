import Verif.Model.Enlarged
import Verif.Props.InitNodes
import Mathlib.Tactic.Linarith
import Mathlib.Tactic.FieldSimp
import Mathlib.Tactic.Positivity
import Mathlib.Algebra.BigOperators.Field
import Mathlib.Algebra.Order.BigOperators.Group.Finset

/-!
# Test functions of increased dimension keep the optimum (C83)
-/

namespace Rbfopt

variable {n d : ℕ} {F : TestFn n} {D : Draw n d}

/-- A point in a box with types. -/
def InTyped {m : ℕ} (lower upper : Fin m → ℚ) (type : Fin m → VType) (x : Fin m → ℚ) : Prop :=
  ∀ i, lower i ≤ x i ∧ x i ≤ upper i ∧ (type i ≠ .R → IsInt (x i))

/-- The data of a test function are consistent: proper bounds, integral for integer and categorical
variables, categorical values not negative, and the declared optimum is a feasible point with the
declared value. -/
structure TestFn.Consistent (F : TestFn n) : Prop where
  bounds : ∀ i, F.lower i < F.upper i
  integral : ∀ i, F.type i ≠ .R → IsInt (F.lower i) ∧ IsInt (F.upper i)
  categories : ∀ i, F.type i = .C → 0 ≤ F.lower i
  optFeasible : InTyped F.lower F.upper F.type F.opt
  optValue : F.eval F.opt = F.optValue

/-- The random choices are in their ranges (`np.random.randint(1, 10, …)`, at least one copy). -/
structure Draw.Valid (D : Draw n d) : Prop where
  copies : 1 ≤ d
  weights : ∀ c, 1 ≤ D.weights c

theorem foldr_max_le {l : List ℕ} {v : ℕ} (h : v ∈ l) : v ≤ l.foldr max 0 := by
  induction l with
  | nil => cases h
  | cons a l ih =>
    simp only [List.foldr_cons]
    rcases List.mem_cons.mp h with rfl | h
    · exact le_max_left _ _
    · exact (ih h).trans (le_max_right _ _)

/-- The value found occurs among the given values. -/
theorem mostFrequent_mem {l : List ℚ} (hne : l ≠ []) (hint : ∀ x ∈ l, IsInt x ∧ 0 ≤ x) :
    ∃ v : ℕ, mostFrequent l = .ok v ∧ (v : ℚ) ∈ l := by
  unfold mostFrequent
  have h0 : ¬ ∃ z ∈ l.map (fun x : ℚ => if 0 ≤ x then ⌊x⌋ else ⌈x⌉), z < 0 := by
    rintro ⟨z, hz, hlt⟩
    obtain ⟨x, hx, rfl⟩ := List.mem_map.mp hz
    have := (hint x hx).2
    rw [if_pos this] at hlt
    have := Int.floor_nonneg.mpr this
    omega
  rw [if_neg h0]
  set nats := (l.map (fun x : ℚ => if 0 ≤ x then ⌊x⌋ else ⌈x⌉)).map Int.toNat with hn
  have hb : bincount nats ≠ [] := by simp [bincount]
  obtain ⟨c, i, hci⟩ := argmaxVal_exists hb
  rw [hci]
  refine ⟨i, rfl, ?_⟩
  obtain ⟨h1, h2, -⟩ := argmaxVal_some hci
  have hmem : i ∈ nats := by
    have hlen : i < nats.foldr max 0 + 1 := by
      have := (List.getElem?_eq_some_iff.mp h1).1
      simpa [bincount] using this
    have hc : c = nats.count i := by
      unfold bincount at h1
      rw [List.getElem?_map, List.getElem?_range hlen] at h1
      simpa using h1.symm
    obtain ⟨x, xs, hx⟩ := List.exists_cons_of_ne_nil hne
    have hv : ∃ v, v ∈ nats := by
      rw [hn, hx]; simp
    obtain ⟨v, hv⟩ := hv
    have h3 : nats.count v ∈ bincount nats := by
      unfold bincount
      exact List.mem_map.mpr ⟨v, List.mem_range.mpr (by have := foldr_max_le hv; omega), rfl⟩
    have h4 := h2 _ h3
    have h5 : 0 < nats.count v := List.count_pos_iff.mpr hv
    apply List.count_pos_iff.mp
    omega
  rw [hn, List.map_map, List.mem_map] at hmem
  obtain ⟨x, hx, hxi⟩ := hmem
  obtain ⟨⟨z, rfl⟩, h0⟩ := hint x hx
  have hz : (0 : ℤ) ≤ z := by exact_mod_cast h0
  simp only [Function.comp_apply, h0, if_true, Int.floor_intCast] at hxi
  have : ((i : ℤ) : ℚ) = (z : ℚ) := by
    have : (i : ℤ) = z := by omega
    rw [this]
  have e : (i : ℚ) = (z : ℚ) := by exact_mod_cast this
  rw [e]; exact hx

theorem orig_copyIndex (D : Draw n d) (c : Fin d) (j : Fin n) :
    D.orig (D.perm.symm (copyIndex c j)) = j := by
  apply Fin.ext
  simp only [Draw.orig, Equiv.apply_symm_apply, copyIndex]
  rw [Nat.add_comm, Nat.add_mul_mod_self_right]
  exact Nat.mod_eq_of_lt j.2

theorem mem_sameOrig {x : Fin (d * n) → ℚ} {i : Fin n} {q : ℚ} (h : q ∈ sameOrig D x i) :
    ∃ k, D.orig k = i ∧ q = x k := by
  unfold sameOrig at h
  obtain ⟨k, hk, rfl⟩ := List.mem_map.mp h
  have := (List.mem_filter.mp hk).2
  exact ⟨k, of_decide_eq_true this, rfl⟩

theorem sameOrig_ne_nil (hD : D.Valid) (x : Fin (d * n) → ℚ) (i : Fin n) : sameOrig D x i ≠ [] := by
  have hc : 0 < d := hD.copies
  have : x (D.perm.symm (copyIndex ⟨0, hc⟩ i)) ∈ sameOrig D x i := by
    unfold sameOrig
    refine List.mem_map.mpr ⟨_, List.mem_filter.mpr ⟨List.mem_finRange _, ?_⟩, rfl⟩
    exact decide_eq_true (orig_copyIndex D _ i)
  intro h
  rw [h] at this
  cases this

/-- The points given to the copies are feasible. -/
theorem copyPoint_feasible {x : Fin (d * n) → ℚ}
    (hx : InTyped (enlarge D F.lower) (enlarge D F.upper) (enlarge D F.type) x) (c : Fin d) :
    InTyped F.lower F.upper F.type (copyPoint D x c) := by
  intro j
  have := hx (D.perm.symm (copyIndex c j))
  simp only [enlarge, orig_copyIndex] at this
  exact this

theorem clip1_between {x l u : ℚ} (h : l ≤ u) : l ≤ clip1 x l u ∧ clip1 x l u ≤ u :=
  ⟨le_min h (le_max_right _ _), min_le_left _ _⟩

/-- The point of the coupling term is feasible. -/
theorem couplingCoord_feasible (hF : F.Consistent) (hD : D.Valid) {x : Fin (d * n) → ℚ}
    (hx : InTyped (enlarge D F.lower) (enlarge D F.upper) (enlarge D F.type) x) (i : Fin n) :
    ∃ y, couplingCoord F D x i = .ok y ∧ F.lower i ≤ y ∧ y ≤ F.upper i ∧ (F.type i ≠ .R → IsInt y) := by
  unfold couplingCoord
  dsimp only
  have hc := fun z => clip1_between (x := z) (hF.bounds i).le
  split
  · rename_i ht
    obtain ⟨v, hv, hmem⟩ := mostFrequent_mem (sameOrig_ne_nil hD x i) (by
      intro q hq
      obtain ⟨k, hk, rfl⟩ := mem_sameOrig hq
      have hxk := hx k
      simp only [enlarge, hk] at hxk
      exact ⟨hxk.2.2 (by rw [ht]; simp), (hF.categories i ht).trans hxk.1⟩)
    rw [hv]
    obtain ⟨k, hk, he⟩ := mem_sameOrig hmem
    have hxk := hx k
    simp only [enlarge, hk] at hxk
    exact ⟨v, rfl, by rw [he]; exact hxk.1, by rw [he]; exact hxk.2.1, fun _ => ⟨v, by simp⟩⟩
  · rename_i ht
    obtain ⟨⟨a, ha⟩, b, hb⟩ := hF.integral i (by rw [ht]; simp)
    generalize hz : F.lower i + (couplingData F D i).shift + (couplingData F D i).mult *
      (∑ k, x (D.coupling i k) - (couplingData F D i).lo) /
      ((couplingData F D i).hi - (couplingData F D i).lo) * (F.upper i - F.lower i) = z
    refine ⟨_, rfl, ?_, ?_, fun _ => ⟨_, rfl⟩⟩
    · have := aroundEven_mono (hc z).1
      rw [ha] at this
      rw [aroundEven_int] at this
      rw [ha]
      exact_mod_cast this
    · have := aroundEven_mono (hc z).2
      rw [hb] at this
      rw [aroundEven_int] at this
      rw [hb]
      exact_mod_cast this
  · rename_i ht
    exact ⟨_, rfl, (hc _).1, (hc _).2, fun h => absurd ht h⟩

theorem copyWeight_sum (hD : D.Valid) : ∑ c, copyWeight D c = 6 / 10 := by
  have hpos : (0 : ℝ) < ((∑ k, D.weights k : ℕ) : ℝ) := by
    have h1 : 0 < ∑ k, D.weights k := by
      have := Finset.single_le_sum (f := D.weights) (s := Finset.univ) (fun _ _ => Nat.zero_le _)
        (Finset.mem_univ (⟨0, hD.copies⟩ : Fin d))
      have := hD.weights ⟨0, hD.copies⟩
      omega
    exact_mod_cast h1
  unfold copyWeight
  rw [← Finset.sum_div, ← Finset.mul_sum, ← Nat.cast_sum]
  field_simp

theorem copyWeight_nonneg (c : Fin d) : 0 ≤ copyWeight D c := by
  unfold copyWeight; positivity

/-- The coupling term maps the optimum of the enlarged function to the optimum. -/
theorem couplingCoord_opt (hF : F.Consistent) (hD : D.Valid) (i : Fin n) :
    couplingCoord F D (enlarge D F.opt) i = .ok (F.opt i) := by
  have hbi := hF.bounds i
  have hoi := hF.optFeasible i
  have hsub : F.upper i - F.lower i ≠ 0 := by linarith
  have hlt : couplingSum D F.lower i < couplingSum D F.upper i := by
    unfold couplingSum
    exact Finset.sum_lt_sum_of_nonempty ⟨⟨0, hD.copies⟩, Finset.mem_univ _⟩ (fun k _ => hF.bounds _)
  have hgap : couplingSum D F.upper i - couplingSum D F.lower i ≠ 0 := by linarith
  have hs : ∑ k, enlarge D F.opt (D.coupling i k) = couplingSum D F.opt i := rfl
  have hy : F.lower i + (couplingData F D i).shift + (couplingData F D i).mult *
      (couplingSum D F.opt i - (couplingData F D i).lo) /
      ((couplingData F D i).hi - (couplingData F D i).lo) * (F.upper i - F.lower i) = F.opt i := by
    unfold couplingData
    dsimp only
    split
    · rename_i h
      obtain ⟨h1, h2⟩ := h
      have h3 : couplingSum D F.opt i - couplingSum D F.lower i ≠ 0 := by
        intro h; rw [h] at h1; simp at h1
      field_simp
      ring
    · split
      · rename_i h1 h2
        have : F.opt i - F.lower i = 0 := by
          rcases div_eq_zero_iff.mp h2 with h | h
          · exact h
          · exact absurd h hsub
        simp
        linarith
      · rename_i h1 h2
        have h3 : (couplingSum D F.opt i - couplingSum D F.lower i) / (couplingSum D F.upper i - couplingSum D F.lower i) = 0 := by
          by_contra h; exact h1 ⟨h, h2⟩
        have h4 : couplingSum D F.opt i - couplingSum D F.lower i = 0 := by
          rcases div_eq_zero_iff.mp h3 with h | h
          · exact h
          · exact absurd h hgap
        rw [h4]; ring
  unfold couplingCoord
  dsimp only
  rw [hs, hy]
  have hclip : clip1 (F.opt i) (F.lower i) (F.upper i) = F.opt i := by
    unfold clip1
    rw [max_eq_left hoi.1, min_eq_right hoi.2.1]
  rw [hclip]
  split
  · rename_i ht
    obtain ⟨v, hv, hmem⟩ := mostFrequent_mem (sameOrig_ne_nil hD (enlarge D F.opt) i) (by
      intro q hq
      obtain ⟨k, hk, rfl⟩ := mem_sameOrig hq
      simp only [enlarge, hk]
      exact ⟨hoi.2.2 (by rw [ht]; simp), (hF.categories i ht).trans hoi.1⟩)
    rw [hv]
    obtain ⟨k, hk, he⟩ := mem_sameOrig hmem
    simp only [enlarge, hk] at he
    dsimp only
    rw [he]
  · rename_i ht
    obtain ⟨z, hz⟩ := hoi.2.2 (by rw [ht]; simp)
    rw [hz, aroundEven_int]
  · rfl

/-- **C83** The enlarged test function takes its declared optimum value at its declared optimum point,
for all permutations, groupings and weights. -/
theorem C83_optimum_value (hF : F.Consistent) (hD : D.Valid) :
    EnlargedEval F D (enlarge D F.opt) (.ok F.optValue) := by
  have h := EnlargedEval.ok (couplingCoord_opt hF hD)
  have e : ∀ c, copyPoint D (enlarge D F.opt) c = F.opt := by
    intro c; funext j
    simp only [copyPoint, enlarge, orig_copyIndex]
  simp only [e, ← Finset.sum_mul, copyWeight_sum hD, hF.optValue] at h
  have e2 : (6 / 10 * F.optValue + 4 / 10 * F.optValue : ℝ) = F.optValue := by ring
  rwa [e2] at h

/-- **C83** The declared optimum point of the enlarged function is feasible, and no feasible point has a
smaller value: at every feasible point the function has exactly one value (no exception is raised), and
it is at least the declared optimum value, if this is the minimum of the original function. -/
theorem C83_optimum_minimal (hF : F.Consistent) (hD : D.Valid)
    (hmin : ∀ y, InTyped F.lower F.upper F.type y → F.optValue ≤ F.eval y) :
    InTyped (enlarge D F.lower) (enlarge D F.upper) (enlarge D F.type) (enlarge D F.opt) ∧
    ∀ x, InTyped (enlarge D F.lower) (enlarge D F.upper) (enlarge D F.type) x →
      ∃ v : ℝ, F.optValue ≤ v ∧ ∀ r, EnlargedEval F D x r ↔ r = .ok v := by
  refine ⟨fun k => hF.optFeasible _, fun x hx => ?_⟩
  choose y hy using couplingCoord_feasible hF hD hx
  refine ⟨∑ c, copyWeight D c * F.eval (copyPoint D x c) + (4 / 10) * F.eval y, ?_, ?_⟩
  · have h1 : ∑ c, copyWeight D c * F.optValue ≤ ∑ c, copyWeight D c * F.eval (copyPoint D x c) :=
      Finset.sum_le_sum fun c _ =>
        mul_le_mul_of_nonneg_left (hmin _ (copyPoint_feasible hx c)) (copyWeight_nonneg c)
    rw [← Finset.sum_mul, copyWeight_sum hD] at h1
    have h2 := hmin y (fun i => (hy i).2)
    linarith
  · intro r
    constructor
    · intro h
      cases h with
      | ok hy' =>
        rename_i y'
        have : y' = y := by
          funext i
          exact Except.ok.inj ((hy' i).symm.trans (hy i).1)
        rw [this]
      | fails hf =>
        have := hf.symm.trans (hy _).1
        cases this
    · rintro rfl
      exact .ok (fun i => (hy i).1)

/-- **C83** No division by zero: all denominators of the constructor and of `evaluate` are positive (the
range of a variable, the range of a group, the adjusted range, the sum of the weights). -/
theorem C83_denominators (hF : F.Consistent) (hD : D.Valid) (i : Fin n) :
    0 < F.upper i - F.lower i ∧ 0 < couplingSum D F.upper i - couplingSum D F.lower i ∧
    0 < (couplingData F D i).hi - (couplingData F D i).lo ∧ 0 < ∑ k, D.weights k ∧
    ((couplingData F D i).mult = 1 ∨ 0 < couplingSum D F.opt i - couplingSum D F.lower i) := by
  have hbi := hF.bounds i
  have hlt : couplingSum D F.lower i < couplingSum D F.upper i := by
    unfold couplingSum
    exact Finset.sum_lt_sum_of_nonempty ⟨⟨0, hD.copies⟩, Finset.mem_univ _⟩ (fun k _ => hF.bounds _)
  have hle : couplingSum D F.lower i ≤ couplingSum D F.opt i := by
    unfold couplingSum
    exact Finset.sum_le_sum (fun k _ => (hF.optFeasible _).1)
  refine ⟨by linarith, by linarith, ?_, ?_, ?_⟩
  · unfold couplingData
    dsimp only
    split
    · dsimp only; linarith
    · split
      · dsimp only
        have := le_max_right (couplingSum D F.upper i) (couplingSum D F.opt i + 1)
        linarith
      · dsimp only; linarith
  · have := Finset.single_le_sum (f := D.weights) (s := Finset.univ) (fun _ _ => Nat.zero_le _)
      (Finset.mem_univ (⟨0, hD.copies⟩ : Fin d))
    have := hD.weights ⟨0, hD.copies⟩
    omega
  · unfold couplingData
    dsimp only
    split
    · rename_i h
      right
      have h3 : couplingSum D F.opt i - couplingSum D F.lower i ≠ 0 := by
        intro h'; rw [h'] at h; simp at h
      have := lt_of_le_of_ne (sub_nonneg.mpr hle) (Ne.symm h3)
      exact this
    · left
      split <;> rfl

/-- **C83** (violation) With a categorical variable that takes negative values the enlarged function
cannot be evaluated: `np.bincount` raises `ValueError`. -/
theorem C83_violated_negative_category {x : Fin (d * n) → ℚ} {i : Fin n} (ht : F.type i = .C)
    (hx : ∃ k, D.orig k = i ∧ x k ≤ -1) : EnlargedEval F D x (.error .valueError) := by
  obtain ⟨k, hk, hle⟩ := hx
  refine .fails (i := i) ?_
  unfold couplingCoord
  dsimp only
  rw [ht]
  dsimp only
  have : mostFrequent (sameOrig D x i) = .error .valueError := by
    unfold mostFrequent
    dsimp only
    rw [if_pos]
    refine ⟨⌈x k⌉, List.mem_map.mpr ⟨x k, ?_, ?_⟩, ?_⟩
    · unfold sameOrig
      exact List.mem_map.mpr ⟨k, List.mem_filter.mpr ⟨List.mem_finRange _, decide_eq_true hk⟩, rfl⟩
    · rw [if_neg (by linarith)]
    · have h1 : ⌈x k⌉ ≤ -1 := Int.ceil_le.mpr (by exact_mod_cast hle)
      omega
  rw [this]

end Rbfopt
