import Verif.Props.InitNodes

/-! # Shape of the internal problem, as used by the search steps -/

namespace Rbfopt

/-- The shape of an internal problem. -/
structure GoodLayout (I : Internal) : Prop where
  box : GoodBox I.lower I.upper I.intVars
  dim : I.lower.length = I.dim
  nodup : ∀ e ∈ I.expansion, e.2.2.Nodup
  nonempty : ∀ e ∈ I.expansion, e.2.2 ≠ []
  disjoint : I.expansion.Pairwise (fun e f => ∀ i ∈ e.2.2, i ∉ f.2.2)
  pos : ∀ e ∈ I.expansion, ∀ i ∈ e.2.2, I.notCategorical.length ≤ i ∧ i < I.dim ∧ i ∈ I.intVars ∧
    I.lower.getD i 0 = 0 ∧ I.upper.getD i 0 = 1
  cover : ∀ i, I.notCategorical.length ≤ i → i < I.dim → ∃ e ∈ I.expansion, i ∈ e.2.2

theorem feasibleInternal_of {I : Internal} (hI : GoodLayout I) {q : Pt}
    (h : GoodPt I.lower I.upper I.intVars q) (ho : ∀ e ∈ I.expansion, OneHotAt q e.2.2) :
    FeasibleInternal I q := by
  have hb := hI.box
  refine ⟨by rw [h.length, hI.dim], ?_, ?_, h.int, ho⟩
  · rw [forall₂_iff_get]
    refine ⟨h.length, fun i a b ha hb => ?_⟩
    have hi : i < I.lower.length := (List.getElem?_eq_some_iff.mp ha).1
    have := (h.box i hi).1
    rwa [getD_of ha, getD_of hb] at this
  · rw [forall₂_iff_get]
    refine ⟨by rw [h.length, hb.length], fun i a b ha hb => ?_⟩
    have hi : i < I.lower.length := by
      rw [← h.length]; exact (List.getElem?_eq_some_iff.mp ha).1
    have := (h.box i hi).2
    rwa [getD_of ha, getD_of hb] at this

theorem FeasibleInternal.good {I : Internal} {q : Pt} (h : FeasibleInternal I q) :
    GoodPt I.lower I.upper I.intVars q := by
  have hl := h.lower.length_eq
  have hu := h.upper.length_eq
  refine ⟨hl.symm, fun i hi => ?_, h.integral⟩
  rw [getD_of (List.getElem?_eq_getElem hi),
    getD_of (List.getElem?_eq_getElem (by omega : i < q.length)),
    getD_of (List.getElem?_eq_getElem (by omega : i < I.upper.length))]
  exact ⟨(forall₂_iff_get.mp h.lower).2 i _ _ (List.getElem?_eq_getElem hi)
      (List.getElem?_eq_getElem (by omega)),
    (forall₂_iff_get.mp h.upper).2 i _ _ (List.getElem?_eq_getElem (by omega))
      (List.getElem?_eq_getElem (by omega))⟩

theorem expansionFrom_disjoint (vs : List Var) (cur : ℕ) (is : List ℕ) :
    (expansionFrom vs cur is).Pairwise (fun e f => ∀ i ∈ e.2.2, i ∉ f.2.2) := by
  induction is generalizing cur with
  | nil => exact .nil
  | cons j is ih =>
    simp only [expansionFrom, List.pairwise_cons]
    refine ⟨fun f hf i hi hc => ?_, ih _⟩
    have h1 := List.mem_range'_1.mp hi
    have h2 := expansionFrom_pos hf i hc
    omega

theorem expansionFrom_nodup {vs : List Var} {cur : ℕ} {is : List ℕ} {e : ℕ × ℚ × List ℕ}
    (he : e ∈ expansionFrom vs cur is) : e.2.2.Nodup := by
  induction is generalizing cur with
  | nil => simp [expansionFrom] at he
  | cons j is ih =>
    simp only [expansionFrom, List.mem_cons] at he
    rcases he with rfl | he
    · exact List.nodup_range' ..
    · exact ih he

theorem expansionFrom_cover (vs : List Var) (cur : ℕ) (is : List ℕ) (i : ℕ) (h1 : cur ≤ i)
    (h2 : i < cur + (is.map (fun i => (vs.getD i default).numCats)).sum) :
    ∃ e ∈ expansionFrom vs cur is, i ∈ e.2.2 := by
  induction is generalizing cur with
  | nil => simp at h2; omega
  | cons j is ih =>
    rw [List.map_cons, List.sum_cons] at h2
    simp only [expansionFrom, List.mem_cons, exists_eq_or_imp]
    by_cases h : i < cur + (vs.getD j default).numCats
    · left; exact List.mem_range'_1.mpr ⟨h1, h⟩
    · right; exact ih _ (by omega) (by omega)

/-- The constructor produces problems of this shape. -/
theorem goodLayout_construct {eps : ℚ} {vars : List Var} (hw : WellFormed vars) :
    GoodLayout (construct eps vars) := by
  have hbox := goodBox_construct (eps := eps) hw
  obtain ⟨-, hdim, -, hpos⟩ := layout_bounds (eps := eps) hw
  have hws := hw.simp (eps := eps)
  rw [construct_eq hw] at hbox ⊢
  have hL := catLayout_layout eps vars
  have hnc : (layout eps vars).notCategorical.length = (nonCats (simpVars eps vars)).length := by
    rw [length_nonCats]; rfl
  have hdd : (layout eps vars).dim =
    (nonCats (simpVars eps vars)).length + numBin (simpVars eps vars) := rfl
  refine ⟨hbox, hdim, ?_, ?_, ?_, ?_, ?_⟩
  · intro e he; rw [hL.exp] at he; exact expansionFrom_nodup he
  · intro e he hc
    rw [hL.exp] at he
    obtain ⟨h1, -, h3⟩ := expansionFrom_mem he
    rw [hc] at h3
    obtain ⟨v, hv, -⟩ := mem_where.mp h1
    rw [getD_of hv] at h3
    have := (hws v (List.mem_of_getElem? hv)).1
    have h4 : (1 : ℤ) ≤ ⌊v.upper - v.lower + 1⌋ := by
      rw [Int.le_floor]; push_cast; linarith
    unfold Var.numCats at h3
    simp only [List.length_nil] at h3
    omega
  · rw [hL.exp]; exact expansionFrom_disjoint _ _ _
  · intro e he i hi
    obtain ⟨h1, h2⟩ := hpos e he i hi
    have he' := he
    rw [hL.exp] at he'
    have h3 := expansionFrom_pos he' i hi
    rw [← length_nonCats] at h3
    have h4 : i < (nonCats (simpVars eps vars)).length + numBin (simpVars eps vars) := by
      unfold numBin; exact h3.2
    refine ⟨by rw [hnc]; exact h3.1, by rw [hdd]; exact h4, ?_, getD_of h1, getD_of h2⟩
    change i ∈ whereFrom (fun v => decide (v.type = .I)) 0 (nonCats (simpVars eps vars)) ++
      List.range' (nonCats (simpVars eps vars)).length (numBin (simpVars eps vars))
    exact List.mem_append_right _ (List.mem_range'_1.mpr ⟨h3.1, h4⟩)
  · intro i h1 h2
    rw [hL.exp]
    rw [hnc, length_nonCats] at h1
    rw [hdd, length_nonCats] at h2
    exact expansionFrom_cover _ _ _ _ h1 (by unfold numBin at h2; exact h2)

end Rbfopt
