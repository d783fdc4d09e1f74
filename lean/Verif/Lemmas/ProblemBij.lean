import Verif.Lemmas.ProblemMain

/-! # The constructor: layout of the internal problem and feasibility -/

namespace Rbfopt

/-- The unfixed variables after the treatment of binary categorical variables. -/
def simpVars (eps : ℚ) (vars : List Var) : List Var := (unfixedSpec eps vars).map Var.simplify

/-- Layout of the internal problem. -/
def layout (eps : ℚ) (vars : List Var) : Internal :=
  let vs := simpVars eps vars
  { dim := (nonCats vs).length + numBin vs
    lower := (nonCats vs).map Var.lower ++ List.replicate (numBin vs) 0
    upper := (nonCats vs).map Var.upper ++ List.replicate (numBin vs) 1
    intVars := whereFrom (fun v => decide (v.type = .I)) 0 (nonCats vs) ++
      List.range' (nonCats vs).length (numBin vs)
    categorical := catIdx vs, notCategorical := notCatIdx vs
    expansion := expansionFrom vs (notCatIdx vs).length (catIdx vs)
    fixed := fixedFrom eps 0 vars }

theorem simplify_lower (v : Var) : v.simplify.lower = v.lower := by
  unfold Var.simplify; split <;> rfl

theorem simplify_upper (v : Var) : v.simplify.upper = v.upper := by
  unfold Var.simplify; split <;> rfl

theorem simplify_R (v : Var) : v.simplify.type = .R ↔ v.type = .R := by
  unfold Var.simplify
  split
  · rename_i h; simp [h.1]
  · rfl

theorem gather_notCat (vs : List Var) : gather default vs (notCatIdx vs) = nonCats vs :=
  gather_where _ _ _

theorem reformulate_eq (eps : ℚ) (vars : List Var) : reformulate eps vars = layout eps vars := by
  unfold reformulate layout
  dsimp only
  rw [unfixedVars_eq, fixedVars_eq]
  change (if catIdx (simpVars eps vars) = [] then _ else _) = _
  generalize hvs : simpVars eps vars = vs
  have hdef : (unfixedSpec eps vars).map Var.simplify = vs := hvs
  rw [hdef]
  by_cases hc : catIdx vs = []
  · rw [if_pos hc]
    have hnc : nonCats vs = vs := by
      unfold nonCats
      rw [List.filter_eq_self]
      intro v hv
      obtain ⟨n, hn⟩ := List.getElem?_of_mem hv
      by_contra hcon
      have : n ∈ catIdx vs := by
        rw [catIdx, mem_where]; exact ⟨v, hn, by simpa using hcon⟩
      rw [hc] at this; simp at this
    have hnb : numBin vs = 0 := by rw [numBin, hc]; rfl
    have hint : plainIntVars (unfixedSpec eps vars) =
        whereFrom (fun v => decide (v.type = .I)) 0 vs := by
      rw [← hdef, whereFrom_map]
      unfold plainIntVars
      apply whereFrom_congr
      intro v hv
      have hmem : v.simplify ∈ vs := by rw [← hdef]; exact List.mem_map_of_mem hv
      have h1 : v.simplify.type ≠ .C := by
        rw [← hnc] at hmem
        simpa [nonCats] using (List.mem_filter.mp hmem).2
      have h2 := simplify_R v
      cases hty : v.simplify.type with
      | R => simp [h2.mp hty]
      | I =>
        have : v.type ≠ .R := fun h => by rw [h2.mpr h] at hty; cases hty
        simp [this]
      | C => exact absurd hty h1
    simp only [hnc, hnb, hint, List.replicate_zero, List.append_nil, List.range'_zero, Nat.add_zero]
    rw [show whereFrom (fun v => decide (v.type = VType.C)) 0 vs = [] from hc, hc]
    rfl
  · rw [if_neg hc]
    have hsub : (notCatIdx vs).length + numBin vs - (notCatIdx vs).length = numBin vs := by omega
    have h1 : whereFrom (fun v => decide (v.type ≠ .C)) 0 vs = notCatIdx vs := rfl
    have h2 : whereFrom (fun v => decide (v.type = .C)) 0 vs = catIdx vs := rfl
    have h3 : (List.map (fun i => (vs.getD i default).numCats) (catIdx vs)).sum = numBin vs := rfl
    have h4 : whereFrom (fun i => decide ((vs.getD i default).type = VType.I)) 0 (notCatIdx vs) =
        whereFrom (fun v => decide (v.type = .I)) 0 (nonCats vs) := by
      rw [← gather_notCat]
      unfold gather
      rw [whereFrom_map]
    rw [h1, h2, h3, gather_notCat, hsub, h4, length_nonCats]

theorem catLayout_layout (eps : ℚ) (vars : List Var) :
    CatLayout (simpVars eps vars) (layout eps vars) := ⟨rfl, rfl, rfl⟩

theorem catLayout_construct (eps : ℚ) (vars : List Var) :
    CatLayout (simpVars eps vars) (construct eps vars) := by
  unfold construct
  rw [reformulate_eq]
  exact ⟨rfl, rfl, rfl⟩

theorem roundLower_eq {l : List ℚ} {ints : List ℕ} (h : ∀ i ∈ ints, ∀ x, l[i]? = some x → IsInt x) :
    roundLower l ints = l := by
  apply List.ext_getElem?
  intro i
  unfold roundLower
  rw [List.getElem?_mapIdx]
  cases hx : l[i]? with
  | none => rfl
  | some x =>
    simp only [Option.map_some, Option.some.injEq]
    split
    · rename_i hi
      obtain ⟨z, rfl⟩ := h i hi x hx
      simp
    · rfl

theorem roundUpper_eq {l : List ℚ} {ints : List ℕ} (h : ∀ i ∈ ints, ∀ x, l[i]? = some x → IsInt x) :
    roundUpper l ints = l := by
  apply List.ext_getElem?
  intro i
  unfold roundUpper
  rw [List.getElem?_mapIdx]
  cases hx : l[i]? with
  | none => rfl
  | some x =>
    simp only [Option.map_some, Option.some.injEq]
    split
    · rename_i hi
      obtain ⟨z, rfl⟩ := h i hi x hx
      simp
    · rfl

theorem WellFormed.simp {eps : ℚ} {vars : List Var} (hw : WellFormed vars) :
    WellFormed (simpVars eps vars) := by
  intro v hv
  obtain ⟨w, hwm, rfl⟩ := List.mem_map.mp hv
  have hw' := hw w (List.mem_filter.mp hwm).1
  rw [simplify_lower, simplify_upper, Ne, simplify_R]
  exact hw'

theorem construct_eq {eps : ℚ} {vars : List Var} (hw : WellFormed vars) :
    construct eps vars = layout eps vars := by
  unfold construct
  rw [reformulate_eq]
  dsimp only
  have hw' := hw.simp (eps := eps)
  have key : ∀ (f : Var → ℚ) (c : ℚ), IsInt c →
      (∀ v ∈ simpVars eps vars, v.type ≠ .R → IsInt (f v)) →
      ∀ i ∈ (layout eps vars).intVars, ∀ x,
        ((nonCats (simpVars eps vars)).map f ++ List.replicate (numBin (simpVars eps vars)) c)[i]? =
          some x → IsInt x := by
    intro f c hc hf i hi x hx
    simp only [layout, List.mem_append] at hi
    rcases hi with hi | hi
    · obtain ⟨v, hv, hvt⟩ := mem_where.mp hi
      have hlt := where_lt hi
      rw [List.getElem?_append_left (by simpa using hlt), List.getElem?_map, hv] at hx
      simp only [Option.map_some, Option.some.injEq] at hx
      rw [← hx]
      refine hf v (List.mem_filter.mp (List.mem_of_getElem? hv)).1 ?_
      have : v.type = .I := by simpa using hvt
      rw [this]; simp
    · rw [List.mem_range'_1] at hi
      rw [List.getElem?_append_right (by simpa using hi.1)] at hx
      have := List.mem_of_getElem? hx
      rw [List.mem_replicate] at this
      rw [this.2]; exact hc
  have h1 : roundLower (layout eps vars).lower (layout eps vars).intVars =
      (layout eps vars).lower :=
    roundLower_eq (key Var.lower 0 ⟨0, by simp⟩ (fun v hv ht => ((hw' v hv).2 ht).1))
  have h2 : roundUpper (layout eps vars).upper (layout eps vars).intVars =
      (layout eps vars).upper :=
    roundUpper_eq (key Var.upper 1 ⟨1, by simp⟩ (fun v hv ht => ((hw' v hv).2 ht).2))
  rw [h1, h2]

/-- Category values of a categorical variable are its feasible values. -/
theorem cat_value_iff {v : Var} (hl : v.lower ≤ v.upper) (h1 : IsInt v.lower) (h2 : IsInt v.upper)
    (x : ℚ) : (v.lower ≤ x ∧ x ≤ v.upper ∧ IsInt x) ↔ ∃ j < v.numCats, x = v.lower + (j : ℚ) := by
  obtain ⟨a, ha⟩ := h1
  obtain ⟨b, hb⟩ := h2
  have hab : a ≤ b := by rw [ha, hb] at hl; exact_mod_cast hl
  have hn : (v.numCats : ℤ) = b - a + 1 := by
    unfold Var.numCats
    rw [ha, hb]
    have : ((b : ℚ) - a + 1) = ((b - a + 1 : ℤ) : ℚ) := by push_cast; ring
    rw [this, Int.floor_intCast, Int.toNat_of_nonneg (by omega)]
  rw [ha, hb]
  constructor
  · rintro ⟨g1, g2, z, rfl⟩
    have g1 : a ≤ z := by exact_mod_cast g1
    have g2 : z ≤ b := by exact_mod_cast g2
    refine ⟨(z - a).toNat, ?_, ?_⟩
    · omega
    · have : (((z - a).toNat : ℕ) : ℚ) = (((z - a).toNat : ℤ) : ℚ) := by push_cast; rfl
      rw [this, Int.toNat_of_nonneg (by omega)]; push_cast; ring
  · rintro ⟨j, hj, rfl⟩
    have hj' : (j : ℤ) ≤ b - a := by omega
    have : (j : ℚ) ≤ (b : ℚ) - a := by exact_mod_cast hj'
    refine ⟨?_, ?_, a + j, by push_cast; ring⟩
    · have : (0 : ℚ) ≤ j := by positivity
      linarith
    · linarith

theorem feasible'_simplify (v : Var) (x : ℚ) : v.simplify.Feasible' x ↔ v.Feasible' x := by
  unfold Var.Feasible'
  rw [simplify_lower, simplify_upper, Ne, simplify_R]

theorem forall₂_simp {eps : ℚ} {vars : List Var} {p : Pt} :
    List.Forall₂ Var.Feasible' (simpVars eps vars) p ↔
    List.Forall₂ Var.Feasible' (unfixedSpec eps vars) p := by
  unfold simpVars
  rw [List.forall₂_map_left_iff]
  constructor
  · exact fun h => h.imp (fun a b => (feasible'_simplify a b).mp)
  · exact fun h => h.imp (fun a b => (feasible'_simplify a b).mpr)

/-- Feasible unfixed coordinates give category values at the categorical positions. -/
theorem catValues_of_feasible {vs : List Var} {p : Pt} (hw : WellFormed vs)
    (h : List.Forall₂ Var.Feasible' vs p) : CatValues vs p := by
  intro i v x hv hvc hx
  obtain ⟨g1, g2, g3⟩ := (forall₂_iff_get.mp h).2 i v x hv hx
  have hwv := hw v (List.mem_of_getElem? hv)
  have hr : v.type ≠ .R := by rw [hvc]; simp
  exact (cat_value_iff hwv.1 (hwv.2 hr).1 (hwv.2 hr).2 x).mp ⟨g1, g2, g3 hr⟩

/-- Feasibility in the internal coordinates, in terms of the layout. -/
theorem feasibleInternal_iff {eps : ℚ} {vars : List Var} {q : Pt} :
    FeasibleInternal (layout eps vars) q ↔
    q.length = (nonCats (simpVars eps vars)).length + numBin (simpVars eps vars) ∧
    List.Forall₂ Var.Feasible' (nonCats (simpVars eps vars))
      (q.take (nonCats (simpVars eps vars)).length) ∧
    ∀ e ∈ (layout eps vars).expansion, OneHotAt q e.2.2 := by
  generalize hvs : simpVars eps vars = vs
  have hnc : ∀ v ∈ nonCats vs, v.type ≠ .C := fun v hv => by
    simpa [nonCats] using (List.mem_filter.mp hv).2
  constructor
  · intro h
    have hlen := h.length
    simp only [layout, hvs] at hlen
    refine ⟨hlen, ?_, h.oneHot⟩
    rw [forall₂_iff_get]
    refine ⟨by rw [List.length_take]; omega, ?_⟩
    intro i v x hv hx
    have hi := (List.getElem?_eq_some_iff.mp hv).1
    rw [List.getElem?_take, if_pos hi] at hx
    have h1 := (forall₂_iff_get.mp h.lower).2 i v.lower x (by
      simp only [layout, hvs]
      rw [List.getElem?_append_left (by simpa using hi), List.getElem?_map, hv]; rfl) hx
    have h2 := (forall₂_iff_get.mp h.upper).2 i x v.upper hx (by
      simp only [layout, hvs]
      rw [List.getElem?_append_left (by simpa using hi), List.getElem?_map, hv]; rfl)
    refine ⟨h1, h2, ?_⟩
    intro hr
    have hI : v.type = .I := by
      cases hty : v.type with
      | R => exact absurd hty hr
      | I => rfl
      | C => exact absurd hty (hnc v (List.mem_of_getElem? hv))
    have := h.integral i (by
      simp only [layout, hvs, List.mem_append]
      left; rw [mem_where]; exact ⟨v, hv, by simpa using hI⟩)
    rwa [getD_of hx] at this
  · rintro ⟨hlen, hf, ho⟩
    have hf' := (forall₂_iff_get.mp hf).2
    -- values of the binaries
    have hbin : ∀ i, (nonCats vs).length ≤ i → ∀ x, q[i]? = some x → x = 0 ∨ x = 1 := by
      have hd : q.drop (notCatIdx vs).length =
          (expansionFrom vs (notCatIdx vs).length (catIdx vs)).flatMap
            (fun e => gather 0 q e.2.2) :=
        (expansionFrom_flatMap_gather q _ _ (by rw [← length_nonCats]; exact hlen)).symm
      intro i hi x hx
      have hmem : x ∈ q.drop (notCatIdx vs).length := by
        rw [← length_nonCats, List.mem_drop_iff_getElem]
        obtain ⟨h1, h2⟩ := List.getElem?_eq_some_iff.mp hx
        refine ⟨i - (nonCats vs).length, by omega, ?_⟩
        rw [← h2]; congr 1; omega
      rw [hd] at hmem
      obtain ⟨e, he, hxe⟩ := List.mem_flatMap.mp hmem
      obtain ⟨j, hj, hh⟩ := ho e (by simp only [layout, hvs]; exact he)
      rw [show gather 0 q e.2.2 = _ from hh] at hxe
      rcases List.mem_or_eq_of_mem_set hxe with h | h
      · left; exact (List.mem_replicate.mp h).2
      · right; exact h
    have hlow : ∀ i x, q[i]? = some x → i < (nonCats vs).length → ∃ v, (nonCats vs)[i]? = some v ∧
        v.Feasible' x := by
      intro i x hx hi
      exact ⟨_, List.getElem?_eq_getElem hi, hf' i _ x (List.getElem?_eq_getElem hi) (by
        rw [List.getElem?_take, if_pos hi]; exact hx)⟩
    refine ⟨by simp only [layout, hvs]; exact hlen, ?_, ?_, ?_, ho⟩
    · rw [forall₂_iff_get]
      refine ⟨by simp only [layout, hvs]; simpa using hlen, ?_⟩
      intro i l x hl hx
      simp only [layout, hvs] at hl
      by_cases hi : i < (nonCats vs).length
      · obtain ⟨v, hv, hvf⟩ := hlow i x hx hi
        rw [List.getElem?_append_left (by simpa using hi), List.getElem?_map, hv] at hl
        simp only [Option.map_some, Option.some.injEq] at hl
        rw [← hl]; exact hvf.1
      · rw [List.getElem?_append_right (by simpa using hi)] at hl
        have := (List.mem_replicate.mp (List.mem_of_getElem? hl)).2
        subst this
        rcases hbin i (by omega) x hx with h | h <;> rw [h]
        exact zero_le_one
    · rw [forall₂_iff_get]
      refine ⟨by simp only [layout, hvs]; simpa using hlen.symm, ?_⟩
      intro i x l hx hl
      simp only [layout, hvs] at hl
      by_cases hi : i < (nonCats vs).length
      · obtain ⟨v, hv, hvf⟩ := hlow i x hx hi
        rw [List.getElem?_append_left (by simpa using hi), List.getElem?_map, hv] at hl
        simp only [Option.map_some, Option.some.injEq] at hl
        rw [← hl]; exact hvf.2.1
      · rw [List.getElem?_append_right (by simpa using hi)] at hl
        have := (List.mem_replicate.mp (List.mem_of_getElem? hl)).2
        subst this
        rcases hbin i (by omega) x hx with h | h <;> rw [h]
        exact zero_le_one
    · intro i hi
      simp only [layout, hvs, List.mem_append] at hi
      rcases hi with hi | hi
      · obtain ⟨v, hv, hvt⟩ := mem_where.mp hi
        have hlt := where_lt hi
        have hx : q[i]? = some q[i] := List.getElem?_eq_getElem (by omega)
        obtain ⟨v', hv', hvf⟩ := hlow i _ hx hlt
        rw [hv] at hv'; cases hv'
        rw [getD_of hx]
        refine hvf.2.2 ?_
        have : v.type = .I := by simpa using hvt
        rw [this]; simp
      · rw [List.mem_range'_1] at hi
        have hx : q[i]? = some q[i] := List.getElem?_eq_getElem (by omega)
        rw [getD_of hx]
        rcases hbin i hi.1 _ hx with h | h <;> rw [h]
        · exact ⟨0, by simp⟩
        · exact ⟨1, by simp⟩

end Rbfopt
