import Verif.Lemmas.ProblemMore
import Mathlib.Tactic.FinCases
import Mathlib.Order.Interval.Set.Infinite

/-!
# Properties of the reformulation of the user's problem (categorical and fixed variables)
-/

namespace Rbfopt

variable {eps : ℚ} {vars : List Var}

theorem unfixed_length {x : Pt} (hx : FeasibleUser eps vars x) :
    (unfixedCoords eps vars x).length = (simpVars eps vars).length := by
  have := (forall₂_iff_get.mp (forall₂_simp.mpr (feasible_unfixed hx).1)).1
  exact this

/-- Expanding a feasible point in the coordinates of the unfixed variables gives a feasible internal
point. -/
theorem expand_feasible (hw : WellFormed vars) {p : Pt}
    (hp : List.Forall₂ Var.Feasible' (simpVars eps vars) p) :
    FeasibleInternal (layout eps vars) (expandPt (layout eps vars) p) := by
  rw [feasibleInternal_iff]
  have hL := catLayout_layout eps vars
  have hc := catValues_of_feasible hw.simp hp
  have hlen := (forall₂_iff_get.mp hp).1
  refine ⟨by rw [length_expand hL, length_nonCats], ?_,
    fun e he => (expand_oneHot hL hlen hc e he).1⟩
  rw [forall₂_iff_get]
  have h1 : (expandPt (layout eps vars) p).take
      (nonCats (simpVars eps vars)).length =
      gather 0 p (notCatIdx (simpVars eps vars)) := by
    unfold expandPt
    rw [hL.notCat, length_nonCats, ← length_gather 0 p, List.take_left]
  rw [h1]
  refine ⟨by rw [length_gather, length_nonCats], ?_⟩
  intro k v y hv hy
  have hk : k < (notCatIdx (simpVars eps vars)).length := by
    rw [← length_nonCats]; exact (List.getElem?_eq_some_iff.mp hv).1
  have hki := List.getElem?_eq_getElem hk
  have hlt := where_lt (List.getElem_mem hk)
  rw [nonCats_get hki] at hv
  rw [getElem?_gather hki (by omega)] at hy
  exact (forall₂_iff_get.mp hp).2 _ v y hv hy

/-- The internal point of a feasible user point is feasible. -/
theorem encode_feasible (hw : WellFormed vars) {x : Pt} (hx : FeasibleUser eps vars x) :
    FeasibleInternal (construct eps vars) (encodePt eps vars x) := by
  unfold encodePt
  rw [construct_eq hw]
  exact expand_feasible hw (forall₂_simp.mpr (feasible_unfixed hx).1)

/-- The user's point of a feasible internal point, before inserting fixed variables, is feasible. -/
theorem place_feasible (hw : WellFormed vars) {q : Pt} (hq : FeasibleInternal (layout eps vars) q) :
    List.Forall₂ Var.Feasible' (simpVars eps vars) (place (layout eps vars) q) := by
  have hL := catLayout_layout eps vars
  obtain ⟨h1, h2, h3⟩ := feasibleInternal_iff.mp hq
  rw [forall₂_iff_get]
  refine ⟨length_place hL q, ?_⟩
  intro i v x hv hx
  have hi := (List.getElem?_eq_some_iff.mp hv).1
  rcases cat_or_not hi with h | h
  · have : i ∈ (layout eps vars).expansion.map Prod.fst := by
      rw [hL.exp, expansionFrom_fst]; exact h
    obtain ⟨e, he, rfl⟩ := List.mem_map.mp this
    rw [place_cat hL he] at hx
    obtain ⟨j, hj, hh⟩ := h3 e he
    rw [groupVal, decodeGroup_oneHot 0 hj hh] at hx
    simp only [Nat.zero_add, Option.getD_some, Option.some.injEq] at hx
    rw [hL.exp] at he
    obtain ⟨-, m2, m3⟩ := expansionFrom_mem he
    rw [getD_of hv] at m2 m3
    have hwv := hw.simp v (List.mem_of_getElem? hv)
    obtain ⟨w, hw1, hw2⟩ := mem_where.mp h
    rw [hv] at hw1; cases hw1
    have hC : v.type = .C := by simpa using hw2
    have hr : v.type ≠ .R := by rw [hC]; simp
    obtain ⟨g1, g2, g3⟩ := (cat_value_iff hwv.1 (hwv.2 hr).1 (hwv.2 hr).2 x).mpr
      ⟨j, by omega, by rw [← hx, m2]⟩
    exact ⟨g1, g2, fun _ => g3⟩
  · obtain ⟨k, hk⟩ := List.getElem?_of_mem h
    have hklt := (List.getElem?_eq_some_iff.mp hk).1
    rw [place_notCat hL (by rw [← length_nonCats]; omega) hk] at hx
    refine (forall₂_iff_get.mp h2).2 k v x ?_ ?_
    · rw [nonCats_get hk]; exact hv
    · rw [List.getElem?_take, if_pos (by rw [length_nonCats]; exact hklt)]; exact hx

theorem decode_fill (hw : WellFormed vars) {q : Pt} (hq : FeasibleInternal (layout eps vars) q) :
    decodePt (layout eps vars) q = fillFixed eps vars (place (layout eps vars) q) := by
  have hL := catLayout_layout eps vars
  obtain ⟨h1, h2, h3⟩ := feasibleInternal_iff.mp hq
  unfold decodePt
  rw [decodeCat_place hL h3]
  · have := insertFixed_fill eps vars [] (place (layout eps vars) q) (by
      rw [length_place hL]; simp [simpVars])
    have e : (layout eps vars).fixed = fixedFrom eps 0 vars := rfl
    rw [e]; simpa using this
  · intro h0
    have hcat : catIdx (simpVars eps vars) = [] := by
      rw [hL.exp] at h0
      have := expansionFrom_fst (simpVars eps vars) (notCatIdx (simpVars eps vars)).length
        (catIdx (simpVars eps vars))
      rw [h0] at this; simpa using this.symm
    have h4 := length_cat_add (simpVars eps vars)
    have h5 : numBin (simpVars eps vars) = 0 := by rw [numBin, hcat]; rfl
    rw [hcat] at h4
    rw [h1, h5, length_nonCats]
    simpa using h4

/-! ## C30 -/

/-- **C30** Feasible points of the user's problem and feasible points of the reformulated problem
correspond one to one: encoding and decoding are inverse to each other and preserve feasibility,
for every mix of real, integer, categorical and fixed variables (with integral bounds on integer
and categorical ones). -/
theorem C30_bijection (hw : WellFormed vars) :
    (∀ x, FeasibleUser eps vars x → FeasibleInternal (construct eps vars) (encodePt eps vars x) ∧
      decodePt (construct eps vars) (encodePt eps vars x) = x) ∧
    (∀ q, FeasibleInternal (construct eps vars) q →
      FeasibleUser eps vars (decodePt (construct eps vars) q) ∧
      encodePt eps vars (decodePt (construct eps vars) q) = q) := by
  have hL := catLayout_layout eps vars
  constructor
  · intro x hx
    have h1 := encode_feasible hw hx
    refine ⟨h1, ?_⟩
    unfold encodePt at h1 ⊢
    rw [construct_eq hw] at h1 ⊢
    have hp := forall₂_simp.mpr (feasible_unfixed hx).1
    rw [decode_fill hw h1, place_expand hL (forall₂_iff_get.mp hp).1
      (catValues_of_feasible hw.simp hp)]
    exact (feasible_unfixed hx).2
  · intro q hq
    rw [construct_eq hw] at hq ⊢
    have hp := place_feasible hw hq
    obtain ⟨h1, h2, h3⟩ := feasibleInternal_iff.mp hq
    rw [decode_fill hw hq]
    refine ⟨feasible_fill (forall₂_simp.mp hp), ?_⟩
    unfold encodePt
    rw [construct_eq hw, unfixedCoords_fill (by rw [length_place hL]; simp [simpVars]),
      expand_place hL (by rw [h1, length_nonCats]) h3]

/-- **C30** The number of internal variables: one per unfixed plain variable plus one per category
value. -/
theorem C30_dimension (hw : WellFormed vars) : (construct eps vars).dim =
    (vars.filter (fun v => !v.isFixed eps && !v.IsCat)).length +
    ((vars.filter (fun v => !v.isFixed eps && v.IsCat)).map Var.numCats).sum := by
  rw [construct_eq hw]
  show (nonCats (simpVars eps vars)).length + numBin (simpVars eps vars) = _
  rw [length_nonCats_simp, numBin_eq]

/-! ## C28 -/

/-- **C28** What the black box is called with: a vector of the declared dimension in which fixed
variables have their fixed value, plain variables the value of their own internal coordinate, and
categorical variables the category whose binary is 1. -/
theorem C28_black_box_coordinates (hw : WellFormed vars) {q : Pt}
    (hq : FeasibleInternal (construct eps vars) q) :
    (decodePt (construct eps vars) q).length = vars.length ∧
    ∀ (i : ℕ) (v : Var), vars[i]? = some v →
      (|v.lower - v.upper| ≤ eps → (decodePt (construct eps vars) q)[i]? = some v.lower) ∧
      (¬ |v.lower - v.upper| ≤ eps → v.IsCat = false →
        plainPos eps vars i < q.length ∧
        (decodePt (construct eps vars) q)[i]? = q[plainPos eps vars i]?) ∧
      (¬ |v.lower - v.upper| ≤ eps → v.IsCat = true → ∃ j < v.numCats,
        q[groupPos eps vars i + j]? = some 1 ∧
        (∀ j' < v.numCats, j' ≠ j → q[groupPos eps vars i + j']? = some 0) ∧
        (decodePt (construct eps vars) q)[i]? = some (v.lower + (j : ℚ))) := by
  have hL := catLayout_layout eps vars
  rw [construct_eq hw] at hq ⊢
  obtain ⟨h1, h2, h3⟩ := feasibleInternal_iff.mp hq
  rw [decode_fill hw hq]
  have hlen : (place (layout eps vars) q).length = (unfixedSpec eps vars).length := by
    rw [length_place hL]; simp [simpVars]
  refine ⟨length_fillFixed hlen, ?_⟩
  intro i v hv
  rw [fillFixed_get hlen hv]
  have hfix : v.isFixed eps = true ↔ |v.lower - v.upper| ≤ eps := by simp [Var.isFixed]
  refine ⟨?_, ?_, ?_⟩
  · intro hf; rw [if_pos (hfix.mpr hf)]
  · intro hf hc
    have hf' : v.isFixed eps = false := by
      rw [Bool.eq_false_iff]; exact fun h => hf (hfix.mp h)
    have hk := notCat_rank hv hf' hc
    rw [hf']
    simp only [Bool.false_eq_true, if_false]
    have hlt := (List.getElem?_eq_some_iff.mp hk).1
    refine ⟨by rw [h1, length_nonCats]; omega, ?_⟩
    exact place_notCat hL (by rw [h1, length_nonCats]; omega) hk
  · intro hf hc
    have hf' : v.isFixed eps = false := by
      rw [Bool.eq_false_iff]; exact fun h => hf (hfix.mp h)
    rw [hf']
    simp only [Bool.false_eq_true, if_false]
    have hmem := cat_rank hv hf' hc
    obtain ⟨j, hj, hh⟩ := h3 _ hmem
    have hp := place_cat hL (q := q) hmem
    dsimp only at hp hh hj
    rw [groupVal, decodeGroup_oneHot 0 hj hh] at hp
    rw [List.length_range'] at hj hh
    simp only [Nat.zero_add, Option.getD_some] at hp
    -- the group lies inside `q`
    have hin : groupPos eps vars i + v.numCats ≤ q.length := by
      rw [h1, length_nonCats_simp, numBin_eq]
      unfold groupPos
      have hsplit : vars = vars.take i ++ v :: vars.drop (i + 1) := by
        obtain ⟨hi, hx⟩ := List.getElem?_eq_some_iff.mp hv
        rw [← hx, List.cons_getElem_drop_succ, List.take_append_drop]
      have : ((vars.filter (fun v => !v.isFixed eps && v.IsCat)).map Var.numCats).sum =
          (((vars.take i).filter (fun v => !v.isFixed eps && v.IsCat)).map Var.numCats).sum +
          (v.numCats + (((vars.drop (i + 1)).filter
            (fun v => !v.isFixed eps && v.IsCat)).map Var.numCats).sum) := by
        conv_lhs => rw [hsplit]
        rw [List.filter_append, List.filter_cons]
        simp [hf', hc]
      omega
    have hget : ∀ m < v.numCats, q[groupPos eps vars i + m]? =
        some (if m = j then 1 else 0) := by
      intro m hm
      have hlt : groupPos eps vars i + m < q.length := by omega
      have := congrArg (fun l => l[m]?) hh
      simp only [List.getElem?_map, List.getElem?_range' , hm,
        List.getElem?_set, List.getElem?_replicate, List.length_replicate] at this
      rw [List.getElem?_eq_getElem hlt]
      by_cases e : m = j
      · subst e
        simp [hm, List.getElem?_eq_getElem hlt] at this
        simp [this]
      · simp [hm, Ne.symm e, List.getElem?_eq_getElem hlt] at this
        simp [this, e]
    refine ⟨j, hj, ?_, ?_, hp⟩
    · rw [hget j hj]; simp
    · intro j' hj' hne; rw [hget j' hj']; simp [hne]

/-! ## C27 -/

/-- The unfixed coordinates of a feasible user point are restored by expanding the categorical
variables and compressing them again. -/
theorem compress_expand_user (hw : WellFormed vars) {x : Pt} (hx : FeasibleUser eps vars x) :
    compressPt (construct eps vars) (expandPt (construct eps vars) (unfixedCoords eps vars x)) =
      unfixedCoords eps vars x := by
  have hL := catLayout_layout eps vars
  rw [construct_eq hw]
  have hp := forall₂_simp.mpr (feasible_unfixed hx).1
  have hc := catValues_of_feasible hw.simp hp
  have hlen := (forall₂_iff_get.mp hp).1
  rw [compressPt_place (fun e he => (expand_oneHot hL hlen hc e he).1), place_expand hL hlen hc]

/-- **C27** Expanding a point (its unfixed coordinates) to the one-hot representation and
compressing it back gives the point; compressing a one-hot point and expanding it gives it back. -/
theorem C27_expand_compress (hw : WellFormed vars) :
    (∀ x, FeasibleUser eps vars x → compressPt (construct eps vars)
      (expandPt (construct eps vars) (unfixedCoords eps vars x)) = unfixedCoords eps vars x) ∧
    (∀ q, FeasibleInternal (construct eps vars) q →
      expandPt (construct eps vars) (compressPt (construct eps vars) q) = q) := by
  refine ⟨fun x hx => compress_expand_user hw hx, ?_⟩
  intro q hq
  have hL := catLayout_layout eps vars
  rw [construct_eq hw] at hq ⊢
  obtain ⟨h1, h2, h3⟩ := feasibleInternal_iff.mp hq
  rw [compressPt_place h3, expand_place hL (by rw [h1, length_nonCats]) h3]

/-- **C27** The bounds of the internal problem are compressed to the declared bounds of the unfixed
variables. -/
theorem C27_bounds (hw : WellFormed vars) :
    compressBounds (construct eps vars) (construct eps vars).lower =
      (vars.filter (fun v => !v.isFixed eps)).map Var.lower ∧
    compressBounds (construct eps vars) (construct eps vars).upper =
      (vars.filter (fun v => !v.isFixed eps)).map Var.upper := by
  rw [construct_eq hw]
  constructor
  · have := compressBounds_layout eps vars hw Var.lower 0 (Or.inl ⟨rfl, rfl⟩)
    refine this.trans ?_
    unfold simpVars unfixedSpec
    rw [List.map_map]
    apply List.map_congr_left
    intro v _; exact simplify_lower v
  · have := compressBounds_layout eps vars hw Var.upper 1 (Or.inr ⟨rfl, rfl⟩)
    refine this.trans ?_
    unfold simpVars unfixedSpec
    rw [List.map_map]
    apply List.map_congr_left
    intro v _; exact simplify_upper v

/-- **C27** The list of internal integer variables is compressed to the increasing list of the
positions of integer and categorical variables among the unfixed ones. -/
theorem C27_integer_vars (hw : WellFormed vars) :
    (compressIntVars (construct eps vars) (construct eps vars).intVars).Pairwise (· < ·) ∧
    ∀ i, i ∈ compressIntVars (construct eps vars) (construct eps vars).intVars ↔
      ∃ v, (vars.filter (fun v => !v.isFixed eps))[i]? = some v ∧ v.type ≠ .R := by
  rw [construct_eq hw, compressIntVars_layout]
  refine ⟨whereFrom_sorted _ _ _, ?_⟩
  intro i
  rw [mem_where]
  unfold simpVars unfixedSpec
  rw [List.getElem?_map]
  constructor
  · rintro ⟨v, hv, hp⟩
    obtain ⟨w, hw1, rfl⟩ := Option.map_eq_some_iff.mp hv
    refine ⟨w, hw1, ?_⟩
    have : w.simplify.type ≠ .R := by simpa using hp
    rwa [Ne, simplify_R] at this
  · rintro ⟨v, hv, hp⟩
    refine ⟨v.simplify, by rw [hv]; rfl, ?_⟩
    have : v.simplify.type ≠ .R := by rwa [Ne, simplify_R]
    simpa using this

/-! ## C29 -/

/-- **C29** (proved part) The point returned by `optimize()` for a recorded internal point lists the
coordinates, on the unfixed variables, of the vector the black box was evaluated at; without fixed
variables it is that vector. -/
theorem C29_returned_point (hw : WellFormed vars) {q : Pt}
    (hq : FeasibleInternal (construct eps vars) q) :
    returnedPt (construct eps vars) q =
      unfixedCoords eps vars (decodePt (construct eps vars) q) ∧
    ((∀ v ∈ vars, ¬ |v.lower - v.upper| ≤ eps) →
      returnedPt (construct eps vars) q = decodePt (construct eps vars) q) := by
  have hL := catLayout_layout eps vars
  rw [construct_eq hw] at hq ⊢
  obtain ⟨h1, h2, h3⟩ := feasibleInternal_iff.mp hq
  have hlen : (place (layout eps vars) q).length = (unfixedSpec eps vars).length := by
    rw [length_place hL]; simp [simpVars]
  have hret : returnedPt (layout eps vars) q = place (layout eps vars) q := by
    unfold returnedPt
    split
    · rename_i h0
      have hcat : catIdx (simpVars eps vars) = [] := by
        rw [hL.exp] at h0
        have := expansionFrom_fst (simpVars eps vars) (notCatIdx (simpVars eps vars)).length
          (catIdx (simpVars eps vars))
        rw [h0] at this; simpa using this.symm
      have h4 := length_cat_add (simpVars eps vars)
      have h5 : numBin (simpVars eps vars) = 0 := by rw [numBin, hcat]; rfl
      rw [hcat] at h4
      refine (place_noCat hL h0 ?_).symm
      rw [h1, h5, length_nonCats]
      simpa using h4
    · exact compressPt_place h3
  have e : returnedPt (layout eps vars) q =
      unfixedCoords eps vars (decodePt (layout eps vars) q) := by
    rw [hret, decode_fill hw hq, unfixedCoords_fill hlen]
  refine ⟨e, ?_⟩
  intro hnf
  have hd := (place_feasible hw hq)
  have hlen2 : (decodePt (layout eps vars) q).length = vars.length := by
    rw [decode_fill hw hq]; exact length_fillFixed hlen
  rw [e]
  unfold unfixedCoords
  rw [List.filter_eq_self.mpr]
  · rw [List.map_snd_zip (by omega)]
  · rintro ⟨v, y⟩ hm
    have := hnf v (List.of_mem_zip hm).1
    simpa [Var.isFixed] using this

/-- **C29** (violation) When some variable is fixed the returned point does not have the dimension
of the problem: the fixed coordinates are missing. -/
theorem C29_violated_with_fixed_variables (hw : WellFormed vars) {q : Pt}
    (hq : FeasibleInternal (construct eps vars) q) {v : Var} (hv : v ∈ vars)
    (hf : |v.lower - v.upper| ≤ eps) :
    (returnedPt (construct eps vars) q).length < vars.length := by
  have h := (C28_black_box_coordinates hw hq).1
  rw [(C29_returned_point hw hq).1]
  unfold unfixedCoords
  rw [List.length_map]
  have hz : (vars.zip (decodePt (construct eps vars) q)).length = vars.length := by
    rw [List.length_zip, h, min_self]
  rw [← hz]
  obtain ⟨i, hi⟩ := List.getElem?_of_mem hv
  have hlt := (List.getElem?_eq_some_iff.mp hi).1
  apply List.length_filter_lt_length_iff_exists.mpr
  refine ⟨(v, (decodePt (construct eps vars) q)[i]'(by omega)), ?_, ?_⟩
  · refine List.mem_of_getElem? (i := i) ?_
    rw [List.getElem?_zip_eq_some]
    exact ⟨hi, List.getElem?_eq_getElem _⟩
  · simp [Var.isFixed, hf]

/-! ## C32 -/

theorem intVars_length (eps : ℚ) (vars : List Var) :
    (layout eps vars).intVars.length < (layout eps vars).dim ↔
      ∃ v ∈ unfixedSpec eps vars, v.type = .R := by
  have e1 : (layout eps vars).intVars.length =
      (nonCats (simpVars eps vars)).countP (fun v => decide (v.type = .I)) +
        numBin (simpVars eps vars) := by
    show List.length (_ ++ _) = _
    rw [List.length_append, List.length_range', length_whereFrom]
  have e2 : (layout eps vars).dim =
    (nonCats (simpVars eps vars)).length + numBin (simpVars eps vars) := rfl
  rw [e1, e2, Nat.add_lt_add_iff_right]
  constructor
  · intro h
    by_contra hn
    push Not at hn
    have : (nonCats (simpVars eps vars)).countP (fun v => decide (v.type = .I)) =
        (nonCats (simpVars eps vars)).length := by
      rw [List.countP_eq_length]
      intro v hv
      obtain ⟨hv1, hv2⟩ := List.mem_filter.mp hv
      obtain ⟨w, hw, rfl⟩ := List.mem_map.mp hv1
      have h3 := hn w hw
      have h4 : w.simplify.type ≠ .R := by rwa [Ne, simplify_R]
      cases ht : w.simplify.type <;> simp_all
    omega
  · rintro ⟨v, hv, hR⟩
    have hle := List.countP_le_length (p := fun v : Var => decide (v.type = VType.I))
      (l := nonCats (simpVars eps vars))
    refine lt_of_le_of_ne hle ?_
    intro h
    rw [List.countP_eq_length] at h
    have hs : v.simplify.type = .R := (simplify_R v).mpr hR
    have := h v.simplify (by
      rw [nonCats, List.mem_filter]
      exact ⟨List.mem_map_of_mem hv, by simp [hs]⟩)
    simp [hs] at this

/-- **C32** The search space is declared infinite exactly when some unfixed variable is real, and
then (for a nonnegative zero tolerance) there are infinitely many feasible points. -/
theorem C32_infinite (hw : WellFormed vars) (heps : 0 ≤ eps) :
    (searchSpaceSize (construct eps vars) = ⊤ ↔
      ∃ v ∈ vars, ¬ |v.lower - v.upper| ≤ eps ∧ v.type = .R) ∧
    (searchSpaceSize (construct eps vars) = ⊤ → Infinite {x : Pt // FeasibleUser eps vars x}) := by
  have key : searchSpaceSize (construct eps vars) = ⊤ ↔
      ∃ v ∈ vars, ¬ |v.lower - v.upper| ≤ eps ∧ v.type = .R := by
    rw [construct_eq hw]
    unfold searchSpaceSize
    have h := intVars_length eps vars
    have h' : (∃ v ∈ unfixedSpec eps vars, v.type = .R) ↔
        ∃ v ∈ vars, ¬ |v.lower - v.upper| ≤ eps ∧ v.type = .R := by
      unfold unfixedSpec
      constructor
      · rintro ⟨v, hv, ht⟩
        obtain ⟨h1, h2⟩ := List.mem_filter.mp hv
        exact ⟨v, h1, by simpa [Var.isFixed] using h2, ht⟩
      · rintro ⟨v, hv, h1, ht⟩
        exact ⟨v, List.mem_filter.mpr ⟨hv, by simpa [Var.isFixed] using h1⟩, ht⟩
    rw [h'] at h
    split
    · rename_i hlt; exact ⟨fun _ => h.mp hlt, fun _ => rfl⟩
    · rename_i hlt
      constructor
      · intro h0; exact absurd h0 (by simp)
      · intro h0; exact absurd (h.mpr h0) hlt
  refine ⟨key, ?_⟩
  intro h
  obtain ⟨v, hv, hf, hR⟩ := key.mp h
  clear key h
  induction vars with
  | nil => simp at hv
  | cons w vars ih =>
    rw [(userPointsCons eps w vars).infinite_iff]
    have hlow : ∀ w' ∈ w :: vars, w'.Feasible eps w'.lower := by
      intro w' hw'
      unfold Var.Feasible
      split
      · rfl
      · exact ⟨le_rfl, (hw w' hw').1, fun ht => ((hw w' hw').2 ht).1⟩
    have hne : Nonempty (VarValues eps w) := ⟨⟨w.lower, hlow w (by simp)⟩⟩
    have hne2 : Nonempty (UserPoints eps vars) := by
      refine ⟨⟨vars.map Var.lower, ?_⟩⟩
      unfold FeasibleUser
      rw [List.forall₂_map_right_iff, List.forall₂_same]
      exact fun w' hw' => hlow w' (by simp [hw'])
    rcases List.mem_cons.mp hv with rfl | hv
    · have hlt : v.lower < v.upper := by
        refine lt_of_le_of_ne (hw v (by simp)).1 ?_
        intro he; apply hf; rw [he]; simpa using heps
      have hinf : Infinite (VarValues eps v) := by
        have := (Set.Icc_infinite hlt).to_subtype
        refine Infinite.of_injective
          (fun x : Set.Icc v.lower v.upper => (⟨x.1, ?_⟩ : VarValues eps v)) ?_
        · have := x.2
          simp only [Var.Feasible, hf, if_false]
          exact ⟨this.1, this.2, fun h => absurd hR h⟩
        · intro x y hxy
          exact Subtype.ext (by simpa using hxy)
      exact Prod.infinite_of_left
    · have := ih (fun w' hw' => hw w' (by simp [hw'])) hv
      exact Prod.infinite_of_right

theorem zipWith_prod (vs : List Var) (n : ℕ) :
    (List.zipWith (fun u l : ℚ => u - l + 1) (vs.map Var.upper ++ List.replicate n 1)
      (vs.map Var.lower ++ List.replicate n 0)).prod =
      (vs.map (fun v => v.upper - v.lower + 1)).prod * 2 ^ n := by
  rw [List.zipWith_append (by simp), List.prod_append]
  congr 1
  · rw [List.zipWith_map, List.zipWith_self]
  · rw [List.zipWith_replicate]; simp; norm_num

theorem size_layout {eps : ℚ} {vars : List Var} (hr : ∀ v ∈ unfixedSpec eps vars, v.type ≠ .R) :
    searchSpaceSize (layout eps vars) =
      ((((nonCats (simpVars eps vars)).map (fun v => v.upper - v.lower + 1)).prod *
        2 ^ numBin (simpVars eps vars) : ℚ) : EVal) := by
  unfold searchSpaceSize
  rw [if_neg]
  · rw [← zipWith_prod]; rfl
  · intro h
    obtain ⟨v, hv, ht⟩ := (intVars_length eps vars).mp h
    exact hr v hv ht

theorem list_prod_pos {l : List ℚ} (h : ∀ x ∈ l, 0 < x) : 0 < l.prod := by
  induction l with
  | nil => simp
  | cons a l ih =>
    rw [List.prod_cons]
    exact mul_pos (h a (by simp)) (ih (fun x hx => h x (by simp [hx])))

theorem prod_split (vs : List Var) (f : Var → ℚ) :
    (vs.map f).prod = ((vs.filter (fun v => decide (v.type ≠ .C))).map f).prod *
      ((vs.filter (fun v => decide (v.type = .C))).map f).prod := by
  induction vs with
  | nil => simp
  | cons v vs ih =>
    by_cases h : v.type = .C
    · simp [h, ih]; ring
    · simp [h, ih]; ring

/-- **C32** For a problem whose unfixed variables are all integer or binary, the size of the search
space at which the run stops is exactly the number of feasible points; if some unfixed variables are
categorical with another number of values, it is strictly larger, so the run cannot stop for
exhaustion before every feasible point could have been evaluated. -/
theorem C32_count (hw : WellFormed vars)
    (hr : ∀ v ∈ vars, ¬ |v.lower - v.upper| ≤ eps → v.type ≠ .R) :
    ((∀ v ∈ vars, ¬ |v.lower - v.upper| ≤ eps → v.type = .C → v.upper - v.lower = 1) →
      searchSpaceSize (construct eps vars) =
        ((Nat.card {x : Pt // FeasibleUser eps vars x} : ℚ) : EVal)) ∧
    ((∃ v ∈ vars, ¬ |v.lower - v.upper| ≤ eps ∧ v.type = .C ∧ v.upper - v.lower ≠ 1) →
      ((Nat.card {x : Pt // FeasibleUser eps vars x} : ℚ) : EVal) <
        searchSpaceSize (construct eps vars)) := by
  have hr' : ∀ v ∈ unfixedSpec eps vars, v.type ≠ .R := by
    intro v hv
    obtain ⟨h1, h2⟩ := List.mem_filter.mp hv
    exact hr v h1 (by simpa [Var.isFixed] using h2)
  have hcard := card_userPoints hw hr'
  have hsp : ((unfixedSpec eps vars).map (fun v => v.upper - v.lower + 1)).prod =
      ((simpVars eps vars).map (fun v => v.upper - v.lower + 1)).prod := by
    unfold simpVars
    rw [List.map_map]
    congr 1
    apply List.map_congr_left
    intro v _
    simp [simplify_lower, simplify_upper]
  rw [hsp, prod_split] at hcard
  have hws := hw.simp (eps := eps)
  rw [construct_eq hw, size_layout hr', hcard]
  have hlt : ∀ l : List Var, (∀ v ∈ l, v ∈ simpVars eps vars ∧ v.type = .C) →
      0 ≤ (l.map (fun v => v.upper - v.lower + 1)).prod ∧
      (l.map (fun v => v.upper - v.lower + 1)).prod ≤ 2 ^ ((l.map Var.numCats).sum) ∧
      (l ≠ [] → (l.map (fun v => v.upper - v.lower + 1)).prod < 2 ^ ((l.map Var.numCats).sum)) := by
    intro l
    induction l with
    | nil => intro _; simp
    | cons v l ih =>
      intro hl
      obtain ⟨i1, i2, -⟩ := ih (fun w hw => hl w (by simp [hw]))
      obtain ⟨hv1, hvC⟩ := hl v (by simp)
      have hwv := hws v hv1
      have hne : v.type ≠ .R := by rw [hvC]; simp
      have hc := cat_value_iff hwv.1 (hwv.2 hne).1 (hwv.2 hne).2
      have hnum : v.upper - v.lower + 1 = (v.numCats : ℚ) := by
        obtain ⟨⟨za, hza⟩, ⟨zb, hzb⟩⟩ := hwv.2 hne
        have hle : za ≤ zb := by have := hwv.1; rw [hza, hzb] at this; exact_mod_cast this
        unfold Var.numCats
        rw [hza, hzb]
        have : ((zb : ℚ) - za + 1) = ((zb - za + 1 : ℤ) : ℚ) := by push_cast; ring
        rw [this, Int.floor_intCast]
        have h2 : (((zb - za + 1).toNat : ℕ) : ℚ) = (((zb - za + 1).toNat : ℤ) : ℚ) := by
          push_cast; rfl
        rw [h2, Int.toNat_of_nonneg (by omega)]
      have h2 : (v.numCats : ℚ) < 2 ^ v.numCats := by exact_mod_cast Nat.lt_two_pow_self
      have h0 : (0 : ℚ) ≤ v.numCats := by positivity
      simp only [List.map_cons, List.prod_cons, List.sum_cons, pow_add, hnum]
      have hp : (0 : ℚ) < 2 ^ ((l.map Var.numCats).sum) := by positivity
      have hstrict : (v.numCats : ℚ) * (l.map (fun v => v.upper - v.lower + 1)).prod <
          2 ^ v.numCats * 2 ^ ((l.map Var.numCats).sum) :=
        lt_of_le_of_lt (mul_le_mul_of_nonneg_left i2 h0) (mul_lt_mul_of_pos_right h2 hp)
      exact ⟨mul_nonneg h0 i1, hstrict.le, fun _ => hstrict⟩
  have hbin : numBin (simpVars eps vars) =
      (((simpVars eps vars).filter (fun v => decide (v.type = .C))).map Var.numCats).sum := by
    unfold numBin; rw [sum_numCats]
  obtain ⟨-, -, hs⟩ := hlt ((simpVars eps vars).filter (fun v => decide (v.type = .C)))
    (fun v hv => ⟨(List.mem_filter.mp hv).1, by simpa using (List.mem_filter.mp hv).2⟩)
  rw [hbin]
  constructor
  · intro hbinary
    have hnil : (simpVars eps vars).filter (fun v => decide (v.type = .C)) = [] := by
      rw [List.filter_eq_nil_iff]
      intro v hv
      obtain ⟨w, hw1, rfl⟩ := List.mem_map.mp hv
      obtain ⟨h1, h2⟩ := List.mem_filter.mp hw1
      rw [simplify_isC]
      have := hbinary w h1 (by simpa [Var.isFixed] using h2)
      simp only [Var.IsCat, decide_eq_true_eq, not_and, not_not, ne_eq]
      exact this
    rw [hnil]
    simp [nonCats]
  · rintro ⟨v, hv, hf, hC, hb⟩
    have hmem : v.simplify ∈ (simpVars eps vars).filter (fun v => decide (v.type = .C)) := by
      rw [List.mem_filter]
      refine ⟨List.mem_map_of_mem (List.mem_filter.mpr ⟨hv, by simpa [Var.isFixed] using hf⟩), ?_⟩
      rw [simplify_isC]; simp [Var.IsCat, hC, hb]
    have hs' := hs (List.ne_nil_of_mem hmem)
    have hpos : 0 < ((nonCats (simpVars eps vars)).map (fun v => v.upper - v.lower + 1)).prod := by
      apply list_prod_pos
      intro y hy
      obtain ⟨w, hw1, rfl⟩ := List.mem_map.mp hy
      have := (hws w (List.mem_filter.mp hw1).1).1
      linarith
    have := mul_lt_mul_of_pos_left hs' hpos
    exact_mod_cast this

/-! ## C33 -/

/-- **C33** `round_integer_bounds` keeps the lengths, leaves bounds of other variables alone, makes
the bounds of integer variables integral, moving them outwards by less than one, and not at all when
they are integral already. -/
theorem C33_round_bounds (l u : List ℚ) (ints : List ℕ) :
    (roundLower l ints).length = l.length ∧ (roundUpper u ints).length = u.length ∧
    (∀ (i : ℕ) (x : ℚ), l[i]? = some x → ∃ y, (roundLower l ints)[i]? = some y ∧
      (i ∉ ints → y = x) ∧ (i ∈ ints → IsInt y ∧ y ≤ x ∧ x < y + 1 ∧ (IsInt x → y = x))) ∧
    (∀ (i : ℕ) (x : ℚ), u[i]? = some x → ∃ y, (roundUpper u ints)[i]? = some y ∧
      (i ∉ ints → y = x) ∧ (i ∈ ints → IsInt y ∧ x ≤ y ∧ y < x + 1 ∧ (IsInt x → y = x))) := by
  refine ⟨by simp [roundLower], by simp [roundUpper], ?_, ?_⟩
  · intro i x hx
    refine ⟨if i ∈ ints then (⌊x⌋ : ℚ) else x, by simp [roundLower, hx], ?_, ?_⟩
    · intro h; rw [if_neg h]
    · intro h
      rw [if_pos h]
      refine ⟨⟨_, rfl⟩, Int.floor_le x, Int.lt_floor_add_one x, ?_⟩
      rintro ⟨z, rfl⟩; simp
  · intro i x hx
    refine ⟨if i ∈ ints then (⌈x⌉ : ℚ) else x, by simp [roundUpper, hx], ?_, ?_⟩
    · intro h; rw [if_neg h]
    · intro h
      rw [if_pos h]
      refine ⟨⟨_, rfl⟩, Int.le_ceil x, Int.ceil_lt_add_one x, ?_⟩
      rintro ⟨z, rfl⟩; simp

/-- **C33** (violation of the documented rounding) For every fractional bound of an integer
variable, rounding makes an integer outside the declared interval feasible. -/
theorem C33_rounding_enlarges {l u : List ℚ} {ints : List ℕ} {i : ℕ} {x : ℚ} (hi : i ∈ ints) :
    (l[i]? = some x → ¬ IsInt x → ∃ z : ℤ, (z : ℚ) < x ∧ (roundLower l ints)[i]? = some (z : ℚ)) ∧
    (u[i]? = some x → ¬ IsInt x → ∃ z : ℤ, x < (z : ℚ) ∧ (roundUpper u ints)[i]? = some (z : ℚ)) := by
  constructor
  · intro hx hn
    refine ⟨⌊x⌋, ?_, by simp [roundLower, hx, hi]⟩
    exact lt_of_le_of_ne (Int.floor_le x) (fun h => hn ⟨_, h.symm⟩)
  · intro hx hn
    refine ⟨⌈x⌉, ?_, by simp [roundUpper, hx, hi]⟩
    exact lt_of_le_of_ne (Int.le_ceil x) (fun h => hn ⟨_, h⟩)

end Rbfopt
