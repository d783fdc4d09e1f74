import Verif.Lemmas.ProblemBij

/-! # Positions of the variables in the internal problem -/

namespace Rbfopt

theorem whereFrom_append {α : Type} (p : α → Bool) (k : ℕ) (a b : List α) :
    whereFrom p k (a ++ b) = whereFrom p k a ++ whereFrom p (k + a.length) b := by
  induction a generalizing k with
  | nil => simp [whereFrom]
  | cons x xs ih =>
    have e : k + (x :: xs).length = k + 1 + xs.length := by simp; omega
    simp only [List.cons_append, whereFrom, ih, e]
    split <;> simp

theorem where_get_rank {α : Type} {p : α → Bool} {l : List α} {i : ℕ} {x : α} (h : l[i]? = some x)
    (hp : p x = true) :
    (whereFrom p 0 l)[(l.take i).countP p]? = some i ∧
    (whereFrom p 0 l).take ((l.take i).countP p) = whereFrom p 0 (l.take i) := by
  obtain ⟨hi, hx⟩ := List.getElem?_eq_some_iff.mp h
  have hs : l = l.take i ++ x :: l.drop (i + 1) := by
    rw [← hx, List.cons_getElem_drop_succ, List.take_append_drop]
  have hl : (l.take i).length = i := by rw [List.length_take]; omega
  have hw : whereFrom p 0 l = whereFrom p 0 (l.take i) ++
      (i :: whereFrom p (i + 1) (l.drop (i + 1))) := by
    conv_lhs => rw [hs]
    rw [whereFrom_append, hl]
    simp [whereFrom, hp]
  have hc : (whereFrom p 0 (l.take i)).length = (l.take i).countP p := length_whereFrom ..
  rw [hw, ← hc]
  constructor
  · rw [List.getElem?_append_right le_rfl]; simp
  · rw [List.take_left]

theorem filter_take_rank {α : Type} (p : α → Bool) (l : List α) (i : ℕ) :
    (l.filter p).take ((l.take i).countP p) = (l.take i).filter p := by
  conv_lhs => rw [← List.take_append_drop i l]
  rw [List.filter_append, List.countP_eq_length_filter]
  rw [show (l.take i ++ l.drop i).take i = l.take i by rw [List.take_append_drop]]
  exact List.take_left

theorem filter_get_rank {α : Type} {p : α → Bool} {l : List α} {i : ℕ} {x : α} (h : l[i]? = some x)
    (hp : p x = true) : (l.filter p)[(l.take i).countP p]? = some x := by
  obtain ⟨h1, -⟩ := where_get_rank h hp
  rw [← gather_where x p l, getElem?_gather h1 (List.getElem?_eq_some_iff.mp h).1, h]

theorem fillFixed_get {eps : ℚ} {vars : List Var} {p : Pt}
    (hp : p.length = (unfixedSpec eps vars).length) {i : ℕ} {v : Var} (hv : vars[i]? = some v) :
    (fillFixed eps vars p)[i]? = if v.isFixed eps then some v.lower
      else p[(vars.take i).countP (fun v => !v.isFixed eps)]? := by
  induction vars generalizing p i with
  | nil => simp at hv
  | cons w vars ih =>
    simp only [fillFixed, unfixedSpec, List.filter_cons] at hp ⊢
    by_cases hw : w.isFixed eps = true
    · simp only [hw, if_true] at hp ⊢
      cases i with
      | zero => simp at hv; subst hv; simp [hw]
      | succ i =>
        simp only [List.getElem?_cons_succ] at hv ⊢
        rw [ih (by simpa [unfixedSpec] using hp) hv]
        simp [hw]
    · have hw' : w.isFixed eps = false := by simpa using hw
      simp only [hw', Bool.not_false, if_true, List.length_cons, Bool.false_eq_true,
        if_false] at hp ⊢
      cases p with
      | nil => simp at hp
      | cons y ys =>
        cases i with
        | zero => simp at hv; subst hv; simp [hw']
        | succ i =>
          simp only [List.getElem?_cons_succ] at hv ⊢
          rw [ih (by simpa [unfixedSpec] using hp) hv]
          simp [hw', List.countP_cons]

theorem expansionFrom_get {vs : List Var} {cur k i : ℕ} {is : List ℕ} (h : is[k]? = some i) :
    (expansionFrom vs cur is)[k]? = some (i, (vs.getD i default).lower,
      List.range' (cur + ((is.take k).map (fun i => (vs.getD i default).numCats)).sum)
        (vs.getD i default).numCats) := by
  induction is generalizing cur k with
  | nil => simp at h
  | cons j is ih =>
    cases k with
    | zero => simp at h; subst h; simp [expansionFrom]
    | succ k =>
      simp only [List.getElem?_cons_succ] at h
      simp only [expansionFrom, List.getElem?_cons_succ]
      rw [ih h, List.take_succ_cons, List.map_cons, List.sum_cons, Nat.add_assoc]

theorem numCats_simplify (v : Var) : v.simplify.numCats = v.numCats := by
  unfold Var.numCats; rw [simplify_lower, simplify_upper]

theorem simplify_isC (v : Var) : decide (v.simplify.type = .C) = v.IsCat := by
  unfold Var.simplify Var.IsCat
  split
  · rename_i h; simp [h.1, h.2]
  · rename_i h
    by_cases hc : v.type = .C
    · have : ¬ v.upper - v.lower = 1 := fun h' => h ⟨hc, h'⟩
      simp [hc, this]
    · simp [hc]

theorem simplify_notC (v : Var) : decide (v.simplify.type ≠ .C) = !v.IsCat := by
  rw [← simplify_isC]; simp

theorem filter_map_simplify (q : Var → Bool) (l : List Var) :
    (l.map Var.simplify).filter q = (l.filter (fun v => q v.simplify)).map Var.simplify := by
  rw [List.filter_map]; rfl

theorem length_nonCats_simp (eps : ℚ) (vars : List Var) :
    (nonCats (simpVars eps vars)).length =
      (vars.filter (fun v => !v.isFixed eps && !v.IsCat)).length := by
  unfold nonCats simpVars unfixedSpec
  rw [filter_map_simplify, List.length_map, List.filter_filter]
  congr 2
  funext v
  rw [simplify_notC, Bool.and_comm]

theorem sum_numCats {vs : List Var} :
    ((catIdx vs).map (fun i => (vs.getD i default).numCats)) =
      (vs.filter (fun v => decide (v.type = .C))).map Var.numCats := by
  rw [← gather_where default _ vs]
  unfold gather catIdx
  rw [List.map_map]
  rfl

theorem numBin_eq (eps : ℚ) (vars : List Var) :
    numBin (simpVars eps vars) =
      ((vars.filter (fun v => !v.isFixed eps && v.IsCat)).map Var.numCats).sum := by
  unfold numBin
  rw [sum_numCats]
  unfold simpVars unfixedSpec
  rw [filter_map_simplify, List.filter_filter, List.map_map]
  congr 2
  · funext v; simp [numCats_simplify]
  · congr 1; funext v; rw [simplify_isC, Bool.and_comm]

/-- The position of an unfixed variable among the unfixed ones, and its rank among those of its
kind. -/
theorem simpVars_rank {eps : ℚ} {vars : List Var} {i : ℕ} {v : Var} (hv : vars[i]? = some v)
    (hf : v.isFixed eps = false) :
    (simpVars eps vars)[(vars.take i).countP (fun v => !v.isFixed eps)]? = some v.simplify ∧
    (simpVars eps vars).take ((vars.take i).countP (fun v => !v.isFixed eps)) =
      simpVars eps (vars.take i) := by
  unfold simpVars unfixedSpec
  constructor
  · rw [List.getElem?_map, filter_get_rank hv (by simp [hf])]; rfl
  · rw [← List.map_take, filter_take_rank]

theorem notCat_rank {eps : ℚ} {vars : List Var} {i : ℕ} {v : Var} (hv : vars[i]? = some v)
    (hf : v.isFixed eps = false) (hc : v.IsCat = false) :
    (notCatIdx (simpVars eps vars))[plainPos eps vars i]? =
      some ((vars.take i).countP (fun v => !v.isFixed eps)) := by
  obtain ⟨h1, h2⟩ := simpVars_rank hv hf
  obtain ⟨h3, -⟩ := where_get_rank (p := fun v : Var => decide (v.type ≠ VType.C)) h1
    (by rw [simplify_notC, hc]; rfl)
  rw [h2] at h3
  have : List.countP (fun v => decide (v.type ≠ VType.C)) (simpVars eps (vars.take i)) =
      plainPos eps vars i := by
    rw [List.countP_eq_length_filter]
    exact length_nonCats_simp eps (vars.take i)
  rw [this] at h3
  exact h3

theorem cat_rank {eps : ℚ} {vars : List Var} {i : ℕ} {v : Var} (hv : vars[i]? = some v)
    (hf : v.isFixed eps = false) (hc : v.IsCat = true) :
    ((vars.take i).countP (fun v => !v.isFixed eps), v.lower,
      List.range' (groupPos eps vars i) v.numCats) ∈ (layout eps vars).expansion := by
  obtain ⟨h1, h2⟩ := simpVars_rank hv hf
  obtain ⟨h3, h4⟩ := where_get_rank (p := fun v : Var => decide (v.type = VType.C)) h1
    (by rw [simplify_isC, hc])
  rw [h2] at h3 h4
  have h5 := expansionFrom_get (vs := simpVars eps vars)
    (cur := (notCatIdx (simpVars eps vars)).length) h3
  rw [h4] at h5
  have h6 := List.mem_of_getElem? h5
  rw [getD_of h1, simplify_lower, numCats_simplify, ← length_nonCats, length_nonCats_simp] at h6
  have h7 : (List.map (fun i => ((simpVars eps vars).getD i default).numCats)
      (whereFrom (fun v => decide (v.type = .C)) 0 (simpVars eps (vars.take i)))).sum =
      (((vars.take i).filter (fun v => !v.isFixed eps && v.IsCat)).map Var.numCats).sum := by
    have h8 := numBin_eq eps (vars.take i)
    unfold numBin at h8
    rw [← h8]
    congr 1
    apply List.map_congr_left
    intro k hk
    have hk' := where_lt hk
    rw [← h2] at hk' ⊢
    rw [List.length_take] at hk'
    rw [List.getD_eq_getElem?_getD, List.getD_eq_getElem?_getD, List.getElem?_take,
      if_pos (by omega)]
  rw [h7] at h6
  have h9 := (catLayout_layout eps vars).exp
  rw [h9, ← length_nonCats, length_nonCats_simp]
  exact h6

end Rbfopt
