import Verif.Lemmas.ProblemPos
import Mathlib.Algebra.BigOperators.Group.List.Basic
import Mathlib.SetTheory.Cardinal.Finite
import Mathlib.Data.Int.Interval
import Mathlib.Data.Rat.Encodable

/-! # Integer variables and bounds after compression; number of feasible points -/

namespace Rbfopt

variable {α : Type}

theorem whereFrom_shift (p : α → Bool) (k : ℕ) (l : List α) :
    (whereFrom p k l).map (· + 1) = whereFrom p (k + 1) l := by
  induction l generalizing k with
  | nil => rfl
  | cons x xs ih =>
    simp only [whereFrom]
    split
    · rw [List.map_cons, ih]
    · exact ih _

theorem whereFrom_lt {p : α → Bool} {k i : ℕ} {l : List α} (h : i ∈ whereFrom p k l) :
    i < k + l.length := by
  induction l generalizing k with
  | nil => simp [whereFrom] at h
  | cons x xs ih =>
    simp only [whereFrom] at h
    have e : k + (x :: xs).length = k + 1 + xs.length := by simp; omega
    rw [e]
    split at h
    · rcases List.mem_cons.mp h with rfl | h
      · omega
      · exact ih h
    · exact ih h

/-- Inserting a variable in the list of variables inserts its index in the list of indices of
integer variables. -/
theorem insertIntVar_where {p : α → Bool} (a b : List α) {v : α} (hv : p v = true) :
    insertIntVar (whereFrom p 0 (a ++ b)) a.length = whereFrom p 0 (a ++ v :: b) := by
  rw [whereFrom_append, whereFrom_append]
  have e : whereFrom p (0 + a.length) (v :: b) = a.length :: whereFrom p (a.length + 1) b := by
    simp [whereFrom, hv]
  rw [e]
  have hA : ∀ i ∈ whereFrom p 0 a, i < a.length := fun i hi => where_lt hi
  have hB : ∀ i ∈ whereFrom p (a.length + 1) b, a.length < i := fun i hi => by
    have := whereFrom_ge hi; omega
  have hsh : (whereFrom p 0 a ++ whereFrom p (0 + a.length) b).map
      (fun i => if i ≥ a.length then i + 1 else i) =
      whereFrom p 0 a ++ whereFrom p (a.length + 1) b := by
    rw [List.map_append]
    congr 1
    · conv_rhs => rw [← List.map_id (whereFrom p 0 a)]
      apply List.map_congr_left
      intro i hi
      have := hA i hi
      rw [if_neg (by omega)]; rfl
    · rw [← whereFrom_shift, Nat.zero_add]
      apply List.map_congr_left
      intro i hi
      have := whereFrom_ge hi
      rw [if_pos (by omega)]
  unfold insertIntVar
  dsimp only
  rw [hsh]
  generalize whereFrom p 0 a = A at *
  generalize whereFrom p (a.length + 1) b = B at *
  clear hsh e
  rcases List.eq_nil_or_concat B with rfl | ⟨B', l, rfl⟩
  · rw [List.append_nil]
    cases hl : A.getLast? with
    | none => rfl
    | some l =>
      have := hA l (List.mem_of_getLast? hl)
      dsimp only
      rw [if_pos (by omega)]
  · have hlB := hB l (by simp)
    rw [List.concat_eq_append, ← List.append_assoc, List.getLast?_append]
    simp only [List.getLast?_singleton, Option.some_or]
    rw [if_neg (by omega)]
    have hidx : (A ++ B' ++ [l]).findIdx (fun i => decide (i > a.length)) = A.length := by
      rw [List.append_assoc, List.findIdx_append]
      have h1 : A.findIdx (fun i => decide (i > a.length)) = A.length := by
        rw [List.findIdx_eq_length]
        intro x hx
        have := hA x hx
        simp; omega
      have h2 : (B' ++ [l]).findIdx (fun i => decide (i > a.length)) = 0 := by
        cases B' with
        | nil => simp [List.findIdx_cons, hlB]
        | cons x xs =>
          have := hB x (by simp)
          simp [List.findIdx_cons, this]
      rw [h1, h2]; simp
    rw [hidx]
    unfold pyInsert
    rw [List.append_assoc, List.take_left, List.drop_left]

theorem compressIntVars_aux (vs pre rest : List Var) (hvs : vs = pre ++ rest) (cur : ℕ) :
    (expansionFrom vs cur (whereFrom (fun v => decide (v.type = .C)) pre.length rest)).foldl
      (fun acc e => insertIntVar acc e.1)
      (whereFrom (fun v => decide (v.type ≠ .R)) 0
        (pre ++ rest.filter (fun v => decide (v.type ≠ .C)))) =
    whereFrom (fun v => decide (v.type ≠ .R)) 0 vs := by
  induction rest generalizing pre cur with
  | nil => simp [whereFrom, expansionFrom, hvs]
  | cons v rest ih =>
    have hvs' : vs = (pre ++ [v]) ++ rest := by simp [hvs]
    have hlen : (pre ++ [v]).length = pre.length + 1 := by simp
    by_cases hc : v.type = .C
    · have e1 : whereFrom (fun v => decide (v.type = VType.C)) pre.length (v :: rest) =
          pre.length :: whereFrom (fun v => decide (v.type = VType.C)) (pre.length + 1) rest := by
        simp [whereFrom, hc]
      have e2 : (v :: rest).filter (fun v => decide (v.type ≠ VType.C)) =
          rest.filter (fun v => decide (v.type ≠ VType.C)) := by simp [hc]
      rw [e1, e2]
      simp only [expansionFrom, List.foldl_cons]
      rw [insertIntVar_where pre _ (v := v) (by simp [hc])]
      have := ih (pre ++ [v]) hvs' (cur + (vs.getD pre.length default).numCats)
      rw [hlen] at this
      simpa using this
    · have e1 : whereFrom (fun v => decide (v.type = VType.C)) pre.length (v :: rest) =
          whereFrom (fun v => decide (v.type = VType.C)) (pre.length + 1) rest := by
        simp [whereFrom, hc]
      have e2 : (v :: rest).filter (fun v => decide (v.type ≠ VType.C)) =
          v :: rest.filter (fun v => decide (v.type ≠ VType.C)) := by simp [hc]
      rw [e1, e2]
      have := ih (pre ++ [v]) hvs' cur
      rw [hlen] at this
      simpa using this

theorem filter_lt_intVars (vs : List Var) (n : ℕ) :
    (whereFrom (fun v => decide (v.type = .I)) 0 (nonCats vs) ++
      List.range' (nonCats vs).length n).filter (fun i => decide (i < (notCatIdx vs).length)) =
    whereFrom (fun v => decide (v.type ≠ .R)) 0 (nonCats vs) := by
  rw [← length_nonCats, List.filter_append]
  have h1 : (List.range' (nonCats vs).length n).filter
      (fun i => decide (i < (nonCats vs).length)) = [] := by
    rw [List.filter_eq_nil_iff]
    intro i hi
    have := (List.mem_range'_1.mp hi).1
    simp; omega
  have h2 : (whereFrom (fun v => decide (v.type = .I)) 0 (nonCats vs)).filter
      (fun i => decide (i < (nonCats vs).length)) =
      whereFrom (fun v => decide (v.type = .I)) 0 (nonCats vs) := by
    rw [List.filter_eq_self]
    intro i hi
    have := where_lt hi
    simpa using this
  rw [h1, h2, List.append_nil]
  apply whereFrom_congr
  intro v hv
  have hnc : v.type ≠ .C := by simpa [nonCats] using (List.mem_filter.mp hv).2
  cases ht : v.type <;> simp_all

theorem compressIntVars_layout (eps : ℚ) (vars : List Var) :
    compressIntVars (layout eps vars) (layout eps vars).intVars =
      whereFrom (fun v => decide (v.type ≠ .R)) 0 (simpVars eps vars) := by
  unfold compressIntVars
  have hL := catLayout_layout eps vars
  have e : (layout eps vars).intVars =
      whereFrom (fun v => decide (v.type = .I)) 0 (nonCats (simpVars eps vars)) ++
      List.range' (nonCats (simpVars eps vars)).length (numBin (simpVars eps vars)) := rfl
  rw [hL.notCat, hL.exp, e, filter_lt_intVars]
  exact compressIntVars_aux (simpVars eps vars) [] _ rfl _

/-! ## Bounds -/

theorem compressBounds_layout (eps : ℚ) (vars : List Var) (hw : WellFormed vars)
    (f : Var → ℚ) (b : ℚ)
    (hfb : (b = 0 ∧ f = Var.lower) ∨ (b = 1 ∧ f = Var.upper)) :
    compressBounds (layout eps vars)
      ((nonCats (simpVars eps vars)).map f ++ List.replicate (numBin (simpVars eps vars)) b) =
      (simpVars eps vars).map f := by
  generalize hq : (nonCats (simpVars eps vars)).map f ++
    List.replicate (numBin (simpVars eps vars)) b = q
  have hL := catLayout_layout eps vars
  have hws := hw.simp (eps := eps)
  generalize hvs : simpVars eps vars = vs at *
  generalize hI : layout eps vars = I at *
  have hqlen : q.length = (notCatIdx vs).length + numBin vs := by
    rw [← hq]; simp [length_nonCats]
  have hnd : (I.expansion.map Prod.fst).Nodup := by
    rw [hL.exp, expansionFrom_fst]; exact whereFrom_nodup _ _ _
  have hsl : (scatter (List.replicate (I.categorical.length + I.notCategorical.length) (0 : ℚ))
      I.notCategorical (q.take I.notCategorical.length)).length = vs.length := by
    rw [length_scatter, List.length_replicate, hL.cat, hL.notCat, length_cat_add]
  unfold compressBounds
  apply List.ext_getElem?
  intro i
  dsimp only
  by_cases hi : i < vs.length
  · rcases cat_or_not hi with h | h
    · have : i ∈ I.expansion.map Prod.fst := by rw [hL.exp, expansionFrom_fst]; exact h
      obtain ⟨e, he, rfl⟩ := List.mem_map.mp this
      rw [foldl_set_mem (es := I.expansion) (g := Prod.fst)
        (f := fun e => if q.getD (e.2.2.headD 0) 0 = 0 then e.2.1
          else e.2.1 + (e.2.2.length : ℚ) - 1) hnd he (by rw [hsl]; exact hi)]
      have he' := he
      rw [hL.exp] at he'
      obtain ⟨m1, m2, m3⟩ := expansionFrom_mem he'
      obtain ⟨v, hv, hvc⟩ := mem_where.mp m1
      have hvC : v.type = .C := by simpa using hvc
      rw [getD_of hv] at m2 m3
      rw [List.getElem?_map, hv, Option.map_some]
      have hwv := hws v (List.mem_of_getElem? hv)
      have hr : v.type ≠ .R := by rw [hvC]; simp
      obtain ⟨⟨za, hza⟩, ⟨zb, hzb⟩⟩ := hwv.2 hr
      have hle : za ≤ zb := by have := hwv.1; rw [hza, hzb] at this; exact_mod_cast this
      have hn : (v.numCats : ℤ) = zb - za + 1 := by
        unfold Var.numCats
        rw [hza, hzb]
        have : ((zb : ℚ) - za + 1) = ((zb - za + 1 : ℤ) : ℚ) := by push_cast; ring
        rw [this, Int.floor_intCast, Int.toNat_of_nonneg (by omega)]
      -- the first position of the group is in the tail of `q`
      have hpos : ∃ k, e.2.2.headD 0 = (notCatIdx vs).length + k ∧ k < numBin vs := by
        obtain ⟨k, hk⟩ := List.getElem?_of_mem m1
        have hg := expansionFrom_get (vs := vs) (cur := (notCatIdx vs).length) hk
        have hg' := List.mem_of_getElem? hg
        have heq : e = (e.1, (vs.getD e.1 default).lower,
            List.range' ((notCatIdx vs).length +
              ((List.take k (whereFrom (fun v => decide (v.type = VType.C)) 0 vs)).map
                (fun i => (vs.getD i default).numCats)).sum) (vs.getD e.1 default).numCats) := by
          refine (List.inj_on_of_nodup_map (f := Prod.fst) (l := I.expansion) hnd) he ?_ rfl
          rw [hL.exp]; exact hg'
        refine ⟨((List.take k (whereFrom (fun v => decide (v.type = VType.C)) 0 vs)).map
                (fun i => (vs.getD i default).numCats)).sum, ?_, ?_⟩
        · conv_lhs => rw [heq]
          dsimp only
          rw [getD_of hv]
          obtain ⟨m, hm⟩ : ∃ m, v.numCats = m + 1 := ⟨v.numCats - 1, by omega⟩
          rw [hm]; rfl
        · have hsplit := List.take_append_drop k (catIdx vs)
          have hdrop : (catIdx vs).drop k = e.1 :: (catIdx vs).drop (k + 1) := by
            obtain ⟨hk1, hk2⟩ := List.getElem?_eq_some_iff.mp hk
            rw [List.drop_eq_getElem_cons hk1]
            exact congrArg (· :: _) hk2
          unfold numBin
          conv_rhs => rw [← hsplit]
          rw [hdrop, List.map_append, List.sum_append, List.map_cons, List.sum_cons, getD_of hv]
          show ((List.take k (catIdx vs)).map _).sum < _
          omega
      obtain ⟨k, hk1, hk2⟩ := hpos
      have hqk : q.getD (e.2.2.headD 0) 0 = b := by
        rw [hk1]
        apply getD_of
        rw [← hq, List.getElem?_append_right (by simp [length_nonCats])]
        simp [length_nonCats, hk2]
      rw [hqk]
      rcases hfb with ⟨rfl, rfl⟩ | ⟨rfl, rfl⟩
      · rw [if_pos rfl, m2]
      · rw [if_neg one_ne_zero, m2, m3, hza, hzb]
        have : ((v.numCats : ℕ) : ℚ) = ((zb - za + 1 : ℤ) : ℚ) := by
          rw [← hn]; push_cast; rfl
        rw [this]; push_cast; congr 1; ring
    · obtain ⟨k, hk⟩ := List.getElem?_of_mem h
      have hklt := (List.getElem?_eq_some_iff.mp hk).1
      rw [foldl_set_notMem (es := I.expansion) (g := Prod.fst)
        (f := fun e => if q.getD (e.2.2.headD 0) 0 = 0 then e.2.1
          else e.2.1 + (e.2.2.length : ℚ) - 1) (by
            intro e he heq
            have := List.mem_map_of_mem (f := Prod.fst) he
            rw [hL.exp, expansionFrom_fst, heq] at this
            exact cat_not_disjoint this h)]
      have hkq : (q.take (notCatIdx vs).length)[k]? = some (f (vs[i])) := by
        rw [List.getElem?_take, if_pos hklt, ← hq,
          List.getElem?_append_left (by simpa [length_nonCats] using hklt), List.getElem?_map,
          nonCats_get hk, List.getElem?_eq_getElem hi]; rfl
      rw [hL.notCat, List.getElem?_map, List.getElem?_eq_getElem hi, Option.map_some]
      rw [scatter_get (notCatIdx_nodup vs) (by rw [List.length_take, hqlen]; omega)
        (fun j hj => by
          rw [List.length_replicate, hL.cat, length_cat_add]; exact where_lt hj) hk, hkq]
  · rw [List.getElem?_eq_none (by rw [foldl_set_length, hsl]; omega),
      List.getElem?_eq_none (by simp; omega)]

/-! ## Number of feasible points -/

/-- The feasible values of one variable. -/
abbrev VarValues (eps : ℚ) (v : Var) : Type := {x : ℚ // v.Feasible eps x}

/-- The feasible points of the user's problem. -/
abbrev UserPoints (eps : ℚ) (vars : List Var) : Type := {x : Pt // FeasibleUser eps vars x}

def userPointsCons (eps : ℚ) (v : Var) (vars : List Var) :
    UserPoints eps (v :: vars) ≃ VarValues eps v × UserPoints eps vars where
  toFun x := match x with
    | ⟨[], h⟩ => absurd h (by simp [FeasibleUser])
    | ⟨a :: p, h⟩ => (⟨a, (List.forall₂_cons.mp h).1⟩, ⟨p, (List.forall₂_cons.mp h).2⟩)
  invFun x := ⟨x.1.1 :: x.2.1, List.Forall₂.cons x.1.2 x.2.2⟩
  left_inv x := by
    match x with
    | ⟨[], h⟩ => exact absurd h (by simp [FeasibleUser])
    | ⟨a :: p, h⟩ => rfl
  right_inv x := rfl

theorem card_userPoints_nil (eps : ℚ) : Nat.card (UserPoints eps []) = 1 := by
  have : Unique (UserPoints eps []) :=
    ⟨⟨⟨[], List.Forall₂.nil⟩⟩, fun x => by
      obtain ⟨x, hx⟩ := x
      cases hx; rfl⟩
  exact Nat.card_unique

theorem card_userPoints_cons (eps : ℚ) (v : Var) (vars : List Var) :
    Nat.card (UserPoints eps (v :: vars)) =
      Nat.card (VarValues eps v) * Nat.card (UserPoints eps vars) := by
  rw [Nat.card_congr (userPointsCons eps v vars), Nat.card_prod]

theorem card_fixed {eps : ℚ} {v : Var} (h : v.isFixed eps = true) :
    Nat.card (VarValues eps v) = 1 := by
  have hf : |v.lower - v.upper| ≤ eps := by simpa [Var.isFixed] using h
  have : Unique (VarValues eps v) :=
    ⟨⟨⟨v.lower, by simp [Var.Feasible, hf]⟩⟩, fun x => by
      obtain ⟨x, hx⟩ := x
      simp only [Var.Feasible, hf, if_true] at hx
      subst hx; rfl⟩
  exact Nat.card_unique

theorem card_integer {eps : ℚ} {v : Var} (h : v.isFixed eps = false) (ht : v.type ≠ .R)
    (hl : v.lower ≤ v.upper) (h1 : IsInt v.lower) (h2 : IsInt v.upper) :
    (Nat.card (VarValues eps v) : ℚ) = v.upper - v.lower + 1 := by
  have hf : ¬ |v.lower - v.upper| ≤ eps := by simpa [Var.isFixed] using h
  obtain ⟨a, ha⟩ := h1
  obtain ⟨b, hb⟩ := h2
  have hab : a ≤ b := by rw [ha, hb] at hl; exact_mod_cast hl
  have e : VarValues eps v ≃ Finset.Icc a b := by
    refine
    { toFun := fun x => ⟨⌊x.1⌋, ?_⟩
      invFun := fun z => ⟨(z.1 : ℚ), ?_⟩
      left_inv := ?_
      right_inv := ?_ }
    · obtain ⟨x, hx⟩ := x
      simp only [Var.Feasible, hf, if_false] at hx
      obtain ⟨g1, g2, g3⟩ := hx
      obtain ⟨z, rfl⟩ := g3 ht
      rw [ha] at g1; rw [hb] at g2
      simp only [Int.floor_intCast, Finset.mem_Icc]
      exact ⟨by exact_mod_cast g1, by exact_mod_cast g2⟩
    · have := Finset.mem_Icc.mp z.2
      simp only [Var.Feasible, hf, if_false]
      rw [ha, hb]
      exact ⟨by exact_mod_cast this.1, by exact_mod_cast this.2, fun _ => ⟨z.1, rfl⟩⟩
    · rintro ⟨x, hx⟩
      have hx' := hx
      simp only [Var.Feasible, hf, if_false] at hx'
      obtain ⟨z, rfl⟩ := hx'.2.2 ht
      simp
    · rintro ⟨z, hz⟩; simp
  rw [Nat.card_congr e, Nat.card_eq_fintype_card, Fintype.card_coe, Int.card_Icc, ha, hb]
  have : (((b + 1 - a).toNat : ℕ) : ℚ) = (((b + 1 - a).toNat : ℤ) : ℚ) := by push_cast; rfl
  rw [this, Int.toNat_of_nonneg (by omega)]; push_cast; ring

/-- Without real variables, the number of feasible points is the product of the numbers of values
of the unfixed variables. -/
theorem card_userPoints {eps : ℚ} {vars : List Var} (hw : WellFormed vars)
    (hr : ∀ v ∈ unfixedSpec eps vars, v.type ≠ .R) :
    (Nat.card (UserPoints eps vars) : ℚ) =
      ((unfixedSpec eps vars).map (fun v => v.upper - v.lower + 1)).prod := by
  induction vars with
  | nil => rw [card_userPoints_nil]; simp [unfixedSpec]
  | cons v vars ih =>
    have hw' : WellFormed vars := fun v hv => hw v (by simp [hv])
    rw [card_userPoints_cons]
    have hwv := hw v (by simp)
    cases hf : v.isFixed eps with
    | true =>
      have e : unfixedSpec eps (v :: vars) = unfixedSpec eps vars := by simp [unfixedSpec, hf]
      rw [e] at hr ⊢
      rw [card_fixed hf, one_mul, ih hw' hr]
    | false =>
      have e : unfixedSpec eps (v :: vars) = v :: unfixedSpec eps vars := by
        simp [unfixedSpec, hf]
      rw [e] at hr ⊢
      have ht := hr v (by simp)
      rw [Nat.cast_mul, card_integer hf ht hwv.1 (hwv.2 ht).1 (hwv.2 ht).2,
        ih hw' (fun w hw => hr w (by simp [hw])), List.map_cons, List.prod_cons]

end Rbfopt
