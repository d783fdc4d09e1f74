import Verif.Spec.Problem
import Verif.Lemmas.Numpy

/-! # Facts about the reformulation of the problem -/

namespace Rbfopt

/-! ## Fixed variables -/

/-- Fixed variables with positions counted from `k`. -/
def fixedFrom (eps : ℚ) : ℕ → List Var → List (ℕ × ℚ)
  | _, [] => []
  | k, v :: vs => if v.isFixed eps then (k, v.lower) :: fixedFrom eps (k + 1) vs
      else fixedFrom eps (k + 1) vs

theorem fixedVars_eq_aux (eps : ℚ) (pre l : List Var) :
    (whereFrom (Var.isFixed eps) pre.length l).map
      (fun i => (i, ((pre ++ l).getD i default).lower)) = fixedFrom eps pre.length l := by
  induction l generalizing pre with
  | nil => rfl
  | cons v vs ih =>
    have h := ih (pre ++ [v])
    simp only [List.length_append, List.length_singleton, List.append_assoc,
      List.cons_append, List.nil_append] at h
    simp only [whereFrom, fixedFrom]
    split
    · rw [List.map_cons, h]; simp
    · exact h

theorem fixedVars_eq (eps : ℚ) (vars : List Var) : fixedVars eps vars = fixedFrom eps 0 vars := by
  have := fixedVars_eq_aux eps [] vars
  simpa [fixedVars] using this

theorem unfixedVars_eq (eps : ℚ) (vars : List Var) : unfixedVars eps vars = unfixedSpec eps vars := by
  unfold unfixedVars unfixedSpec
  rw [range_filter_not_where, gather_where]

/-- Put the fixed values back in their places. -/
def fillFixed (eps : ℚ) : List Var → Pt → Pt
  | [], p => p
  | v :: vs, p =>
    if v.isFixed eps then v.lower :: fillFixed eps vs p
    else match p with
      | [] => []
      | y :: ys => y :: fillFixed eps vs ys

theorem insertFixed_fill (eps : ℚ) (vars : List Var) (pre p : Pt)
    (h : p.length = (unfixedSpec eps vars).length) :
    insertFixed (pre ++ p) (fixedFrom eps pre.length vars) = pre ++ fillFixed eps vars p := by
  induction vars generalizing pre p with
  | nil => rfl
  | cons v vs ih =>
    simp only [fixedFrom, fillFixed, unfixedSpec, List.filter_cons] at h ⊢
    by_cases hv : v.isFixed eps = true
    · simp only [hv, if_true] at h ⊢
      have h1 := ih (pre ++ [v.lower]) p (by simpa [unfixedSpec] using h)
      simp only [List.length_append, List.length_singleton, List.append_assoc,
        List.cons_append, List.nil_append] at h1
      rw [insertFixed, pyInsert, List.take_left, List.drop_left, h1]
    · have hv' : v.isFixed eps = false := by simpa using hv
      simp only [hv', Bool.not_false, if_true, List.length_cons, Bool.false_eq_true,
        if_false] at h ⊢
      cases p with
      | nil => simp at h
      | cons y ys =>
        have h1 := ih (pre ++ [y]) ys (by simpa [unfixedSpec] using h)
        simp only [List.length_append, List.length_singleton, List.append_assoc,
          List.cons_append, List.nil_append] at h1
        exact h1

theorem length_fillFixed {eps : ℚ} {vars : List Var} {p : Pt}
    (h : p.length = (unfixedSpec eps vars).length) :
    (fillFixed eps vars p).length = vars.length := by
  induction vars generalizing p with
  | nil => simpa [unfixedSpec, fillFixed] using h
  | cons v vs ih =>
    simp only [fillFixed, unfixedSpec, List.filter_cons] at h ⊢
    by_cases hv : v.isFixed eps = true
    · simp only [hv, if_true] at h ⊢
      simp [ih (p := p) (by simpa [unfixedSpec] using h)]
    · have hv' : v.isFixed eps = false := by simpa using hv
      simp only [hv', Bool.not_false, if_true, List.length_cons, Bool.false_eq_true,
        if_false] at h ⊢
      cases p with
      | nil => simp at h
      | cons y ys => simp [ih (p := ys) (by simpa [unfixedSpec] using h)]

/-- The feasibility condition for unfixed variables. -/
def Var.Feasible' (v : Var) (x : ℚ) : Prop :=
  v.lower ≤ x ∧ x ≤ v.upper ∧ (v.type ≠ .R → IsInt x)

theorem feasible_fill {eps : ℚ} {vars : List Var} {p : Pt}
    (h : List.Forall₂ Var.Feasible' (unfixedSpec eps vars) p) :
    FeasibleUser eps vars (fillFixed eps vars p) := by
  induction vars generalizing p with
  | nil => cases h; exact .nil
  | cons v vs ih =>
    simp only [fillFixed, unfixedSpec, List.filter_cons] at h ⊢
    by_cases hv : v.isFixed eps = true
    · simp only [hv, if_true] at h ⊢
      refine .cons ?_ (ih h)
      have : |v.lower - v.upper| ≤ eps := by simpa [Var.isFixed] using hv
      simp [Var.Feasible, this]
    · have hv' : v.isFixed eps = false := by simpa using hv
      simp only [hv', Bool.not_false, if_true, Bool.false_eq_true,
        if_false] at h ⊢
      cases h with
      | cons h1 h2 =>
        refine .cons ?_ (ih h2)
        have : ¬ |v.lower - v.upper| ≤ eps := by simpa [Var.isFixed] using hv
        simp only [Var.Feasible, if_neg this]; exact h1

theorem unfixedCoords_fill {eps : ℚ} {vars : List Var} {p : Pt}
    (h : p.length = (unfixedSpec eps vars).length) :
    unfixedCoords eps vars (fillFixed eps vars p) = p := by
  induction vars generalizing p with
  | nil =>
    simp only [unfixedSpec, List.filter_nil, List.length_nil, List.length_eq_zero_iff] at h
    subst h; rfl
  | cons v vs ih =>
    simp only [fillFixed, unfixedSpec, unfixedCoords, List.filter_cons] at h ⊢
    by_cases hv : v.isFixed eps = true
    · simp only [hv, if_true] at h ⊢
      have := ih (p := p) (by simpa [unfixedSpec] using h)
      simpa [unfixedCoords, hv] using this
    · have hv' : v.isFixed eps = false := by simpa using hv
      simp only [hv', Bool.not_false, if_true, List.length_cons, Bool.false_eq_true,
        if_false] at h ⊢
      cases p with
      | nil => simp at h
      | cons y ys =>
        have := ih (p := ys) (by simpa [unfixedSpec] using h)
        simpa [unfixedCoords, hv'] using this

theorem feasible_unfixed {eps : ℚ} {vars : List Var} {x : Pt} (h : FeasibleUser eps vars x) :
    List.Forall₂ Var.Feasible' (unfixedSpec eps vars) (unfixedCoords eps vars x) ∧
    fillFixed eps vars (unfixedCoords eps vars x) = x := by
  unfold FeasibleUser at h
  induction h with
  | nil => exact ⟨.nil, rfl⟩
  | @cons v y vs ys h1 h2 ih =>
    obtain ⟨i1, i2⟩ := ih
    simp only [unfixedSpec, unfixedCoords, List.zip_cons_cons, List.filter_cons, fillFixed] at *
    by_cases hv : v.isFixed eps = true
    · have h' : |v.lower - v.upper| ≤ eps := by simpa [Var.isFixed] using hv
      simp only [Var.Feasible, if_pos h'] at h1
      simp only [hv, Bool.not_true, Bool.false_eq_true, if_false, if_true]
      exact ⟨i1, by rw [i2, h1]⟩
    · have hv' : v.isFixed eps = false := by simpa using hv
      have h' : ¬ |v.lower - v.upper| ≤ eps := by simpa [Var.isFixed] using hv
      simp only [Var.Feasible, if_neg h'] at h1
      simp only [hv', Bool.not_false, if_true, Bool.false_eq_true, if_false, List.map_cons]
      exact ⟨.cons h1 i1, by rw [i2]⟩

/-! ## One-hot groups -/

theorem replicate_set_succ (m j : ℕ) :
    (List.replicate (m + 1) (0 : ℚ)).set (j + 1) 1 = 0 :: (List.replicate m 0).set j 1 := by
  rw [List.replicate_succ, List.set_cons_succ]

theorem oneHot_set {vl : ℚ} {m j : ℕ} (hj : j < m) :
    oneHot vl m (vl + (j : ℚ)) = (List.replicate m 0).set j 1 := by
  apply List.ext_getElem
  · simp [oneHot]
  · intro i h1 h2
    simp only [oneHot, List.getElem_map, List.getElem_range, List.getElem_set,
      List.getElem_replicate]
    by_cases e : j = i
    · subst e; simp
    · have : ¬ (vl + (j : ℚ) = vl + (i : ℚ)) := by
        intro h; apply e; exact_mod_cast add_left_cancel h
      simp [this, e]

theorem set_inj {m j j' : ℕ} (hj : j < m)
    (h : (List.replicate m (0 : ℚ)).set j 1 = (List.replicate m 0).set j' 1) : j = j' := by
  by_contra hne
  have h1 := congrArg (fun l => l[j]?) h
  simp [List.getElem?_set, hj, Ne.symm hne] at h1

theorem decodeGroup_oneHot {q : Pt} {vl : ℚ} {ps : List ℕ} {j : ℕ} (c : ℕ) (hj : j < ps.length)
    (h : ps.map (fun i => q.getD i 0) = (List.replicate ps.length 0).set j 1) :
    decodeGroup q vl c ps = some (vl + ((c + j : ℕ) : ℚ)) := by
  induction ps generalizing j c with
  | nil => simp at hj
  | cons pos ps ih =>
    cases j with
    | zero =>
      simp only [List.map_cons, List.length_cons, List.replicate_succ, List.set_cons_zero,
        List.cons.injEq] at h
      rw [decodeGroup, if_pos h.1]; simp
    | succ j =>
      simp only [List.map_cons, List.length_cons, replicate_set_succ, List.cons.injEq] at h
      have h0 : q.getD pos 0 ≠ 1 := by rw [h.1]; norm_num
      rw [decodeGroup, if_neg h0, ih (c + 1) (by simpa using hj) h.2]
      congr 3
      omega

theorem compressGroup_zero {q : Pt} {index : ℕ} {vl : ℚ} {ps : List ℕ} {acc : Pt} (c : ℕ)
    (h : ps.map (fun i => q.getD i 0) = List.replicate ps.length 0) :
    compressGroup q index vl c ps acc = acc := by
  induction ps generalizing c acc with
  | nil => rfl
  | cons pos ps ih =>
    simp only [List.map_cons, List.length_cons, List.replicate_succ, List.cons.injEq] at h
    have h0 : q.getD pos 0 ≠ 1 := by rw [h.1]; norm_num
    rw [compressGroup, if_neg h0, ih _ h.2]

theorem compressGroup_oneHot {q : Pt} {index : ℕ} {vl : ℚ} {ps : List ℕ} {acc : Pt} {j : ℕ} (c : ℕ)
    (hj : j < ps.length)
    (h : ps.map (fun i => q.getD i 0) = (List.replicate ps.length 0).set j 1) :
    compressGroup q index vl c ps acc = acc.set index (vl + ((c + j : ℕ) : ℚ)) := by
  induction ps generalizing j c acc with
  | nil => simp at hj
  | cons pos ps ih =>
    cases j with
    | zero =>
      simp only [List.map_cons, List.length_cons, List.replicate_succ, List.set_cons_zero,
        List.cons.injEq] at h
      rw [compressGroup, if_pos h.1, compressGroup_zero _ h.2]
      simp
    | succ j =>
      simp only [List.map_cons, List.length_cons, replicate_set_succ, List.cons.injEq] at h
      have h0 : q.getD pos 0 ≠ 1 := by rw [h.1]; norm_num
      rw [compressGroup, if_neg h0, ih (c + 1) (by simpa using hj) h.2]
      congr 3
      omega

/-! ## Writing the categorical values -/

theorem foldl_set_length {α : Type} (es : List α) (g : α → ℕ) (f : α → ℚ) (a : Pt) :
    (es.foldl (fun acc e => acc.set (g e) (f e)) a).length = a.length := by
  induction es generalizing a with
  | nil => rfl
  | cons e es ih => rw [List.foldl_cons, ih, List.length_set]

theorem foldl_set_notMem {α : Type} {es : List α} {g : α → ℕ} {f : α → ℚ} {a : Pt} {i : ℕ}
    (h : ∀ e ∈ es, g e ≠ i) :
    (es.foldl (fun acc e => acc.set (g e) (f e)) a)[i]? = a[i]? := by
  induction es generalizing a with
  | nil => rfl
  | cons e es ih =>
    rw [List.foldl_cons, ih (fun e' h' => h e' (by simp [h'])),
      List.getElem?_set_ne (h e (by simp))]

theorem foldl_set_mem {α : Type} {es : List α} {g : α → ℕ} {f : α → ℚ} {a : Pt} {e : α}
    (hn : (es.map g).Nodup) (he : e ∈ es) (hb : g e < a.length) :
    (es.foldl (fun acc e => acc.set (g e) (f e)) a)[g e]? = some (f e) := by
  induction es generalizing a with
  | nil => simp at he
  | cons e' es ih =>
    rw [List.map_cons, List.nodup_cons] at hn
    rw [List.foldl_cons]
    rcases List.mem_cons.mp he with rfl | he
    · rw [foldl_set_notMem, List.getElem?_set_self hb]
      intro e' h' heq
      exact hn.1 (by rw [← heq]; exact List.mem_map_of_mem h')
    · exact ih hn.2 he (by rw [List.length_set]; exact hb)

theorem foldl_congr_mem {α β : Type} {f g : β → α → β} {es : List α} {a : β}
    (h : ∀ acc, ∀ e ∈ es, f acc e = g acc e) : es.foldl f a = es.foldl g a := by
  induction es generalizing a with
  | nil => rfl
  | cons e es ih =>
    rw [List.foldl_cons, List.foldl_cons, h a e (by simp)]
    exact ih (fun acc e' h' => h acc e' (by simp [h']))

/-! ## The expansion list -/

theorem expansionFrom_fst (vs : List Var) (cur : ℕ) (is : List ℕ) :
    (expansionFrom vs cur is).map Prod.fst = is := by
  induction is generalizing cur with
  | nil => rfl
  | cons i is ih => simp only [expansionFrom, List.map_cons, ih]

theorem expansionFrom_mem {vs : List Var} {cur : ℕ} {is : List ℕ} {e : ℕ × ℚ × List ℕ}
    (h : e ∈ expansionFrom vs cur is) :
    e.1 ∈ is ∧ e.2.1 = (vs.getD e.1 default).lower ∧
      e.2.2.length = (vs.getD e.1 default).numCats := by
  induction is generalizing cur with
  | nil => simp [expansionFrom] at h
  | cons i is ih =>
    simp only [expansionFrom, List.mem_cons] at h
    rcases h with rfl | h
    · simp
    · obtain ⟨a, b, c⟩ := ih h
      exact ⟨by simp [a], b, c⟩

theorem expansionFrom_gather {vs : List Var} (q pre post : Pt) (is : List ℕ)
    (block : ℕ × ℚ × List ℕ → Pt) (hb : ∀ e ∈ expansionFrom vs pre.length is,
      (block e).length = e.2.2.length)
    (hq : q = pre ++ (expansionFrom vs pre.length is).flatMap block ++ post) :
    ∀ e ∈ expansionFrom vs pre.length is, gather 0 q e.2.2 = block e := by
  induction is generalizing pre with
  | nil => intro e he; simp [expansionFrom] at he
  | cons i is ih =>
    simp only [expansionFrom] at hb hq ⊢
    intro e he
    have hlen := hb _ (List.mem_cons_self ..)
    simp only [List.length_range'] at hlen
    rw [List.flatMap_cons] at hq
    rcases List.mem_cons.mp he with rfl | he
    · have := gather_range (0 : ℚ) (block (i, (vs.getD i default).lower,
        List.range' pre.length (vs.getD i default).numCats)) pre
        ((expansionFrom vs (pre.length + (vs.getD i default).numCats) is).flatMap block ++ post)
      rw [hlen] at this
      rw [hq]
      simpa using this
    · have h2 := ih (pre ++ block (i, (vs.getD i default).lower,
        List.range' pre.length (vs.getD i default).numCats))
      rw [List.length_append, hlen] at h2
      refine h2 (fun e he => hb e (List.mem_cons_of_mem _ he)) ?_ e he
      rw [hq]; simp

theorem expansionFrom_flatMap_gather {vs : List Var} (q : Pt) (cur : ℕ) (is : List ℕ)
    (h : q.length = cur + (is.map (fun i => (vs.getD i default).numCats)).sum) :
    (expansionFrom vs cur is).flatMap (fun e => gather 0 q e.2.2) = q.drop cur := by
  induction is generalizing cur with
  | nil =>
    simp only [List.map_nil, List.sum_nil] at h
    simp [expansionFrom, h]
  | cons i is ih =>
    simp only [List.map_cons, List.sum_cons] at h
    simp only [expansionFrom, List.flatMap_cons]
    rw [ih (cur + (vs.getD i default).numCats) (by omega), take_drop_gather 0 q _ _ (by omega),
      ← List.drop_drop, List.take_append_drop]

end Rbfopt
