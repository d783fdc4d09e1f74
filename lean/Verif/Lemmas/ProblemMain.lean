import Verif.Lemmas.Problem

/-! # The reformulation is a bijection -/

namespace Rbfopt

theorem forall₂_iff_get {α β : Type} {R : α → β → Prop} {l : List α} {m : List β} :
    List.Forall₂ R l m ↔ m.length = l.length ∧
      ∀ (i : ℕ) (a : α) (b : β), l[i]? = some a → m[i]? = some b → R a b := by
  constructor
  · intro h
    induction h with
    | nil => simp
    | @cons a b l m h1 h2 ih =>
      refine ⟨by simp [ih.1], ?_⟩
      intro i a' b' ha hb
      cases i with
      | zero => simp at ha hb; subst ha; subst hb; exact h1
      | succ i => simp at ha hb; exact ih.2 i a' b' ha hb
  · rintro ⟨h1, h2⟩
    induction l generalizing m with
    | nil =>
      simp at h1; subst h1; exact .nil
    | cons a l ih =>
      cases m with
      | nil => simp at h1
      | cons b m =>
        refine .cons (h2 0 a b rfl rfl) (ih (by simpa using h1) ?_)
        intro i a' b' ha hb
        exact h2 (i + 1) a' b' (by simpa using ha) (by simpa using hb)

/-- Positions of the categorical variables in the list of unfixed variables. -/
def catIdx (vs : List Var) : List ℕ := whereFrom (fun v => decide (v.type = .C)) 0 vs
/-- Positions of the other variables. -/
def notCatIdx (vs : List Var) : List ℕ := whereFrom (fun v => decide (v.type ≠ .C)) 0 vs
/-- The non-categorical variables. -/
def nonCats (vs : List Var) : List Var := vs.filter (fun v => decide (v.type ≠ .C))
/-- Number of binaries. -/
def numBin (vs : List Var) : ℕ := ((catIdx vs).map (fun i => (vs.getD i default).numCats)).sum

theorem cat_or_not {vs : List Var} {i : ℕ} (h : i < vs.length) : i ∈ catIdx vs ∨ i ∈ notCatIdx vs := by
  by_cases hc : vs[i].type = .C
  · left; rw [catIdx, mem_where]; exact ⟨vs[i], List.getElem?_eq_getElem h, by simp [hc]⟩
  · right; rw [notCatIdx, mem_where]; exact ⟨vs[i], List.getElem?_eq_getElem h, by simp [hc]⟩

theorem cat_not_disjoint {vs : List Var} {i : ℕ} (h : i ∈ catIdx vs) : i ∉ notCatIdx vs := by
  rw [catIdx, mem_where] at h
  rw [notCatIdx, mem_where]
  obtain ⟨x, hx, h1⟩ := h
  rintro ⟨y, hy, h2⟩
  rw [hx] at hy; cases hy
  simp at h1 h2; exact h2 h1

theorem length_cat_add (vs : List Var) :
    (catIdx vs).length + (notCatIdx vs).length = vs.length := by
  rw [catIdx, notCatIdx, length_whereFrom, length_whereFrom]
  induction vs with
  | nil => rfl
  | cons v vs ih =>
    simp only [List.countP_cons, List.length_cons]
    by_cases h : v.type = .C <;> simp [h] <;> simp at ih <;> omega

theorem notCatIdx_nodup (vs : List Var) : (notCatIdx vs).Nodup := whereFrom_nodup _ _ _

theorem length_nonCats (vs : List Var) : (nonCats vs).length = (notCatIdx vs).length := by
  rw [nonCats, notCatIdx, length_whereFrom, List.countP_eq_length_filter]

theorem nonCats_get {vs : List Var} {k i : ℕ} (h : (notCatIdx vs)[k]? = some i) :
    (nonCats vs)[k]? = vs[i]? := by
  have h1 : nonCats vs = gather default vs (notCatIdx vs) := (gather_where _ _ _).symm
  rw [h1, getElem?_gather h (where_lt (List.mem_of_getElem? h))]

/-- The part of the internal problem that concerns the categorical encoding. -/
structure CatLayout (vs : List Var) (I : Internal) : Prop where
  cat : I.categorical = catIdx vs
  notCat : I.notCategorical = notCatIdx vs
  exp : I.expansion = expansionFrom vs (notCatIdx vs).length (catIdx vs)

variable {vs : List Var} {I : Internal}

/-- The value of a one-hot group. -/
def groupVal (q : Pt) (e : ℕ × ℚ × List ℕ) : ℚ := (decodeGroup q e.2.1 0 e.2.2).getD 0

/-- Writing non-categorical and categorical coordinates in their places. -/
def place (I : Internal) (q : Pt) : Pt :=
  I.expansion.foldl (fun acc e => acc.set e.1 (groupVal q e))
    (scatter (List.replicate (I.categorical.length + I.notCategorical.length) 0)
      I.notCategorical (q.take I.notCategorical.length))

theorem compressPt_place {q : Pt} (h : ∀ e ∈ I.expansion, OneHotAt q e.2.2) :
    compressPt I q = place I q := by
  unfold compressPt place
  dsimp only
  apply foldl_congr_mem
  intro acc e he
  obtain ⟨j, hj, hh⟩ := h e he
  rw [compressGroup_oneHot 0 hj hh, groupVal, decodeGroup_oneHot 0 hj hh]
  rfl

theorem place_noCat (hL : CatLayout vs I) {q : Pt} (h0 : I.expansion = [])
    (hq : q.length = vs.length) : place I q = q := by
  have hcat : catIdx vs = [] := by
    rw [hL.exp] at h0
    have := expansionFrom_fst vs (notCatIdx vs).length (catIdx vs)
    rw [h0] at this; simpa using this.symm
  have hlen := length_cat_add vs
  rw [hcat] at hlen
  simp only [List.length_nil, Nat.zero_add] at hlen
  unfold place
  rw [h0, hL.cat, hL.notCat, hcat]
  simp only [List.foldl_nil, List.length_nil, Nat.zero_add]
  apply List.ext_getElem?
  intro i
  by_cases hi : i < vs.length
  · rcases cat_or_not hi with h | h
    · rw [hcat] at h; simp at h
    · obtain ⟨k, hk⟩ := List.getElem?_of_mem h
      have hki : k = i := by
        -- the list of positions is 0, 1, 2, …
        have hall : notCatIdx vs = List.range' 0 vs.length := by
          have aux : ∀ (c : ℕ) (l : List Var), (∀ v ∈ l, v.type ≠ .C) →
              whereFrom (fun v => decide (v.type ≠ .C)) c l = List.range' c l.length := by
            intro c l
            induction l generalizing c with
            | nil => intro _; rfl
            | cons v l ih =>
              intro hv
              have h1 : v.type ≠ .C := hv v (by simp)
              rw [List.length_cons, List.range'_succ]
              simp only [whereFrom]
              rw [if_pos (by simpa using h1), ih _ (fun w hw => hv w (by simp [hw]))]
          apply aux
          intro v hv hvc
          obtain ⟨n, hn⟩ := List.getElem?_of_mem hv
          have : n ∈ catIdx vs := by rw [catIdx, mem_where]; exact ⟨v, hn, by simp [hvc]⟩
          rw [hcat] at this; simp at this
        rw [hall] at hk
        have := List.getElem?_eq_some_iff.mp hk
        obtain ⟨h1, h2⟩ := this
        simp at h2; omega
      subst hki
      rw [scatter_get (notCatIdx_nodup vs) (by rw [List.length_take]; omega)
        (fun j hj => by rw [List.length_replicate, hlen]; exact where_lt hj) hk,
        List.getElem?_take, if_pos (by rw [hlen]; exact hi)]
  · rw [List.getElem?_eq_none (by rw [length_scatter, List.length_replicate]; omega),
      List.getElem?_eq_none (by omega)]

theorem decodeCat_place (hL : CatLayout vs I) {q : Pt} (h : ∀ e ∈ I.expansion, OneHotAt q e.2.2)
    (hq : I.expansion = [] → q.length = vs.length) :
    decodeCat I q = place I q := by
  unfold decodeCat
  split
  · rename_i h0; exact (place_noCat hL h0 (hq h0)).symm
  · unfold place
    dsimp only
    apply foldl_congr_mem
    intro acc e he
    obtain ⟨j, hj, hh⟩ := h e he
    rw [groupVal, decodeGroup_oneHot 0 hj hh]
    rfl

theorem length_place (hL : CatLayout vs I) (q : Pt) : (place I q).length = vs.length := by
  unfold place
  rw [foldl_set_length, length_scatter, List.length_replicate, hL.cat, hL.notCat, length_cat_add]

theorem place_notCat (hL : CatLayout vs I) {q : Pt} (hq : (notCatIdx vs).length ≤ q.length)
    {k i : ℕ} (hk : (notCatIdx vs)[k]? = some i) : (place I q)[i]? = q[k]? := by
  have hmem := List.mem_of_getElem? hk
  unfold place
  rw [foldl_set_notMem, hL.notCat, scatter_get (notCatIdx_nodup vs)
    (by rw [List.length_take]; omega) _ hk, List.getElem?_take,
    if_pos (List.getElem?_eq_some_iff.mp hk).1]
  · intro j hj
    rw [List.length_replicate, hL.cat, length_cat_add]; exact where_lt hj
  · intro e he heq
    rw [hL.exp] at he
    have := (expansionFrom_mem he).1
    rw [heq] at this
    exact cat_not_disjoint this hmem

theorem place_cat (hL : CatLayout vs I) {q : Pt} {e : ℕ × ℚ × List ℕ} (he : e ∈ I.expansion) :
    (place I q)[e.1]? = some (groupVal q e) := by
  unfold place
  refine foldl_set_mem ?_ he ?_
  · rw [hL.exp, expansionFrom_fst]; exact whereFrom_nodup _ _ _
  · rw [length_scatter, List.length_replicate, hL.cat, hL.notCat, length_cat_add]
    rw [hL.exp] at he
    exact where_lt (expansionFrom_mem he).1

/-- The categorical coordinates of `p` are category values. -/
def CatValues (vs : List Var) (p : Pt) : Prop :=
  ∀ (i : ℕ) (v : Var) (x : ℚ), vs[i]? = some v → v.type = .C → p[i]? = some x → ∃ j < v.numCats, x = v.lower + (j : ℚ)

theorem getD_of {α : Type} {d x : α} {l : List α} {i : ℕ} (h : l[i]? = some x) : l.getD i d = x := by
  rw [List.getD_eq_getElem?_getD, h]; rfl

theorem length_oneHot (vl : ℚ) (m : ℕ) (x : ℚ) : (oneHot vl m x).length = m := by simp [oneHot]

theorem expand_gather (hL : CatLayout vs I) (p : Pt) :
    ∀ e ∈ I.expansion, gather 0 (expandPt I p) e.2.2 =
      oneHot e.2.1 e.2.2.length (p.getD e.1 0) := by
  have h := expansionFrom_gather (vs := vs) (expandPt I p) (gather 0 p (notCatIdx vs)) []
    (catIdx vs) (fun e => oneHot e.2.1 e.2.2.length (p.getD e.1 0))
    (fun e _ => length_oneHot _ _ _)
  rw [length_gather] at h
  rw [hL.exp]
  refine h ?_
  unfold expandPt
  rw [hL.notCat, hL.exp, List.append_nil]

theorem expand_oneHot (hL : CatLayout vs I) {p : Pt} (hp : p.length = vs.length)
    (hc : CatValues vs p) : ∀ e ∈ I.expansion, OneHotAt (expandPt I p) e.2.2 ∧
      (∀ x, p[e.1]? = some x → groupVal (expandPt I p) e = x) := by
  intro e he
  have hg := expand_gather hL p e he
  have he' := he
  rw [hL.exp] at he'
  obtain ⟨m1, m2, m3⟩ := expansionFrom_mem he'
  obtain ⟨v, hv, hvc⟩ := mem_where.mp m1
  have hlt := where_lt m1
  have hx : p[e.1]? = some p[e.1] := List.getElem?_eq_getElem (by omega)
  obtain ⟨j, hj, hxj⟩ := hc e.1 v p[e.1] hv (by simpa using hvc) hx
  rw [getD_of hv] at m2 m3
  rw [getD_of hx, hxj, m2, oneHot_set (by omega)] at hg
  refine ⟨⟨j, by omega, hg⟩, ?_⟩
  intro x hx'
  rw [hx] at hx'; cases hx'
  rw [groupVal, decodeGroup_oneHot 0 (by omega) hg, hxj, m2]
  simp

/-- Compressing the expansion of a point gives the point back. -/
theorem place_expand (hL : CatLayout vs I) {p : Pt} (hp : p.length = vs.length)
    (hc : CatValues vs p) : place I (expandPt I p) = p := by
  apply List.ext_getElem?
  intro i
  by_cases hi : i < vs.length
  · have hx : p[i]? = some p[i] := List.getElem?_eq_getElem (by omega)
    rcases cat_or_not hi with h | h
    · have : i ∈ I.expansion.map Prod.fst := by rw [hL.exp, expansionFrom_fst]; exact h
      obtain ⟨e, he, rfl⟩ := List.mem_map.mp this
      rw [place_cat hL he, (expand_oneHot hL hp hc e he).2 _ hx, hx]
    · obtain ⟨k, hk⟩ := List.getElem?_of_mem h
      have hlen : (notCatIdx vs).length ≤ (expandPt I p).length := by
        unfold expandPt
        rw [List.length_append, length_gather, hL.notCat]; omega
      rw [place_notCat hL hlen hk]
      unfold expandPt
      rw [hL.notCat, List.getElem?_append_left (by
        rw [length_gather]; exact (List.getElem?_eq_some_iff.mp hk).1),
        getElem?_gather hk (by omega)]
  · rw [List.getElem?_eq_none (by rw [length_place hL]; omega),
      List.getElem?_eq_none (by omega)]

/-- Expanding the compression of a one-hot point gives the point back. -/
theorem expand_place (hL : CatLayout vs I) {q : Pt}
    (hq : q.length = (notCatIdx vs).length + numBin vs)
    (h : ∀ e ∈ I.expansion, OneHotAt q e.2.2) : expandPt I (place I q) = q := by
  have e1 : gather 0 (place I q) (notCatIdx vs) = q.take (notCatIdx vs).length := by
    apply List.ext_getElem?
    intro k
    by_cases hk : k < (notCatIdx vs).length
    · have hk' := List.getElem?_eq_getElem hk
      rw [getElem?_gather hk' (by
        rw [length_place hL]; exact where_lt (List.getElem_mem hk)),
        place_notCat hL (by omega) hk', List.getElem?_take, if_pos hk]
    · rw [List.getElem?_eq_none (by rw [length_gather]; omega),
        List.getElem?_eq_none (by rw [List.length_take]; omega)]
  have e2 : I.expansion.flatMap (fun e => oneHot e.2.1 e.2.2.length ((place I q).getD e.1 0)) =
      I.expansion.flatMap (fun e => gather 0 q e.2.2) := by
    apply List.flatMap_congr
    intro e he
    obtain ⟨j, hj, hh⟩ := h e he
    rw [getD_of (place_cat hL he), groupVal, decodeGroup_oneHot 0 hj hh]
    simp only [Nat.zero_add, Option.getD_some]
    rw [oneHot_set hj]
    exact hh.symm
  unfold expandPt
  rw [e2, hL.notCat, e1, hL.exp, expansionFrom_flatMap_gather q _ _ hq, List.take_append_drop]

theorem length_expand (hL : CatLayout vs I) (p : Pt) :
    (expandPt I p).length = (notCatIdx vs).length + numBin vs := by
  unfold expandPt
  rw [List.length_append, length_gather, hL.notCat, hL.exp]
  congr 1
  unfold numBin
  have : ∀ (cur : ℕ) (is : List ℕ),
      ((expansionFrom vs cur is).flatMap (fun e => oneHot e.2.1 e.2.2.length (p.getD e.1 0))).length
        = (is.map (fun i => (vs.getD i default).numCats)).sum := by
    intro cur is
    induction is generalizing cur with
    | nil => rfl
    | cons i is ih =>
      simp only [expansionFrom, List.flatMap_cons, List.length_append, length_oneHot, ih,
        List.length_range', List.map_cons, List.sum_cons]
  exact this _ _

end Rbfopt
