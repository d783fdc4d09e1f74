import Verif.Model.Steps
import Verif.Props.AuxObj

/-! # Searching in a part of the box -/

namespace Rbfopt

variable {eps : ℚ} {vars : List Var}

/-- Bounds for the variables of `I`: right dimension, lower not above upper, integral for integer
variables, within [0, 1] for the binaries of categorical variables. -/
structure SubBox (I : Internal) (lo up : Pt) : Prop where
  box : GoodBox lo up I.intVars
  dim : lo.length = I.dim
  bin : ∀ e ∈ I.expansion, ∀ i ∈ e.2.2, 0 ≤ lo.getD i 0 ∧ up.getD i 0 ≤ 1

/-- The points a search with bounds `lo`, `up` can find: integral, exactly one category per
categorical variable, and inside the box of the working space. -/
def InSubBox (I : Internal) (lo up : Pt) (q : Pt) : Prop :=
  Proposable I q ∧ GoodWork (I.withBox lo up) (toWork I q)

section
variable {vs : List Var} {I : Internal}

theorem length_compressBounds (hL : CatLayout vs I) (b : Pt) :
    (compressBounds I b).length = vs.length := by
  unfold compressBounds
  dsimp only
  rw [foldl_set_length, length_scatter, List.length_replicate, hL.cat, hL.notCat, length_cat_add]

theorem compressBounds_notCat (hL : CatLayout vs I) {b : Pt} (hb : (notCatIdx vs).length ≤ b.length)
    {k i : ℕ} (hk : (notCatIdx vs)[k]? = some i) : (compressBounds I b)[i]? = b[k]? := by
  have hmem := List.mem_of_getElem? hk
  unfold compressBounds
  dsimp only
  rw [foldl_set_notMem, hL.notCat, scatter_get (notCatIdx_nodup vs)
    (by rw [List.length_take]; omega) _ hk, List.getElem?_take,
    if_pos (List.getElem?_eq_some_iff.mp hk).1]
  · intro j hj
    rw [List.length_replicate, hL.cat, length_cat_add]; exact where_lt hj
  · intro e he heq
    rw [hL.exp] at he
    have := (expansionFrom_mem he).1
    rw [heq] at this
    exact cat_not_disjoint this hmem

theorem compressBounds_cat (hL : CatLayout vs I) {b : Pt} {e : ℕ × ℚ × List ℕ}
    (he : e ∈ I.expansion) : (compressBounds I b)[e.1]? =
      some (if b.getD (e.2.2.headD 0) 0 = 0 then e.2.1 else e.2.1 + (e.2.2.length : ℚ) - 1) := by
  unfold compressBounds
  dsimp only
  refine foldl_set_mem (es := I.expansion) (g := Prod.fst)
    (f := fun e => if b.getD (e.2.2.headD 0) 0 = 0 then e.2.1
          else e.2.1 + (e.2.2.length : ℚ) - 1) ?_ he ?_
  · rw [hL.exp, expansionFrom_fst]; exact whereFrom_nodup _ _ _
  · rw [length_scatter, List.length_replicate, hL.cat, hL.notCat, length_cat_add]
    rw [hL.exp] at he
    exact where_lt (expansionFrom_mem he).1

end

/-- Facts about the layout of a constructed problem used below. -/
structure CatFacts (vs : List Var) (I : Internal) : Prop where
  layout : CatLayout vs I
  wf : WellFormed vs
  dim : I.dim = (notCatIdx vs).length + numBin vs
  ints : ∀ k i, (notCatIdx vs)[k]? = some i → ∀ v, vs[i]? = some v →
    (k ∈ I.intVars ↔ v.type ≠ .R)
  cints : ∀ i, i ∈ compressIntVars I I.intVars ↔ ∃ v, vs[i]? = some v ∧ v.type ≠ .R
  good : GoodLayout I

theorem catFacts_construct (hw : WellFormed vars) :
    CatFacts (simpVars eps vars) (construct eps vars) := by
  refine ⟨catLayout_construct eps vars, hw.simp, ?_, ?_, ?_, goodLayout_construct hw⟩
  · rw [construct_eq hw, ← length_nonCats]; rfl
  · intro k i hk v hv
    have hnc := nonCats_get hk
    rw [hv] at hnc
    have hvc : v.type ≠ .C := by
      simpa [nonCats] using (List.mem_filter.mp (List.mem_of_getElem? hnc)).2
    rw [construct_eq hw]
    have ei : (layout eps vars).intVars =
      whereFrom (fun v => decide (v.type = .I)) 0 (nonCats (simpVars eps vars)) ++
      List.range' (nonCats (simpVars eps vars)).length (numBin (simpVars eps vars)) := rfl
    have hklt := (List.getElem?_eq_some_iff.mp hnc).1
    rw [ei, List.mem_append, List.mem_range'_1, mem_where]
    constructor
    · rintro (⟨w, hw1, hw2⟩ | h)
      · rw [hnc] at hw1; cases hw1
        have : v.type = .I := by simpa using hw2
        rw [this]; simp
      · omega
    · intro h
      refine .inl ⟨v, hnc, ?_⟩
      cases hv' : v.type
      · exact absurd hv' h
      · simp
      · exact absurd hv' hvc
  · intro i
    rw [construct_eq hw, compressIntVars_layout, mem_where]
    simp

/-- The last category. -/
theorem CatFacts.group {vs : List Var} {I : Internal} (hF : CatFacts vs I) {e : ℕ × ℚ × List ℕ}
    (he : e ∈ I.expansion) : ∃ v, vs[e.1]? = some v ∧ v.type = .C ∧ e.2.1 = v.lower ∧
      e.2.2.length = v.numCats ∧ IsInt v.lower ∧ v.lower + (e.2.2.length : ℚ) - 1 = v.upper ∧
      v.lower ≤ v.upper := by
  have he' := he
  rw [hF.layout.exp] at he'
  obtain ⟨m1, m2, m3⟩ := expansionFrom_mem he'
  obtain ⟨v, hv, hvc⟩ := mem_where.mp m1
  rw [getD_of hv] at m2 m3
  have hvC : v.type = .C := by simpa using hvc
  obtain ⟨h1, h2⟩ := hF.wf v (List.mem_of_getElem? hv)
  obtain ⟨⟨a, ha⟩, ⟨b, hb⟩⟩ := h2 (by rw [hvC]; simp)
  refine ⟨v, hv, hvC, m2, m3, ⟨a, ha⟩, ?_, h1⟩
  have hab : a ≤ b := by rw [ha, hb] at h1; exact_mod_cast h1
  have hn : (v.numCats : ℤ) = b - a + 1 := by
    unfold Var.numCats
    rw [ha, hb]
    have : ((b : ℚ) - a + 1) = ((b - a + 1 : ℤ) : ℚ) := by push_cast; ring
    rw [this, Int.floor_intCast, Int.toNat_of_nonneg (by omega)]
  have hn' : (v.numCats : ℚ) = b - a + 1 := by exact_mod_cast hn
  rw [m3, hn', ha, hb]; ring

/-- The compressed bounds of a sub-box, by variable: the bounds of the variable in the sub-box, or
values between the first and the last category. -/
theorem compressed_bounds {vs : List Var} {I : Internal} (hF : CatFacts vs I) {lo up : Pt}
    (hb : SubBox I lo up) {i : ℕ} (hi : i < vs.length) :
    ∃ v a b, vs[i]? = some v ∧ (compressBounds I lo)[i]? = some a ∧
      (compressBounds I up)[i]? = some b ∧ a ≤ b ∧ (v.type ≠ .R → IsInt a ∧ IsInt b) ∧
      (v.type = .C → v.lower ≤ a ∧ b ≤ v.upper) := by
  have hv : vs[i]? = some vs[i] := List.getElem?_eq_getElem hi
  have hlen := hb.dim
  have hul := hb.box.length
  have hd := hF.dim
  rcases cat_or_not hi with h | h
  · have : i ∈ I.expansion.map Prod.fst := by rw [hF.layout.exp, expansionFrom_fst]; exact h
    obtain ⟨e, he, rfl⟩ := List.mem_map.mp this
    obtain ⟨v, g1, g2, g3, g4, g5, g6, g7⟩ := hF.group he
    rw [compressBounds_cat hF.layout he, compressBounds_cat hF.layout he]
    refine ⟨v, _, _, g1, rfl, rfl, ?_⟩
    rw [g3, g6]
    have hne := hF.good.nonempty e he
    have hhead : e.2.2.headD 0 ∈ e.2.2 := by
      cases h : e.2.2 with
      | nil => exact absurd h hne
      | cons a l => simp
    obtain ⟨b1, b2⟩ := hb.bin e he _ hhead
    obtain ⟨-, p2, p3, -, -⟩ := hF.good.pos e he _ hhead
    have hle := hb.box.le _ (by rw [hb.dim]; exact p2)
    obtain ⟨-, ⟨zl, hzl⟩, ⟨zu, hzu⟩⟩ := hb.box.int _ p3
    have hup : IsInt v.upper := (hF.wf v (List.mem_of_getElem? g1)).2 (by rw [g2]; simp) |>.2
    refine ⟨?_, ?_, ?_⟩
    · by_cases h0 : lo.getD (e.2.2.headD 0) 0 = 0
      · rw [if_pos h0]
        split
        · exact le_rfl
        · exact g7
      · rw [if_neg h0, if_neg]
        intro hu0
        exact h0 (le_antisymm (hle.trans_eq hu0) b1)
    · intro _
      constructor <;> split <;> assumption
    · intro _
      constructor
      · split
        · exact le_rfl
        · exact g7
      · split
        · exact g7
        · exact le_rfl
  · obtain ⟨k, hk⟩ := List.getElem?_of_mem h
    have hklt := (List.getElem?_eq_some_iff.mp hk).1
    have hlk : lo[k]? = some (lo[k]'(by omega)) := List.getElem?_eq_getElem _
    have huk : up[k]? = some (up[k]'(by omega)) := List.getElem?_eq_getElem _
    refine ⟨vs[i], _, _, hv, (compressBounds_notCat hF.layout (by omega) hk).trans hlk,
      (compressBounds_notCat hF.layout (by omega) hk).trans huk, ?_, ?_, ?_⟩
    · have := hb.box.le k (by omega)
      rwa [getD_of hlk, getD_of huk] at this
    · intro ht
      have := hb.box.int k ((hF.ints k i hk _ hv).mpr ht)
      rw [getD_of hlk, getD_of huk] at this
      exact this.2
    · intro hc
      exfalso
      obtain ⟨w, hw1, hw2⟩ := mem_where.mp h
      rw [hv] at hw1; cases hw1
      simp [hc] at hw2

theorem expand_proposable {vs : List Var} {I : Internal} (hF : CatFacts vs I) {lo up : Pt}
    (hb : SubBox I lo up) {p : Pt}
    (hp : GoodPt (compressBounds I lo) (compressBounds I up) (compressIntVars I I.intVars) p) :
    Proposable I (expandPt I p) ∧ compressPt I (expandPt I p) = p := by
  have hpl : p.length = vs.length := by rw [hp.length, length_compressBounds hF.layout]
  have hint : ∀ i v, vs[i]? = some v → v.type ≠ .R → IsInt (p.getD i 0) := fun i v hv ht =>
    hp.int i ((hF.cints i).mpr ⟨v, hv, ht⟩)
  have hc : CatValues vs p := by
    intro i v x hv hvC hx
    have hi := (List.getElem?_eq_some_iff.mp hv).1
    obtain ⟨v', a, b, e1, e2, e3, -, -, e6⟩ := compressed_bounds hF hb hi
    rw [hv] at e1; cases e1
    obtain ⟨e7, e8⟩ := e6 hvC
    have hbx := hp.box i (by rw [length_compressBounds hF.layout]; exact hi)
    rw [getD_of e2, getD_of e3, getD_of hx] at hbx
    have hr : v.type ≠ .R := by rw [hvC]; simp
    have hw := hF.wf v (List.mem_of_getElem? hv)
    refine (cat_value_iff hw.1 (hw.2 hr).1 (hw.2 hr).2 x).mp ⟨by linarith, by linarith, ?_⟩
    have := hint i v hv hr
    rwa [getD_of hx] at this
  have hoh := fun e he => (expand_oneHot hF.layout hpl hc e he).1
  refine ⟨⟨by rw [length_expand hF.layout, hF.dim], ?_, hoh⟩, ?_⟩
  · intro i hi
    obtain ⟨hid, -, -⟩ := hF.good.box.int i hi
    by_cases hlt : i < (notCatIdx vs).length
    · have hk : (notCatIdx vs)[i]? = some (notCatIdx vs)[i] := List.getElem?_eq_getElem hlt
      have hm : (notCatIdx vs)[i] < vs.length := where_lt (List.getElem_mem hlt)
      have hv : vs[(notCatIdx vs)[i]]? = some vs[(notCatIdx vs)[i]] := List.getElem?_eq_getElem hm
      have hx : p[(notCatIdx vs)[i]]? = some (p[(notCatIdx vs)[i]]'(by omega)) :=
        List.getElem?_eq_getElem _
      have he : (expandPt I p)[i]? = p[(notCatIdx vs)[i]]? := by
        unfold expandPt
        rw [hF.layout.notCat, List.getElem?_append_left (by rw [length_gather]; exact hlt),
          getElem?_gather hk (by omega)]
      have := hint _ _ hv ((hF.ints i _ hk _ hv).mp hi)
      rw [getD_of hx] at this
      rw [getD_of (he.trans hx)]
      exact this
    · have hid' : i < I.dim := by rw [← hF.good.dim]; exact hid
      obtain ⟨e, he, hie⟩ := hF.good.cover i (by rw [hF.layout.notCat]; omega) hid'
      rcases oneHot_value (hoh e he) i hie with h | h <;> rw [h]
      · exact ⟨0, by simp⟩
      · exact ⟨1, by simp⟩
  · rw [compressPt_place hoh, place_expand hF.layout hpl hc]

/-- A search with these bounds is a search in this space. -/
theorem searchSpace_subBox {vs : List Var} {I : Internal} (hF : CatFacts vs I) {lo up : Pt}
    (hb : SubBox I lo up) : SearchSpace (I.withBox lo up) (InSubBox I lo up) := by
  have eT : ∀ q, toWork (I.withBox lo up) q = toWork I q := fun q => rfl
  have eF : ∀ q, fromWork (I.withBox lo up) q = fromWork I q := fun q => rfl
  by_cases h0 : I.expansion = []
  · have eW : workBox (I.withBox lo up) = (lo, up, I.intVars) := by
      unfold workBox; rw [if_pos (show (I.withBox lo up).expansion = [] from h0)]; rfl
    have e1 : ∀ q, fromWork I q = q := fun q => by unfold fromWork; rw [if_pos h0]
    have e2 : ∀ q, toWork I q = q := fun q => by unfold toWork; rw [if_pos h0]
    refine ⟨by rw [eW]; exact hb.box, ?_, fun q hq => hq.2, fun q _ => by rw [eF, eT, e2, e1]⟩
    intro p hp
    rw [eF, e1]
    refine ⟨?_, by rw [e2]; exact hp⟩
    unfold GoodWork at hp
    rw [eW] at hp
    exact ⟨by rw [hp.length, hb.dim], hp.int, by rw [h0]; simp⟩
  · have eW : workBox (I.withBox lo up) =
        (compressBounds I lo, compressBounds I up, compressIntVars I I.intVars) := by
      unfold workBox; rw [if_neg (show ¬ (I.withBox lo up).expansion = [] from h0)]; rfl
    have e1 : ∀ q, fromWork I q = expandPt I q := fun q => by unfold fromWork; rw [if_neg h0]
    have e2 : ∀ q, toWork I q = compressPt I q := fun q => by unfold toWork; rw [if_neg h0]
    refine ⟨?_, ?_, fun q hq => hq.2, ?_⟩
    · rw [eW]
      have hl := length_compressBounds hF.layout lo
      have hu := length_compressBounds hF.layout up
      refine ⟨by rw [hl, hu], fun i hi => ?_, fun i hi => ?_⟩
      · rw [hl] at hi
        obtain ⟨v, a, b, -, e2, e3, e4, -⟩ := compressed_bounds hF hb hi
        dsimp only
        rw [getD_of e2, getD_of e3]; exact e4
      · obtain ⟨v, hv, ht⟩ := (hF.cints i).mp hi
        have hi' := (List.getElem?_eq_some_iff.mp hv).1
        obtain ⟨v', a, b, e1, e2, e3, -, e5, -⟩ := compressed_bounds hF hb hi'
        rw [hv] at e1; cases e1
        dsimp only
        rw [getD_of e2, getD_of e3, hl]
        exact ⟨hi', e5 ht⟩
    · intro p hp
      unfold GoodWork at hp
      rw [eW] at hp
      obtain ⟨g1, g2⟩ := expand_proposable hF hb hp
      rw [eF, e1]
      refine ⟨g1, ?_⟩
      unfold GoodWork
      rw [eW, e2, g2]
      exact hp
    · rintro q ⟨hq, -⟩
      rw [eF, eT, e2, e1, compressPt_place hq.oneHot,
        expand_place hF.layout (by rw [hq.length, hF.dim]) hq.oneHot]

/-- The non-categorical coordinates of a point found are between the bounds of the search. -/
theorem InSubBox.plain {vs : List Var} {I : Internal} (hF : CatFacts vs I) {lo up : Pt}
    (hb : SubBox I lo up) {q : Pt} (hq : InSubBox I lo up q) {k : ℕ}
    (hk : k < I.notCategorical.length) : lo.getD k 0 ≤ q.getD k 0 ∧ q.getD k 0 ≤ up.getD k 0 := by
  have hlen := hb.dim
  have hul := hb.box.length
  have hd := hF.dim
  have hql := hq.1.length
  have hg := hq.2
  unfold GoodWork at hg
  by_cases h0 : I.expansion = []
  · have eW : workBox (I.withBox lo up) = (lo, up, I.intVars) := by
      unfold workBox; rw [if_pos (show (I.withBox lo up).expansion = [] from h0)]; rfl
    have e2 : ∀ q, toWork I q = q := fun q => by unfold toWork; rw [if_pos h0]
    rw [eW, e2] at hg
    rw [hF.layout.notCat] at hk
    exact hg.box k (by show k < lo.length; omega)
  · have eW : workBox (I.withBox lo up) =
        (compressBounds I lo, compressBounds I up, compressIntVars I I.intVars) := by
      unfold workBox; rw [if_neg (show ¬ (I.withBox lo up).expansion = [] from h0)]; rfl
    have e2 : ∀ q, toWork I q = compressPt I q := fun q => by unfold toWork; rw [if_neg h0]
    rw [eW, e2] at hg
    rw [hF.layout.notCat] at hk
    have hk' : (notCatIdx vs)[k]? = some (notCatIdx vs)[k] := List.getElem?_eq_getElem hk
    have hm : (notCatIdx vs)[k] < vs.length := where_lt (List.getElem_mem hk)
    have hlk : lo[k]? = some (lo[k]'(by omega)) := List.getElem?_eq_getElem _
    have huk : up[k]? = some (up[k]'(by omega)) := List.getElem?_eq_getElem _
    have hqk : q[k]? = some (q[k]'(by omega)) := List.getElem?_eq_getElem _
    have hbx := hg.box _ (by rw [length_compressBounds hF.layout]; exact hm)
    dsimp only at hbx
    rw [getD_of ((compressBounds_notCat hF.layout (by omega) hk').trans hlk),
      getD_of ((compressBounds_notCat hF.layout (by omega) hk').trans huk),
      compressPt_place hq.1.oneHot,
      getD_of ((place_notCat hF.layout (by omega) hk').trans hqk)] at hbx
    rw [getD_of hlk, getD_of huk, getD_of hqk]
    exact hbx

end Rbfopt
