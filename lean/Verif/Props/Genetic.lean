import Verif.Spec.Genetic
import Verif.Lemmas.Layout

/-! # C48: the genetic algorithm -/

namespace Rbfopt

variable {eps : ℚ} {vars : List Var}

/-- Compressing a feasible internal point gives a point of the compressed box. -/
theorem good_compress (hw : WellFormed vars) {q : Pt} (hq : FeasibleInternal (construct eps vars) q) :
    let I := construct eps vars
    GoodPt (compressBounds I I.lower) (compressBounds I I.upper) (compressIntVars I I.intVars)
      (compressPt I q) := by
  dsimp only
  have hmem := (C27_integer_vars (eps := eps) hw).2
  have hb1 := (C27_bounds (eps := eps) hw).1
  have hb2 := (C27_bounds (eps := eps) hw).2
  rw [hb1, hb2]
  have hlen : List.Forall₂ Var.Feasible' (unfixedSpec eps vars)
      (compressPt (construct eps vars) q) := by
    rw [construct_eq hw] at hq ⊢
    rw [compressPt_place (feasibleInternal_iff.mp hq).2.2]
    exact forall₂_simp.mp (place_feasible hw hq)
  rw [forall₂_iff_get] at hlen
  obtain ⟨h1, h2⟩ := hlen
  have key : ∀ (i : ℕ) (v : Var), (vars.filter (fun v => !v.isFixed eps))[i]? = some v →
      v.Feasible' ((compressPt (construct eps vars) q).getD i 0) := by
    intro i v hv
    have hi : i < (compressPt (construct eps vars) q).length := by
      rw [h1]; exact (List.getElem?_eq_some_iff.mp hv).1
    rw [getD_of (List.getElem?_eq_getElem hi)]
    exact h2 i v _ hv (List.getElem?_eq_getElem hi)
  refine ⟨by rw [h1, List.length_map]; rfl, ?_, ?_⟩
  · intro i hi
    rw [List.length_map] at hi
    have hv := List.getElem?_eq_getElem hi
    have := key i _ hv
    rw [getD_of (l := List.map Var.lower _) (by rw [List.getElem?_map, hv]; rfl),
      getD_of (l := List.map Var.upper _) (by rw [List.getElem?_map, hv]; rfl)]
    exact ⟨this.1, this.2.1⟩
  · intro i hi
    obtain ⟨v, hv, ht⟩ := (hmem i).mp hi
    exact (key i v hv).2.2 ht

/-- Points of the working space. -/
def GoodWork (I : Internal) (p : Pt) : Prop := GoodPt (workBox I).1 (workBox I).2.1 (workBox I).2.2 p

theorem goodBox_work (hw : WellFormed vars) :
    let b := workBox (construct eps vars)
    GoodBox b.1 b.2.1 b.2.2 := by
  dsimp only
  unfold workBox
  split
  · exact goodBox_construct hw
  · exact goodBox_compressed hw

theorem fromWork_feasible (hw : WellFormed vars) {p : Pt} (h : GoodWork (construct eps vars) p) :
    FeasibleInternal (construct eps vars) (fromWork (construct eps vars) p) := by
  unfold GoodWork workBox at h
  unfold fromWork
  split at h
  · rename_i h0; rw [if_pos h0]; exact good_plain hw h0 h
  · rename_i h0; rw [if_neg h0]; exact good_expand hw h

theorem from_toWork (hw : WellFormed vars) {q : Pt} (h : FeasibleInternal (construct eps vars) q) :
    fromWork (construct eps vars) (toWork (construct eps vars) q) = q := by
  unfold fromWork toWork
  split
  · rfl
  · exact (C27_expand_compress hw).2 q h

theorem toWork_good (hw : WellFormed vars) {q : Pt} (h : FeasibleInternal (construct eps vars) q) :
    GoodWork (construct eps vars) (toWork (construct eps vars) q) := by
  unfold GoodWork workBox toWork
  split
  · exact h.good
  · exact good_compress hw h

/-- What the search by sampling and the genetic algorithm need of a space with points `K`: the box of
the working space is proper, its points correspond to points of `K`, and points of `K` to points of
the working space. -/
structure SearchSpace (I : Internal) (K : Pt → Prop) : Prop where
  box : GoodBox (workBox I).1 (workBox I).2.1 (workBox I).2.2
  fromW : ∀ p, GoodWork I p → K (fromWork I p)
  toW : ∀ q, K q → GoodWork I (toWork I q)
  back : ∀ q, K q → fromWork I (toWork I q) = q

/-- The internal problem with its own bounds. -/
theorem searchSpace_construct (hw : WellFormed vars) :
    SearchSpace (construct eps vars) (FeasibleInternal (construct eps vars)) :=
  ⟨goodBox_work hw, fun _ => fromWork_feasible hw, fun _ => toWork_good hw, fun _ => from_toWork hw⟩

variable {I : Internal} {K : Pt → Prop}

theorem samplePoint_in (hS : SearchSpace I K) {u : Pt} (hu : UnitRow (workDim I) u) :
    K (samplePoint I u) := by
  have hb := hS.box
  unfold samplePoint
  apply hS.fromW
  obtain ⟨h1, h2⟩ := hu
  unfold workDim at h1
  refine round_box_good hb (by simpa using h1) fun i hi => ?_
  have hlt : i < u.length := by omega
  rw [List.getD_eq_getElem?_getD (l := List.mapIdx _ _), List.getElem?_mapIdx,
    List.getElem?_eq_getElem hlt]
  simp only [Option.map_some, Option.getD_some]
  obtain ⟨h3, h4⟩ := h2 _ (List.getElem_mem hlt)
  have h5 := hb.le i hi
  constructor <;> nlinarith

theorem samplePoint_feasible (hw : WellFormed vars) {u : Pt}
    (hu : UnitRow (workDim (construct eps vars)) u) :
    FeasibleInternal (construct eps vars) (samplePoint (construct eps vars) u) :=
  samplePoint_in (searchSpace_construct hw) hu

theorem gaMate_get {coin : ℕ → Bool} {f m : Pt} (hl : f.length = m.length) (i : ℕ) :
    (gaMate coin f m).getD i 0 = f.getD i 0 ∨ (gaMate coin f m).getD i 0 = m.getD i 0 := by
  unfold gaMate
  rw [List.getD_eq_getElem?_getD (l := List.mapIdx _ _), List.getElem?_mapIdx]
  by_cases h : i < f.length
  · have h1 : (f.zip m)[i]? = some (f[i], m[i]'(by omega)) := by
      rw [List.getElem?_eq_getElem (by simp; omega)]; simp
    rw [h1]
    simp only [Option.map_some, Option.getD_some]
    rw [getD_of (List.getElem?_eq_getElem h), getD_of (List.getElem?_eq_getElem (hl ▸ h))]
    split
    · left; rfl
    · right; rfl
  · have h1 : (f.zip m)[i]? = none := by rw [List.getElem?_eq_none]; simp; omega
    rw [h1]
    left
    rw [List.getD_eq_getElem?_getD, List.getElem?_eq_none (by omega)]
    rfl

theorem gaMate_good {coin : ℕ → Bool} {f m : Pt} (hf : GoodWork I f)
    (hm : GoodWork I m) : GoodWork I (gaMate coin f m) := by
  have hl : f.length = m.length := by rw [hf.length, hm.length]
  refine ⟨by unfold gaMate; rw [List.length_mapIdx, List.length_zip, hf.length, hm.length, min_self],
    fun i hi => ?_, fun i hi => ?_⟩
  · rcases gaMate_get (coin := coin) hl i with h | h <;> rw [h]
    · exact hf.box i hi
    · exact hm.box i hi
  · rcases gaMate_get (coin := coin) hl i with h | h <;> rw [h]
    · exact hf.int i hi
    · exact hm.int i hi

/-- What `ga_mutate` does to one coordinate: nothing, or a new value between the bounds, integral if
the variable is. -/
theorem gaMutate_get {lower upper : Pt} {ints : List ℕ} {maxPert : ℕ} {m : Mutation} {p : Pt}
    (hb : GoodBox lower upper ints) (hm : MutationOk lower.length maxPert m)
    (hp : p.length = lower.length) (i : ℕ) :
    (i ∉ m.coords → (gaMutate lower upper ints m p).getD i 0 = p.getD i 0) ∧
    (i ∈ m.coords → lower.getD i 0 ≤ (gaMutate lower upper ints m p).getD i 0 ∧
      (gaMutate lower upper ints m p).getD i 0 ≤ upper.getD i 0 ∧
      (i ∈ ints → IsInt ((gaMutate lower upper ints m p).getD i 0))) := by
  unfold gaMutate
  constructor
  · intro h
    rw [List.getD_eq_getElem?_getD, scatter_notMem h, List.getD_eq_getElem?_getD]
  · intro h
    obtain ⟨k, hk⟩ := List.getElem?_of_mem h
    have hkl := (List.getElem?_eq_some_iff.mp hk).1
    have hil := hm.mem i h
    rw [List.getD_eq_getElem?_getD (l := scatter _ _ _), scatter_get hm.nodup (by simp [hm.us])
      (fun j hj => by rw [hp]; exact hm.mem j hj) hk]
    have hu : m.us[k]? = some (m.us[k]'(by rw [hm.us]; exact hkl)) :=
      List.getElem?_eq_getElem _
    rw [List.getElem?_zipWith, hk, hu]
    simp only [Option.getD_some]
    obtain ⟨h1, h2⟩ := hm.unit _ (List.mem_of_getElem? hu)
    generalize m.us[k]'(by rw [hm.us]; exact hkl) = u at h1 h2
    have h3 := hb.le i hil
    have h4 : lower.getD i 0 ≤ lower.getD i 0 + u * (upper.getD i 0 - lower.getD i 0) ∧
        lower.getD i 0 + u * (upper.getD i 0 - lower.getD i 0) ≤ upper.getD i 0 := by
      constructor <;> nlinarith
    split
    · rename_i hi
      obtain ⟨-, ⟨a, ha⟩, ⟨b, hb'⟩⟩ := hb.int i hi
      rw [ha, hb'] at h4 ⊢
      have := aroundEven_mem (a := a) (b := b)
        (x := (a : ℚ) + u * (b - a)) (by linarith) (by linarith)
      exact ⟨by exact_mod_cast this.1, by exact_mod_cast this.2, fun _ => ⟨_, rfl⟩⟩
    · rename_i hi
      exact ⟨h4.1, h4.2, fun h => absurd h hi⟩

theorem gaMutate_good (hS : SearchSpace I K) {maxPert : ℕ} {m : Mutation} {p : Pt}
    (hm : MutationOk (workDim I) maxPert m)
    (hp : GoodWork I p) :
    GoodWork I (gaMutate (workBox I).1
      (workBox I).2.1 (workBox I).2.2 m p) := by
  have hb := hS.box
  refine ⟨by unfold gaMutate; rw [length_scatter]; exact hp.length, fun i hi => ?_, fun i hi => ?_⟩
  · obtain ⟨h1, h2⟩ := gaMutate_get hb hm hp.length i
    by_cases h : i ∈ m.coords
    · exact ⟨(h2 h).1, (h2 h).2.1⟩
    · rw [h1 h]; exact hp.box i hi
  · obtain ⟨h1, h2⟩ := gaMutate_get hb hm hp.length i
    by_cases h : i ∈ m.coords
    · exact (h2 h).2.2 hi
    · rw [h1 h]; exact hp.int i hi

theorem gather_mem {α : Type} {d : α} {a : List α} {idx : List ℕ} (h : ∀ i ∈ idx, i < a.length)
    {x : α} (hx : x ∈ gather d a idx) : x ∈ a := by
  obtain ⟨i, hi, rfl⟩ := List.mem_map.mp hx
  rw [List.getD_eq_getElem?_getD, List.getElem?_eq_getElem (h i hi)]
  exact List.getElem_mem _

theorem mem_mapIdx_of {α β : Type} {f : ℕ → α → β} {l : List α} {y : β} (h : y ∈ l.mapIdx f) :
    ∃ (i : ℕ), ∃ x ∈ l, y = f i x := by
  obtain ⟨i, hi⟩ := List.getElem?_of_mem h
  rw [List.getElem?_mapIdx] at hi
  obtain ⟨x, hx, rfl⟩ := Option.map_eq_some_iff.mp hi
  exact ⟨i, x, List.mem_of_getElem? hx, rfl⟩

variable {α : Type} [LE α]

theorem gaGeneration_spec (hS : SearchSpace I K) {size gens gen : ℕ} {vals : List α}
    {d : GenDraws} {pop : List Pt} (hs : 4 ≤ size) (hv : vals.length = pop.length)
    (hlen : pop.length = size) (hp : ∀ q ∈ pop, K q)
    (hd : GenDrawsOk I size gens gen vals d) :
    ∃ r rs pop', d.rank = r :: rs ∧ gaGeneration I size d pop = .ok pop' ∧
      pop'.length = size ∧ (∀ q ∈ pop', K q) ∧
      ∃ q, pop[r]? = some q ∧ pop'[0]? = some q := by
  have hrl : d.rank.length = size := by
    rw [hd.rank.perm.length_eq, List.length_range, hv, hlen]
  obtain ⟨r, rs, hr⟩ : ∃ r rs, d.rank = r :: rs := by
    cases h : d.rank with
    | nil => rw [h] at hrl; simp at hrl; omega
    | cons r rs => exact ⟨r, rs, rfl⟩
  have hmem : ∀ i ∈ d.rank, i < pop.length := fun i hi => by
    rw [← hv, ← List.mem_range]; exact hd.rank.perm.subset hi
  obtain ⟨k, hk⟩ : ∃ k, gaSurviving size = k + 1 := ⟨size / 4 - 1, by unfold gaSurviving; omega⟩
  have hk4 : size / 4 = k + 1 := hk
  have hrlt : r < pop.length := hmem r (by rw [hr]; simp)
  have hbest : gather [] pop (d.rank.take (gaSurviving size)) =
      pop.getD r [] :: gather [] pop (rs.take k) := by
    rw [hr, hk]; rfl
  have hbl : (gather [] pop (d.rank.take (gaSurviving size))).length = size / 4 := by
    rw [length_gather, List.length_take, hrl]; unfold gaSurviving; omega
  have hbf : ∀ q ∈ gather [] pop (d.rank.take (gaSurviving size)),
      K q := fun q hq =>
    hp q (gather_mem (fun i hi => hmem i (List.mem_of_mem_take hi)) hq)
  have hperm : ∀ l : List ℕ, l.Perm (List.range (size / 4)) →
      ∀ i ∈ l, i < (gather [] pop (d.rank.take (gaSurviving size))).length := by
    intro l hl i hi
    rw [hbl, ← List.mem_range]; exact hl.subset hi
  have hfa := hperm _ hd.father
  have hmo := hperm _ hd.mother
  have hget : pop.getD r [] = pop[r] := getD_of (List.getElem?_eq_getElem hrlt)
  have hb0 : K (pop.getD r []) :=
    hbf _ (by rw [hbest]; simp)
  refine ⟨r, rs, ?_⟩
  unfold gaGeneration
  dsimp only
  generalize hB : gather [] pop (d.rank.take (gaSurviving size)) = best at *
  subst hbest
  dsimp only
  refine ⟨_, hr, rfl, ?_, ?_, pop[r], List.getElem?_eq_getElem hrlt, ?_⟩
  · have hr1 : (gather [] pop (rs.take k)).length = k := by
      rw [List.length_cons] at hbl; omega
    have hn : gaNew size + 2 * (size / 4) + 1 = size := by
      unfold gaNew gaSurviving; omega
    have e1 := hd.father.length_eq
    have e2 := hd.mother.length_eq
    rw [List.length_range] at e1 e2
    simp only [List.length_append, List.length_cons, List.length_mapIdx, List.length_zip,
      length_gather, List.length_map, List.length_range, List.length_nil, hr1, e1, e2] at hr1 ⊢
    omega
  · intro q hq
    rw [List.mem_append, List.mem_append, List.mem_append] at hq
    rcases hq with ((hq | hq) | hq) | hq
    · rcases List.mem_cons.mp hq with rfl | hq
      · exact hS.fromW _ (hS.toW _ hb0)
      · obtain ⟨i, x, hx, rfl⟩ := mem_mapIdx_of hq
        have hxf := hbf x (List.mem_cons_of_mem _ hx)
        split
        · rename_i m hm
          exact hS.fromW _ (gaMutate_good hS (hd.muts i m hm) (hS.toW _ hxf))
        · exact hS.fromW _ (hS.toW _ hxf)
    · obtain ⟨i, x, hx, rfl⟩ := mem_mapIdx_of hq
      obtain ⟨hx1, hx2⟩ := List.of_mem_zip (a := x.1) (b := x.2) hx
      exact hS.fromW _ (gaMate_good
        (hS.toW _ (hbf _ (gather_mem hfa hx1)))
        (hS.toW _ (hbf _ (gather_mem hmo hx2))))
    · obtain ⟨u, hu, rfl⟩ := List.mem_map.mp hq
      exact samplePoint_in hS (hd.fresh u)
    · rw [List.mem_singleton] at hq
      subst hq
      exact hS.fromW _ (gaMutate_good hS hd.bestMut (hS.toW _ hb0))
  · rw [hS.back _ hb0, hget]; rfl

theorem gaGenerations_in (hS : SearchSpace I K) {size gens gen : ℕ} {objfun : List Pt → List α}
    (hobj : ∀ pop, (objfun pop).length = pop.length) (hs : 4 ≤ size) {draws : List GenDraws}
    {pop : List Pt} (hlen : pop.length = size)
    (hp : ∀ q ∈ pop, K q)
    (hd : DrawsOk I size gens objfun gen pop draws) :
    ∃ pop', gaGenerations I size draws pop = .ok pop' ∧ pop'.length = size ∧
      ∀ q ∈ pop', K q := by
  induction draws generalizing pop gen with
  | nil => exact ⟨pop, rfl, hlen, hp⟩
  | cons d ds ih =>
    obtain ⟨r, rs, pop', -, h2, h3, h4, -⟩ := gaGeneration_spec hS hs (hobj pop) hlen hp hd.1
    obtain ⟨pop'', g1, g2, g3⟩ := ih h3 h4 (hd.2 pop' h2)
    exact ⟨pop'', by rw [gaGenerations, h2]; exact g1, g2, g3⟩

/-- **C48** Whatever the random choices, no generation fails, every individual of every generation
is a feasible point of the internal problem and the size of the population does not change. -/
theorem C48_population (hw : WellFormed vars) {size gens gen : ℕ} {objfun : List Pt → List α}
    (hobj : ∀ pop, (objfun pop).length = pop.length) (hs : 4 ≤ size) {draws : List GenDraws}
    {pop : List Pt} (hlen : pop.length = size)
    (hp : ∀ q ∈ pop, FeasibleInternal (construct eps vars) q)
    (hd : DrawsOk (construct eps vars) size gens objfun gen pop draws) :
    ∃ pop', gaGenerations (construct eps vars) size draws pop = .ok pop' ∧ pop'.length = size ∧
      ∀ q ∈ pop', FeasibleInternal (construct eps vars) q :=
  gaGenerations_in (searchSpace_construct hw) hobj hs hlen hp hd

theorem gaGenerations_append (I : Internal) (size : ℕ) (ds ds' : List GenDraws) (pop : List Pt) :
    gaGenerations I size (ds ++ ds') pop = match gaGenerations I size ds pop with
      | .error e => .error e
      | .ok pop' => gaGenerations I size ds' pop' := by
  induction ds generalizing pop with
  | nil => rfl
  | cons d ds ih =>
    rw [List.cons_append, gaGenerations, gaGenerations]
    cases gaGeneration I size d pop with
    | error e => rfl
    | ok p => exact ih p

theorem drawsOk_append {I : Internal} {size gens gen : ℕ} {objfun : List Pt → List α}
    {ds ds' : List GenDraws} {pop pop' : List Pt}
    (h : DrawsOk I size gens objfun gen pop (ds ++ ds'))
    (hg : gaGenerations I size ds pop = .ok pop') :
    DrawsOk I size gens objfun gen pop ds ∧
    DrawsOk I size gens objfun (gen + ds.length) pop' ds' := by
  induction ds generalizing pop gen with
  | nil => cases hg; exact ⟨trivial, h⟩
  | cons d ds ih =>
    rw [gaGenerations] at hg
    split at hg
    · cases hg
    · rename_i p hp
      obtain ⟨h1, h2⟩ := h
      obtain ⟨g1, g2⟩ := ih (h2 p hp) hg
      refine ⟨⟨h1, fun q hq => ?_⟩, ?_⟩
      · rw [hp] at hq; cases hq; exact g1
      · rw [List.length_cons]; convert g2 using 1; omega

end Rbfopt

namespace Rbfopt

variable {eps : ℚ} {vars : List Var} {α : Type} [LinearOrder α] {I : Internal} {K : Pt → Prop}

theorem ranks_head {vals : List α} {r : ℕ} {rs : List ℕ} (h : Ranks vals (r :: rs)) {a : α}
    (ha : vals[r]? = some a) : ∀ b ∈ vals, a ≤ b := by
  intro b hb
  obtain ⟨j, hj⟩ := List.getElem?_of_mem hb
  have hjm : j ∈ r :: rs := by
    rw [h.perm.mem_iff, List.mem_range]; exact (List.getElem?_eq_some_iff.mp hj).1
  rcases List.mem_cons.mp hjm with rfl | hjm
  · rw [ha] at hj; cases hj; exact le_rfl
  · exact (List.pairwise_cons.mp h.sorted).1 j hjm a b ha hj

theorem gaGenerations_best (hS : SearchSpace I K) {size gens gen : ℕ} {f : Pt → α}
    (hs : 4 ≤ size) {draws : List GenDraws} {pop pop' : List Pt} (hlen : pop.length = size)
    (hp : ∀ q ∈ pop, K q)
    (hd : DrawsOk I size gens (fun pop => pop.map f) gen pop draws)
    (hg : gaGenerations I size draws pop = .ok pop') :
    ∀ q ∈ pop, ∃ q' ∈ pop', f q' ≤ f q := by
  induction draws generalizing pop gen with
  | nil => cases hg; exact fun q hq => ⟨q, hq, le_rfl⟩
  | cons d ds ih =>
    obtain ⟨r, rs, pop1, h1, h2, h3, h4, q0, h5, h6⟩ :=
      gaGeneration_spec hS hs (List.length_map f) hlen hp hd.1
    rw [gaGenerations, h2] at hg
    intro q hq
    have hr := hd.1.rank
    rw [h1] at hr
    have hle := ranks_head hr (a := f q0) (by rw [List.getElem?_map, h5]; rfl) (f q)
      (List.mem_map_of_mem hq)
    obtain ⟨q', g1, g2⟩ := ih h3 h4 (hd.2 pop1 h2) hg q0 (List.mem_of_getElem? h6)
    exact ⟨q', g1, g2.trans hle⟩

/-- **C48** For an objective that is evaluated point by point, the best individual never gets
lost: for every individual of a generation, every later generation contains one that is at least as
good. -/
theorem C48_best_never_lost (hw : WellFormed vars) {size gens gen : ℕ} {f : Pt → α}
    (hs : 4 ≤ size) {draws : List GenDraws} {pop pop' : List Pt} (hlen : pop.length = size)
    (hp : ∀ q ∈ pop, FeasibleInternal (construct eps vars) q)
    (hd : DrawsOk (construct eps vars) size gens (fun pop => pop.map f) gen pop draws)
    (hg : gaGenerations (construct eps vars) size draws pop = .ok pop') :
    ∀ q ∈ pop, ∃ q' ∈ pop', f q' ≤ f q :=
  gaGenerations_best (searchSpace_construct hw) hs hlen hp hd hg

theorem population_size_ge {base dim : ℕ} (h : 0 < dim) : 4 ≤ gaPopulationSize base dim := by
  unfold gaPopulationSize; omega

theorem gaOptimize_in (hS : SearchSpace I K) {base gens : ℕ} {objfun : List Pt → List α}
    (hobj : ∀ pop, (objfun pop).length = pop.length)
    {initial : List Pt} {draws : List GenDraws} {last : List ℕ}
    (hdim : 0 < I.dim)
    (hlen : initial.length = gaPopulationSize base I.dim)
    (hu : ∀ u ∈ initial, UnitRow (workDim I) u)
    (hd : DrawsOk I (gaPopulationSize base I.dim) gens objfun 0
      (initial.map (samplePoint I)) draws)
    (hlast : ∀ pop, gaGenerations I
      (gaPopulationSize base I.dim) draws
      (initial.map (samplePoint I)) = .ok pop → Ranks (objfun pop) last) :
    ∃ p, gaOptimize I base initial draws last = .ok p ∧
      K p ∧
      ∀ f : Pt → α, (∀ pop, objfun pop = pop.map f) → ∀ ds ds' pop, draws = ds ++ ds' →
        gaGenerations I (gaPopulationSize base I.dim) ds
          (initial.map (samplePoint I)) = .ok pop → ∀ q ∈ pop, f p ≤ f q := by
  have hs := population_size_ge (base := base) hdim
  have h0 : ∀ q ∈ initial.map (samplePoint I),
      K q := by
    intro q hq
    obtain ⟨u, h, rfl⟩ := List.mem_map.mp hq
    exact samplePoint_in hS (hu u h)
  have hl0 : (initial.map (samplePoint I)).length =
      gaPopulationSize base I.dim := by rw [List.length_map, hlen]
  obtain ⟨pop, h1, h2, h3⟩ := gaGenerations_in hS hobj hs hl0 h0 hd
  have hr := hlast pop h1
  have hll : last.length = gaPopulationSize base I.dim := by
    rw [hr.perm.length_eq, List.length_range, hobj, h2]
  cases last with
  | nil => simp at hll; omega
  | cons r rs =>
    have hrlt : r < pop.length := by
      rw [← hobj, ← List.mem_range]; exact hr.perm.subset (by simp)
    refine ⟨pop.getD r [], by unfold gaOptimize; rw [h1], ?_, ?_⟩
    · rw [getD_of (List.getElem?_eq_getElem hrlt)]; exact h3 _ (List.getElem_mem _)
    · intro f hf ds ds' pop1 he hg q hq
      have hofun : objfun = fun pop => pop.map f := funext hf
      subst hofun
      subst he
      obtain ⟨g1, g2⟩ := drawsOk_append hd hg
      obtain ⟨pop2, k1, k2, k3⟩ := gaGenerations_in hS hobj hs hl0 h0 g1
      rw [hg] at k1
      cases k1
      have h1' := h1
      rw [gaGenerations_append, hg] at h1'
      obtain ⟨q', l1, l2⟩ := gaGenerations_best hS hs k2 k3 g2 h1' q hq
      refine le_trans (ranks_head hr ?_ (f q') (List.mem_map_of_mem l1)) l2
      rw [List.getElem?_map, List.getElem?_eq_getElem hrlt,
        getD_of (List.getElem?_eq_getElem hrlt)]
      rfl

/-- **C48** The genetic algorithm never fails on a problem with at least one variable, returns a
feasible point, and for an objective evaluated point by point the returned point is at least as good
as every individual of every generation, the initial one included. -/
theorem C48_optimize (hw : WellFormed vars) {base gens : ℕ} {objfun : List Pt → List α}
    (hobj : ∀ pop, (objfun pop).length = pop.length)
    {initial : List Pt} {draws : List GenDraws} {last : List ℕ}
    (hdim : 0 < (construct eps vars).dim)
    (hlen : initial.length = gaPopulationSize base (construct eps vars).dim)
    (hu : ∀ u ∈ initial, UnitRow (workDim (construct eps vars)) u)
    (hd : DrawsOk (construct eps vars) (gaPopulationSize base (construct eps vars).dim) gens objfun 0
      (initial.map (samplePoint (construct eps vars))) draws)
    (hlast : ∀ pop, gaGenerations (construct eps vars)
      (gaPopulationSize base (construct eps vars).dim) draws
      (initial.map (samplePoint (construct eps vars))) = .ok pop → Ranks (objfun pop) last) :
    ∃ p, gaOptimize (construct eps vars) base initial draws last = .ok p ∧
      FeasibleInternal (construct eps vars) p ∧
      ∀ f : Pt → α, (∀ pop, objfun pop = pop.map f) → ∀ ds ds' pop, draws = ds ++ ds' →
        gaGenerations (construct eps vars) (gaPopulationSize base (construct eps vars).dim) ds
          (initial.map (samplePoint (construct eps vars))) = .ok pop → ∀ q ∈ pop, f p ≤ f q :=
  gaOptimize_in (searchSpace_construct hw) hobj hdim hlen hu hd hlast

/-- **C48** A mutation leaves all but `max_size_pert - 1` coordinates unchanged: at most one
coordinate changes in dimension up to 29, and none in dimension 1. -/
theorem C48_mutation {lower upper : Pt} {ints : List ℕ} {gens gen : ℕ} {m : Mutation} {p : Pt}
    (hg : gen < gens) (hb : GoodBox lower upper ints)
    (hm : MutationOk lower.length (gaMaxPert lower.length gens gen) m)
    (hp : p.length = lower.length) :
    (∀ i, i ∉ m.coords → (gaMutate lower upper ints m p).getD i 0 = p.getD i 0) ∧
    (lower.length < 30 → m.coords.length ≤ 1) ∧
    (lower.length = 1 → gaMutate lower upper ints m p = p) := by
  refine ⟨fun i => (gaMutate_get hb hm hp i).1, ?_, ?_⟩
  · intro h
    have h1 := hm.size
    unfold gaMaxPert at h1
    have h2 : ⌊(lower.length : ℚ) * gaRate gens gen⌋.toNat ≤ 2 := by
      have h3 : (lower.length : ℚ) * gaRate gens gen < 3 := by
        unfold gaRate
        have hgs : (0 : ℚ) < gens := by exact_mod_cast (by omega : 0 < gens)
        have hge : (0 : ℚ) ≤ gen := by positivity
        have hl : (lower.length : ℚ) < 30 := by exact_mod_cast h
        have hl0 : (0 : ℚ) ≤ lower.length := by positivity
        have : (1:ℚ)/10 * ((gens : ℚ) - gen) / gens ≤ 1/10 := by
          rw [div_le_iff₀ hgs]; nlinarith
        nlinarith
      have : ⌊(lower.length : ℚ) * gaRate gens gen⌋ < 3 := by
        rw [Int.floor_lt]; exact_mod_cast h3
      omega
    omega
  · intro h
    have h1 := hm.size
    unfold gaMaxPert at h1
    have h2 : m.coords = [] := List.length_eq_zero_iff.mp (by omega)
    unfold gaMutate
    rw [h2]
    cases hz : (List.zipWith (fun i u => let x := lower.getD i 0 + u * (upper.getD i 0 - lower.getD i 0)
      if i ∈ ints then (aroundEven x : ℚ) else x) [] m.us) <;> rfl

/-- **C48** With a population below four individuals (no variables and a base size below four) there
are no survivors and the first generation raises IndexError. -/
theorem C48_too_small {I : Internal} {size : ℕ} (d : GenDraws) (pop : List Pt) (h : size < 4) :
    gaGeneration I size d pop = .error .indexError := by
  have : gaSurviving size = 0 := by unfold gaSurviving; omega
  unfold gaGeneration
  rw [this]
  rfl

/-- **C48** The population is the base size plus four times the dimension (the documentation of
`ga_base_population_size` says base size plus one fifth of the dimension). -/
theorem C48_population_size (base dim : ℕ) : gaPopulationSize base dim = base + 4 * dim := by
  unfold gaPopulationSize; omega

end Rbfopt
