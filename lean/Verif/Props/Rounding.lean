import Verif.Model.Refinement
import Verif.Lemmas.Layout
import Mathlib.Tactic.Linarith
import Mathlib.Tactic.Positivity
import Mathlib.Tactic.FieldSimp

/-! # C52, C51: rounding of categorical groups and of the refinement candidate -/

namespace Rbfopt

/-! ## C52 -/

theorem foldl_zero_length (g : List ℕ) (q : Pt) :
    (g.foldl (fun q i => q.set i 0) q).length = q.length := by
  induction g generalizing q with
  | nil => rfl
  | cons a g ih => rw [List.foldl_cons, ih, List.length_set]

theorem foldl_zero_getD (g : List ℕ) (q : Pt) (i : ℕ) :
    (g.foldl (fun q i => q.set i 0) q).getD i 0 = if i ∈ g then 0 else q.getD i 0 := by
  induction g generalizing q with
  | nil => simp
  | cons a g ih =>
    rw [List.foldl_cons, ih]
    by_cases h1 : i ∈ g
    · simp [h1]
    · rw [if_neg h1]
      by_cases h2 : i = a
      · subst h2
        rw [if_pos (by simp), List.getD_eq_getElem?_getD, List.getElem?_set]
        simp only [if_true]
        split <;> rfl
      · rw [if_neg (by simp [h1, h2]), List.getD_eq_getElem?_getD,
          List.getElem?_set_ne (Ne.symm h2), List.getD_eq_getElem?_getD]

theorem setGroup_length (q : Pt) (g : List ℕ) (c : ℕ) : (setGroup q g c).length = q.length := by
  rw [setGroup, List.length_set, foldl_zero_length]

theorem setGroup_getD {q : Pt} {g : List ℕ} {c : ℕ} (hc : c < q.length) (i : ℕ) :
    (setGroup q g c).getD i 0 = if i = c then 1 else if i ∈ g then 0 else q.getD i 0 := by
  unfold setGroup
  by_cases h : i = c
  · subst h
    rw [if_pos rfl, List.getD_eq_getElem?_getD, List.getElem?_set_self (by rwa [foldl_zero_length])]
    rfl
  · rw [if_neg h, List.getD_eq_getElem?_getD, List.getElem?_set_ne (Ne.symm h),
      ← List.getD_eq_getElem?_getD, foldl_zero_getD]

/-- One-hot, with the chosen position. -/
def HotAt (q : Pt) (g : List ℕ) (c : ℕ) : Prop :=
  c ∈ g ∧ ∀ i ∈ g, q.getD i 0 = if i = c then 1 else 0

theorem HotAt.oneHot {q : Pt} {g : List ℕ} {c : ℕ} (h : HotAt q g c) (hn : g.Nodup) :
    OneHotAt q g := by
  obtain ⟨j, hj, hjc⟩ := List.mem_iff_getElem.mp h.1
  refine ⟨j, hj, ?_⟩
  apply List.ext_getElem
  · simp
  · intro i h1 h2
    rw [List.getElem_map, h.2 _ (List.getElem_mem _), List.getElem_set]
    by_cases e : j = i
    · subst e; simp [hjc]
    · rw [if_neg e, List.getElem_replicate, if_neg]
      intro hc
      rw [← hjc] at hc
      exact e ((List.Nodup.getElem_inj_iff hn).mp hc).symm

theorem OneHotAt.hot {q : Pt} {g : List ℕ} (h : OneHotAt q g) (hn : g.Nodup) :
    ∃ c, HotAt q g c := by
  obtain ⟨j, hj, hh⟩ := h
  refine ⟨g[j], List.getElem_mem _, fun i hi => ?_⟩
  obtain ⟨k, hk, rfl⟩ := List.mem_iff_getElem.mp hi
  have := congrArg (fun l => l[k]?) hh
  simp only [List.getElem?_map, List.getElem?_eq_getElem hk, Option.map_some] at this
  rw [List.getElem?_set] at this
  by_cases e : j = k
  · subst e; simpa [hk] using this
  · rw [if_neg (fun hc => e ((List.Nodup.getElem_inj_iff hn).mp hc).symm)]
    rw [if_neg e, List.getElem?_replicate, if_pos hk] at this
    exact Option.some.inj this

theorem weightedChoice_some {x acc : ℚ} {l : List (ℕ × ℚ)} {c : ℕ} (ha : acc ≤ x)
    (h : weightedChoice x acc l = some c) : ∃ w, (c, w) ∈ l ∧ 0 < w := by
  induction l generalizing acc with
  | nil => cases h
  | cons y l ih =>
    obtain ⟨i, w⟩ := y
    unfold weightedChoice at h
    split at h
    · rename_i hx
      cases h
      exact ⟨w, by simp, by linarith⟩
    · rename_i hx
      obtain ⟨w', hm, hw⟩ := ih (not_lt.mp hx) h
      exact ⟨w', by simp [hm], hw⟩

theorem weightedChoice_none {x acc : ℚ} {l : List (ℕ × ℚ)} (ha : acc ≤ x)
    (h : weightedChoice x acc l = none) : acc + (l.map Prod.snd).sum ≤ x := by
  induction l generalizing acc with
  | nil => simpa using ha
  | cons y l ih =>
    obtain ⟨i, w⟩ := y
    unfold weightedChoice at h
    split at h
    · cases h
    · rename_i hx
      have := ih (not_lt.mp hx) h
      simp only [List.map_cons, List.sum_cons]
      linarith

/-- The chosen position belongs to the group, and unless all entries cancel its entry contributes to
the sum. -/
theorem chooseInGroup_ok {u : ℚ} {q : Pt} {g : List ℕ} {c : ℕ} (hu : 0 ≤ u)
    (h : chooseInGroup u q g = .ok c) :
    c ∈ g ∧ (groupSum q g ≠ 0 → 0 < q.getD c 0 / groupSum q g) := by
  unfold chooseInGroup at h
  dsimp only at h
  split at h
  · rename_i hs
    split at h
    · rename_i c' hc
      cases h
      exact ⟨List.mem_of_getElem? hc, fun hn => absurd hs hn⟩
    · cases h
  · split at h
    · cases h
    · split at h
      · rename_i c' hc
        cases h
        obtain ⟨w, hm, hw⟩ := weightedChoice_some hu hc
        obtain ⟨i, hi, he⟩ := List.mem_map.mp hm
        cases he
        exact ⟨hi, fun _ => hw⟩
      · cases h

theorem sum_map_div (l : List ℕ) (f : ℕ → ℚ) (s : ℚ) :
    (l.map (fun i => f i / s)).sum = (l.map f).sum / s := by
  induction l with
  | nil => simp
  | cons a l ih => simp only [List.map_cons, List.sum_cons, ih, add_div]

/-- Choosing succeeds for every random number in [0, 1) if no entry is negative. -/
theorem chooseInGroup_total {u : ℚ} {q : Pt} {g : List ℕ} (h0 : 0 ≤ u) (h1 : u < 1) (hg : g ≠ [])
    (hq : ∀ i ∈ g, 0 ≤ q.getD i 0) : ∃ c, chooseInGroup u q g = .ok c := by
  unfold chooseInGroup
  dsimp only
  have hs0 : 0 ≤ groupSum q g := by
    unfold groupSum
    apply List.sum_nonneg
    intro x hx
    obtain ⟨i, hi, rfl⟩ := List.mem_map.mp hx
    exact hq i hi
  split
  · have hlen : 0 < g.length := List.length_pos_iff.mpr hg
    have : ⌊u * g.length⌋.toNat < g.length := by
      have : ⌊u * g.length⌋ < (g.length : ℤ) := by
        rw [Int.floor_lt]
        have : (0:ℚ) < g.length := by exact_mod_cast hlen
        push_cast
        nlinarith
      omega
    rw [List.getElem?_eq_getElem this]
    exact ⟨_, rfl⟩
  · rename_i hs
    rw [if_neg]
    · split
      · exact ⟨_, rfl⟩
      · rename_i hn
        exfalso
        have := weightedChoice_none h0 hn
        rw [List.map_map] at this
        have e : (List.map (Prod.snd ∘ fun i => (i, q.getD i 0 / groupSum q g)) g).sum =
            groupSum q g / groupSum q g := sum_map_div g _ _
        rw [e, div_self hs] at this
        linarith
    · rintro ⟨i, hi, hc⟩
      have := div_nonneg (hq i hi) hs0
      linarith

theorem roundCategorical_length {gs : List (List ℕ)} {us : List ℚ} {q q' : Pt}
    (h : roundCategorical gs us q = .ok q') : q'.length = q.length := by
  induction gs generalizing us q with
  | nil => cases h; rfl
  | cons g gs ih =>
    unfold roundCategorical at h
    split at h
    · cases h
    · rw [ih h, setGroup_length]

/-- Random numbers returned by `np.random`: in [0, 1). -/
def UnitDraws (us : List ℚ) : Prop := ∀ u ∈ us, 0 ≤ u ∧ u < 1

theorem UnitDraws.headD {us : List ℚ} (h : UnitDraws us) : 0 ≤ us.headD 0 ∧ us.headD 0 < 1 := by
  cases us with
  | nil => simp
  | cons u us => exact h u (by simp)

theorem UnitDraws.tail {us : List ℚ} (h : UnitDraws us) : UnitDraws us.tail :=
  fun u hu => h u (List.mem_of_mem_tail hu)

/-- **C52** Positions outside the groups are not touched. -/
theorem C52_others_unchanged {gs : List (List ℕ)} {us : List ℚ} {q q' : Pt} (hu : UnitDraws us)
    (hlt : ∀ g ∈ gs, ∀ i ∈ g, i < q.length)
    (h : roundCategorical gs us q = .ok q') :
    q'.length = q.length ∧ ∀ i, (∀ g ∈ gs, i ∉ g) → q'.getD i 0 = q.getD i 0 := by
  refine ⟨roundCategorical_length h, ?_⟩
  induction gs generalizing us q with
  | nil => cases h; exact fun _ _ => rfl
  | cons g gs ih =>
    unfold roundCategorical at h
    split at h
    · cases h
    · rename_i c hc
      have hcg := (chooseInGroup_ok hu.headD.1 hc).1
      have hcl := hlt g (by simp) c hcg
      intro i hi
      rw [ih hu.tail (fun g' hg' i hi => by rw [setGroup_length]; exact hlt g' (by simp [hg']) i hi)
        h i (fun g' hg' => hi g' (by simp [hg'])), setGroup_getD hcl,
        if_neg (fun e => hi g (by simp) (by rw [e]; exact hcg)), if_neg (hi g (by simp))]

theorem groupSum_congr {q q' : Pt} {g : List ℕ} (h : ∀ i ∈ g, q.getD i 0 = q'.getD i 0) :
    groupSum q g = groupSum q' g := by
  unfold groupSum
  rw [List.map_congr_left h]

/-- **C52** After rounding every group holds exactly one 1 and otherwise 0; unless the entries of
the group sum to zero, the 1 is at a position whose entry had a positive share of the sum. -/
theorem C52_one_hot {gs : List (List ℕ)} {us : List ℚ} {q q' : Pt} (hu : UnitDraws us)
    (hlt : ∀ g ∈ gs, ∀ i ∈ g, i < q.length) (hn : ∀ g ∈ gs, g.Nodup)
    (hd : gs.Pairwise (fun g g' => ∀ i ∈ g, i ∉ g')) (h : roundCategorical gs us q = .ok q') :
    ∀ g ∈ gs, OneHotAt q' g ∧
      (groupSum q g ≠ 0 → ∃ c ∈ g, q'.getD c 0 = 1 ∧ 0 < q.getD c 0 / groupSum q g) := by
  induction gs generalizing us q with
  | nil => simp
  | cons g gs ih =>
    unfold roundCategorical at h
    split at h
    · cases h
    · rename_i c hc
      obtain ⟨hcg, hpos⟩ := chooseInGroup_ok hu.headD.1 hc
      have hcl := hlt g (by simp) c hcg
      have hlt' : ∀ g' ∈ gs, ∀ i ∈ g', i < (setGroup q g c).length := fun g' hg' i hi => by
        rw [setGroup_length]; exact hlt g' (by simp [hg']) i hi
      rw [List.pairwise_cons] at hd
      have hsame := (C52_others_unchanged hu.tail hlt' h).2
      have hg' : ∀ i ∈ g, q'.getD i 0 = if i = c then 1 else 0 := by
        intro i hi
        rw [hsame i (fun g' hm hc => hd.1 g' hm i hi hc), setGroup_getD hcl,
          if_pos hi]
      intro g' hm
      rcases List.mem_cons.mp hm with rfl | hm
      · refine ⟨HotAt.oneHot ⟨hcg, hg'⟩ (hn _ (by simp)), fun hs => ⟨c, hcg, ?_, hpos hs⟩⟩
        rw [hg' c hcg, if_pos rfl]
      · have hq : ∀ i ∈ g', (setGroup q g c).getD i 0 = q.getD i 0 := by
          intro i hi
          rw [setGroup_getD hcl, if_neg, if_neg]
          · exact fun hc => hd.1 g' hm i hc hi
          · rintro rfl; exact hd.1 g' hm _ hcg hi
        obtain ⟨a, b⟩ := ih hu.tail hlt' (fun g hg => hn g (by simp [hg])) hd.2 h g' hm
        rw [groupSum_congr hq] at b
        refine ⟨a, fun hs => ?_⟩
        obtain ⟨c', h1, h2, h3⟩ := b hs
        rw [hq c' h1] at h3
        exact ⟨c', h1, h2, h3⟩

theorem groupSum_hot {q : Pt} {g : List ℕ} {c : ℕ} (h : HotAt q g c) (hn : g.Nodup) :
    groupSum q g = 1 := by
  unfold groupSum
  rw [List.map_congr_left h.2]
  obtain ⟨h1, -⟩ := h
  induction g with
  | nil => cases h1
  | cons a g ih =>
    rw [List.nodup_cons] at hn
    rw [List.map_cons, List.sum_cons]
    by_cases e : a = c
    · subst e
      rw [if_pos rfl, List.map_congr_left (g := fun _ => (0:ℚ))]
      · simp
      · intro i hi; rw [if_neg]; rintro rfl; exact hn.1 hi
    · rw [if_neg e, ih hn.2 (by simpa [Ne.symm e] using h1), zero_add]

/-- **C52** A point whose groups are one-hot already is not changed. -/
theorem C52_keeps_one_hot {gs : List (List ℕ)} {us : List ℚ} {q q' : Pt} (hu : UnitDraws us)
    (hlt : ∀ g ∈ gs, ∀ i ∈ g, i < q.length) (hn : ∀ g ∈ gs, g.Nodup)
    (hd : gs.Pairwise (fun g g' => ∀ i ∈ g, i ∉ g')) (hq : ∀ g ∈ gs, OneHotAt q g)
    (h : roundCategorical gs us q = .ok q') : q' = q := by
  have hl := roundCategorical_length h
  apply List.ext_getElem hl
  intro i h1 h2
  rw [← getD_of (d := (0:ℚ)) (List.getElem?_eq_getElem h1),
    ← getD_of (d := (0:ℚ)) (List.getElem?_eq_getElem h2)]
  by_cases hi : ∀ g ∈ gs, i ∉ g
  · exact (C52_others_unchanged hu hlt h).2 i hi
  · push Not at hi
    obtain ⟨g, hg, hig⟩ := hi
    obtain ⟨c, hc⟩ := (hq g hg).hot (hn g hg)
    have hs := groupSum_hot hc (hn g hg)
    obtain ⟨a, b⟩ := C52_one_hot hu hlt hn hd h g hg
    obtain ⟨c', hc'⟩ := a.hot (hn g hg)
    obtain ⟨d, hdg, hd1, hd2⟩ := b (by rw [hs]; exact one_ne_zero)
    rw [hs, div_one, hc.2 d hdg] at hd2
    have hdc : d = c := by
      by_contra hne; rw [if_neg hne] at hd2; exact lt_irrefl _ hd2
    subst hdc
    have hdc' : d = c' := by
      by_contra hne; rw [hc'.2 d hdg, if_neg hne] at hd1; norm_num at hd1
    subst hdc'
    rw [hc.2 i hig, hc'.2 i hig]

/-- **C52** Rounding succeeds on every point without negative entries in the groups. -/
theorem C52_total {gs : List (List ℕ)} {us : List ℚ} {q : Pt} (hu : UnitDraws us)
    (hlt : ∀ g ∈ gs, ∀ i ∈ g, i < q.length) (hne : ∀ g ∈ gs, g ≠ [])
    (hq : ∀ g ∈ gs, ∀ i ∈ g, 0 ≤ q.getD i 0) : ∃ q', roundCategorical gs us q = .ok q' := by
  induction gs generalizing us q with
  | nil => exact ⟨q, rfl⟩
  | cons g gs ih =>
    obtain ⟨c, hc⟩ := chooseInGroup_total hu.headD.1 hu.headD.2 (hne g (by simp)) (hq g (by simp))
    have hcl := hlt g (by simp) c (chooseInGroup_ok hu.headD.1 hc).1
    unfold roundCategorical
    rw [hc]
    refine ih hu.tail (fun g' hg' i hi => by rw [setGroup_length]; exact hlt g' (by simp [hg']) i hi)
      (fun g hg => hne g (by simp [hg])) (fun g' hg' i hi => ?_)
    rw [setGroup_getD hcl]
    split
    · exact zero_le_one
    · split
      · exact le_rfl
      · exact hq g' (by simp [hg']) i hi

/-- **C52** (violation) With a negative entry `round_categorical` raises `ValueError` unless the sum
of the group is zero. -/
theorem C52_violated_negative : ∃ (q : Pt) (gs : List (List ℕ)) (us : List ℚ),
    roundCategorical gs us q = .error .valueError :=
  ⟨[-1/10, 1/2], [[0, 1]], [0], by decide +kernel⟩

/-- **C52** The position chosen need not be that of the largest entry. -/
theorem C52_violated_largest : ∃ (q : Pt) (gs : List (List ℕ)) (us : List ℚ),
    roundCategorical gs us q = .ok [1, 0] ∧ q.getD 0 0 < q.getD 1 0 :=
  ⟨[1/10, 9/10], [[0, 1]], [1/20], by decide +kernel, by decide +kernel⟩

-- premises, with two groups of which the second sums to zero
example : roundCategorical [[1, 2], [3, 4, 5]] [3/4, 1/2] [7/2, 1/4, 1/2, 0, 0, 0] =
    .ok [7/2, 0, 1, 0, 1, 0] := by decide +kernel

/-! ## C51 -/

/-- `q` is a rounding of `cand`: each integer variable that is not a binary of a categorical
variable is rounded down or up, each other variable has the value of `cand`, and each group is
one-hot. -/
structure IsRounding (I : Internal) (cand q : Pt) : Prop where
  length : q.length = cand.length
  ints : ∀ i < I.dim, i ∈ I.intVars → (∀ e ∈ I.expansion, i ∉ e.2.2) →
    q.getD i 0 = ⌊cand.getD i 0⌋ ∨ q.getD i 0 = ⌈cand.getD i 0⌉
  others : ∀ i < I.dim, i ∉ I.intVars → q.getD i 0 = cand.getD i 0
  oneHot : ∀ e ∈ I.expansion, OneHotAt q e.2.2

/-- The candidate is in the box. -/
structure InBoxPt (I : Internal) (p : Pt) : Prop where
  length : p.length = I.dim
  box : ∀ i < I.dim, I.lower.getD i 0 ≤ p.getD i 0 ∧ p.getD i 0 ≤ I.upper.getD i 0

theorem mapIdx_getD {p : Pt} {f : ℕ → ℚ → ℚ} {i : ℕ} (hi : i < p.length) :
    (p.mapIdx f).getD i 0 = f i (p.getD i 0) := by
  rw [List.getD_eq_getElem?_getD, List.getElem?_mapIdx, List.getD_eq_getElem?_getD,
    List.getElem?_eq_getElem hi]
  rfl

/-- Integer variables outside the groups. -/
theorem mem_plainInts {I : Internal} (hI : GoodLayout I) {i : ℕ} :
    i ∈ plainInts I ↔ i ∈ I.intVars ∧ ∀ e ∈ I.expansion, i ∉ e.2.2 := by
  unfold plainInts
  split
  · rename_i he; rw [he]; simp
  · rename_i he
    rw [List.mem_filter, decide_eq_true_eq]
    constructor
    · rintro ⟨h1, h2⟩
      refine ⟨h1, fun e hm hc => ?_⟩
      have := (hI.pos e hm i hc).1
      omega
    · rintro ⟨h1, h2⟩
      refine ⟨h1, ?_⟩
      by_contra hc
      have hlt := (hI.box.int i h1).1
      rw [hI.dim] at hlt
      obtain ⟨e, hm, hie⟩ := hI.cover i (not_lt.mp hc) hlt
      exact h2 e hm hie

theorem roundGroups_spec {I : Internal} (hI : GoodLayout I) {us : List ℚ} {q q' : Pt}
    (hu : UnitDraws us) (hl : q.length = I.dim) (h : roundGroups I us q = .ok q') :
    q'.length = q.length ∧ (∀ i, (∀ e ∈ I.expansion, i ∉ e.2.2) → q'.getD i 0 = q.getD i 0) ∧
    (∀ e ∈ I.expansion, OneHotAt q' e.2.2) := by
  unfold roundGroups at h
  split at h
  · rename_i he
    cases h
    rw [he]
    simp
  · have hlt : ∀ g ∈ I.expansion.map (·.2.2), ∀ i ∈ g, i < q.length := by
      intro g hg i hi
      obtain ⟨e, he, rfl⟩ := List.mem_map.mp hg
      rw [hl]; exact (hI.pos e he i hi).2.1
    obtain ⟨a, b⟩ := C52_others_unchanged hu hlt h
    refine ⟨a, fun i hi => b i (fun g hg => ?_), fun e he => ?_⟩
    · obtain ⟨e, he, rfl⟩ := List.mem_map.mp hg
      exact hi e he
    · refine (C52_one_hot hu hlt ?_ ?_ h e.2.2 (List.mem_map.mpr ⟨e, he, rfl⟩)).1
      · intro g hg
        obtain ⟨e, he, rfl⟩ := List.mem_map.mp hg
        exact hI.nodup e he
      · rw [List.pairwise_map]; exact hI.disjoint

theorem roundGroups_total {I : Internal} (hI : GoodLayout I) {us : List ℚ} {q : Pt}
    (hu : UnitDraws us) (hl : q.length = I.dim)
    (hq : ∀ e ∈ I.expansion, ∀ i ∈ e.2.2, 0 ≤ q.getD i 0) :
    ∃ q', roundGroups I us q = .ok q' := by
  unfold roundGroups
  split
  · exact ⟨_, rfl⟩
  · apply C52_total hu
    · intro g hg i hi
      obtain ⟨e, he, rfl⟩ := List.mem_map.mp hg
      rw [hl]; exact (hI.pos e he i hi).2.1
    · intro g hg
      obtain ⟨e, he, rfl⟩ := List.mem_map.mp hg
      exact hI.nonempty e he
    · intro g hg i hi
      obtain ⟨e, he, rfl⟩ := List.mem_map.mp hg
      exact hq e he i hi

theorem firstRounding_spec {I : Internal} (hI : GoodLayout I) {us : List ℚ} {h cand q : Pt}
    (hu : UnitDraws us) (hc : cand.length = I.dim)
    (hq : roundGroups I us (firstRounding (plainInts I) h cand) = .ok q) :
    IsRounding I cand q := by
  have hl : (firstRounding (plainInts I) h cand).length = cand.length := by simp [firstRounding]
  obtain ⟨a, b, c⟩ := roundGroups_spec hI hu (by rw [hl, hc]) hq
  refine ⟨by rw [a, hl], fun i hi h1 h2 => ?_, fun i hi h1 => ?_, c⟩
  · rw [b i h2, firstRounding, mapIdx_getD (by omega),
      if_pos ((mem_plainInts hI).mpr ⟨h1, h2⟩)]
    split
    · exact .inr rfl
    · exact .inl rfl
  · rw [b i (fun e he hc => h1 (hI.pos e he i hc).2.2.1), firstRounding, mapIdx_getD (by omega),
      if_neg (fun hm => h1 ((mem_plainInts hI).mp hm).1)]

theorem randomRounding_spec {I : Internal} (hI : GoodLayout I) {ui us : List ℚ} {cand q : Pt}
    (hu : UnitDraws us) (hc : cand.length = I.dim)
    (hq : roundGroups I us (randomRounding (plainInts I) ui cand) = .ok q) :
    IsRounding I cand q := by
  have hl : (randomRounding (plainInts I) ui cand).length = cand.length := by simp [randomRounding]
  obtain ⟨a, b, c⟩ := roundGroups_spec hI hu (by rw [hl, hc]) hq
  refine ⟨by rw [a, hl], fun i hi h1 h2 => ?_, fun i hi h1 => ?_, c⟩
  · rw [b i h2, randomRounding, mapIdx_getD (by omega),
      if_pos ((mem_plainInts hI).mpr ⟨h1, h2⟩)]
    split
    · exact .inr rfl
    · exact .inl rfl
  · rw [b i (fun e he hc => h1 (hI.pos e he i hc).2.2.1), randomRounding, mapIdx_getD (by omega),
      if_neg (fun hm => h1 ((mem_plainInts hI).mp hm).1)]

/-- The points examined after the first: one random rounding for each element of `draws`. -/
def examined (I : Internal) (cand : Pt) (draws : List (List ℚ × List ℚ)) : List Pt :=
  draws.filterMap (fun d =>
    (roundGroups I d.2 (randomRounding (plainInts I) d.1 cand)).toOption)

theorem integerLoop_spec {I : Internal} {h start cand best r : Pt} {radius : ℚ}
    {draws : List (List ℚ × List ℚ)} (hr : integerLoop I h start cand radius draws best = .ok r) :
    (r = best ∨ (r ∈ examined I cand draws ∧ distSqQ r start ≤ radius ^ 2 ∧
      dotQ h r < dotQ h best)) ∧ dotQ h r ≤ dotQ h best ∧
    ∀ q ∈ examined I cand draws, distSqQ q start ≤ radius ^ 2 → dotQ h r ≤ dotQ h q := by
  induction draws generalizing best with
  | nil =>
    cases hr
    exact ⟨.inl rfl, le_rfl, by simp [examined]⟩
  | cons d ds ih =>
    obtain ⟨ui, uc⟩ := d
    unfold integerLoop at hr
    split at hr
    · cases hr
    · rename_i cur hcur
      have hex : examined I cand ((ui, uc) :: ds) = cur :: examined I cand ds := by
        unfold examined
        rw [List.filterMap_cons, hcur]
        rfl
      rw [hex]
      obtain ⟨k1, k2, k3⟩ := ih hr
      by_cases hb : distSqQ cur start ≤ radius ^ 2 ∧ dotQ h cur < dotQ h best
      · rw [if_pos hb] at k1 k2
        refine ⟨.inr ?_, k2.trans hb.2.le, fun q hq hd => ?_⟩
        · rcases k1 with rfl | ⟨m1, m2, m3⟩
          · exact ⟨by simp, hb.1, hb.2⟩
          · exact ⟨by simp [m1], m2, m3.trans hb.2⟩
        · rcases List.mem_cons.mp hq with rfl | hq
          · exact k2
          · exact k3 q hq hd
      · rw [if_neg hb] at k1 k2
        refine ⟨?_, k2, fun q hq hd => ?_⟩
        · rcases k1 with rfl | ⟨m1, m2, m3⟩
          · exact .inl rfl
          · exact .inr ⟨by simp [m1], m2, m3⟩
        · rcases List.mem_cons.mp hq with rfl | hq
          · have : ¬ dotQ h q < dotQ h best := fun hc => hb ⟨hd, hc⟩
            exact k2.trans (not_lt.mp this)
          · exact k3 q hq hd

theorem examined_rounding {I : Internal} (hI : GoodLayout I) {cand q : Pt}
    {draws : List (List ℚ × List ℚ)} (hd : ∀ d ∈ draws, UnitDraws d.2)
    (hc : cand.length = I.dim) (hq : q ∈ examined I cand draws) : IsRounding I cand q := by
  obtain ⟨d, hm, hd'⟩ := List.mem_filterMap.mp hq
  cases hr : roundGroups I d.2 (randomRounding (plainInts I) d.1 cand) with
  | error e => rw [hr] at hd'; cases hd'
  | ok q' =>
    rw [hr] at hd'
    cases hd'
    exact randomRounding_spec hI (hd d hm) hc hr

/-- **C51** The result is a rounding of the candidate, and the reported adjustment is the difference
of the model values of the candidate and of the result. -/
theorem C51_rounding {I : Internal} (hI : GoodLayout I) {h start cand p : Pt} {radius adj : ℚ}
    {u0 : List ℚ} {draws : List (List ℚ × List ℚ)} (hu : UnitDraws u0)
    (hd : ∀ d ∈ draws, UnitDraws d.2) (hc : cand.length = I.dim)
    (hr : integerCandidate I h start cand radius u0 draws = .ok (p, adj)) :
    IsRounding I cand p ∧ adj = dotQ h cand - dotQ h p := by
  unfold integerCandidate at hr
  split at hr
  · cases hr
  · rename_i first hf
    split at hr
    · cases hr
    · rename_i best hb
      cases hr
      refine ⟨?_, rfl⟩
      rcases (integerLoop_spec hb).1 with rfl | ⟨h1, -⟩
      · exact firstRounding_spec hI hu hc hf
      · exact examined_rounding hI hd hc h1

/-- A rounding of a point of the box is a feasible internal point. -/
theorem IsRounding.feasible {I : Internal} (hI : GoodLayout I) {cand p : Pt} (hc : InBoxPt I cand)
    (h : IsRounding I cand p) : FeasibleInternal I p := by
  refine feasibleInternal_of hI ⟨by rw [h.length, hc.length, hI.dim], fun i hi => ?_,
    fun i hi => ?_⟩ h.oneHot
  · rw [hI.dim] at hi
    by_cases hg : ∃ e ∈ I.expansion, i ∈ e.2.2
    · obtain ⟨e, he, hie⟩ := hg
      obtain ⟨-, -, -, h4, h5⟩ := hI.pos e he i hie
      rw [h4, h5]
      rcases oneHot_value (h.oneHot e he) i hie with hv | hv <;> rw [hv] <;> norm_num
    · push Not at hg
      obtain ⟨b1, b2⟩ := hc.box i hi
      by_cases hint : i ∈ I.intVars
      · obtain ⟨-, ⟨a, ha⟩, ⟨b, hb⟩⟩ := hI.box.int i hint
        rw [ha] at b1 ⊢
        rw [hb] at b2 ⊢
        rcases h.ints i hi hint hg with e | e <;> rw [e]
        · exact ⟨by exact_mod_cast Int.le_floor.mpr b1,
            (Int.floor_le _).trans b2⟩
        · exact ⟨b1.trans (Int.le_ceil _), by exact_mod_cast Int.ceil_le.mpr b2⟩
      · rw [h.others i hi hint]; exact ⟨b1, b2⟩
  · by_cases hg : ∃ e ∈ I.expansion, i ∈ e.2.2
    · obtain ⟨e, he, hie⟩ := hg
      rcases oneHot_value (h.oneHot e he) i hie with hv | hv <;> rw [hv]
      · exact ⟨0, by simp⟩
      · exact ⟨1, by simp⟩
    · push Not at hg
      have hi' : i < I.dim := by rw [← hI.dim]; exact (hI.box.int i hi).1
      rcases h.ints i hi' hi hg with e | e <;> rw [e]
      · exact ⟨_, rfl⟩
      · exact ⟨_, rfl⟩

/-- **C51** Rounding a candidate of the box gives a feasible point. -/
theorem C51_feasible {eps : ℚ} {vars : List Var} (hw : WellFormed vars) {h start cand p : Pt}
    {radius adj : ℚ} {u0 : List ℚ} {draws : List (List ℚ × List ℚ)} (hu : UnitDraws u0)
    (hd : ∀ d ∈ draws, UnitDraws d.2) (hc : InBoxPt (construct eps vars) cand)
    (hr : integerCandidate (construct eps vars) h start cand radius u0 draws = .ok (p, adj)) :
    FeasibleInternal (construct eps vars) p :=
  (C51_rounding (goodLayout_construct hw) hu hd hc.length hr).1.feasible
    (goodLayout_construct hw) hc

/-- **C51** The result is the first rounding or a random rounding within the radius; no rounding
examined within the radius has a smaller model value. -/
theorem C51_best_examined {I : Internal} {h start cand p : Pt} {radius adj : ℚ}
    {u0 : List ℚ} {draws : List (List ℚ × List ℚ)}
    (hr : integerCandidate I h start cand radius u0 draws = .ok (p, adj)) :
    ∃ first, roundGroups I u0 (firstRounding (plainInts I) h cand) = .ok first ∧
      (p = first ∨ (p ∈ examined I cand draws ∧ distSqQ p start ≤ radius ^ 2)) ∧
      dotQ h p ≤ dotQ h first ∧
      ∀ q ∈ examined I cand draws, distSqQ q start ≤ radius ^ 2 → dotQ h p ≤ dotQ h q := by
  unfold integerCandidate at hr
  split at hr
  · cases hr
  · rename_i first hf
    split at hr
    · cases hr
    · rename_i best hb
      cases hr
      obtain ⟨k1, k2, k3⟩ := integerLoop_spec hb
      refine ⟨first, hf, ?_, k2, k3⟩
      rcases k1 with rfl | ⟨m1, m2, -⟩
      · exact .inl rfl
      · exact .inr ⟨m1, m2⟩

/-- **C51** Rounding succeeds on every candidate of the box, whatever the random numbers. -/
theorem C51_total {I : Internal} (hI : GoodLayout I) {h start cand : Pt} {radius : ℚ}
    {u0 : List ℚ} {draws : List (List ℚ × List ℚ)} (hu : UnitDraws u0)
    (hd : ∀ d ∈ draws, UnitDraws d.2) (hc : InBoxPt I cand) :
    ∃ p adj, integerCandidate I h start cand radius u0 draws = .ok (p, adj) := by
  have hnn : ∀ q : Pt, q.length = I.dim → (∀ i < I.dim, i ∉ plainInts I →
      q.getD i 0 = cand.getD i 0) → ∀ e ∈ I.expansion, ∀ i ∈ e.2.2, 0 ≤ q.getD i 0 := by
    intro q _ hq e he i hi
    obtain ⟨-, h2, -, h4, -⟩ := hI.pos e he i hi
    rw [hq i h2 (fun hm => ((mem_plainInts hI).mp hm).2 e he hi)]
    have := (hc.box i h2).1
    rwa [h4] at this
  obtain ⟨first, hf⟩ := roundGroups_total (q := firstRounding (plainInts I) h cand) hI hu
    (by simp [firstRounding, hc.length]) (hnn _ (by simp [firstRounding, hc.length])
      (fun i hi hn => by
        rw [firstRounding, mapIdx_getD (by rw [hc.length]; exact hi), if_neg hn]))
  unfold integerCandidate
  rw [hf]
  have : ∀ best, ∃ r, integerLoop I h start cand radius draws best = .ok r := by
    induction draws with
    | nil => exact fun best => ⟨best, rfl⟩
    | cons d ds ih =>
      obtain ⟨ui, uc⟩ := d
      intro best
      obtain ⟨cur, hcur⟩ := roundGroups_total (q := randomRounding (plainInts I) ui cand) hI
        (hd (ui, uc) (by simp)) (by simp [randomRounding, hc.length])
        (hnn _ (by simp [randomRounding, hc.length]) (fun i hi hn => by
          rw [randomRounding, mapIdx_getD (by rw [hc.length]; exact hi), if_neg hn]))
      unfold integerLoop
      rw [hcur]
      exact ih (fun d hd' => hd d (by simp [hd'])) _
  obtain ⟨r, hr⟩ := this first
  dsimp only
  rw [hr]
  exact ⟨_, _, rfl⟩

theorem dotQ_mono {h a b : Pt} (hl : a.length = b.length)
    (hi : ∀ i < a.length, h.getD i 0 * a.getD i 0 ≤ h.getD i 0 * b.getD i 0) :
    dotQ h a ≤ dotQ h b := by
  unfold dotQ
  induction h generalizing a b with
  | nil => simp
  | cons x h ih =>
    cases a with
    | nil => cases b with
      | nil => simp
      | cons => simp at hl
    | cons y a =>
      cases b with
      | nil => simp at hl
      | cons z b =>
        simp only [List.zipWith_cons_cons, List.sum_cons]
        have h0 := hi 0 (by simp)
        have := ih (a := a) (b := b) (by simpa using hl)
          (fun i hlt => by simpa using hi (i + 1) (by simpa using hlt))
        simp only [List.getD_cons_zero] at h0
        linarith

/-- **C51** The first rounding is the most cautious one: without categorical variables it has the
largest model value of all roundings of the candidate. -/
theorem C51_first_is_largest {I : Internal} (hI : GoodLayout I) (he : I.expansion = [])
    {h cand q : Pt} (hc : cand.length = I.dim) (hq : IsRounding I cand q) :
    dotQ h q ≤ dotQ h (firstRounding (plainInts I) h cand) := by
  refine dotQ_mono (by simp [firstRounding, hq.length]) (fun i hi => ?_)
  rw [hq.length] at hi
  rw [firstRounding, mapIdx_getD hi]
  by_cases hm : i ∈ I.intVars
  · rw [if_pos ((mem_plainInts hI).mpr ⟨hm, by rw [he]; simp⟩)]
    have hle : ((⌊cand.getD i 0⌋ : ℤ) : ℚ) ≤ ⌈cand.getD i 0⌉ :=
      (Int.floor_le _).trans (Int.le_ceil _)
    rcases hq.ints i (by omega) hm (by rw [he]; simp) with e | e <;> rw [e]
    · split
      · rename_i h0; exact mul_le_mul_of_nonneg_left hle h0
      · exact le_rfl
    · split
      · exact le_rfl
      · rename_i h0; exact mul_le_mul_of_nonpos_left hle (not_le.mp h0).le
  · rw [if_neg (fun hc => hm ((mem_plainInts hI).mp hc).1), hq.others i (by omega) hm]

theorem distSqQ_mono {s a b : Pt} (hl : a.length = b.length)
    (hi : ∀ i < a.length, i < s.length → (a.getD i 0 - s.getD i 0) ^ 2 ≤
      (b.getD i 0 - s.getD i 0) ^ 2) : distSqQ a s ≤ distSqQ b s := by
  unfold distSqQ
  induction s generalizing a b with
  | nil => simp
  | cons x s ih =>
    cases a with
    | nil => cases b with
      | nil => simp
      | cons => simp at hl
    | cons y a =>
      cases b with
      | nil => simp at hl
      | cons z b =>
        simp only [List.zipWith_cons_cons, List.sum_cons]
        have h0 := hi 0 (by simp) (by simp)
        have := ih (a := a) (b := b) (by simpa using hl)
          (fun i hlt hlt' => by simpa using hi (i + 1) (by simpa using hlt) (by simpa using hlt'))
        simp only [List.getD_cons_zero] at h0
        linarith

/-- **C51** Without categorical variables, if the starting point is integral and the candidate was
reached by moving against the gradient (as in C50), the result is within the radius and its model
value is not larger than that of the starting point. -/
theorem C51_descent_in_radius {I : Internal} (hI : GoodLayout I) (he : I.expansion = [])
    {h start cand p : Pt} {radius adj : ℚ} {u0 : List ℚ} {draws : List (List ℚ × List ℚ)}
    (hc : cand.length = I.dim) (hs : start.length = I.dim)
    (hsi : ∀ i ∈ I.intVars, IsInt (start.getD i 0))
    (hdown : ∀ i < I.dim, (0 ≤ h.getD i 0 → cand.getD i 0 ≤ start.getD i 0) ∧
      (h.getD i 0 ≤ 0 → start.getD i 0 ≤ cand.getD i 0))
    (hrad : distSqQ cand start ≤ radius ^ 2)
    (hr : integerCandidate I h start cand radius u0 draws = .ok (p, adj)) :
    distSqQ p start ≤ radius ^ 2 ∧ dotQ h p ≤ dotQ h start := by
  obtain ⟨first, hf, h1, h2, -⟩ := C51_best_examined hr
  unfold roundGroups at hf
  rw [if_pos he] at hf
  cases hf
  have hlf : (firstRounding (plainInts I) h cand).length = cand.length := by simp [firstRounding]
  -- each coordinate of the first rounding is between the candidate and the starting point
  have key : ∀ i < I.dim,
      (0 ≤ h.getD i 0 → cand.getD i 0 ≤ (firstRounding (plainInts I) h cand).getD i 0 ∧
        (firstRounding (plainInts I) h cand).getD i 0 ≤ start.getD i 0) ∧
      (h.getD i 0 < 0 → (firstRounding (plainInts I) h cand).getD i 0 ≤ cand.getD i 0 ∧
        start.getD i 0 ≤ (firstRounding (plainInts I) h cand).getD i 0) := by
    intro i hi
    rw [firstRounding, mapIdx_getD (by omega)]
    obtain ⟨d1, d2⟩ := hdown i hi
    by_cases hm : i ∈ plainInts I
    · rw [if_pos hm]
      obtain ⟨z, hz⟩ := hsi i ((mem_plainInts hI).mp hm).1
      constructor
      · intro h0
        rw [if_pos h0]
        have := d1 h0
        rw [hz] at this ⊢
        exact ⟨Int.le_ceil _, by exact_mod_cast Int.ceil_le.mpr this⟩
      · intro h0
        rw [if_neg (not_le.mpr h0)]
        have := d2 h0.le
        rw [hz] at this ⊢
        exact ⟨Int.floor_le _, by exact_mod_cast Int.le_floor.mpr this⟩
    · rw [if_neg hm]
      exact ⟨fun h0 => ⟨le_rfl, d1 h0⟩, fun h0 => ⟨le_rfl, d2 h0.le⟩⟩
  constructor
  · rcases h1 with rfl | ⟨-, h1⟩
    · refine (distSqQ_mono hlf (fun i hi _ => ?_)).trans hrad
      obtain ⟨k1, k2⟩ := key i (by omega)
      rcases le_or_gt 0 (h.getD i 0) with h0 | h0
      · obtain ⟨a, b⟩ := k1 h0; nlinarith
      · obtain ⟨a, b⟩ := k2 h0; nlinarith
    · exact h1
  · refine h2.trans (dotQ_mono (by rw [hlf, hc, hs]) (fun i hi => ?_))
    obtain ⟨k1, k2⟩ := key i (by omega)
    rcases le_or_gt 0 (h.getD i 0) with h0 | h0
    · exact mul_le_mul_of_nonneg_left (k1 h0).2 h0
    · exact mul_le_mul_of_nonpos_left (k2 h0).2 h0.le

/-- An integer and a real variable. -/
def intRealVars : List Var := [⟨0, 5, .I⟩, ⟨0, 1, .R⟩]

-- premises of the preceding theorems
example : GoodLayout (construct 0 intRealVars) ∧
    integerCandidate (construct 0 intRealVars) [1, -1] [3, 1/2] [3/2, 3/4] (5/2) []
      [([9/10, 0], []), ([1/4, 0], [])] = .ok ([1, 3/4], 1/2) ∧
    distSqQ [3/2, 3/4] [3, 1/2] ≤ (5/2) ^ 2 := by
  refine ⟨goodLayout_construct ?_, by decide +kernel, by decide +kernel⟩
  intro v hv
  simp only [intRealVars, List.mem_cons, List.not_mem_nil, or_false] at hv
  rcases hv with rfl | rfl
  · exact ⟨by norm_num, fun _ => ⟨⟨0, by norm_num⟩, ⟨5, by norm_num⟩⟩⟩
  · exact ⟨by norm_num, fun h => absurd rfl h⟩

/-- A categorical variable with three values. -/
def oneCatVar : List Var := [⟨0, 2, .C⟩]

/-- **C51** (violation) With a categorical variable the result can be outside the radius and have a
larger model value than the starting point: gradient (-1, -1/2, 0), start (1, 0, 0), candidate
(1, 1/10, 0) at distance 1/10, result (0, 1, 0) if the random numbers are large enough. -/
theorem C51_violated_categorical : ∃ (h start cand p : Pt) (radius adj : ℚ) (u0 : List ℚ)
    (draws : List (List ℚ × List ℚ)),
    UnitDraws u0 ∧ (∀ d ∈ draws, UnitDraws d.2) ∧ draws.length = 3 ∧
    distSqQ cand start ≤ radius ^ 2 ∧ dotQ h cand < dotQ h start ∧
    integerCandidate (construct 0 oneCatVar) h start cand radius u0 draws = .ok (p, adj) ∧
    radius ^ 2 < distSqQ p start ∧ dotQ h start < dotQ h p := by
  refine ⟨[-1, -1/2, 0], [1, 0, 0], [1, 1/10, 0], [0, 1, 0], 1/10, -11/20, [95/100],
    [([], [95/100]), ([], [96/100]), ([], [97/100])], ?_, ?_, rfl, ?_⟩
  · intro u hu; simp at hu; subst hu; norm_num
  · intro d hd u hu
    simp only [List.mem_cons, List.not_mem_nil, or_false] at hd
    rcases hd with rfl | rfl | rfl <;> simp at hu <;> subst hu <;> norm_num
  · decide +kernel

end Rbfopt
