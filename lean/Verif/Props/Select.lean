import Verif.Model.Select
import Verif.Props.Rbf
import Verif.Lemmas.ListAux
import Mathlib.Data.Finset.Card

/-!
# Model selection (C46), most common element (C47), waiting for results (C59)
-/

namespace Rbfopt

open Finset

/-! ## C46: leave-one-out shortcut -/

/-- **C46** The shortcut used for cross-validation is exact: if `base` solves the interpolation
system and `adj` the system for the `i`-th unit vector, the adjusted solution does not use node `i`
and satisfies all equations but the `i`-th. -/
theorem C46_leave_one_out {m i : ℕ} {A : ℕ → ℕ → ℝ} {rhs base adj : ℕ → ℝ}
    (hb : ∀ r < m, ∑ j ∈ range m, A r j * base j = rhs r)
    (ha : ∀ r < m, ∑ j ∈ range m, A r j * adj j = if r = i then 1 else 0) (h0 : adj i ≠ 0) :
    looSolution base adj i i = 0 ∧
    ∀ r < m, r ≠ i → ∑ j ∈ range m, A r j * looSolution base adj i j = rhs r := by
  constructor
  · unfold looSolution; field_simp; ring
  · intro r hr hne
    have e : ∀ j ∈ range m, A r j * looSolution base adj i j =
        A r j * base j - (A r j * adj j) * (base i / adj i) := by
      intro j _; unfold looSolution; ring
    rw [sum_congr rfl e, sum_sub_distrib, ← sum_mul, ha r hr, if_neg hne, hb r hr]
    ring

/-- **C46** The predicted value of node `i` is the value at node `i` of an RBF that has no weight on
node `i` and interpolates all other nodes (exact arithmetic, no zeroing of small entries). -/
theorem C46_prediction {t : Rbf} {g eps : ℝ} {n k i : ℕ} {nodes : ℕ → ℕ → ℝ} {val base : ℕ → ℝ}
    {adj : ℕ → ℕ → ℝ} (hi : i < k)
    (hb : ∀ r < k + sizeP t n, ∑ j ∈ range (k + sizeP t n),
      rbfMatrix t g 0 n k nodes r j * base j = if r < k then val r else 0)
    (ha : ∀ r < k + sizeP t n, ∑ j ∈ range (k + sizeP t n),
      rbfMatrix t g 0 n k nodes r j * adj i j = if r = i then 1 else 0)
    (h0 : adj i i ≠ 0) (hbi : eps < |base i|) :
    ∃ lam h : ℕ → ℝ, lam i = 0 ∧
      (∀ r < k, r ≠ i → evaluateRbf t g n k nodes lam h (nodes r) = val r) ∧
      looPrediction t g eps n k nodes base adj i = evaluateRbf t g n k nodes lam h (nodes i) := by
  obtain ⟨h1, h2⟩ := C46_leave_one_out hb ha h0
  refine ⟨looSolution base (adj i) i, fun c => looSolution base (adj i) i (k + c), h1, ?_, ?_⟩
  · intro r hr hne
    have := h2 r (by omega) hne
    rw [if_pos hr, sum_range_add] at this
    rw [evaluate_eq, ← this]
    have hz : ∀ x, zeroTiny 0 x = x := by
      intro x; unfold zeroTiny; rw [if_neg (not_lt.mpr (abs_nonneg x))]
    congr 1
    · apply sum_congr rfl
      intro j hj
      rw [rbfMatrix, rawMatrix, if_pos hr, if_pos (mem_range.mp hj), hz]
    · apply sum_congr rfl
      intro c _
      rw [rbfMatrix, rawMatrix, if_pos hr, if_neg (by omega), hz, Nat.add_sub_cancel_left]
  · unfold looPrediction
    rw [if_neg (not_le.mpr hbi)]

/-- **C46** A model that predicts every checked node exactly has error zero, if the values differ. -/
theorem C46_perfect_model {k num : ℕ} {vals pred : ℕ → ℝ} (hn : num ≤ k)
    (hs : ∀ i j, i < j → j < k → vals i < vals j) (hp : ∀ i < num, pred i = vals i) :
    looError k num vals pred = 0 := by
  unfold looError
  apply sum_eq_zero
  intro i hi
  rw [mem_range] at hi
  have : (range k).filter (fun j => vals j < vals i) = range i := by
    ext j
    simp only [mem_filter, mem_range]
    constructor
    · rintro ⟨h1, h2⟩
      by_contra hc
      rcases Nat.lt_or_ge i j with h | h
      · exact absurd (hs i j h h1) (not_lt.mpr h2.le)
      · have : j = i := by omega
        subst this; exact absurd h2 (lt_irrefl _)
    · intro h
      exact ⟨by omega, hs j i h (by omega)⟩
  rw [hp i hi, searchSorted, this, card_range]
  simp

/-- **C46** (violation) With equal values the error is not a measure of quality: three equal values
predicted exactly give error 3. -/
theorem C46_violated_ties : looError 3 3 (fun _ => 1) (fun _ => 1) = 3 := by
  unfold looError searchSorted
  simp [sum_range_succ]

/-! ## C46: selection -/

/-- `r` is the first candidate of smallest error in `cs` (all of which have an error). -/
def FirstMin (err : RbfSel → Option ℕ) (cs : List RbfSel) (r : RbfSel) : Prop :=
  ∃ (j e : ℕ), cs[j]? = some r ∧ err r = some e ∧
    (∀ c ∈ cs, ∃ e', err c = some e' ∧ e ≤ e') ∧
    ∀ (i : ℕ) (c : RbfSel), i < j → cs[i]? = some c → ∃ e', err c = some e' ∧ e < e'

theorem bestModelLoop_ok {err : RbfSel → Option ℕ} {orig : RbfSel} {cs : List (ℕ × RbfSel)}
    (h : ∀ c ∈ cs, ∃ e, err c.2 = some e) (be : WithTop ℕ) (best : RbfSel) :
    (bestModelLoop err orig cs be best).2 = orig ∧
    (((bestModelLoop err orig cs be best).1 = best ∧
        ∀ c ∈ cs, ∃ e, err c.2 = some e ∧ be ≤ (e : WithTop ℕ)) ∨
      (FirstMin err (cs.map Prod.snd) (bestModelLoop err orig cs be best).1 ∧
        ∃ e, err (bestModelLoop err orig cs be best).1 = some e ∧ (e : WithTop ℕ) < be)) := by
  induction cs generalizing be best with
  | nil => exact ⟨rfl, .inl ⟨rfl, by simp⟩⟩
  | cons c cs ih =>
    obtain ⟨i, c⟩ := c
    obtain ⟨e, he⟩ := h (i, c) (by simp)
    have h' : ∀ c ∈ cs, ∃ e, err c.2 = some e := fun x hx => h x (by simp [hx])
    rw [bestModelLoop]
    simp only at he
    simp only [he]
    split
    · rename_i hlt
      obtain ⟨g1, g2⟩ := ih h' e c
      refine ⟨g1, .inr ?_⟩
      rcases g2 with ⟨g2, g3⟩ | ⟨⟨j, e', g2, g3, g4, g5⟩, e'', g6, g7⟩
      · rw [g2]
        refine ⟨⟨0, e, rfl, he, ?_, fun i c hi => absurd hi (by omega)⟩, e, he, hlt⟩
        intro x hx
        simp only [List.map_cons, List.mem_cons] at hx
        rcases hx with rfl | hx
        · exact ⟨e, he, le_rfl⟩
        · obtain ⟨y, hy, rfl⟩ := List.mem_map.mp hx
          obtain ⟨e', he', hle⟩ := g3 y hy
          exact ⟨e', he', by exact_mod_cast hle⟩
      · rw [g3] at g6
        cases g6
        have hlt' : e' < e := by exact_mod_cast g7
        refine ⟨⟨j + 1, e', by simpa using g2, g3, ?_, ?_⟩, e', g3, g7.trans hlt⟩
        · intro x hx
          simp only [List.map_cons, List.mem_cons] at hx
          rcases hx with rfl | hx
          · exact ⟨e, he, hlt'.le⟩
          · exact g4 x hx
        · intro i x hi hx
          cases i with
          | zero => simp at hx; subst hx; exact ⟨e, he, hlt'⟩
          | succ i => exact g5 i x (by omega) (by simpa using hx)
    · rename_i hnl
      rw [not_lt] at hnl
      obtain ⟨g1, g2⟩ := ih h' be best
      refine ⟨g1, ?_⟩
      rcases g2 with ⟨g2, g3⟩ | ⟨⟨j, e', g2, g3, g4, g5⟩, e'', g6, g7⟩
      · left
        refine ⟨g2, fun x hx => ?_⟩
        rcases List.mem_cons.mp hx with rfl | hx
        · exact ⟨e, he, hnl⟩
        · exact g3 x hx
      · right
        rw [g3] at g6
        cases g6
        have hlt' : e' < e := by
          have := lt_of_lt_of_le g7 hnl
          exact_mod_cast this
        refine ⟨⟨j + 1, e', by simpa using g2, g3, ?_, ?_⟩, e', g3, g7⟩
        · intro x hx
          simp only [List.map_cons, List.mem_cons] at hx
          rcases hx with rfl | hx
          · exact ⟨e, he, hlt'.le⟩
          · exact g4 x hx
        · intro i x hi hx
          cases i with
          | zero => simp at hx; subst hx; exact ⟨e, he, hlt'⟩
          | succ i => exact g5 i x (by omega) (by simpa using hx)

theorem bestModelLoop_fail {err : RbfSel → Option ℕ} {orig : RbfSel} {pre post : List (ℕ × RbfSel)}
    {i : ℕ} {c : RbfSel} (h : ∀ x ∈ pre, ∃ e, err x.2 = some e) (hc : err c = none)
    (be : WithTop ℕ) (best : RbfSel) :
    bestModelLoop err orig (pre ++ (i, c) :: post) be best =
      (if i ≥ 2 then (bestModelLoop err orig pre be best).1 else orig, c) := by
  induction pre generalizing be best with
  | nil => simp [bestModelLoop, hc]
  | cons x pre ih =>
    obtain ⟨e, he⟩ := h x (by simp)
    have h' : ∀ c ∈ pre, ∃ e, err c.2 = some e := fun y hy => h y (by simp [hy])
    obtain ⟨a, b⟩ := x
    simp only at he
    simp only [List.cons_append, bestModelLoop, he]
    split
    · exact ih h' _ _
    · exact ih h' _ _

/-- The supported models, in the order in which they are tried. -/
def supportedModels : List RbfSel := rbfCandidates.map Prod.snd

/-- **C46** If the error of every supported model can be computed, the first model of smallest error
is returned and the settings are unchanged. -/
theorem C46_selects_minimum {err : RbfSel → Option ℕ} (s : RbfSel)
    (h : ∀ c ∈ supportedModels, ∃ e, err c = some e) :
    FirstMin err supportedModels (bestRbfModel err s).1 ∧ (bestRbfModel err s).2 = s := by
  have h' : ∀ c ∈ rbfCandidates, ∃ e, err c.2 = some e := fun c hc =>
    h c.2 (List.mem_map.mpr ⟨c, hc, rfl⟩)
  obtain ⟨g1, g2⟩ := bestModelLoop_ok h' ⊤ s
  refine ⟨?_, g1⟩
  rcases g2 with ⟨-, g3⟩ | ⟨g3, -⟩
  · exfalso
    obtain ⟨e, -, hle⟩ := g3 (0, ⟨.cubic, 1/10⟩) (by simp [rbfCandidates])
    exact absurd hle (by simp)
  · exact g3

/-- **C46** If the error of some model cannot be computed, let `c` be the first such model in the
order of trial: if it is neither the cubic nor the thin plate spline, the first model of smallest
error among those tried before is returned; otherwise the model of the settings is returned, although
the cubic may have been computed.  In both cases the settings are left at the failed model. -/
theorem C46_failure {err : RbfSel → Option ℕ} (s : RbfSel) {pre post : List (ℕ × RbfSel)}
    {i : ℕ} {c : RbfSel} (hl : rbfCandidates = pre ++ (i, c) :: post)
    (h : ∀ x ∈ pre, ∃ e, err x.2 = some e) (hc : err c = none) :
    (bestRbfModel err s).2 = c ∧
    (2 ≤ i → FirstMin err (pre.map Prod.snd) (bestRbfModel err s).1) ∧
    (i < 2 → (bestRbfModel err s).1 = s) := by
  unfold bestRbfModel
  rw [hl, bestModelLoop_fail h hc]
  refine ⟨rfl, fun hi => ?_, fun hi => by simp only; rw [if_neg (by omega)]⟩
  simp only
  rw [if_pos hi]
  rcases (bestModelLoop_ok (orig := s) h ⊤ s).2 with ⟨-, g3⟩ | ⟨g3, -⟩
  · exfalso
    cases pre with
    | nil =>
      simp only [rbfCandidates, List.nil_append, List.cons.injEq, Prod.mk.injEq] at hl
      omega
    | cons x pre =>
      obtain ⟨e, -, hle⟩ := g3 x (by simp)
      exact absurd hle (by simp)
  · exact g3

/-- **C46** (violation) After a failure the settings are not restored, so that selecting again with
the same data gives a different answer: with settings "linear" and no computable error, the first
selection (local model) answers "linear", the second (global model) the failed cubic. -/
theorem C46_violated_settings : ∃ (err : RbfSel → Option ℕ) (s : RbfSel),
    (bestRbfModel err s).2 ≠ s ∧
    (bestRbfModel err (bestRbfModel err s).2).1 ≠ (bestRbfModel err s).1 ∧
    err (bestRbfModel err (bestRbfModel err s).2).1 = none :=
  ⟨fun _ => none, ⟨.linear, 1/2⟩, by decide +kernel, by decide +kernel, rfl⟩

-- premises: a failure at the second multiquadric, and no failure
example : ∃ err : RbfSel → Option ℕ, (∀ c ∈ supportedModels, ∃ e, err c = some e) ∧
    (bestRbfModel err ⟨.cubic, 1⟩).1 = ⟨.linear, 1/10⟩ :=
  ⟨fun c => if c.rbf = .linear then some 3 else some 7,
    fun c _ => by dsimp only; split <;> exact ⟨_, rfl⟩, by decide +kernel⟩

example : ∃ (err : RbfSel → Option ℕ) (pre post : List (ℕ × RbfSel)) (c : RbfSel),
    rbfCandidates = pre ++ (2, c) :: post ∧ (∀ x ∈ pre, ∃ e, err x.2 = some e) ∧ err c = none ∧
    (bestRbfModel err ⟨.cubic, 1⟩).1 = ⟨.thinPlateSpline, 1/10⟩ := by
  refine ⟨fun c => if c = ⟨.multiquadric, 1⟩ then none else
      if c.rbf = .thinPlateSpline then some 3 else some 7,
    rbfCandidates.take 3, rbfCandidates.drop 4, ⟨.multiquadric, 1⟩, by decide +kernel, ?_,
    by decide +kernel, by decide +kernel⟩
  intro x hx
  rw [← Option.isSome_iff_exists]
  revert x
  decide +kernel

/-! ## C47 -/

theorem mem_counterKeys {α : Type} [DecidableEq α] {l : List α} {x : α} :
    x ∈ counterKeys l ↔ x ∈ l := by
  induction l with
  | nil => simp [counterKeys]
  | cons y l ih =>
    simp only [counterKeys, List.mem_cons, List.mem_filter, ih, ne_eq, decide_eq_true_eq]
    constructor
    · rintro (h | ⟨h, -⟩)
      · exact .inl h
      · exact .inr h
    · rintro (h | h)
      · exact .inl h
      · by_cases e : x = y
        · exact .inl e
        · exact .inr ⟨h, e⟩

/-- Keys are in order of first occurrence. -/
theorem counterKeys_order {α : Type} [DecidableEq α] (l : List α) :
    (counterKeys l).Pairwise (fun x y => l.idxOf x < l.idxOf y) := by
  induction l with
  | nil => simp [counterKeys]
  | cons a l ih =>
    simp only [counterKeys, List.pairwise_cons]
    constructor
    · intro y hy
      have : y ≠ a := by simpa using (List.mem_filter.mp hy).2
      rw [List.idxOf_cons_self, List.idxOf_cons_ne _ (Ne.symm this)]
      omega
    · have hf := ih.filter (fun x => decide (x ≠ a))
      refine hf.imp_of_mem ?_
      intro x y hx hy h
      have hx' : x ≠ a := by simpa using (List.mem_filter.mp hx).2
      have hy' : y ≠ a := by simpa using (List.mem_filter.mp hy).2
      rw [List.idxOf_cons_ne _ (Ne.symm hx'), List.idxOf_cons_ne _ (Ne.symm hy')]
      omega

/-- **C47** The result is an element of the array that is not excluded, occurs at least as often as
any other non-excluded element, and among equally frequent ones is the one occurring first. -/
theorem C47_most_common {α : Type} [DecidableEq α] {array toExclude : List α} {x : α}
    (h : mostCommonElement array toExclude = some x) :
    x ∈ array ∧ x ∉ toExclude ∧ ∀ y, y ∉ toExclude → y ∈ array →
      array.count y ≤ array.count x ∧
      (array.count y = array.count x → y ≠ x →
        (array.filter (· ∉ toExclude)).idxOf x < (array.filter (· ∉ toExclude)).idxOf y) := by
  unfold mostCommonElement at h
  dsimp only at h
  split at h
  · cases h
  · rename_i v i ha
    obtain ⟨h1, h2, h3⟩ := argmaxVal_some ha
    have hx : x ∈ array.filter (· ∉ toExclude) := mem_counterKeys.mp (List.mem_of_getElem? h)
    have hcnt : ∀ y, y ∉ toExclude → (array.filter (· ∉ toExclude)).count y = array.count y := by
      intro y hy
      exact List.count_filter (by simpa using hy)
    rw [List.mem_filter] at hx
    have hxe : x ∉ toExclude := by simpa using hx.2
    have hv : v = array.count x := by
      rw [List.getElem?_map, h] at h1
      simp only [Option.map_some, Option.some.injEq] at h1
      rw [← h1, hcnt x hxe]
    refine ⟨hx.1, hxe, fun y hye hya => ?_⟩
    have hyk : y ∈ counterKeys (array.filter (· ∉ toExclude)) :=
      mem_counterKeys.mpr (List.mem_filter.mpr ⟨hya, by simpa using hye⟩)
    constructor
    · rw [← hv, ← hcnt y hye]
      exact h2 _ (List.mem_map.mpr ⟨y, hyk, rfl⟩)
    · intro he hne
      obtain ⟨j, hj, hjy⟩ := List.mem_iff_getElem.mp hyk
      have hord := counterKeys_order (array.filter (· ∉ toExclude))
      obtain ⟨hi, hix⟩ := List.getElem?_eq_some_iff.mp h
      rcases Nat.lt_trichotomy i j with hij | hij | hij
      · have := (List.pairwise_iff_getElem.mp hord) i j hi hj hij
        rwa [hix, hjy] at this
      · subst hij; rw [hix] at hjy; exact absurd hjy.symm hne
      · have := h3 j (array.count y) hij (by
          rw [List.getElem?_map, List.getElem?_eq_getElem hj, hjy]
          simp only [Option.map_some, hcnt y hye])
        omega

/-- **C47** There is no result exactly if every element is excluded. -/
theorem C47_none_iff {α : Type} [DecidableEq α] {array toExclude : List α} :
    mostCommonElement array toExclude = none ↔ ∀ y ∈ array, y ∈ toExclude := by
  constructor
  · intro h y hy
    by_contra hc
    unfold mostCommonElement at h
    dsimp only at h
    split at h
    · rename_i ha
      rw [argmaxVal_none, List.map_eq_nil_iff] at ha
      have : y ∈ counterKeys (array.filter (· ∉ toExclude)) :=
        mem_counterKeys.mpr (List.mem_filter.mpr ⟨hy, by simpa using hc⟩)
      rw [ha] at this; cases this
    · rename_i v i ha
      have h1 := (argmaxVal_some ha).1
      rw [List.getElem?_map, h] at h1
      cases h1
  · intro h
    have hf : array.filter (· ∉ toExclude) = [] := by
      rw [List.filter_eq_nil_iff]
      intro y hy; simpa using h y hy
    unfold mostCommonElement
    dsimp only
    rw [hf]
    rfl

example : mostCommonElement [2, 1, 1, 3, 2, 3, 3] [3] = some 2 := by decide
example : mostCommonElement ["failed", "failed"] ["failed"] = none := by decide

/-! ## C59 -/

/-- **C59** `results_ready` is true exactly if some result is ready. -/
theorem C59_results_ready (l : List Bool) : resultsReady l = true ↔ true ∈ l := by
  induction l with
  | nil => simp [resultsReady]
  | cons b l ih => cases b <;> simp [resultsReady, ih]

theorem oneReadyLoop_spec (l : List Bool) (m : ℕ) (hm : m ≤ l.length) :
    (∃ i < m, oneReadyLoop l m = i ∧ l[i]? = some true ∧
      ∀ j, i < j → j < m → l[j]? ≠ some true) ∨
    (oneReadyLoop l m = l.length ∧ ∀ j < m, l[j]? ≠ some true) := by
  induction m with
  | zero => right; exact ⟨rfl, fun j hj => absurd hj (by omega)⟩
  | succ m ih =>
    rw [oneReadyLoop]
    have hlt : m < l.length := by omega
    have e : l.getD m false = l[m] := by
      rw [List.getD_eq_getElem?_getD, List.getElem?_eq_getElem hlt]; rfl
    split
    · rename_i hb
      left
      rw [e] at hb
      exact ⟨m, by omega, rfl, by rw [List.getElem?_eq_getElem hlt, hb],
        fun j h1 h2 => absurd h2 (by omega)⟩
    · rename_i hb
      rw [e] at hb
      have hm' : l[m]? ≠ some true := by
        rw [List.getElem?_eq_getElem hlt]; simpa using hb
      rcases ih (by omega) with ⟨i, h1, h2, h3, h4⟩ | ⟨h1, h2⟩
      · left
        refine ⟨i, by omega, h2, h3, fun j h5 h6 => ?_⟩
        rcases Nat.lt_or_ge j m with h | h
        · exact h4 j h5 h
        · have : j = m := by omega
          subst this; exact hm'
      · right
        refine ⟨h1, fun j hj => ?_⟩
        rcases Nat.lt_or_ge j m with h | h
        · exact h2 j h
        · have : j = m := by omega
          subst this; exact hm'

/-- **C59** `get_one_ready_index` returns the index of the last ready result if there is one, and the
length of the list otherwise. -/
theorem C59_one_ready_index (l : List Bool) :
    (resultsReady l = true → ∃ i, oneReadyIndex l = i ∧ l[i]? = some true ∧
      ∀ j, i < j → l[j]? ≠ some true) ∧
    (resultsReady l = false → oneReadyIndex l = l.length) := by
  rcases oneReadyLoop_spec l l.length le_rfl with ⟨i, h1, h2, h3, h4⟩ | ⟨h1, h2⟩
  · constructor
    · intro _
      refine ⟨i, h2, h3, fun j hj hc => ?_⟩
      have := (List.getElem?_eq_some_iff.mp hc).1
      exact h4 j hj this hc
    · intro hr
      have : true ∈ l := List.mem_of_getElem? h3
      rw [← C59_results_ready, hr] at this; cases this
  · constructor
    · intro hr
      rw [C59_results_ready] at hr
      obtain ⟨j, hj, e⟩ := List.mem_iff_getElem.mp hr
      exact absurd (by rw [List.getElem?_eq_getElem hj, e]) (h2 j hj)
    · intro _; exact h1

end Rbfopt
