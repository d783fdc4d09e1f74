import Verif.Model.Bump
import Verif.Lemmas.ListAux
import Verif.Lemmas.ProblemMain
import Mathlib.Data.List.Induction

/-! # C55 and C69: choosing a node to re-evaluate -/

namespace Rbfopt

variable {bump : List ℚ → List ErrRow → ℚ} {epsZero target : ℚ}

/-! ## C55 -/

/-- The rows of the given nodes set to zero. -/
def zeroRows (errs : List ErrRow) (is : List ℕ) : List ErrRow :=
  errs.mapIdx (fun i e => if i ∈ is then (0, 0) else e)

theorem set_getD_self {α : Type} (l : List α) (i : ℕ) (x d : α) :
    (l.set i x).set i ((l.set i x).getD i d) = l.set i x := by
  apply List.ext_getElem?
  intro j
  rw [List.getElem?_set]
  by_cases h : i = j
  · subst h
    by_cases hi : i < l.length
    · simp [hi, List.getD_eq_getElem?_getD]
    · simp [hi]
  · simp [h]

theorem set_set_restore (l : List ℚ) (i : ℕ) (x : ℚ) : (l.set i x).set i (l.getD i 0) = l := by
  apply List.ext_getElem?
  intro j
  rw [List.getElem?_set]
  by_cases h : i = j
  · subst h
    by_cases hi : i < l.length
    · simp [hi, List.getD_eq_getElem?_getD]
    · simp [hi]
  · simp [h]

theorem set_zeroRows (errs : List ErrRow) (is : List ℕ) (i : ℕ) :
    (zeroRows errs is).set i (0, 0) = zeroRows errs (i :: is) := by
  unfold zeroRows
  apply List.ext_getElem?
  intro j
  rw [List.getElem?_set]
  by_cases h : i = j
  · subst h
    by_cases hi : i < errs.length
    · simp [hi]
    · simp [hi]
  · simp only [h, if_false, List.getElem?_mapIdx, List.mem_cons, Ne.symm h, false_or]

/-- What the loop has computed after processing the nodes `done` (in this order). -/
structure BumpInv (bump : List ℚ → List ErrRow → ℚ) (target : ℚ) (vals : List ℚ)
    (errs : List ErrRow) (done : List ℕ) (s : BumpState) : Prop where
  hvals : s.vals = vals
  herrs : s.errs = zeroRows errs done
  none : s.index = none → done = []
  top : done = [] → s.bump = ⊤
  some : ∀ i, s.index = some i → ∃ pre post, done = pre ++ i :: post ∧
    s.bump = (bump (vals.set i target) (zeroRows errs (i :: pre)) : ℚ)
  min : ∀ pre i post, done = pre ++ i :: post →
    s.bump ≤ (bump (vals.set i target) (zeroRows errs (i :: pre)) : ℚ)

theorem zeroRows_congr (errs : List ErrRow) {is js : List ℕ} (h : ∀ i, i ∈ is ↔ i ∈ js) :
    zeroRows errs is = zeroRows errs js := by
  unfold zeroRows; simp only [h]

theorem bumpInv_step {vals : List ℚ} {errs : List ErrRow} {done : List ℕ} {s : BumpState}
    (h : BumpInv bump target vals errs done s) (i : ℕ) :
    BumpInv bump target vals errs (done ++ [i]) (bumpStep bump target s i) := by
  obtain ⟨h1, h2, h3, h4, h5, h6⟩ := h
  have e1 : (s.errs.set i (0, 0)).set i ((s.errs.set i (0, 0)).getD i (0, 0)) =
      zeroRows errs (done ++ [i]) := by
    rw [set_getD_self, h2, set_zeroRows]
    exact zeroRows_congr _ (by intro j; simp [or_comm])
  have e2 : bump (s.vals.set i target) (s.errs.set i (0, 0)) =
      bump (vals.set i target) (zeroRows errs (i :: done)) := by
    rw [h1, h2, set_zeroRows]
  have e3 : (s.vals.set i target).set i (s.vals.getD i 0) = vals := by
    rw [set_set_restore, h1]
  have split : ∀ pre j post, done ++ [i] = pre ++ j :: post →
      (pre = done ∧ j = i ∧ post = []) ∨ ∃ post', post = post' ++ [i] ∧ done = pre ++ j :: post' := by
    intro pre j post he
    rcases List.eq_nil_or_concat post with rfl | ⟨p, x, rfl⟩
    · left
      obtain ⟨a, b⟩ := List.append_inj' he rfl
      simp at b
      exact ⟨a.symm, b.symm, rfl⟩
    · right
      have he : done ++ [i] = (pre ++ j :: p) ++ [x] := by simpa using he
      obtain ⟨a, b⟩ := List.append_inj' he rfl
      simp at b
      exact ⟨p, by simp [b], a⟩
  unfold bumpStep
  dsimp only
  rw [e1, e2, e3]
  split
  · rename_i hlt
    refine ⟨rfl, rfl, by simp, by simp, ?_, ?_⟩
    · intro j hj
      cases hj
      exact ⟨done, [], rfl, rfl⟩
    · intro pre j post he
      rcases split pre j post he with ⟨rfl, rfl, rfl⟩ | ⟨p, rfl, he'⟩
      · exact le_rfl
      · exact hlt.le.trans (h6 pre j p he')
  · rename_i hlt
    refine ⟨rfl, rfl, ?_, by simp, ?_, ?_⟩
    · intro hn
      exfalso
      have := h4 (h3 hn)
      rw [this] at hlt
      exact hlt (WithTop.coe_lt_top _)
    · intro j hj
      obtain ⟨pre, post, g1, g2⟩ := h5 j hj
      exact ⟨pre, post ++ [i], by rw [g1]; simp, g2⟩
    · intro pre j post he
      rcases split pre j post he with ⟨rfl, rfl, rfl⟩ | ⟨p, rfl, he'⟩
      · exact not_lt.mp hlt
      · exact h6 pre j p he'

theorem bumpInv_all (vals : List ℚ) (errs : List ErrRow) (is : List ℕ) :
    BumpInv bump target vals errs is
      (is.foldl (bumpStep bump target) ⟨vals, errs, none, ⊤⟩) := by
  induction is using List.reverseRecOn with
  | nil =>
    refine ⟨rfl, ?_, fun _ => rfl, fun _ => rfl, by simp, by simp⟩
    apply List.ext_getElem?
    intro j
    simp [zeroRows]
  | append_singleton is i ih => rw [List.foldl_append]; exact bumpInv_step ih i

/-- A node that the code looks at: its interval is wider than `eps_zero` and the target is not below
the interval. -/
def Eligible (epsZero target : ℚ) (vals : List ℚ) (errs : List ErrRow) (i : ℕ) : Prop :=
  i < vals.length ∧ (errs.getD i (0, 0)).2 - (errs.getD i (0, 0)).1 > epsZero ∧
    vals.getD i 0 + (errs.getD i (0, 0)).1 ≤ target

theorem mem_bumpNodes {vals : List ℚ} {errs : List ErrRow} {i : ℕ} :
    i ∈ bumpNodes epsZero target vals errs ↔ Eligible epsZero target vals errs i := by
  unfold bumpNodes bumpEligible Eligible
  rw [List.mem_filter, List.mem_range]
  simp

/-- **C55** (proved part) `get_min_bump_node()` leaves the node values unchanged; it selects a node
whenever one is eligible; the selected node is eligible and its bumpiness, computed with the intervals
of the eligible nodes before it destroyed, is minimal among those computed. -/
theorem C55_selection (vals : List ℚ) (errs : List ErrRow) :
    let r := minBumpNode bump epsZero target vals errs
    r.vals = vals ∧
    (r.index = none ↔ ∀ i, ¬ Eligible epsZero target vals errs i) ∧
    (∀ i, r.index = some i → Eligible epsZero target vals errs i ∧
      r.bump = (bump (vals.set i target) (zeroRows errs
        (i :: (bumpNodes epsZero target vals errs).filter (· < i))) : ℚ)) ∧
    (∀ i, Eligible epsZero target vals errs i →
      r.bump ≤ (bump (vals.set i target) (zeroRows errs
        (i :: (bumpNodes epsZero target vals errs).filter (· < i))) : ℚ)) := by
  dsimp only
  have h := bumpInv_all (bump := bump) (target := target) vals errs
    (bumpNodes epsZero target vals errs)
  change BumpInv bump target vals errs _ (minBumpNode bump epsZero target vals errs) at h
  have hsorted : (bumpNodes epsZero target vals errs).Pairwise (· < ·) :=
    List.Pairwise.filter _ List.pairwise_lt_range
  have hpre : ∀ pre i post, bumpNodes epsZero target vals errs = pre ++ i :: post →
      pre = (bumpNodes epsZero target vals errs).filter (· < i) := by
    intro pre i post he
    rw [he] at hsorted ⊢
    rw [List.pairwise_append, List.pairwise_cons] at hsorted
    rw [List.filter_append, List.filter_cons]
    simp only [lt_irrefl, decide_false, Bool.false_eq_true, if_false]
    rw [List.filter_eq_self.mpr, List.filter_eq_nil_iff.mpr, List.append_nil]
    · intro j hj
      have := hsorted.2.1.1 j hj
      simp; omega
    · intro j hj
      have := hsorted.2.2 j hj i (by simp)
      simpa using this
  refine ⟨h.hvals, ?_, ?_, ?_⟩
  · constructor
    · intro hn i hi
      have := h.none hn
      have hm := mem_bumpNodes.mpr hi
      rw [this] at hm
      simp at hm
    · intro hall
      cases hidx : (minBumpNode bump epsZero target vals errs).index with
      | none => rfl
      | some i =>
        obtain ⟨pre, post, g1, -⟩ := h.some i hidx
        exact absurd (mem_bumpNodes.mp (by rw [g1]; simp)) (hall i)
  · intro i hi
    obtain ⟨pre, post, g1, g2⟩ := h.some i hi
    refine ⟨mem_bumpNodes.mp (by rw [g1]; simp), ?_⟩
    rw [g2, hpre pre i post g1]
  · intro i hi
    obtain ⟨pre, post, g1⟩ := List.append_of_mem (mem_bumpNodes.mpr hi)
    have := h.min pre i post g1
    rwa [hpre pre i post g1] at this

/-- **C55** (violated part) After the call the error interval of every eligible node is `(0, 0)`: none
of them is restored.  The intervals of the other nodes are unchanged. -/
theorem C55_violated_intervals_destroyed (he : 0 ≤ epsZero) (vals : List ℚ) (errs : List ErrRow)
    (hl : errs.length = vals.length) :
    ∀ i < vals.length,
      (Eligible epsZero target vals errs i →
        (minBumpNode bump epsZero target vals errs).errs[i]? = some (0, 0) ∧
        errs[i]? ≠ some (0, 0)) ∧
      (¬ Eligible epsZero target vals errs i →
        (minBumpNode bump epsZero target vals errs).errs[i]? = errs[i]?) := by
  intro i hi
  have h := (bumpInv_all (bump := bump) (target := target) vals errs
    (bumpNodes epsZero target vals errs)).herrs
  change (minBumpNode bump epsZero target vals errs).errs = _ at h
  rw [h]
  unfold zeroRows
  rw [List.getElem?_mapIdx, List.getElem?_eq_getElem (by omega : i < errs.length)]
  simp only [Option.map_some]
  constructor
  · intro hE
    refine ⟨by rw [if_pos (mem_bumpNodes.mpr hE)], ?_⟩
    intro hz
    obtain ⟨-, h2, -⟩ := hE
    rw [List.getD_eq_getElem?_getD, List.getElem?_eq_getElem (by omega : i < errs.length), hz] at h2
    simp at h2
    linarith
  · intro hE; rw [if_neg (fun h => hE (mem_bumpNodes.mp h))]

/-- **C55** (violated part) A node can be selected although the target lies above its interval: the
upper end is never tested. -/
theorem C55_violated_target_above_interval : ∃ (vals : List ℚ) (errs : List ErrRow) (target : ℚ),
    (minBumpNode (fun _ _ => 1) 0 target vals errs).index = some 0 ∧
    vals.getD 0 0 + (errs.getD 0 (0, 0)).2 < target :=
  ⟨[0], [(-1, 1)], 5, by decide +kernel, by decide +kernel⟩

/-- **C55** (violated part) The destroyed intervals change the choice: with a bumpiness that does
depend on the intervals, another node is selected than the one of minimal bumpiness. -/
theorem C55_violated_wrong_node : ∃ (bump : List ℚ → List ErrRow → ℚ) (vals : List ℚ)
    (errs : List ErrRow) (target : ℚ),
    (minBumpNode bump 0 target vals errs).index = some 1 ∧
    bump (vals.set 0 target) (errs.set 0 (0, 0)) < bump (vals.set 1 target) (errs.set 1 (0, 0)) := by
  exact ⟨fun vals errs => if vals.getD 0 0 = 5 then 1
      else if errs.getD 0 (0, 0) = (0, 0) then 0 else 2, [0, 0], [(-1, 1), (-1, 1)], 5,
    by decide +kernel, by decide +kernel⟩

/-- **C55** With any scaling other than `off` the recorded error intervals are not touched. -/
theorem C55_records_unchanged_scaled (vals : List ℚ) (errs scaled : List ErrRow) :
    errBoundsAfterLocalStep false bump epsZero target vals errs scaled = errs := rfl

/-- **C55** (violated part) With `function_scaling = 'off'` the recorded error interval of every
eligible node is erased by a local search, although the recorded value remains the noisy one. -/
theorem C55_violated_records (he : 0 ≤ epsZero) (vals : List ℚ) (errs scaled : List ErrRow)
    (hl : errs.length = vals.length) (i : ℕ) (hE : Eligible epsZero target vals errs i) :
    (errBoundsAfterLocalStep true bump epsZero target vals errs scaled)[i]? = some (0, 0) ∧
      errs[i]? ≠ some (0, 0) ∧ (minBumpNode bump epsZero target vals errs).vals = vals := by
  have := ((C55_violated_intervals_destroyed (bump := bump) (target := target) he vals errs hl) i
    hE.1).1 hE
  exact ⟨by simpa [errBoundsAfterLocalStep] using this.1, this.2, (C55_selection vals errs).1⟩

/-- The hypotheses are met: node 0 of this concrete set is eligible, and its record is erased. -/
example : Eligible 0 (1/2) [0, 2] [(-1, 1), (0, 0)] 0 ∧
    errBoundsAfterLocalStep true (fun _ _ => 4) 0 (1/2) [0, 2] [(-1, 1), (0, 0)] [] =
      [(0, 0), (0, 0)] := by
  refine ⟨?_, by decide +kernel⟩
  unfold Eligible
  norm_num

/-! ## C69: which node is re-evaluated -/

/-- **C69** (proved part) A node is re-evaluated only if some node is eligible and a point was
proposed; it is a node closest to the proposed point; if the proposed point is within `min_dist` of
it, the node is noisy; otherwise the bumpiness of the new point exceeds that of the best eligible
node. -/
theorem C69_reevaluation {minDist : ℚ} {ind : Option ℕ} {bump : EVal} {next : Bool}
    {dists : List ℚ} {nBump : ℚ} {noisy : List Bool} {i : ℕ}
    (h : reevaluationChoice minDist ind bump next dists nBump noisy = some i) :
    ind ≠ none ∧ next = true ∧ ∃ d, dists[i]? = some d ∧ (∀ d' ∈ dists, d ≤ d') ∧
      (d ≤ minDist → noisy.getD i false = true) ∧ (minDist < d → bump < (nBump : EVal)) := by
  unfold reevaluationChoice at h
  split at h
  · rename_i h0
    rw [Bool.and_eq_true, Option.isSome_iff_ne_none] at h0
    split at h
    · cases h
    · rename_i d c e
      dsimp only at h
      obtain ⟨h1, h2, -⟩ := argminVal_some e
      by_cases hd : d > minDist
      · simp only [hd, if_true] at h
        split at h
        · rename_i hb
          cases h
          exact ⟨h0.1, h0.2, d, h1, h2, fun hc => absurd hc (not_le.mpr hd), fun _ => by simpa using hb⟩
        · cases h
      · simp only [hd, if_false] at h
        split at h
        · rename_i hb
          cases h
          rw [Bool.and_eq_true] at hb
          exact ⟨h0.1, h0.2, d, h1, h2, fun _ => hb.1, fun hc => absurd hc hd⟩
        · cases h
  · cases h

/-- **C69** (violated part) The node re-evaluated is not the node selected by `get_min_bump_node()`,
and can be one whose value is already accurate: here node 0 is selected (it is noisy), but node 1,
accurate and at distance 1 from the proposed point, is removed and evaluated again. -/
theorem C69_violated_accurate_node : ∃ (dists : List ℚ) (noisy : List Bool) (vals : List ℚ)
    (errs : List ErrRow) (target nBump : ℚ) (bump : List ℚ → List ErrRow → ℚ),
    (minBumpNode bump 0 target vals errs).index = some 0 ∧
    reevaluationChoice (1/100000) (minBumpNode bump 0 target vals errs).index
      (minBumpNode bump 0 target vals errs).bump true dists nBump noisy = some 1 ∧
    noisy.getD 1 true = false ∧ errs[1]? = some (0, 0) :=
  ⟨[3, 1], [true, false], [0, 2], [(-1, 1), (0, 0)], 1/2, 7, fun _ _ => 4, by decide +kernel,
    by decide +kernel, rfl, rfl⟩

end Rbfopt
