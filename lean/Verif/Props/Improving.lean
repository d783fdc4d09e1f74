import Verif.Props.Rounding
import Verif.Model.Serial
import Verif.Lemmas.Control
import Mathlib.Tactic.Linarith
import Mathlib.Algebra.Order.Archimedean.Basic

/-! # C53, C54 and the start of a refinement phase (C67) -/

namespace Rbfopt

/-! ## C53 -/

theorem addPt_getD {a b : Pt} {i : ℕ} (hi : i < a.length) :
    (addPt a b).getD i 0 = a.getD i 0 + b.getD i 0 := mapIdx_getD hi

theorem subPt_getD {a b : Pt} {i : ℕ} (hi : i < a.length) :
    (subPt a b).getD i 0 = a.getD i 0 - b.getD i 0 := mapIdx_getD hi

/-- One coordinate of a direction after the treatment of the integer variables. -/
theorem intDir_getD {epsZero : ℚ} {ints : List ℕ} {d : Pt} {i : ℕ} (hi : i < d.length) :
    (i ∉ ints → ((intDir epsZero ints d).getD i 0 = d.getD i 0 ∨
      (intDir epsZero ints d).getD i 0 = 0)) ∧
    (i ∈ ints → ((intDir epsZero ints d).getD i 0 = 0 ∨
      ((intDir epsZero ints d).getD i 0 = (aroundEven (max (d.getD i 0) 1) : ℚ) ∧ 0 < d.getD i 0) ∨
      ((intDir epsZero ints d).getD i 0 = (aroundEven (-(max (-d.getD i 0) 1)) : ℚ) ∧
        d.getD i 0 < 0))) := by
  unfold intDir
  split
  · rename_i he
    rw [he]
    simp
  · rw [mapIdx_getD hi]
    dsimp only
    constructor
    · intro h
      rw [if_neg h]
      split
      · exact .inr rfl
      · exact .inl rfl
    · intro h
      rw [if_pos h]
      split
      · left
        have : signQ 0 * max |(0:ℚ)| 1 = ((0 : ℤ) : ℚ) := by simp [signQ]
        rw [this, aroundEven_int]; rfl
      · rcases lt_trichotomy (d.getD i 0) 0 with h0 | h0 | h0
        · right; right
          refine ⟨?_, h0⟩
          have : signQ (d.getD i 0) = -1 := by
            unfold signQ; rw [if_neg (not_lt.mpr h0.le), if_pos h0]
          rw [this, abs_of_neg h0, neg_one_mul]
        · left
          rw [h0]
          have : signQ 0 * max |(0:ℚ)| 1 = ((0 : ℤ) : ℚ) := by simp [signQ]
          rw [this, aroundEven_int]; rfl
        · right; left
          refine ⟨?_, h0⟩
          have : signQ (d.getD i 0) = 1 := by unfold signQ; rw [if_pos h0]
          rw [this, abs_of_pos h0, one_mul]

theorem clipQ_mem {x lo hi : ℚ} (h : lo ≤ hi) : lo ≤ clipQ x lo hi ∧ clipQ x lo hi ≤ hi :=
  ⟨le_min (le_max_right _ _) h, min_le_right _ _⟩

/-- An integer move of at least one, rounded, stays in an interval with integer ends. -/
theorem int_move {s lo hi d : ℚ} (hs : IsInt s) (hl : IsInt lo) (hh : IsInt hi)
    (h1 : lo ≤ s) (h2 : s ≤ hi) (h3 : lo ≤ s + d) (h4 : s + d ≤ hi) :
    (0 < d → lo ≤ s + aroundEven (max d 1) ∧ s + aroundEven (max d 1) ≤ hi) ∧
    (d < 0 → lo ≤ s + aroundEven (-(max (-d) 1)) ∧ s + aroundEven (-(max (-d) 1)) ≤ hi) := by
  obtain ⟨s, rfl⟩ := hs
  obtain ⟨lo, rfl⟩ := hl
  obtain ⟨hi, rfl⟩ := hh
  constructor
  · intro hd
    have hlt : s < hi := by
      have : (s : ℚ) < hi := by linarith
      exact_mod_cast this
    have hcast : (s : ℚ) + 1 ≤ hi := by exact_mod_cast hlt
    have hm : max d 1 ≤ ((hi - s : ℤ) : ℚ) := by
      push_cast
      exact max_le (by linarith) (by linarith)
    have h5 := (aroundEven_mem (x := max d 1) (a := 1) (b := hi - s)
      (by have := le_max_right d 1; push_cast; linarith) (by linarith))
    have h6 : (1 : ℚ) ≤ aroundEven (max d 1) := by exact_mod_cast h5.1
    have h7 : (aroundEven (max d 1) : ℚ) ≤ hi - s := by exact_mod_cast h5.2
    constructor <;> linarith
  · intro hd
    have hlt : lo < s := by
      have : (lo : ℚ) < s := by linarith
      exact_mod_cast this
    have hcast : (lo : ℚ) + 1 ≤ s := by exact_mod_cast hlt
    have hm : max (-d) 1 ≤ ((s - lo : ℤ) : ℚ) := by
      push_cast
      exact max_le (by linarith) (by linarith)
    push_cast at hm
    have h5 := (aroundEven_mem (x := -(max (-d) 1)) (a := lo - s) (b := -1)
      (by push_cast; linarith) (by have := le_max_right (-d) 1; push_cast; linarith))
    have h6 : (aroundEven (-(max (-d) 1)) : ℚ) ≤ -1 := by exact_mod_cast h5.2
    have h7 : (lo : ℚ) - s ≤ aroundEven (-(max (-d) 1)) := by exact_mod_cast h5.1
    constructor <;> linarith

/-- The point reached by one direction of the loop is feasible. -/
theorem improvingDir_feasible {I : Internal} (hI : GoodLayout I) {epsZero radius : ℚ}
    {start dir d : Pt} {us : List ℚ} (he : epsZero ≤ 1) (hu : UnitDraws us)
    (hs : FeasibleInternal I start)
    (hd : improvingDir I epsZero I.lower I.upper start dir radius us = .ok d) :
    FeasibleInternal I (addPt start d) := by
  have hg := hs.good
  have hlen : start.length = I.dim := hs.length
  unfold improvingDir at hd
  dsimp only at hd
  split at hd
  · cases hd
  · rename_i c hc
    have hcl : (clipDir I.lower I.upper start dir radius).length = start.length := by
      simp [clipDir]
    have hal : (addPt start (clipDir I.lower I.upper start dir radius)).length = start.length := by
      simp [addPt]
    -- after clipping the point is in the box
    have hclip : ∀ i < I.dim,
        I.lower.getD i 0 ≤ start.getD i 0 + (clipDir I.lower I.upper start dir radius).getD i 0 ∧
        start.getD i 0 + (clipDir I.lower I.upper start dir radius).getD i 0 ≤
          I.upper.getD i 0 := by
      intro i hi
      have e : (clipDir I.lower I.upper start dir radius).getD i 0 =
          clipQ (start.getD i 0 + dir.getD i 0 * radius) (I.lower.getD i 0) (I.upper.getD i 0) -
            start.getD i 0 := mapIdx_getD (by omega)
      rw [e]
      have := clipQ_mem (x := start.getD i 0 + dir.getD i 0 * radius)
        (hI.box.le i (by rw [hI.dim]; exact hi))
      constructor <;> linarith [this.1, this.2]
    obtain ⟨g1, g2, g3⟩ := roundGroups_spec hI hu (by rw [hal, hlen]) hc
    cases hd
    set d0 := (if I.expansion = [] then clipDir I.lower I.upper start dir radius
      else subPt c start) with hd0
    have hd0l : d0.length = start.length := by
      rw [hd0]; split
      · exact hcl
      · simp [subPt, g1, hal]
    -- outside the groups `d0` is the clipped direction
    have hplain : ∀ i < I.dim, (∀ e ∈ I.expansion, i ∉ e.2.2) →
        d0.getD i 0 = (clipDir I.lower I.upper start dir radius).getD i 0 := by
      intro i hi hne
      rw [hd0]; split
      · rfl
      · rw [subPt_getD (by omega), g2 i hne, addPt_getD (by omega)]
        ring
    have hpl : (addPt start (intDir epsZero I.intVars d0)).length = I.dim := by
      simp [addPt, hlen]
    have hgrp : ∀ e ∈ I.expansion, ∀ i ∈ e.2.2,
        (addPt start (intDir epsZero I.intVars d0)).getD i 0 = c.getD i 0 := by
      intro e he' i hi
      obtain ⟨-, hlt, hint, -, -⟩ := hI.pos e he' i hi
      rw [addPt_getD (by omega)]
      have hne : I.expansion ≠ [] := List.ne_nil_of_mem he'
      have e0 : d0.getD i 0 = c.getD i 0 - start.getD i 0 := by
        rw [hd0, if_neg hne, subPt_getD (by omega)]
      have hi0 : i < d0.length := by omega
      have hnn : I.intVars ≠ [] := List.ne_nil_of_mem hint
      have e1 : (intDir epsZero I.intVars d0).getD i 0 = d0.getD i 0 := by
        unfold intDir
        rw [if_neg hnn, mapIdx_getD hi0]
        dsimp only
        rw [if_pos hint, e0]
        rcases oneHot_value (hs.oneHot e he') i hi with a | a <;>
          rcases oneHot_value (g3 e he') i hi with b | b <;> rw [a, b]
        · have : signQ (if |(0:ℚ) - 0| < epsZero then 0 else 0 - 0) = 0 := by simp [signQ]
          rw [this, zero_mul]
          have := aroundEven_int 0
          simpa using this
        · have h1 : ¬ |(1:ℚ) - 0| < epsZero := by norm_num; exact he
          rw [if_neg h1]
          have : signQ ((1:ℚ) - 0) * max |(1:ℚ) - 0| 1 = ((1 : ℤ) : ℚ) := by simp [signQ]
          rw [this, aroundEven_int]; norm_num
        · have h1 : ¬ |(0:ℚ) - 1| < epsZero := by norm_num; exact he
          rw [if_neg h1]
          have : signQ ((0:ℚ) - 1) * max |(0:ℚ) - 1| 1 = ((-1 : ℤ) : ℚ) := by norm_num [signQ]
          rw [this, aroundEven_int]; norm_num
        · have : signQ (if |(1:ℚ) - 1| < epsZero then 0 else 1 - 1) = 0 := by simp [signQ]
          rw [this, zero_mul]
          have := aroundEven_int 0
          simpa using this
      rw [e1, e0]; ring
    refine feasibleInternal_of hI ⟨by rw [hpl, hI.dim], fun i hi => ?_, fun i hi => ?_⟩ ?_
    · rw [hI.dim] at hi
      by_cases hgr : ∃ e ∈ I.expansion, i ∈ e.2.2
      · obtain ⟨e, he', hie⟩ := hgr
        obtain ⟨-, -, -, h4, h5⟩ := hI.pos e he' i hie
        rw [hgrp e he' i hie, h4, h5]
        rcases oneHot_value (g3 e he') i hie with b | b <;> rw [b] <;> norm_num
      · push Not at hgr
        have hb := hg.box i (by rw [hI.dim]; exact hi)
        have hcb := hclip i hi
        rw [addPt_getD (by omega)]
        obtain ⟨k1, k2⟩ := intDir_getD (epsZero := epsZero) (ints := I.intVars) (d := d0)
          (by omega : i < d0.length)
        rw [hplain i hi hgr] at k1 k2
        by_cases hint : i ∈ I.intVars
        · obtain ⟨-, il, iu⟩ := hI.box.int i hint
          obtain ⟨m1, m2⟩ := int_move (hg.int i hint) il iu hb.1 hb.2 hcb.1 hcb.2
          rcases k2 hint with e | ⟨e, hp⟩ | ⟨e, hn⟩ <;> rw [e]
          · rw [add_zero]; exact hb
          · exact m1 hp
          · exact m2 hn
        · rcases k1 hint with e | e <;> rw [e]
          · exact hcb
          · rw [add_zero]; exact hb
    · by_cases hgr : ∃ e ∈ I.expansion, i ∈ e.2.2
      · obtain ⟨e, he', hie⟩ := hgr
        rw [hgrp e he' i hie]
        rcases oneHot_value (g3 e he') i hie with b | b <;> rw [b]
        · exact ⟨0, by simp⟩
        · exact ⟨1, by simp⟩
      · have hlt : i < I.dim := by rw [← hI.dim]; exact (hI.box.int i hi).1
        rw [addPt_getD (by omega)]
        obtain ⟨z, hz⟩ := hg.int i hi
        rw [hz]
        obtain ⟨-, k2⟩ := intDir_getD (epsZero := epsZero) (ints := I.intVars) (d := d0)
          (by omega : i < d0.length)
        rcases k2 hi with e | ⟨e, -⟩ | ⟨e, -⟩ <;> rw [e]
        · exact ⟨z, by simp⟩
        · exact ⟨z + _, by push_cast; rfl⟩
        · exact ⟨z + _, by push_cast; rfl⟩
    · intro e he'
      exact oneHot_congr (fun i hi => (hgrp e he' i hi).symm) (g3 e he')

theorem improvingLoop_spec {I : Internal} {epsZero radius : ℚ} {lower upper start : Pt} {qr : QR}
    {better : Pt → Bool} {fuel i : ℕ} {us : List (List ℚ)} {d0 d : Pt} {r : ℕ}
    (h : improvingLoop I epsZero lower upper start radius qr better fuel i us d0 = .ok (d, true, r)) :
    better d = true ∧ (∃ (j : ℕ), i ≤ j ∧ j < i + fuel ∧ qr.pivots[j]? = some r) ∧
    ∃ (dir : Pt) (u : List ℚ), (u ∈ us ∨ u = []) ∧
      improvingDir I epsZero lower upper start dir radius u = .ok d := by
  induction fuel generalizing i us d0 with
  | zero =>
    unfold improvingLoop at h
    split at h <;> cases h
  | succ fuel ih =>
    unfold improvingLoop at h
    split at h
    · cases h
    · rename_i c hc
      split at h
      · cases h
      · rename_i d' hd'
        split at h
        · rename_i hb
          split at h
          · cases h
          · rename_i r' hr'
            cases h
            refine ⟨hb, ⟨i, le_rfl, by omega, hr'⟩, c, us.headD [], ?_, hd'⟩
            cases us with
            | nil => exact .inr rfl
            | cons u us => exact .inl (by simp)
        · obtain ⟨a, ⟨j, j1, j2, j3⟩, dir, u, hu, hdir⟩ := ih h
          refine ⟨a, ⟨j, by omega, by omega, j3⟩, dir, u, ?_, hdir⟩
          rcases hu with hu | hu
          · exact .inl (List.mem_of_mem_tail hu)
          · exact .inr hu

theorem modelImproving_feasible {I : Internal} (hI : GoodLayout I) {epsZero radius : ℚ}
    {nodes : List Pt} {modelSet : List ℕ} {startIdx : ℕ} {qr : QR} {better : Pt → Bool}
    {us : List (List ℚ)} {p : Pt} {r : ℕ} (he : epsZero ≤ 1) (hu : ∀ u ∈ us, UnitDraws u)
    (hs : FeasibleInternal I (nodes.getD startIdx []))
    (h : modelImprovingPoint I epsZero I.lower
      I.upper nodes modelSet startIdx radius qr better us = .ok (p, true, r)) :
    FeasibleInternal I p ∧
      ∃ d, p = addPt (nodes.getD startIdx []) d ∧ better d = true := by
  unfold modelImprovingPoint at h
  dsimp only at h
  split at h
  · cases h
  · split at h
    · cases h
    · split at h
      · cases h
      · rename_i d ok r' hl
        cases h
        obtain ⟨hb, -, dir, u, hu', hd⟩ := improvingLoop_spec hl
        refine ⟨improvingDir_feasible hI he ?_ hs hd, d, rfl, hb⟩
        rcases hu' with h | rfl
        · exact hu u h
        · intro u hu; cases hu

/-- **C53** A model-improving point is feasible (in the box, integral, one category per group) and
increases the rank of the set of directions. -/
theorem C53_feasible {eps : ℚ} {vars : List Var} (hw : WellFormed vars) {epsZero radius : ℚ}
    {nodes : List Pt} {modelSet : List ℕ} {startIdx : ℕ} {qr : QR} {better : Pt → Bool}
    {us : List (List ℚ)} {p : Pt} {r : ℕ} (he : epsZero ≤ 1) (hu : ∀ u ∈ us, UnitDraws u)
    (hs : FeasibleInternal (construct eps vars) (nodes.getD startIdx []))
    (h : modelImprovingPoint (construct eps vars) epsZero (construct eps vars).lower
      (construct eps vars).upper nodes modelSet startIdx radius qr better us = .ok (p, true, r)) :
    FeasibleInternal (construct eps vars) p ∧
      ∃ d, p = addPt (nodes.getD startIdx []) d ∧ better d = true :=
  modelImproving_feasible (goodLayout_construct hw) he hu hs h

/-- Position `j` of the reduced model set, in the model set. -/
theorem reducedSet_get {pre post : List ℕ} {c : ℕ} (hn : (pre ++ c :: post).Nodup) :
    reducedSet (pre ++ c :: post) c = pre ++ post := by
  unfold reducedSet
  rw [List.nodup_append] at hn
  obtain ⟨-, h2, h3⟩ := hn
  rw [List.nodup_cons] at h2
  rw [List.filter_append, List.filter_cons, if_neg (by simp), List.filter_eq_self.mpr,
    List.filter_eq_self.mpr]
  · intro x hx
    have : x ≠ c := by rintro rfl; exact h2.1 hx
    simpa using this
  · intro x hx
    have : x ≠ c := h3 x hx c (by simp)
    simpa using this

/-- **C53** (violation) The reported index is a position in the model set *without* the starting
point, but it is used as a position in the model set: it designates the intended element only if
that element comes before the starting point. -/
theorem C53_violated_index {pre post : List ℕ} {c : ℕ} (hn : (pre ++ c :: post).Nodup) {j : ℕ}
    (hj : j < (reducedSet (pre ++ c :: post) c).length) :
    (pre ++ c :: post)[j]? = (reducedSet (pre ++ c :: post) c)[j]? ↔ j < pre.length := by
  have hr := reducedSet_get hn
  rw [hr] at hj ⊢
  constructor
  · intro h
    by_contra hc
    have hc := not_lt.mp hc
    rw [List.getElem?_append_right hc, List.getElem?_append_right hc] at h
    rw [List.length_append] at hj
    have hnd := (List.nodup_append.mp hn).2.1
    obtain ⟨k, hk⟩ : ∃ k, j - pre.length = k := ⟨_, rfl⟩
    rw [hk] at h
    have hkl : k < post.length := by omega
    rw [List.getElem?_eq_getElem (by simp; omega), List.getElem?_eq_getElem hkl] at h
    have h' := Option.some.inj h
    have h2 : (c :: post)[k + 1]'(by simp; omega) = post[k] := by simp
    rw [← h2] at h'
    have := (List.Nodup.getElem_inj_iff hnd).mp h'
    omega
  · intro h
    rw [List.getElem?_append_left h, List.getElem?_append_left h]

/-- **C53** (violation) In particular right after the start of a refinement phase, when the starting
point is the first element of the model set (C67), the index never designates the intended
element. -/
theorem C53_violated_at_start {post : List ℕ} {c : ℕ} (hn : (c :: post).Nodup) {j : ℕ}
    (hj : j < (reducedSet (c :: post) c).length) :
    (c :: post)[j]? ≠ (reducedSet (c :: post) c)[j]? := by
  intro h
  have := (C53_violated_index (pre := []) hn hj).mp h
  simp at this

/-- **C53** (violation) As a consequence, if index 0 is reported then, the new point becomes the
center of the refinement however bad it is. -/
theorem C53_violated_center {O : Type} {P : Params} {env : Env O} {s s' : Alg O} {mi ri : ℚ}
    {rd : Bool} (h0 : s.refSet[0]? = some s.refIter)
    (h : refinementUpdate P env s mi ri 0 rd = .ok s') (hc : s'.numCons ≠ 0) :
    s'.refIter = s.cur.pos.length - 1 := by
  unfold refinementUpdate at h
  dsimp only at h
  rw [h0] at h
  dsimp only at h
  split at h
  · cases h
  · rename_i s1 t1 h1
    split at h
    · cases h
    · rename_i s2 h2
      cases h
      unfold refAccept at h1
      rw [if_pos (.inr rfl)] at h1
      split at h1
      · cases h1
      · split at h1
        · split at h1
          · cases h1
          · cases h1
            rcases refContinue_cases h2 with ⟨-, rfl⟩ | ⟨-, -, rfl | rfl⟩ <;> dsimp only <;>
              split <;> rfl
        · cases h1

-- premises: an improving direction is found, with index 0
example : ∃ (nodes : List Pt) (qr : QR),
    modelImprovingPoint (construct 0 intRealVars) 0 [0, 0] [5, 1] nodes [0, 1, 2] 0 (1/2) qr
      (fun _ => true) [] = .ok ([3, 1], true, 0) ∧ (reducedSet [0, 1, 2] 0)[0]? = some 1 :=
  ⟨[[3, 1/2], [4, 1/2], [5, 1/2]], ⟨1, [1, 0], [[1, 0], [0, 1]]⟩, by decide +kernel,
    by decide +kernel⟩

/-- **C53** Without an improvement to make (no points other than the starting point, or directions of full
rank), the starting point is returned with a failure, whatever the factorisation contains. -/
theorem C53_nothing_to_improve (I : Internal) (epsZero : ℚ) (lower upper : Pt) (nodes : List Pt)
    (modelSet : List ℕ) (startIdx : ℕ) (radius : ℚ) (qr : QR) (better : Pt → Bool) (us : List (List ℚ))
    (h : (modelSet.filter (· ≠ startIdx)).length ≤ qr.rank) :
    modelImprovingPoint I epsZero lower upper nodes modelSet startIdx radius qr better us =
      .ok (nodes.getD startIdx [], false, startIdx) := by
  unfold modelImprovingPoint reducedSet
  dsimp only
  split_ifs <;> rfl

-- two directions of rank two
example : (([0, 1, 2] : List ℕ).filter (· ≠ 0)).length ≤ (⟨2, [1, 0], [[1, 0], [0, 1]]⟩ : QR).rank := by
  decide

/-! ## C54 -/

/-- The ratio of real to predicted decrease, 0 if the predicted decrease is negligible. -/
def decreaseRatio (epsZero modelDiff realDiff : ℚ) : ℚ :=
  if epsZero < |modelDiff| then realDiff / modelDiff else 0

/-- **C54** The radius is halved, doubled or kept according to the ratio, and the step is accepted
exactly if the ratio reaches the threshold. -/
theorem C54_update (P : Params) (radius modelDiff realDiff : ℚ) :
    let ρ := decreaseRatio P.epsZero modelDiff realDiff
    let r := updateRefinementRadius P radius modelDiff realDiff
    (ρ ≤ P.refShrink → r.1 = radius / 2) ∧
    (P.refShrink < ρ → P.refEnlarge ≤ ρ → r.1 = 2 * radius) ∧
    (P.refShrink < ρ → ρ < P.refEnlarge → r.1 = radius) ∧
    (r.2 = true ↔ P.refMove ≤ ρ) := by
  intro ρ r
  have hρ : ρ = if |modelDiff| > P.epsZero then realDiff / modelDiff else 0 := rfl
  have hr : r = (if ρ ≤ P.refShrink then radius * (1/2)
   else if ρ ≥ P.refEnlarge then radius * 2 else radius, decide (ρ ≥ P.refMove)) := rfl
  rw [hr]
  refine ⟨fun h => ?_, fun h1 h2 => ?_, fun h1 h2 => ?_, by simp⟩
  · dsimp only; rw [if_pos h]; ring
  · dsimp only; rw [if_neg (not_le.mpr h1), if_pos h2]; ring
  · dsimp only; rw [if_neg (not_le.mpr h1), if_neg (not_le.mpr h2)]

/-- **C54** A positive radius stays positive. -/
theorem C54_positive (P : Params) {radius : ℚ} (modelDiff realDiff : ℚ) (h : 0 < radius) :
    0 < (updateRefinementRadius P radius modelDiff realDiff).1 := by
  unfold updateRefinementRadius
  dsimp only
  generalize (if |modelDiff| > P.epsZero then realDiff / modelDiff else 0) = ρ
  split
  · linarith
  · split
    · linarith
    · exact h

/-- **C54** If the model predicts no increase and the acceptance threshold is positive, an accepted
step really decreases the objective. -/
theorem C54_accept_improves {P : Params} {radius modelDiff realDiff : ℚ} (hm : 0 < P.refMove)
    (hp : 0 ≤ modelDiff) (h : (updateRefinementRadius P radius modelDiff realDiff).2 = true) :
    0 < realDiff := by
  have := (C54_update P radius modelDiff realDiff).2.2.2.mp h
  unfold decreaseRatio at this
  split at this
  · rename_i hgt
    have hne : modelDiff ≠ 0 := by
      rintro rfl
      rw [div_zero] at this
      linarith
    have hpos : 0 < modelDiff := lt_of_le_of_ne hp (Ne.symm hne)
    by_contra hc
    have := div_nonpos_of_nonpos_of_nonneg (not_lt.mp hc) hpos.le
    linarith
  · linarith

/-- **C54** (violation) If the predicted decrease is negative (possible with categorical variables,
see C51, and in the rank-deficient case, where the model *value* is used instead of a difference) a
step that makes the objective worse is accepted and the radius is doubled. -/
theorem C54_violated_worse_step {P : Params} {radius modelDiff realDiff : ℚ}
    (hs : P.refShrink < 1) (he : P.refEnlarge ≤ 1) (hm : P.refMove ≤ 1) (h0 : 0 ≤ P.epsZero)
    (h1 : modelDiff < -P.epsZero) (h2 : realDiff ≤ modelDiff) :
    realDiff < 0 ∧ updateRefinementRadius P radius modelDiff realDiff = (2 * radius, true) := by
  have hneg : modelDiff < 0 := by linarith
  refine ⟨by linarith, ?_⟩
  have hρ : 1 ≤ decreaseRatio P.epsZero modelDiff realDiff := by
    unfold decreaseRatio
    rw [if_pos (by rw [abs_of_neg hneg]; linarith), le_div_iff_of_neg hneg]
    linarith
  obtain ⟨-, k2, -, k4⟩ := C54_update P radius modelDiff realDiff
  exact Prod.ext (k2 (by linarith) (by linarith)) (k4.mpr (by linarith))

/-- Radius after a sequence of updates. -/
def radiusAfter (P : Params) : ℚ → List (ℚ × ℚ) → ℚ
  | r, [] => r
  | r, (m, a) :: ds => radiusAfter P (updateRefinementRadius P r m a).1 ds

/-- **C54** Enough unsuccessful steps in a row bring the radius below every positive limit, so that
the refinement phase ends. -/
theorem C54_unsuccessful_steps_end (P : Params) (radius : ℚ) {limit : ℚ} (hl : 0 < limit) :
    ∃ k : ℕ, ∀ ds : List (ℚ × ℚ), (∀ d ∈ ds, decreaseRatio P.epsZero d.1 d.2 ≤ P.refShrink) →
      k ≤ ds.length → radiusAfter P radius ds < limit := by
  have key : ∀ (ds : List (ℚ × ℚ)) (r : ℚ),
      (∀ d ∈ ds, decreaseRatio P.epsZero d.1 d.2 ≤ P.refShrink) →
      radiusAfter P r ds = r * (1/2) ^ ds.length := by
    intro ds
    induction ds with
    | nil => intro r _; simp [radiusAfter]
    | cons d ds ih =>
      intro r h
      obtain ⟨m, a⟩ := d
      rw [radiusAfter, ih _ (fun d hd => h d (by simp [hd])),
        (C54_update P r m a).1 (h (m, a) (by simp)), List.length_cons, pow_succ]
      ring
  rcases le_or_gt radius 0 with h0 | h0
  · refine ⟨0, fun ds h _ => ?_⟩
    rw [key ds radius h]
    have : (0:ℚ) ≤ (1/2) ^ ds.length := by positivity
    nlinarith
  · obtain ⟨k, hk⟩ := exists_pow_lt_of_lt_one (div_pos hl h0) (by norm_num : (1/2 : ℚ) < 1)
    refine ⟨k, fun ds h hkl => ?_⟩
    rw [key ds radius h]
    have h1 : (1/2 : ℚ) ^ ds.length ≤ (1/2) ^ k :=
      pow_le_pow_of_le_one (by norm_num) (by norm_num) hkl
    rw [lt_div_iff₀ h0] at hk
    nlinarith

/-! ## C67: start of a refinement phase -/

/-- `order` is a result of `np.argsort(dist)`. -/
structure IsArgsort (dist : List ℚ) (order : List ℕ) : Prop where
  perm : order.Perm (List.range dist.length)
  sorted : order.Pairwise (fun i j => dist.getD i 0 ≤ dist.getD j 0)

/-- **C67** The model set of a refinement phase consists of `min(n+1, k)` different nodes, no node
outside is closer to the center than a node inside, and the radius is at least the minimum one. -/
theorem C67_closest_nodes {minRadius radius : ℚ} {n : ℕ} {dist : List ℚ} {order ms : List ℕ}
    (ho : IsArgsort dist order) (h : initRefinement minRadius n dist order = .ok (ms, radius)) :
    ms.length = min (n + 1) dist.length ∧ ms.Nodup ∧ (∀ i ∈ ms, i < dist.length) ∧
    (∀ i ∈ ms, ∀ j < dist.length, j ∉ ms → dist.getD i 0 ≤ dist.getD j 0) ∧
    minRadius ≤ radius := by
  unfold initRefinement at h
  split at h
  · cases h
  · dsimp only at h
    cases h
    have hlen : order.length = dist.length := by rw [ho.perm.length_eq, List.length_range]
    have hnd : order.Nodup := (ho.perm.nodup_iff).mpr List.nodup_range
    refine ⟨?_, hnd.sublist (List.take_sublist _ _), fun i hi => ?_, fun i hi j hj hnj => ?_,
      le_max_right _ _⟩
    · rw [List.length_take, hlen]; omega
    · have := ho.perm.mem_iff.mp (List.mem_of_mem_take hi)
      simpa using this
    · have hjo : j ∈ order := ho.perm.mem_iff.mpr (by simpa using hj)
      have hsplit := List.take_append_drop (min (n + 1) dist.length) order
      rw [← hsplit] at hjo
      rcases List.mem_append.mp hjo with hc | hjd
      · exact absurd hc hnj
      · have hs := ho.sorted
        rw [← hsplit, List.pairwise_append] at hs
        exact hs.2.2 i hi j hjd

/-- **C67** If the center is node `c` and all other nodes are at a positive distance (C16), the
center is the first element of the model set. -/
theorem C67_center_first {minRadius radius : ℚ} {n : ℕ} {dist : List ℚ} {order ms : List ℕ} {c : ℕ}
    (ho : IsArgsort dist order) (h : initRefinement minRadius n dist order = .ok (ms, radius))
    (hc : c < dist.length) (h0 : dist.getD c 0 = 0)
    (hpos : ∀ j < dist.length, j ≠ c → 0 < dist.getD j 0) : ms[0]? = some c := by
  unfold initRefinement at h
  split at h
  · cases h
  · rename_i hk
    dsimp only at h
    cases h
    have hlen : order.length = dist.length := by rw [ho.perm.length_eq, List.length_range]
    rw [List.getElem?_take, if_pos (by omega)]
    have hmem : c ∈ order := ho.perm.mem_iff.mpr (by simpa using hc)
    cases order with
    | nil => cases hmem
    | cons a order =>
      simp only [List.getElem?_cons_zero, Option.some.injEq]
      by_contra hne
      have ha : a < dist.length := by
        have := ho.perm.mem_iff.mp (List.mem_cons_self (a := a) (l := order))
        simpa using this
      have hco : c ∈ order := by
        rcases List.mem_cons.mp hmem with rfl | h
        · exact absurd rfl hne
        · exact h
      have := List.rel_of_pairwise_cons ho.sorted hco
      rw [h0] at this
      have := hpos a ha hne
      linarith

theorem insertionSort_getD_bounds {l : List ℚ} {lo hi : ℚ}
    (h : ∀ x ∈ l, lo ≤ x ∧ x ≤ hi) {i : ℕ} (hi' : i < l.length) :
    lo ≤ (l.insertionSort (· ≤ ·)).getD i 0 ∧ (l.insertionSort (· ≤ ·)).getD i 0 ≤ hi := by
  have hl : (l.insertionSort (· ≤ ·)).length = l.length := List.length_insertionSort _ _
  have : (l.insertionSort (· ≤ ·)).getD i 0 ∈ l := by
    rw [getD_of (List.getElem?_eq_getElem (by omega)), ← List.mem_insertionSort (· ≤ ·)]
    exact List.getElem_mem _
  exact h _ this

/-- **C67** Unless it is the minimum radius, the radius is at most the distance of the farthest node
of the model set. -/
theorem C67_radius_le {minRadius radius hi : ℚ} {n : ℕ} {dist : List ℚ} {order ms : List ℕ}
    (hn : 0 < n) (ho : IsArgsort dist order)
    (h : initRefinement minRadius n dist order = .ok (ms, radius))
    (hhi : ∀ i ∈ ms, 0 ≤ dist.getD i 0 ∧ dist.getD i 0 ≤ hi) : radius ≤ max hi minRadius := by
  have hlen := (C67_closest_nodes ho h).1
  unfold initRefinement at h
  split at h
  · cases h
  · rename_i hk
    dsimp only at h
    cases h
    refine max_le_max ?_ le_rfl
    set ms := order.take (min (n + 1) dist.length)
    have htl : (ms.tail.map (fun i => dist.getD i 0)).length = ms.length - 1 := by simp
    have hb : ∀ x ∈ ms.tail.map (fun i => dist.getD i 0), (0:ℚ) ≤ x ∧ x ≤ hi := by
      intro x hx
      obtain ⟨i, hi, rfl⟩ := List.mem_map.mp hx
      exact hhi i (List.mem_of_mem_tail hi)
    have hpos : 0 < (ms.tail.map (fun i => dist.getD i 0)).length := by rw [htl]; omega
    unfold percentile50
    dsimp only
    rw [List.length_insertionSort]
    have a := insertionSort_getD_bounds hb
      (i := ((ms.tail.map (fun i => dist.getD i 0)).length - 1) / 2) (by omega)
    have b := insertionSort_getD_bounds hb
      (i := (ms.tail.map (fun i => dist.getD i 0)).length / 2) (by omega)
    linarith [a.2, b.2]

example : initRefinement (1/100) 2 [3, 0, 1, 7] [1, 2, 0, 3] = .ok ([1, 2, 0], 2) ∧
    IsArgsort [3, 0, 1, 7] [1, 2, 0, 3] :=
  ⟨by decide +kernel, by decide +kernel, by decide +kernel⟩

end Rbfopt
