import Verif.Props.Bump
import Verif.Props.Records
import Verif.Examples.Witness

/-! # C55: error intervals erased during a run of the serial engine -/

namespace Rbfopt

section

variable {O : Type} {P : Params} {env : Env O} {o : O} {c : Ctl} {s : Alg O}

/-- **C55** What the engine does to the error intervals in a local step of two-phase optimization in
accurate mode is what `get_min_bump_node()` leaves in the array of the object: with
`function_scaling = 'off'` the rows of the eligible nodes are erased, with another scaling nothing is. -/
theorem C55_erasure_is_the_code {bump : List ℚ → List ErrRow → ℚ} {target : ℚ} {scaled : List ErrRow}
    (hP : P.twoPhase = true) (hm : s.mode = .accurate) :
    (eraseErr P s (bumpNodes P.epsZero target s.cur.val s.cur.err)).cur.err =
        errBoundsAfterLocalStep true bump P.epsZero target s.cur.val s.cur.err scaled ∧
    (eraseErr P s []).cur.err =
        errBoundsAfterLocalStep false bump P.epsZero target s.cur.val s.cur.err scaled := by
  have h := (bumpInv_all (bump := bump) (target := target) s.cur.val s.cur.err
    (bumpNodes P.epsZero target s.cur.val s.cur.err)).herrs
  change (minBumpNode bump P.epsZero target s.cur.val s.cur.err).errs = _ at h
  unfold eraseErr errBoundsAfterLocalStep
  have hc : P.twoPhase = true ∧ s.mode = .accurate := ⟨hP, hm⟩
  constructor
  · rw [if_pos hc, if_pos rfl, h]; rfl
  · rw [if_pos hc]
    simp only [List.not_mem_nil, if_false, Bool.false_eq_true]
    exact List.ext_getElem (by simp) (by simp)

/-- **C55** Erasing never reaches the records from which the result and the gap are computed: at every
moment, a current node whose interval differs from the recorded one has the interval `(0, 0)`, the run is
in two-phase optimization after the switch to the accurate mode, and the value and the flag of the node
are those of the record. -/
theorem C55_only_current_nodes_erased (h : Reach P env o c s) (j : ℕ) (e r : ℚ × ℚ)
    (he : s.cur.err[j]? = some e) (hr : s.all.err[s.nAtRestart + j]? = some r) (hne : e ≠ r) :
    e = (0, 0) ∧ P.twoPhase = true ∧ s.mode = .accurate ∧
      s.cur.val[j]? = s.all.val[s.nAtRestart + j]? ∧
      s.cur.noisy[j]? = s.all.noisy[s.nAtRestart + j]? := by
  obtain ⟨-, -, -, h1, h2, h3, h4, -⟩ := C03_tables_aligned h
  have hz : e = (0, 0) := by
    have h5 := h3.length_eq
    obtain ⟨hj, e1⟩ := List.getElem?_eq_some_iff.mp he
    have := h3.get hj (by omega)
    simp only [List.get_eq_getElem, List.getElem_drop] at this
    obtain ⟨hk, e2⟩ := List.getElem?_eq_some_iff.mp hr
    rw [e1, e2] at this
    exact this.resolve_left hne
  have hnot : ¬ (P.twoPhase = false ∨ s.mode = .noisy) := by
    intro hc
    have h6 := h4 hc
    rw [h6, List.getElem?_drop, hr] at he
    cases he
    exact hne rfl
  push Not at hnot
  refine ⟨hz, ?_, ?_, by rw [h1, List.getElem?_drop], by rw [h2, List.getElem?_drop]⟩
  · cases hb : P.twoPhase with
    | true => rfl
    | false => exact absurd hb hnot.1
  · cases hb : s.mode with
    | accurate => rfl
    | noisy => exact absurd hb hnot.2

end

namespace Demo

/-- The local search erases the intervals of the eligible nodes, as the code does without function
scaling, and proposes new points far from the nodes. -/
def envEr : Env ℕ :=
  { Demo.env with
    evalNoisy := fun _ x => (x.headD 0, -1, 1)
    localSearch := fun s => .ok (⟨false, some [(s.itercount : ℚ) + 1], none, false,
      bumpNodes Demo.P.epsZero 1 s.cur.val s.cur.err⟩, s.opq) }

/-- **C55** (violation) A run in which the two phases meet: after the switch to the accurate mode the
local search erases the interval `(-1, 1)` of the nodes 0 and 1, whose values remain the noisy ones;
their records and the node 10 keep their intervals. -/
theorem C55_violated_erased_in_a_run :
    (optimize { PNw with maxNoisyIter := 0, maxIter := 3, target := -100 } envEr 40 10
        (Alg.init PNw 0)).result?.map
      (fun r => (r.final.cur.pos, r.final.cur.noisy, r.final.cur.err, r.final.all.err)) =
    some ([[0], [10], [1], [2], [3]], [true, true, true, false, false],
      [(0, 0), (-1, 1), (0, 0), (0, 0), (0, 0)], [(-1, 1), (-1, 1), (-1, 1), (0, 0), (0, 0)]) := by
  decide +kernel

/-- The hypotheses of `C55_only_current_nodes_erased` are met by that run. -/
example : ∃ s, Reach { PNw with maxNoisyIter := 0, maxIter := 3, target := -100 } envEr 0 .idle s ∧
    s.cur.err[0]? = some (0, 0) ∧ s.all.err[s.nAtRestart + 0]? = some (-1, 1) := by
  have h0 : (optimize { PNw with maxNoisyIter := 0, maxIter := 3, target := -100 } envEr 40 10
        (Alg.init PNw 0)).result?.map
      (fun r => (r.final.cur.err, r.final.all.err, r.final.nAtRestart)) =
    some ([(0, 0), (-1, 1), (0, 0), (0, 0), (0, 0)], [(-1, 1), (-1, 1), (-1, 1), (0, 0), (0, 0)], 0) := by
    decide +kernel
  generalize hx : optimize { PNw with maxNoisyIter := 0, maxIter := 3, target := -100 } envEr 40 10
    (Alg.init PNw 0) = x at h0
  cases x with
  | ret r =>
    simp only [OptRes.result?, Option.map_some, Option.some.injEq, Prod.mk.injEq] at h0
    obtain ⟨h1, h2, h3⟩ := h0
    have hr := optimize_reach (.init (P := { PNw with maxNoisyIter := 0, maxIter := 3, target := -100 })
      (env := envEr) (o := 0)) hx
    exact ⟨r.final, hr, by rw [h1]; rfl, by rw [h2, h3]; rfl⟩
  | _ => simp [OptRes.result?] at h0

/-- The local search proposes the point 10 again and finds an eligible noisy node. -/
def envAgain : Env ℕ :=
  { Demo.env with
    evalNoisy := fun _ x => (x.headD 0, -1, 1)
    localSearch := fun s => .ok (⟨false, some [10], some (0 : ℚ), false, []⟩, s.opq) }

/-- The hypotheses of `C69_engine_is_the_code` are met in a run: after the switch to the accurate mode the noisy
node 10 is removed and evaluated again. -/
example :
    (optimize { PNw with maxNoisyIter := 0, maxIter := 3, target := -100 } envAgain 40 10
        (Alg.init PNw 0)).result?.map
      (fun r => (r.final.cur.pos, r.final.cur.noisy)) = some ([[0], [1], [2], [10]], [true, true, false, false]) := by
  decide +kernel

end Demo

/-- **C69** The serial engine re-evaluates exactly the node that the choice of `local_step()` designates: it is
removed and its position becomes the point of the iteration; otherwise the proposed point is used and no node is
removed. -/
theorem C69_engine_is_the_code {O : Type} {P : Params} {env : Env O} {s s' : Alg O} {lp : LocalProposal}
    {ind : Option ℕ} {bump : EVal} {nBump : ℚ} {p : Option Pt} {oc : Option RefProposal}
    (hP : P.twoPhase = true) (hm : s.mode = .accurate) (hb : lp.bump = ind.map (fun _ => bump))
    (hn : lp.newBumpLarger = decide (bump < (nBump : EVal)))
    (h : localDispatch P env s lp = .ok (.go s' p oc)) :
    match reevaluationChoice P.minDist ind bump lp.next.isSome (s.cur.pos.map (env.dist (lp.next.getD [])))
        nBump s.cur.noisy with
    | some i => removeNode s i s.nAtRestart = .ok s' ∧ p = s.cur.pos[i]? ∧ i < s.cur.pos.length
    | none => s' = s ∧ p = lp.next := by
  unfold localDispatch at h
  rw [if_pos ⟨hP, hm⟩] at h
  unfold reevaluationChoice
  cases hi : ind with
  | none =>
    rw [hi] at hb
    rw [hb] at h
    simp only [Option.map_none] at h
    cases h
    simp
  | some i0 =>
    rw [hi] at hb
    rw [hb] at h
    simp only [Option.map_some] at h
    cases hx : lp.next with
    | none =>
      rw [hx] at h
      dsimp only at h
      cases h
      simp
    | some q0 =>
      rw [hx] at h
      simp only [Option.isSome_some, Bool.and_self, if_true, Option.getD_some]
      dsimp only at h
      unfold getMinDistanceAndIndex at h
      split at h
      · cases h
      · rename_i d j hd
        rw [hd]
        dsimp only
        split at h
        · rename_i b q hnj hpj
          have hlt : j < s.cur.pos.length := by
            by_contra hc
            rw [List.getElem?_eq_none_iff.mpr (not_lt.mp hc)] at hpj; cases hpj
          have hg : s.cur.noisy.getD j false = b := by
            rw [List.getD_eq_getElem?_getD, hnj]; rfl
          rw [hg]
          have he : preferOld P lp d b bump =
              (if d > P.minDist then decide (bump < (nBump : EVal)) else b && decide (bump ≠ ⊤)) := by
            unfold preferOld; rw [hn]
          rw [he] at h
          generalize (if d > P.minDist then decide (bump < (nBump : EVal)) else b && decide (bump ≠ ⊤)) = B at h ⊢
          cases B with
          | true =>
            simp only [if_true] at h ⊢
            cases hs1 : removeNode s j s.nAtRestart with
            | error e => rw [hs1] at h; cases h
            | ok s1 =>
              rw [hs1] at h
              cases h
              exact ⟨rfl, hpj.symm, hlt⟩
          | false =>
            simp only [Bool.false_eq_true, if_false] at h ⊢
            cases h
            exact ⟨rfl, rfl⟩
        · cases h

end Rbfopt
