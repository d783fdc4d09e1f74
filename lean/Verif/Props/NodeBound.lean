import Verif.Props.Coverage
import Verif.Props.EndToEnd
import Verif.Props.Records
import Verif.Props.ParallelDomain
import Verif.Props.ParallelSteps

/-!
# C103: the interpolation system stays bounded

The nodes are the unknowns of the interpolation system and the points that every distance computation runs
over.  However many iterations, evaluations and restarts there are, their number stays below the number of
initial points plus a number that depends only on the box of the variables, the distance and `min_dist`.
-/

namespace Rbfopt

variable {O : Type} {P : Params} {env : Env O} {o : O} {c : Ctl} {s : Alg O}

/-- Two points of the box of the variables whose coordinates differ by at most `delta` are not farther apart
than `min_dist`. -/
def CloseCells (P : Params) (env : Env O) (delta : ℚ) : Prop :=
  ∀ p q, InBox P.lLower P.lUpper p → InBox P.lLower P.lUpper q →
    (∀ i < P.lLower.length, |p.getD i 0 - q.getD i 0| ≤ delta) → env.dist p q ≤ P.minDist

theorem length_le_of_spaced {delta : ℚ} (hdelta : 0 < delta) (hr : CloseCells P env delta) {pts : List Pt}
    {m : ℕ} (hbox : ∀ p ∈ pts, InBox P.lLower P.lUpper p)
    (hsp : ∀ (i j : ℕ) (p q : Pt), i < j → m ≤ j → pts[i]? = some q → pts[j]? = some p →
      P.minDist < env.dist p q) :
    pts.length ≤ m + cellCount P.lLower P.lUpper delta := by
  by_contra hcon
  have hget : ∀ k ∈ Finset.Ico m pts.length, pts[k]? = some (pts.getD k []) := by
    intro k hk
    have := (Finset.mem_Ico.mp hk).2
    rw [List.getD_eq_getElem _ _ this, List.getElem?_eq_getElem this]
  obtain ⟨j, hj, k, hk, hjk, hclose⟩ := same_cell hdelta (Finset.Ico m pts.length) (fun k => pts.getD k [])
    (fun k hk => hbox _ (List.mem_of_getElem? (hget k hk)))
    (by rw [Nat.card_Ico]; omega)
  have h1 := hsp j k _ _ hjk (Finset.mem_Ico.mp hk).1 (hget j hj) (hget k hk)
  have h2 := hr _ _ (hbox _ (List.mem_of_getElem? (hget k hk))) (hbox _ (List.mem_of_getElem? (hget j hj))) hclose
  linarith

/-- **C103** In every state of every serial run the number of nodes is at most the number of initial points
plus the number of cells. -/
theorem C103_nodes_bounded {delta : ℚ} (hdelta : 0 < delta) (hr : CloseCells P env delta)
    (h : Reach P env o c s) (hbox : ∀ p ∈ s.cur.pos, InBox P.lLower P.lUpper p) :
    s.cur.pos.length ≤ s.nInit + cellCount P.lLower P.lUpper delta :=
  length_le_of_spaced hdelta hr hbox (fun i j p q => C16_spacing h i j p q)

/-- **C103** So do parallel runs, as long as the main loop runs. -/
theorem C103_parallel_nodes_bounded {pe : PEnv O} {delta : ℚ} (hdelta : 0 < delta)
    (hr : CloseCells P env delta) {s0 s : PState O} {pause : ℕ} (h : CallReach P env pe o s0 pause s)
    (h0 : s0.alg.itercount = 0 ∨ SpacedOK P env s0.alg) (ha : s.pc.Active)
    (hbox : ∀ p ∈ s.alg.cur.pos, InBox P.lLower P.lUpper p) :
    s.alg.cur.pos.length ≤ s.alg.nInit + cellCount P.lLower P.lUpper delta :=
  length_le_of_spaced hdelta hr hbox (fun i j p q => C16_parallel_spacing h h0 ha i j p q)

/-- **C103** With the samples and the search steps of the code, and no domain scaling, the nodes are in the box. -/
theorem C103_whole_run {vars : List Var} {eps : ℚ} {C : InitCfg} {delta : ℚ}
    (hdelta : 0 < delta) (hr : CloseCells P env delta)
    (hw : WellFormed vars) (hrun : RunsOn P env eps vars .off) (hdim : 0 < (construct eps vars).dim)
    (hsteps : StepsComputed env (stepProblem .off (construct eps vars)))
    (hsamp : SamplesComputed env C (construct eps vars)) (hdist : ∀ p, C.dist p p = 0)
    (hs : C.strategy.isLhd = true ∨ (construct eps vars).expansion = [])
    (huser : ∀ p ∈ P.initPos, FeasibleInternal (construct eps vars) p)
    (h : Reach P env o c s) :
    s.cur.pos.length ≤ s.nInit + cellCount P.lLower P.lUpper delta := by
  obtain ⟨-, h1, -⟩ := C17_whole_run hw hrun (.inl rfl) hdim hsteps hsamp hdist hs huser h
  refine C103_nodes_bounded hdelta hr h (fun p hp => ?_)
  have hf := h1 p hp
  rw [hrun.lower, hrun.upper]
  exact ⟨hf.lower, hf.upper⟩

/-- For distances that are at most Euclidean, cells with diagonal at most `min_dist` will do. -/
theorem CloseCells.of_euclidean {delta : ℚ} (hmin : 0 ≤ P.minDist)
    (hd : ∀ p q, env.dist p q ^ 2 ≤ ∑ i ∈ Finset.range P.lLower.length, (p.getD i 0 - q.getD i 0) ^ 2)
    (hn : (P.lLower.length : ℚ) * delta ^ 2 ≤ P.minDist ^ 2) : CloseCells P env delta := by
  intro p q _ _ h
  have h1 : ∑ i ∈ Finset.range P.lLower.length, (p.getD i 0 - q.getD i 0) ^ 2 ≤
      ∑ _i ∈ Finset.range P.lLower.length, delta ^ 2 := by
    refine Finset.sum_le_sum (fun i hi => ?_)
    have := h i (Finset.mem_range.mp hi)
    rw [← sq_abs]
    gcongr
  rw [Finset.sum_const, Finset.card_range, nsmul_eq_mul] at h1
  exact (abs_le_of_sq_le_sq' ((hd p q).trans (h1.trans hn)) hmin).2

/-- **C103** In any part of a serial run in which no node is taken out (no restart, no restoration), all but
a bounded number of passes record no point, however long it is. -/
theorem C103_recording_passes_bounded {delta : ℚ} (hdelta : 0 < delta) (hr : CloseCells P env delta)
    (f : ℕ → Alg O × Loc) (m start pause : ℕ)
    (h0 : Reach P env o (.running start pause (f 0).2) (f 0).1)
    (hrun : ∀ k < m, loopCond P env start pause (f k).1 (f k).2 = true ∧
      pass P env (f k).1 (f k).2 = .ok (f (k + 1)))
    (hkeep : ∀ k < m, (f k).1.cur.pos <+: (f (k + 1)).1.cur.pos)
    (hbox : ∀ p ∈ (f m).1.cur.pos, InBox P.lLower P.lUpper p) :
    (f 0).1.cur.pos.length +
        ((Finset.range m).filter (fun k => (f (k + 1)).1.cur.pos ≠ (f k).1.cur.pos)).card ≤
      (f m).1.nInit + cellCount P.lLower P.lUpper delta := by
  have hreach : ∀ k ≤ m, Reach P env o (.running start pause (f k).2) (f k).1 := by
    intro k
    induction k with
    | zero => intro _; exact h0
    | succ k ih => intro hk; exact (ih (by omega)).pass (hrun k (by omega)).1 (hrun k (by omega)).2
  refine le_trans ?_ (C103_nodes_bounded hdelta hr (hreach m le_rfl) hbox)
  have hlen : ∀ k ≤ m, (f 0).1.cur.pos.length +
      ((Finset.range k).filter (fun k => (f (k + 1)).1.cur.pos ≠ (f k).1.cur.pos)).card ≤
        (f k).1.cur.pos.length := by
    intro k
    induction k with
    | zero => intro _; simp
    | succ k ih =>
      intro hk
      have h1 := ih (by omega)
      have h2 := hkeep k (by omega)
      rw [Finset.range_add_one, Finset.filter_insert]
      split
      · rename_i hne
        rw [Finset.card_insert_of_notMem (by simp)]
        have h3 : (f k).1.cur.pos.length ≠ (f (k + 1)).1.cur.pos.length :=
          fun e => hne (h2.eq_of_length e).symm
        have := h2.length_le
        omega
      · have := h2.length_le
        omega
  exact hlen m le_rfl

end Rbfopt
