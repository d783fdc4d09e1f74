import Verif.Props.NodeBound
import Verif.Examples.Coverage

/-!
# C103 on a concrete run
-/

namespace Rbfopt.Demo

/-- Minimum distance 2. -/
def PBnd : Params := { PCov with minDist := 2 }

theorem cell_bnd : CloseCells PBnd envCov 2 := by
  intro p q _ _ h
  have h0 := h 0 (by decide)
  cases p <;> cases q <;> exact h0

theorem cellCount_bnd : cellCount PBnd.lLower PBnd.lUpper 2 = 6 := by
  unfold cellCount
  simp only [PBnd, PCov, P, List.length_singleton, Finset.prod_range_one, List.getD_cons_zero]
  have : ⌊((10 : ℚ) - 0) / 2⌋₊ = 5 := by
    rw [Nat.floor_eq_iff (by norm_num)]
    norm_num
  rw [this]

/-- **C103** Non-vacuity: a run of six passes on `[0, 10]`, minimum distance 2, six cells.  One pass records a
point, the others discard theirs; the number of nodes stays at 3, the bound is 2 + 6. -/
theorem C103_example : ∃ x, after PBnd envCov 100 6 = some x ∧
    Reach PBnd envCov 0 (.running 0 100 x.2) x.1 ∧
    x.1.cur.pos = [[0], [10], [5]] ∧ (∀ p ∈ x.1.cur.pos, InBox PBnd.lLower PBnd.lUpper p) ∧
    CloseCells PBnd envCov 2 ∧ x.1.cur.pos.length ≤ 2 + 6 := by
  have hs : (after PBnd envCov 100 6).isSome = true := by decide +kernel
  obtain ⟨x, hx⟩ := Option.isSome_iff_exists.mp hs
  have hr := after_reach hx
  have hp : x.1.cur.pos = [[0], [10], [5]] ∧ x.1.nInit = 2 := by
    have : (after PBnd envCov 100 6).map (fun x => (x.1.cur.pos, x.1.nInit)) = some ([[0], [10], [5]], 2) := by
      decide +kernel
    rw [hx] at this
    simpa using this
  have hbox : ∀ p ∈ x.1.cur.pos, InBox PBnd.lLower PBnd.lUpper p := by
    rw [hp.1]
    simp only [InBox]
    decide +kernel
  refine ⟨x, hx, hr, hp.1, hbox, cell_bnd, ?_⟩
  have := C103_nodes_bounded (by norm_num) cell_bnd hr hbox
  rwa [cellCount_bnd, hp.2] at this

end Rbfopt.Demo
