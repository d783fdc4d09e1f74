import Verif.Model.State

/-!
# Specification vocabulary for recorded nodes
-/

namespace Rbfopt

/-- The four arrays have the same length. -/
def Table.Aligned (t : Table) : Prop :=
  t.val.length = t.pos.length ∧ t.noisy.length = t.pos.length ∧ t.err.length = t.pos.length

/-- Every record `(position, value, noisy flag, error interval)` of the table satisfies `R`. -/
def Table.All (R : Pt → ℚ → Bool → ℚ × ℚ → Prop) (t : Table) : Prop :=
  ∀ (i : ℕ) (p : Pt) (v : ℚ) (b : Bool) (e : ℚ × ℚ), t.pos[i]? = some p → t.val[i]? = some v →
    t.noisy[i]? = some b → t.err[i]? = some e → R p v b e

/-- `(p, v, b, e)` is a record of the table. -/
def Table.Has (t : Table) (p : Pt) (v : ℚ) (b : Bool) (e : ℚ × ℚ) : Prop :=
  ∃ i : ℕ, t.pos[i]? = some p ∧ t.val[i]? = some v ∧ t.noisy[i]? = some b ∧ t.err[i]? = some e

/-- `v` is the least element of `l`, at position `i`. -/
def IsLeastAt (l : List ℚ) (i : ℕ) (v : ℚ) : Prop :=
  l[i]? = some v ∧ ∀ w ∈ l, v ≤ w

/-- `v` is the greatest element of `l`. -/
def IsGreatestOf (l : List ℚ) (v : ℚ) : Prop := v ∈ l ∧ ∀ w ∈ l, w ≤ v

/-- Number of accurate calls in a log. -/
def countAcc (log : List Call) : ℕ := log.countP (fun c => match c with | .acc .. => true | _ => false)

/-- Number of noisy calls in a log. -/
def countNoisy (log : List Call) : ℕ :=
  log.countP (fun c => match c with | .noisy .. => true | _ => false)

end Rbfopt
