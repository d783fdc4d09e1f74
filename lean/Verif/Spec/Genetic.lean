import Verif.Model.Genetic
import Verif.Spec.Problem

/-! # Specification vocabulary for the genetic algorithm: what the random draws can be -/

namespace Rbfopt

/-- `order` is a result of `np.argsort(vals)`: the indices in order of non-decreasing value, ties in
any order. -/
structure Ranks {α : Type} [LE α] (vals : List α) (order : List ℕ) : Prop where
  perm : order.Perm (List.range vals.length)
  sorted : order.Pairwise
    (fun i j => ∀ a b, vals[i]? = some a → vals[j]? = some b → a ≤ b)

/-- A row of `np.random.rand(·, n)`. -/
def UnitRow (n : ℕ) (u : Pt) : Prop := u.length = n ∧ ∀ x ∈ u, 0 ≤ x ∧ x < 1

/-- A possible outcome of the draws of `ga_mutate` in dimension `n`: fewer than `maxPert` different
coordinates. -/
structure MutationOk (n maxPert : ℕ) (m : Mutation) : Prop where
  size : m.coords.length < maxPert
  nodup : m.coords.Nodup
  mem : ∀ i ∈ m.coords, i < n
  us : m.us.length = m.coords.length
  unit : ∀ u ∈ m.us, 0 ≤ u ∧ u < 1

/-- Dimension of the working space. -/
def workDim (I : Internal) : ℕ := (workBox I).1.length

/-- Possible draws of generation `gen` out of `gens`, for objective values `vals` of the current
population of `size` individuals. -/
structure GenDrawsOk {α : Type} [LE α] (I : Internal) (size gens gen : ℕ) (vals : List α)
    (d : GenDraws) : Prop where
  rank : Ranks vals d.rank
  father : d.father.Perm (List.range (size / 4))
  mother : d.mother.Perm (List.range (size / 4))
  fresh : ∀ i, UnitRow (workDim I) (d.fresh i)
  bestMut : MutationOk (workDim I) (gaMaxPert (workDim I) gens gen) d.bestMut
  muts : ∀ i m, d.muts i = some m → MutationOk (workDim I) (gaMaxPert (workDim I) gens gen) m

/-- Possible draws of the generations from number `gen` on, starting from population `pop`; `objfun`
is a function of the whole population, as in the code. -/
def DrawsOk {α : Type} [LE α] (I : Internal) (size gens : ℕ) (objfun : List Pt → List α) :
    ℕ → List Pt → List GenDraws → Prop
  | _, _, [] => True
  | gen, pop, d :: ds => GenDrawsOk I size gens gen (objfun pop) d ∧
    ∀ pop', gaGeneration I size d pop = .ok pop' → DrawsOk I size gens objfun (gen + 1) pop' ds

end Rbfopt
