import Verif.Model.InitNodes
import Verif.Model.Problem

/-!
# The genetic algorithm for the auxiliary problems

rbfopt_aux_problems.py:938-1254.  Random draws are explicit arguments; `np.argsort` is not stable,
so its result is an argument too.
-/

namespace Rbfopt

/-- Bounds and integer variables of the space in which the genetic algorithm recombines and
mutates: the compressed space if there are categorical variables
(rbfopt_aux_problems.py:993-1002 and 1081-1101). -/
def workBox (I : Internal) : Pt × Pt × List ℕ :=
  if I.expansion = [] then (I.lower, I.upper, I.intVars)
  else (compressBounds I I.lower, compressBounds I I.upper, compressIntVars I I.intVars)

/-- From the working space to the internal space: `expand_categorical_vars` if there are
categorical variables (rbfopt_aux_problems.py:1011-1013, 1123, 1144, 1151). -/
def fromWork (I : Internal) (p : Pt) : Pt := if I.expansion = [] then p else expandPt I p

/-- From the internal space to the working space: `compress_categorical_vars` if there are
categorical variables (rbfopt_aux_problems.py:1121-1122, 1138). -/
def toWork (I : Internal) (q : Pt) : Pt := if I.expansion = [] then q else compressPt I q

/-- One row of `generate_sample_points` (rbfopt_aux_problems.py:938-1015); `u` is the row of
`np.random.rand`. -/
def samplePoint (I : Internal) (u : Pt) : Pt :=
  let b := workBox I
  fromWork I (roundInts b.2.2
    (u.mapIdx (fun i x => x * (b.2.1.getD i 0 - b.1.getD i 0) + b.1.getD i 0)))

/-- rbfopt_aux_problems.py:1179-1205 `ga_mate`, one row; `coin j` says whether the draw of
coordinate `j` is below 0.5. -/
def gaMate (coin : ℕ → Bool) (father mother : Pt) : Pt :=
  (father.zip mother).mapIdx (fun j fm => if coin j then fm.1 else fm.2)

/-- The random draws of one call of `ga_mutate`: perturbed coordinates and uniform draws. -/
structure Mutation where
  coords : List ℕ
  us : List ℚ
  deriving Repr

/-- rbfopt_aux_problems.py:1208-1254 `ga_mutate`. -/
def gaMutate (lower upper : Pt) (ints : List ℕ) (m : Mutation) (p : Pt) : Pt :=
  scatter p m.coords (List.zipWith (fun i u =>
    let x := lower.getD i 0 + u * (upper.getD i 0 - lower.getD i 0)
    if i ∈ ints then (aroundEven x : ℚ) else x) m.coords m.us)

/-- `population_size` (rbfopt_aux_problems.py:1073): `20 * n//5` parses as `(20 * n) // 5`. -/
def gaPopulationSize (base dim : ℕ) : ℕ := base + 20 * dim / 5

/-- `num_surviving` (rbfopt_aux_problems.py:1078). -/
def gaSurviving (pop : ℕ) : ℕ := pop / 4

/-- `num_new` (rbfopt_aux_problems.py:1079). Simplification: truncated subtraction; the value is
negative only for an empty population, for which the generation fails anyway. -/
def gaNew (pop : ℕ) : ℕ := pop - 2 * gaSurviving pop - 1

/-- `curr_mutation_rate` (rbfopt_aux_problems.py:1110-1112). -/
def gaRate (gens gen : ℕ) : ℚ := 1/10 * ((gens : ℚ) - gen) / gens

/-- `max_size_pert` (rbfopt_aux_problems.py:1135-1136 and 1155); `n` is the dimension of the working
space. -/
def gaMaxPert (n gens gen : ℕ) : ℕ := min n (max 2 ⌊(n : ℚ) * gaRate gens gen⌋.toNat)

/-- Draws of one generation: ranking of the population, the two permutations of the survivors, the
coin tosses of `ga_mate`, the rows of `np.random.rand` for the new individuals, the mutation of the
copy of the best individual, and for each survivor (except the best) the mutation if it mutates. -/
structure GenDraws where
  rank : List ℕ
  father : List ℕ
  mother : List ℕ
  coin : ℕ → ℕ → Bool
  fresh : ℕ → Pt
  bestMut : Mutation
  muts : ℕ → Option Mutation

/-- One pass of the loop over generations (rbfopt_aux_problems.py:1107-1167).  Without survivors
`best_individuals[0, :]` raises IndexError. -/
def gaGeneration (I : Internal) (size : ℕ) (d : GenDraws) (population : List Pt) :
    Except PyErr (List Pt) :=
  let b := workBox I
  let best := gather [] population (d.rank.take (gaSurviving size))
  let offspring := (List.zip (gather [] best d.father) (gather [] best d.mother)).mapIdx
    (fun i fm => fromWork I (gaMate (d.coin i) (toWork I fm.1) (toWork I fm.2)))
  let new := (List.range (gaNew size)).map (fun i => samplePoint I (d.fresh i))
  match best with
  | [] => .error .indexError
  | b0 :: rest =>
    let mutated := fromWork I (gaMutate b.1 b.2.1 b.2.2 d.bestMut (toWork I b0))
    let survivors := fromWork I (toWork I b0) :: rest.mapIdx (fun i p =>
      match d.muts i with
      | some m => fromWork I (gaMutate b.1 b.2.1 b.2.2 m (toWork I p))
      | none => fromWork I (toWork I p))
    .ok (survivors ++ offspring ++ new ++ [mutated])

/-- The loop over generations. -/
def gaGenerations (I : Internal) (size : ℕ) : List GenDraws → List Pt → Except PyErr (List Pt)
  | [], population => .ok population
  | d :: ds, population =>
    match gaGeneration I size d population with
    | .error e => .error e
    | .ok population' => gaGenerations I size ds population'

/-- rbfopt_aux_problems.py:1016-1174 `ga_optimize`: initial population, generations, best
individual of the last one. `initial` are the rows of `np.random.rand` of the initial population,
`last` the final ranking.  An empty ranking cannot be indexed. -/
def gaOptimize (I : Internal) (base : ℕ) (initial : List Pt) (draws : List GenDraws)
    (last : List ℕ) : Except PyErr Pt :=
  match gaGenerations I (gaPopulationSize base I.dim) draws (initial.map (samplePoint I)) with
  | .error e => .error e
  | .ok population =>
    match last with
    | [] => .error .indexError
    | r :: _ => .ok (population.getD r [])

end Rbfopt
