import Verif.Model.Numpy

/-!
# Reformulation of the user's problem

The constructor of `RbfoptAlgorithm` (rbfopt_algorithm.py:244-461) as far as it rewrites the
problem, the categorical encoding (rbfopt_utils.py:679-858), and the decoding done by `objfun`
(rbfopt_algorithm.py:2934-2951) and at the end of `optimize` (803-811).
-/

namespace Rbfopt

/-- Variable types returned by `get_var_type()` (rbfopt_black_box.py:64-83).  Simplification: the
code compares `.upper()` with the letters, and treats any other letter as neither real nor
categorical. -/
inductive VType | R | I | C
  deriving DecidableEq, Repr

/-- One variable as declared by the black box.  Simplification: the code keeps three parallel
arrays `var_lower, var_upper, var_type`, always indexed together. -/
structure Var where
  lower : ℚ
  upper : ℚ
  type : VType
  deriving DecidableEq, Repr

instance : Inhabited Var := ⟨⟨0, 0, .R⟩⟩

/-- `np.isclose(var_lower, var_upper, 0, eps_zero)` on one variable
(rbfopt_algorithm.py:272-273). -/
def Var.isFixed (eps : ℚ) (v : Var) : Bool := |v.lower - v.upper| ≤ eps

/-- rbfopt_algorithm.py:275 `self.fixed_vars`: indices and values of the fixed variables. -/
def fixedVars (eps : ℚ) (vars : List Var) : List (ℕ × ℚ) :=
  (whereFrom (Var.isFixed eps) 0 vars).map (fun i => (i, (vars.getD i default).lower))

/-- rbfopt_algorithm.py:278-283: the variables that are not fixed, `np.setdiff1d` followed by
fancy indexing of the three arrays. -/
def unfixedVars (eps : ℚ) (vars : List Var) : List Var :=
  gather default vars ((List.range vars.length).filter
    (fun i => decide (i ∉ whereFrom (Var.isFixed eps) 0 vars)))

/-- rbfopt_algorithm.py:290-291: categorical 0-1 variables are treated as integer. -/
def Var.simplify (v : Var) : Var :=
  if v.type = .C ∧ v.upper - v.lower = 1 then { v with type := .I } else v

/-- Number of category values of a categorical variable,
`int(var_upper[i] - var_lower[i] + 1)` (rbfopt_algorithm.py:303-305). -/
def Var.numCats (v : Var) : ℕ := ⌊v.upper - v.lower + 1⌋.toNat

/-- rbfopt_algorithm.py:294-305: `categorical_info`, a list of (index of the categorical variable,
its lower bound, positions of its binaries); `cur` is `current_vars`. -/
def expansionFrom (vars : List Var) : ℕ → List ℕ → List (ℕ × ℚ × List ℕ)
  | _, [] => []
  | cur, i :: is =>
    let v := vars.getD i default
    (i, v.lower, List.range' cur v.numCats) :: expansionFrom vars (cur + v.numCats) is

/-- The reformulated problem (`self.var_lower`, `self.var_upper`, `self.integer_vars`,
`self.categorical_info`, `self.fixed_vars`, `self.n`). -/
structure Internal where
  dim : ℕ
  lower : List ℚ
  upper : List ℚ
  intVars : List ℕ
  categorical : List ℕ
  notCategorical : List ℕ
  expansion : List (ℕ × ℚ × List ℕ)
  fixed : List (ℕ × ℚ)
  deriving DecidableEq, Repr

/-- rbfopt_algorithm.py:268-270 and 284-286: indices of the non-real variables among the unfixed
ones. -/
def plainIntVars (vars : List Var) : List ℕ := whereFrom (fun v => decide (v.type ≠ .R)) 0 vars

/-- rbfopt_utils.py:648-675 `round_integer_bounds`, lower bounds: `np.floor`. -/
def roundLower (l : List ℚ) (intVars : List ℕ) : List ℚ :=
  l.mapIdx (fun i x => if i ∈ intVars then (⌊x⌋ : ℚ) else x)

/-- rbfopt_utils.py:648-675 `round_integer_bounds`, upper bounds: `np.ceil`. -/
def roundUpper (u : List ℚ) (intVars : List ℕ) : List ℚ :=
  u.mapIdx (fun i x => if i ∈ intVars then (⌈x⌉ : ℚ) else x)

/-- rbfopt_algorithm.py:261-324, before `round_integer_bounds`. -/
def reformulate (eps : ℚ) (vars : List Var) : Internal :=
  let fx := fixedVars eps vars
  let vs0 := unfixedVars eps vars
  let ints := plainIntVars vs0
  let vs := vs0.map Var.simplify
  let cat := whereFrom (fun v => decide (v.type = .C)) 0 vs
  let notCat := whereFrom (fun v => decide (v.type ≠ .C)) 0 vs
  if cat = [] then
    { dim := vs.length, lower := vs.map Var.lower, upper := vs.map Var.upper, intVars := ints
      categorical := cat, notCategorical := notCat, expansion := [], fixed := fx }
  else
    let exp := expansionFrom vs notCat.length cat
    let total := notCat.length + (cat.map (fun i => (vs.getD i default).numCats)).sum
    { dim := total
      lower := (gather default vs notCat).map Var.lower ++ List.replicate (total - notCat.length) 0
      upper := (gather default vs notCat).map Var.upper ++ List.replicate (total - notCat.length) 1
      intVars := whereFrom (fun i => decide ((vs.getD i default).type = .I)) 0 notCat ++
        List.range' notCat.length (total - notCat.length)
      categorical := cat, notCategorical := notCat, expansion := exp, fixed := fx }

/-- The reformulated problem with rounded bounds (rbfopt_algorithm.py:393-394). -/
def construct (eps : ℚ) (vars : List Var) : Internal :=
  let I := reformulate eps vars
  { I with lower := roundLower I.lower I.intVars, upper := roundUpper I.upper I.intVars }

/-- rbfopt_algorithm.py:448-454 `self.search_space_size`. -/
def searchSpaceSize (I : Internal) : EVal :=
  if I.intVars.length < I.dim then ⊤
  else (((List.zipWith (fun u l => u - l + 1) I.upper I.lower).prod : ℚ) : EVal)

/-- Unary encoding of one categorical value: `to_append[points[:, index] == var_lower + j, j] = 1`
(rbfopt_utils.py:717-720). -/
def oneHot (vl : ℚ) (m : ℕ) (x : ℚ) : List ℚ :=
  (List.range m).map (fun (j : ℕ) => if x = vl + (j : ℚ) then 1 else 0)

/-- rbfopt_utils.py:679-722 `expand_categorical_vars`, one row. -/
def expandPt (I : Internal) (p : Pt) : Pt :=
  gather 0 p I.notCategorical ++
    I.expansion.flatMap (fun e => oneHot e.2.1 e.2.2.length (p.getD e.1 0))

/-- The inner loop of `compress_categorical_vars` (rbfopt_utils.py:762-764): later positions
overwrite earlier ones. -/
def compressGroup (q : Pt) (index : ℕ) (vl : ℚ) : ℕ → List ℕ → Pt → Pt
  | _, [], acc => acc
  | j, pos :: ps, acc =>
    compressGroup q index vl (j + 1) ps
      (if q.getD pos 0 = 1 then acc.set index (vl + (j : ℚ)) else acc)

/-- rbfopt_utils.py:725-765 `compress_categorical_vars`, one row. -/
def compressPt (I : Internal) (q : Pt) : Pt :=
  let acc := scatter (List.replicate (I.categorical.length + I.notCategorical.length) 0)
    I.notCategorical (q.take I.notCategorical.length)
  I.expansion.foldl (fun acc e => compressGroup q e.1 e.2.1 0 e.2.2 acc) acc

/-- rbfopt_utils.py:768-811 `compress_categorical_bounds`. -/
def compressBounds (I : Internal) (b : Pt) : Pt :=
  let acc := scatter (List.replicate (I.categorical.length + I.notCategorical.length) 0)
    I.notCategorical (b.take I.notCategorical.length)
  I.expansion.foldl (fun acc e =>
    acc.set e.1 (if b.getD (e.2.2.headD 0) 0 = 0 then e.2.1
      else e.2.1 + (e.2.2.length : ℚ) - 1)) acc

/-- One step of `compress_categorical_integer_vars` (rbfopt_utils.py:850-857): shift, then insert
in the right place. -/
def insertIntVar (acc : List ℕ) (index : ℕ) : List ℕ :=
  let sh := acc.map (fun i => if i ≥ index then i + 1 else i)
  match sh.getLast? with
  | none => sh ++ [index]
  | some l =>
    if index > l then sh ++ [index]
    else pyInsert sh (sh.findIdx (fun i => decide (i > index))) index

/-- rbfopt_utils.py:814-858 `compress_categorical_integer_vars`. -/
def compressIntVars (I : Internal) (ints : List ℕ) : List ℕ :=
  I.expansion.foldl (fun acc e => insertIntVar acc e.1)
    (ints.filter (fun i => decide (i < I.notCategorical.length)))

/-- The decoding of one group in `objfun`: the first position holding a 1 decides (`break`,
rbfopt_algorithm.py:2940-2943). -/
def decodeGroup (q : Pt) (vl : ℚ) : ℕ → List ℕ → Option ℚ
  | _, [] => none
  | j, pos :: ps => if q.getD pos 0 = 1 then some (vl + (j : ℚ)) else decodeGroup q vl (j + 1) ps

/-- rbfopt_algorithm.py:2934-2945: map categorical variables back. -/
def decodeCat (I : Internal) (q : Pt) : Pt :=
  if I.expansion = [] then q
  else
    let acc := scatter (List.replicate (I.categorical.length + I.notCategorical.length) 0)
      I.notCategorical (q.take I.notCategorical.length)
    I.expansion.foldl (fun acc e =>
      match decodeGroup q e.2.1 0 e.2.2 with
      | some v => acc.set e.1 v
      | none => acc) acc

/-- rbfopt_algorithm.py:2946-2950: insert the fixed variables. -/
def insertFixed (p : Pt) : List (ℕ × ℚ) → Pt
  | [] => p
  | (i, v) :: fs => insertFixed (pyInsert p i v) fs

/-- rbfopt_algorithm.py:2905-2952 `objfun` / 2955-3003 `objfun_noisy`: the vector passed to the
black box for the internal point `q`. -/
def decodePt (I : Internal) (q : Pt) : Pt := insertFixed (decodeCat I q) I.fixed

/-- rbfopt_algorithm.py:803-811: the point returned by `optimize()` for the recorded internal
point `q`. -/
def returnedPt (I : Internal) (q : Pt) : Pt :=
  if I.expansion = [] then q else compressPt I q

end Rbfopt
