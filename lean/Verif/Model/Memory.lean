import Verif.Model.Problem

/-!
# Arrays in memory: who may write where

The other modules treat points as values.  NumPy arrays are objects: `objfun` may hand to
`evaluate()` the very array that is recorded afterwards, and `optimize()` returns a row of the
record.  This module follows the arrays of coordinates through the serial and the parallel code:
every row of a two-dimensional array is a cell of a heap, a view is the reference to the cell,
`np.vstack`, `np.delete`, `np.array`, `copy` and indexing by a list make new cells.

User code (`evaluate()`, and the program that calls `optimize()`) is not trusted: whenever it
runs it may overwrite cells it was given, now or earlier.  What it does to objects of its own is
not modelled, nor the order in which the algorithm takes its steps: any order is allowed here.
-/

namespace Rbfopt

/-- Contents of the rows allocated so far; the reference of a row is its position. -/
abbrev Rows := List Pt

/-- Contents of a row. -/
def Rows.read (h : Rows) (r : ℕ) : Pt := h.getD r []

/-- Allocation of the rows of a new array (`np.vstack`, `np.array`, `copy`, ...). -/
def Rows.alloc (h : Rows) (rows : List Pt) : Rows := h ++ rows

/-- The references of the rows of the array allocated by `Rows.alloc h rows`. -/
def Rows.fresh (h : Rows) (rows : List Pt) : List ℕ := List.range' h.length rows.length

/-- Writes into the rows `W`: an array can be overwritten in place but not resized. -/
def Scribble (W : List ℕ) (h h' : Rows) : Prop :=
  h'.length = h.length ∧ (∀ r, (h'.read r).length = (h.read r).length) ∧
    ∀ r, r ∉ W → h'.read r = h.read r

/-- What the user code does with the arrays it is given. -/
structure UserCode where
  /-- `evaluate()`/`evaluate_noisy()` may write into its argument (also after it has returned) -/
  argWrites : Bool
  /-- the program that called `optimize()` may write into the point it received -/
  resWrites : Bool

/-- The arrays of coordinates of a `RbfoptAlgorithm` object, and the references given away. -/
structure Mem where
  heap : Rows
  /-- rows of `self.node_pos` -/
  nodePos : List ℕ
  /-- rows of `self.all_node_pos` -/
  allPos : List ℕ
  /-- rows of `self.init_node_pos` -/
  initPos : List ℕ
  /-- arguments of the calls of `evaluate()` and `evaluate_noisy()` made in this process -/
  args : List ℕ
  /-- points returned by `optimize()` -/
  results : List ℕ
  /-- ghost: for each row of `self.all_node_pos`, the coordinates (before decoding) that
  `evaluate()` was given when it computed the recorded value; for a point whose value the user
  supplied or that takes the value of an earlier record, the coordinates the object had for it
  at that moment -/
  told : List Pt

namespace Mem

/-- The rows user code may overwrite. -/
def writable (U : UserCode) (m : Mem) : List ℕ :=
  (if U.argWrites then m.args else []) ++ (if U.resWrites then m.results else [])

/-- Coordinates in `self.all_node_pos`. -/
def records (m : Mem) : List Pt := m.allPos.map m.heap.read

/-- Coordinates in `self.node_pos`. -/
def nodes (m : Mem) : List Pt := m.nodePos.map m.heap.read

/-- Coordinates in `self.init_node_pos`. -/
def inits (m : Mem) : List Pt := m.initPos.map m.heap.read

end Mem

/-- rbfopt_algorithm.py:2933-2952 `objfun` and 2984-3003 `objfun_noisy`, in the process of the
algorithm: a new array is made if there are categorical variables (`np.zeros`, 2936) or fixed
variables (`np.array(point)`, 2951); otherwise `point = data[1]` is the array itself (2945).
`evaluate` may write into its argument and into arrays given to user code earlier.  The third
argument is the internal point at the time of the call. -/
inductive Evaluates (I : Internal) (U : UserCode) : Mem → ℕ → Pt → Mem → Prop
  | copied (m : Mem) (r : ℕ) (h' : Rows) (hc : I.expansion ≠ [] ∨ I.fixed ≠ [])
      (hw : Scribble ({ m with args := m.heap.length :: m.args }.writable U)
        (m.heap.alloc [decodePt I (m.heap.read r)]) h') :
      Evaluates I U m r (m.heap.read r)
        { m with heap := h', args := m.heap.length :: m.args }
  | direct (m : Mem) (r : ℕ) (h' : Rows) (hc : ¬ (I.expansion ≠ [] ∨ I.fixed ≠ []))
      (hw : Scribble ({ m with args := r :: m.args }.writable U) m.heap h') :
      Evaluates I U m r (m.heap.read r) { m with heap := h', args := r :: m.args }

/-- A comprehension `[objfun([self.bb, point, ...]) for point in node_pos]`
(rbfopt_algorithm.py:1865-1868, 1905-1908, 1983-1986). -/
inductive EvaluatesAll (I : Internal) (U : UserCode) : Mem → List ℕ → List Pt → Mem → Prop
  | nil (m : Mem) : EvaluatesAll I U m [] [] m
  | cons {m m1 m2 : Mem} {r : ℕ} {rs : List ℕ} {p : Pt} {ps : List Pt}
      (h1 : Evaluates I U m r p m1) (h2 : EvaluatesAll I U m1 rs ps m2) :
      EvaluatesAll I U m (r :: rs) (p :: ps) m2

/-- rbfopt_algorithm.py:621 and 626 (`add_node`), 669 and 674 (`add_noisy_node`): both arrays are
replaced by new ones.  `x` and `y` are the rows of the point and of the point in the original
space, `told` the ghost entry. -/
def memAdd (m : Mem) (x y : ℕ) (told : Pt) : Mem :=
  let ns := m.nodes ++ [m.heap.read x]
  let rs := m.records ++ [m.heap.read y]
  let h1 := m.heap.alloc ns
  { m with
    heap := h1.alloc rs
    nodePos := m.heap.fresh ns
    allPos := h1.fresh rs
    told := m.told ++ [told] }

/-- rbfopt_algorithm.py:587 and 592-593 (`remove_node`): `np.delete` makes new arrays. -/
def memRemove (m : Mem) (i shift : ℕ) : Mem :=
  let ns := m.nodes.eraseIdx i
  let rs := m.records.eraseIdx (shift + i)
  let h1 := m.heap.alloc ns
  { m with
    heap := h1.alloc rs
    nodePos := m.heap.fresh ns
    allPos := h1.fresh rs
    told := m.told.eraseIdx (shift + i) }

/-- rbfopt_algorithm.py:2003 and 2011-2015 (end of `restart`): the rows `np` of the local array
are appended to the record by `np.vstack` and copied into `self.node_pos` by
`bulk_transform_domain` (rbfopt_utils.py:1856-1866, always a new array); `tr` is the domain
transformation. -/
def memInstall (tr : Pt → Pt) (m : Mem) (np : List ℕ) (told : List Pt) : Mem :=
  let rs := m.records ++ np.map m.heap.read
  let h1 := m.heap.alloc rs
  let ns := np.map (fun r => tr (h1.read r))
  { m with
    heap := h1.alloc ns
    allPos := m.heap.fresh rs
    nodePos := h1.fresh ns
    told := m.told ++ told }

/-- rbfopt_algorithm.py:1948-1949 (`restart`): rows of the record that are reused are appended to
the local array, in a new array, if there are any; `js` are their positions in the record. -/
def memReuse (m : Mem) (np : List ℕ) (js : List ℕ) : Mem × List ℕ :=
  if js = [] then (m, np)
  else
    let rows := np.map m.heap.read ++ js.map (fun j => m.heap.read (m.allPos.getD j 0))
    ({ m with heap := m.heap.alloc rows }, m.heap.fresh rows)

/-- rbfopt_algorithm.py:1979 (`restart`): the selected user points, in a new array (indexing by a
list, then `np.array`). -/
def memSelect (m : Mem) (sel : List ℕ) : Mem × List ℕ :=
  let rows := sel.map (fun j => m.heap.read (m.initPos.getD j 0))
  ({ m with heap := m.heap.alloc rows }, m.heap.fresh rows)

/-- rbfopt_algorithm.py:1994-1995 (`restart`): the user points are appended in a new array, if
there are any. -/
def memStack (m : Mem) (np us : List ℕ) : Mem × List ℕ :=
  if us = [] then (m, np)
  else
    let rows := np.map m.heap.read ++ us.map m.heap.read
    ({ m with heap := m.heap.alloc rows }, m.heap.fresh rows)

/-- Steps of the object and of the program around it.  `par` distinguishes the parallel code
(arguments are pickled and evaluated in other processes: nothing is given to user code of this
process) from the serial one. -/
inductive MemStep (I : Internal) (U : UserCode) (tr : Pt → Pt) (par : Bool) : Mem → Mem → Prop
  /-- rbfopt_algorithm.py:1099-1118 and 1144-1148: a new point, one evaluation, `add_node` or
  `add_noisy_node`.  `q` is the result of `transform_domain`, a new array
  (rbfopt_utils.py:1787-1800) -/
  | evaluated (m : Mem) (p q t : Pt) (m1 : Mem) (hs : par = false)
      (he : Evaluates I U { m with heap := m.heap.alloc [p, q] } (m.heap.length + 1) t m1) :
      MemStep I U tr par m (memAdd m1 m.heap.length (m.heap.length + 1) t)
  /-- rbfopt_algorithm.py:1128-1141: the noisy evaluation is followed by an accurate one of the
  same array, whose value is recorded -/
  | evaluatedTwice (m : Mem) (p q t t' : Pt) (m1 m2 : Mem) (hs : par = false)
      (he : Evaluates I U { m with heap := m.heap.alloc [p, q] } (m.heap.length + 1) t m1)
      (he' : Evaluates I U m1 (m.heap.length + 1) t' m2) :
      MemStep I U tr par m (memAdd m2 m.heap.length (m.heap.length + 1) t')
  /-- rbfopt_algorithm.py:1291-1298 and 1320-1346: a result that comes back from another process
  is recorded; the argument was copied by `pickle` -/
  | collected (m : Mem) (p q : Pt) (hs : par = true) :
      MemStep I U tr par m
        (memAdd { m with heap := m.heap.alloc [p, q] } m.heap.length (m.heap.length + 1) q)
  /-- rbfopt_algorithm.py:2003-2015 with 1862-1871, 1902-1912, 1947-1949 (serial `restart`): sample
  points `X` are evaluated, the records `js` reused.  The user points are treated below -/
  | restarted (m : Mem) (X ts : List Pt) (js : List ℕ) (m1 : Mem) (hs : par = false)
      (hj : ∀ j ∈ js, j < m.allPos.length)
      (he : EvaluatesAll I U { m with heap := m.heap.alloc X } (m.heap.fresh X) ts m1) :
      MemStep I U tr par m
        (memInstall tr (memReuse m1 (m.heap.fresh X) js).1 (memReuse m1 (m.heap.fresh X) js).2
          (ts ++ js.map (fun j => m1.told.getD j [])))
  /-- rbfopt_algorithm.py:1963-2015 (serial `restart` at iteration 0): after the sample, the user
  points `sel` are evaluated -/
  | restartedUser (m : Mem) (X ts us : List Pt) (js sel : List ℕ) (m1 m2 : Mem)
      (hs : par = false) (hj : ∀ j ∈ js, j < m.allPos.length)
      (hsel : ∀ j ∈ sel, j < m.initPos.length)
      (he : EvaluatesAll I U { m with heap := m.heap.alloc X } (m.heap.fresh X) ts m1)
      (hu : EvaluatesAll I U (memSelect (memReuse m1 (m.heap.fresh X) js).1 sel).1
        (memSelect (memReuse m1 (m.heap.fresh X) js).1 sel).2 us m2) :
      MemStep I U tr par m
        (let r := memReuse m1 (m.heap.fresh X) js
         let k := memStack m2 r.2 (memSelect r.1 sel).2
         memInstall tr k.1 k.2 (ts ++ js.map (fun j => m1.told.getD j []) ++ us))
  /-- rbfopt_algorithm.py:1992-2015 (serial `restart` at iteration 0): the values of the user
  points were supplied -/
  | restartedGiven (m : Mem) (X ts : List Pt) (js sel : List ℕ) (m1 : Mem)
      (hs : par = false) (hj : ∀ j ∈ js, j < m.allPos.length)
      (hsel : ∀ j ∈ sel, j < m.initPos.length)
      (he : EvaluatesAll I U { m with heap := m.heap.alloc X } (m.heap.fresh X) ts m1) :
      MemStep I U tr par m
        (let r := memReuse m1 (m.heap.fresh X) js
         let s := memSelect r.1 sel
         let k := memStack s.1 r.2 s.2
         memInstall tr k.1 k.2 (ts ++ js.map (fun j => m1.told.getD j []) ++
           sel.map (fun j => r.1.heap.read (r.1.initPos.getD j 0))))
  /-- rbfopt_algorithm.py:1871-1900, 1911-1941, 1987-2015 (parallel `restart`): the points `X` that
  came back, the reused records and the user points; all arguments were copied by `pickle` -/
  | restartedPar (m : Mem) (X : List Pt) (js sel : List ℕ) (hs : par = true)
      (hj : ∀ j ∈ js, j < m.allPos.length) (hsel : ∀ j ∈ sel, j < m.initPos.length) :
      MemStep I U tr par m
        (let m1 : Mem := { m with heap := m.heap.alloc X }
         let r := memReuse m1 (m.heap.fresh X) js
         let s := memSelect r.1 sel
         let k := memStack s.1 r.2 s.2
         memInstall tr k.1 k.2 (X ++ js.map (fun j => m1.told.getD j []) ++
           sel.map (fun j => r.1.heap.read (r.1.initPos.getD j 0))))
  /-- rbfopt_algorithm.py:1107-1113 and 1121-1127: the value of record `j` is used for a new point
  with (nearly) the same coordinates; the new row carries its own coordinates `q` -/
  | reused (m : Mem) (p q : Pt) (j : ℕ) (hj : j < m.allPos.length) :
      MemStep I U tr par m
        (memAdd { m with heap := m.heap.alloc [p, q] } m.heap.length (m.heap.length + 1) q)
  /-- `remove_node` -/
  | removed (m : Mem) (i shift : ℕ) (hi : shift + i < m.allPos.length) :
      MemStep I U tr par m (memRemove m i shift)
  /-- rbfopt_algorithm.py:803-812: with categorical variables `optimize()` returns a new array
  (`compress_categorical_vars`), otherwise the row of `self.all_node_pos` itself -/
  | returned (m : Mem) (i : ℕ) (hi : i < m.allPos.length) :
      MemStep I U tr par m
        (if I.expansion ≠ [] then
          { m with
            heap := m.heap.alloc [returnedPt I (m.heap.read (m.allPos.getD i 0))]
            results := m.heap.length :: m.results }
        else { m with results := m.allPos.getD i 0 :: m.results })
  /-- the program around the object runs -/
  | user (m : Mem) (h' : Rows) (hw : Scribble (m.writable U) m.heap h') :
      MemStep I U tr par m { m with heap := h' }
  /-- rbfopt_algorithm.py:692-749 `save_to_file`/`load_from_file`: the state is replaced by copies
  of all its arrays -/
  | loaded (m : Mem) :
      MemStep I U tr par m
        { m with
          heap := ((m.heap.alloc m.nodes).alloc m.records).alloc m.inits
          nodePos := m.heap.fresh m.nodes
          allPos := (m.heap.alloc m.nodes).fresh m.records
          initPos := ((m.heap.alloc m.nodes).alloc m.records).fresh m.inits }

/-- rbfopt_algorithm.py:396-411: a new object.  `given` are the user points: `np.array` and
`expand_categorical_vars` copy them (399-401), so the user holds none of the arrays. -/
def memInit (given : List Pt) : Mem :=
  { heap := given, nodePos := [], allPos := [], initPos := Rows.fresh [] given, args := [],
    results := [], told := [] }

/-- States of the arrays in the life of an object. -/
inductive MemReach (I : Internal) (U : UserCode) (tr : Pt → Pt) (par : Bool) (given : List Pt) :
    Mem → Prop
  | init : MemReach I U tr par given (memInit given)
  | step {m m' : Mem} (hr : MemReach I U tr par given m) (hs : MemStep I U tr par m m') :
      MemReach I U tr par given m'

end Rbfopt
