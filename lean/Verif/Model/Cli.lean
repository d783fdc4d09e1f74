import Verif.Model.Problem
import Verif.Model.InitNodes

/-!
# Command line interface

rbfopt_cl_interface.py:117-199 `rbfopt_cl_interface`, and the part of the constructor that receives
the points of the user (rbfopt_algorithm.py:326-327, 396-407).

A line of the points file is a list of tokens; a token is a number or something `float()` refuses.
Infinite and NaN numbers in the file are not modelled.
-/

namespace Rbfopt

/-- What `float(val)` makes of a token of the file. -/
inductive Token | num (x : ℚ) | other
  deriving DecidableEq

/-- `[float(val) for val in line.split()]` (rbfopt_cl_interface.py:163). -/
def readRow : List Token → Except PyErr (List ℚ)
  | [] => .ok []
  | .other :: _ => .error .valueError
  | .num x :: ts =>
    match readRow ts with
    | .error e => .error e
    | .ok r => .ok (x :: r)

/-- The loop over the lines (rbfopt_cl_interface.py:162-163). -/
def readRows : List (List Token) → Except PyErr (List (List ℚ))
  | [] => .ok []
  | l :: ls =>
    match readRow l with
    | .error e => .error e
    | .ok r =>
      match readRows ls with
      | .error e => .error e
      | .ok rs => .ok (r :: rs)

/-- Arguments `init_node_pos` and `init_node_val` of the constructor. -/
structure CliTable where
  pos : List Pt
  val : Option (List ℚ)
  deriving DecidableEq

/-- `np.array` of a list of lists: ValueError if the lengths differ (numpy 1.24 and later;
pyproject.toml requires 2.0). -/
def npArray2 (rows : List (List ℚ)) : Except PyErr (List Pt) :=
  match rows with
  | [] => .ok []
  | r :: rs => if ∀ q ∈ rs, q.length = r.length then .ok (r :: rs) else .error .valueError

/-- rbfopt_cl_interface.py:160-172: the points, and the values if the first row has one entry more
than the dimension of the black box.  `init_node_pos[0]` and `val[-1]` raise IndexError on an empty
file and on an empty row. -/
def cliPoints (dim : ℕ) (file : List (List Token)) : Except PyErr CliTable :=
  match readRows file with
  | .error e => .error e
  | .ok [] => .error .indexError
  | .ok (r :: rs) =>
    if r.length = dim + 1 then
      if ∃ q ∈ r :: rs, q = [] then .error .indexError
      else
        match npArray2 ((r :: rs).map List.dropLast) with
        | .error e => .error e
        | .ok pos => .ok ⟨pos, some ((r :: rs).map (fun q => q.getLastD 0))⟩
    else
      match npArray2 (r :: rs) with
      | .error e => .error e
      | .ok pos => .ok ⟨pos, none⟩

/-- rbfopt_algorithm.py:326-327, 396-407: what the constructor does with the points of the user: the
numbers of points and values must agree, the number of columns must be the number of variables that
are not fixed (rbfopt_utils.py:711); categorical variables are expanded and integers rounded. -/
def ctorPoints (eps : ℚ) (vars : List Var) (u : CliTable) : Except PyErr (List Pt × List ℚ) :=
  let I := construct eps vars
  if u.val.isSome ∧ u.pos.length ≠ (u.val.getD []).length then .error .assertionError
  else if ∀ p ∈ u.pos, p.length = I.categorical.length + I.notCategorical.length then
    .ok (u.pos.map (fun p => roundInts I.intVars (expandPt I p)), u.val.getD [])
  else .error .assertionError

/-! ## The whole interface -/

/-- The command line arguments that the interface itself uses. -/
structure CliArgs where
  /-- `output_stream`: none, or a path, with the information whether it can be opened -/
  log : Option Bool
  /-- `load_state` given? -/
  load : Bool
  /-- content of the `points_file`, if given -/
  points : Option (List (List Token))
  /-- `dump_state` given? -/
  dump : Bool

/-- The rest of the program: creation of the settings, loading, construction, `optimize()`, for
settings `S`, algorithm objects `A` and results `R`.  A failing step raises. -/
structure CliEnv (S A R : Type) where
  settings : Except PyErr S
  loaded : Except PyErr A
  create : S → Option CliTable → Except PyErr A
  run : A → Except PyErr (R × A)
  dim : ℕ

/-- Outcome: result and saved object, or the exception; and whether `sys.stdout` is still open. -/
abbrev CliOut (A R : Type) := Except PyErr (R × Option A) × Bool

/-- rbfopt_cl_interface.py:155-181: the algorithm object. -/
def cliAlg {S A R : Type} (env : CliEnv S A R) (args : CliArgs) (s : S) : Except PyErr A :=
  if args.load then env.loaded
  else
    match args.points with
    | some file =>
      match cliPoints env.dim file with
      | .error e => .error e
      | .ok u => env.create s (some u)
    | none => env.create s none

/-- Is the failure one of reading the points file?  Then the stream is closed before the exception is
raised again (rbfopt_cl_interface.py:173-178). -/
def cliPointsFail (dim : ℕ) (args : CliArgs) : Bool :=
  !args.load && match args.points with
    | some file => !(cliPoints dim file).isOk
    | none => false

/-- rbfopt_cl_interface.py:117-199 `rbfopt_cl_interface`; `open` says whether `sys.stdout` is open.
If the log file cannot be opened, a message is printed and the variable `output_stream` stays
unbound; printing on a closed stream raises ValueError; `output_stream.close()` at the end also closes
`sys.stdout` if it is used for the log. -/
def cliInterface {S A R : Type} (env : CliEnv S A R) (args : CliArgs) (openOut : Bool) :
    CliOut A R :=
  let useStdout := args.log.isNone
  match env.settings with
  | .error e => (.error e, openOut)
  | .ok s =>
    if args.log = some false then (.error .nameError, openOut)
    else if useStdout && !openOut then (.error .valueError, openOut)
    else
      match cliAlg env args s with
      | .error e => (.error e, openOut && !(useStdout && cliPointsFail env.dim args))
      | .ok a =>
        match env.run a with
        | .error e => (.error e, openOut)
        | .ok (r, a') => (.ok (r, if args.dump then some a' else none), openOut && !useStdout)

end Rbfopt
