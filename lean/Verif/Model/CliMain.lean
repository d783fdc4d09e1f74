import Verif.Model.CliOptions
import Verif.Model.Cli

/-!
# `main()` of the command line interface

rbfopt_cl_interface.py:202-238 `main`, calling 117-199 `rbfopt_cl_interface`.
-/

namespace Rbfopt

/-- What the interface finds around it: the file system, the user's module, the algorithm.  `B` are black
boxes, `A` algorithm objects, `R` results. -/
structure CliWorld (B A R : Type) where
  /-- `os.path.isfile` -/
  isFile : String → Bool
  /-- import of the user's module and `RbfoptBlackBox()` (lines 219-238); `none`: the object is not an
  instance of the class of the library (lines 131-133) -/
  blackBox : String → Except PyErr (Option B)
  /-- can the file be opened for writing? -/
  writable : String → Bool
  /-- `RbfoptAlgorithm.load_from_file` -/
  load : String → Except PyErr A
  /-- The lines of a text file.  Simplification: a file that cannot be read is a file with a bad token. -/
  text : String → List (List Token)
  /-- the constructor of the algorithm -/
  create : B → Settings → Option CliTable → Except PyErr A
  /-- `alg.optimize(pause)` -/
  run : A → Option SVal → Except PyErr (R × A)
  dim : B → ℕ

/-- The value of an option whose conversion is `str`: a string or `None`. -/
def strVal : Option SVal → Option String
  | some (.str w) => some w
  | _ => none

/-- `RbfoptAlgorithm.load_from_file(args['load_state'])` (rbfopt_cl_interface.py:157), executed only if the
option was given. -/
def loadState {B A R : Type} (w : CliWorld B A R) : Option String → Except PyErr A
  | some f => w.load f
  | none => .error .typeError

/-- rbfopt_cl_interface.py:202-238 `main`, for the options `given` and the positional argument `file`; the
check of the Python version (lines 206-208) is not modelled.  The result is that of `optimize`, and the file
and object saved. -/
def cliMain {B A R : Type} (c : ArgConv) (w : CliWorld B A R) (given : List (String × String))
    (file : String) (openOut : Bool) : Except ParseErr (CliOut A R × Option String) :=
  match parseOptions c given cliDefault with
  | .error e => .error e
  | .ok d =>
    if w.isFile file = false then .error (.raised .valueError)
    else
      match w.blackBox file with
      | .error e => .error (.raised e)
      | .ok none => .error (.raised .valueError)
      | .ok (some bb) =>
        let env : CliEnv Settings A R :=
          { settings := fromDictionary (settingsKeys.filterMap (fun k => (d k).map (fun v => (k, v))))
            loaded := loadState w (strVal (d "load_state"))
            create := w.create bb
            run := fun a => w.run a (d "pause")
            dim := w.dim bb }
        let args : CliArgs :=
          { log := (strVal (d "output_stream")).map w.writable
            load := (strVal (d "load_state")).isSome
            points := (strVal (d "points_file")).map w.text
            dump := (strVal (d "dump_state")).isSome }
        .ok (cliInterface env args openOut, strVal (d "dump_state"))

end Rbfopt
