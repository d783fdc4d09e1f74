import Verif.Model.Serial

/-!
# Saving and loading the state

rbfopt_algorithm.py:692-717 `save_to_file`, 721-749 `load_from_file`, and the automatic saving of the
main loop, 1186-1187.
-/

namespace Rbfopt

/-- Contents of a file. -/
abbrev Bytes := List UInt8

/-- A file system: contents of each regular file, `none` if there is no such file. -/
abbrev FS := String → Option Bytes

/-- The output stream of the object: `sys.stdout` or a stream set by the user
(`set_output_stream`, rbfopt_algorithm.py:463-473). -/
inductive Stream
  | stdout
  | user (id : ℕ)
  deriving DecidableEq, Repr

/-- The same object with its opaque part replaced. -/
def Alg.mapOpq {O O' : Type} (f : O → O') (a : Alg O) : Alg O' :=
  { itercount := a.itercount, evalcount := a.evalcount, noisyEvalcount := a.noisyEvalcount,
    step := a.step, cyc := a.cyc, numCons := a.numCons, numStalled := a.numStalled,
    numNoisyRestarts := a.numNoisyRestarts, discarded := a.discarded, solveUnder := a.solveUnder,
    mode := a.mode, cur := a.cur, all := a.all, nAtRestart := a.nAtRestart, fminIdx := a.fminIdx,
    fmin := a.fmin, fmax := a.fmax, fbestIdx := a.fbestIdx, fbest := a.fbest,
    isFminNoisy := a.isFminNoisy, isFbestNoisy := a.isFbestNoisy, bestGapShown := a.bestGapShown,
    fminStall := a.fminStall, fminLastRefine := a.fminLastRefine,
    iterLastRefine := a.iterLastRefine, refSet := a.refSet, refRadius := a.refRadius,
    refIter := a.refIter, elapsed := a.elapsed, opq := f a.opq, log := a.log, stars := a.stars,
    nInit := a.nInit, passes := a.passes }

/-- The attributes of an `RbfoptAlgorithm` object.  `attrs` has no random state: numpy's generator is
a global of the process, the attribute `random_state` only holds a copy made when saving.
(The settings, the black box and the constructor data are attributes too; they do not change and are
the parameters of the model, so that they need not be repeated here.) -/
structure PyObj (X R : Type) where
  attrs : Alg X
  randomState : Option R
  stream : Option Stream

/-- Python's `pickle` on such objects.  `dump` yields the bytes written and the exception raised, if
any (an attribute that cannot be pickled).  Assumptions: what was written completely is read back, an
empty file cannot be loaded (`EOFError`), and an incomplete pickle cannot be loaded (every pickle ends
with its only STOP opcode). -/
structure Pickle (α : Type) where
  dump : α → Bytes × Option PyErr
  load : Bytes → Option α
  roundtrip : ∀ a b, dump a = (b, none) → load b = some a
  empty : load [] = none
  truncated : ∀ a b, dump a = (b, none) → ∀ p, p <+: b → p ≠ b → load p = none
  failed : ∀ a b e, dump a = (b, some e) → ∀ p, p <+: b → load p = none

/-- A process holding one object: the object, numpy's global generator, the file system. -/
structure Proc (X R : Type) where
  obj : PyObj X R
  rng : R
  fs : FS

/-- The state on which the optimization works: attributes and global generator together. -/
def Proc.alg {X R : Type} (p : Proc X R) : Alg (X × R) := p.obj.attrs.mapOpq (fun x => (x, p.rng))

/-- The process after the optimization has changed the object and the generator. -/
def Proc.setAlg {X R : Type} (p : Proc X R) (a : Alg (X × R)) : Proc X R :=
  { p with obj := { p.obj with attrs := a.mapOpq Prod.fst }, rng := a.opq.2 }

/-- Elementary changes of the file system made while saving. -/
inductive FsOp
  /-- `open(filename, 'wb')` -/
  | truncate (path : String)
  /-- one byte reaches the file -/
  | write (path : String) (b : UInt8)

/-- Effect of one elementary change. -/
def FsOp.apply (fs : FS) : FsOp → FS
  | .truncate path => Function.update fs path (some [])
  | .write path b => Function.update fs path (some ((fs path).getD [] ++ [b]))

/-- Effect of several changes, in order. -/
def applyOps (fs : FS) (ops : List FsOp) : FS := ops.foldl FsOp.apply fs

variable {X R : Type}

/-- The object while it is being dumped (rbfopt_algorithm.py:709-712). -/
def dumpedObj (p : Proc X R) : PyObj X R :=
  { p.obj with randomState := some p.rng, stream := none }

/-- The changes of the file system made by `save_to_file()`, in order (rbfopt_algorithm.py:714-715).
`canOpen` says which files can be opened for writing. -/
def saveOps (pk : Pickle (PyObj X R)) (canOpen : String → Bool) (p : Proc X R) (path : String) :
    List FsOp :=
  if canOpen path then
    FsOp.truncate path :: ((pk.dump (dumpedObj p)).1.map (FsOp.write path))
  else []

/-- rbfopt_algorithm.py:692-717 `save_to_file`: the process afterwards and the exception raised, if
any.  Line 717, which restores the stream, is not reached when `open` or `pickle.dump` raises. -/
def saveToFile (pk : Pickle (PyObj X R)) (canOpen : String → Bool) (p : Proc X R) (path : String) :
    Proc X R × Option PyErr :=
  let stream := p.obj.stream
  let p1 := { p with obj := dumpedObj p, fs := applyOps p.fs (saveOps pk canOpen p path) }
  if canOpen path then
    match (pk.dump (dumpedObj p)).2 with
    | some e => (p1, some e)
    | none => ({ p1 with obj := { p1.obj with stream := stream } }, none)
  else (p1, some .osError)

/-- The file systems that can be found after the process died during `save_to_file()`: some initial
part of the changes has been made.  Simplification: changes reach the disk in order. -/
def CrashWhileSaving (pk : Pickle (PyObj X R)) (canOpen : String → Bool) (p : Proc X R)
    (path : String) (fs : FS) : Prop :=
  ∃ ops, ops <+: saveOps pk canOpen p path ∧ fs = applyOps p.fs ops

/-- rbfopt_algorithm.py:721-749 `load_from_file`, in a process with generator state `_rng`. -/
def loadFromFile (pk : Pickle (PyObj X R)) (fs : FS) (_rng : R) (path : String) :
    Except PyErr (Proc X R) :=
  match fs path with
  | none => .error .assertionError
  | some b =>
    match pk.load b with
    | none => .error .pickleError
    | some obj =>
      match obj.randomState with
      | none => .error .typeError       -- `np.random.set_state(None)`
      | some r => .ok { obj := { obj with stream := some .stdout }, rng := r, fs := fs }

/-- Writing a line of the log: `self.output_stream.flush()` (rbfopt_algorithm.py:495, 540, 566). -/
def flushLog (p : Proc X R) : Except PyErr Unit :=
  match p.obj.stream with
  | none => .error .attributeError
  | some _ => .ok ()

/-- Is the state saved at the end of this pass (rbfopt_algorithm.py:1174-1187)?  The passes that end
with `continue` do not reach the saving; the others have incremented `itercount`. -/
def saveDue (P : Params) (before after : Alg (X × R)) : Bool :=
  decide (after.itercount ≠ before.itercount) && decide (after.itercount % P.saveInterval = 0)

/-- The file systems that can be found when the process dies while it is in the main loop with
automatic saving to `path` (`save_state_file`), from the state `p` with locals `loc` on. -/
inductive CrashInLoop (pk : Pickle (PyObj X R)) (canOpen : String → Bool) (path : String) (P : Params)
    (env : Env (X × R)) (start pause : ℕ) : Proc X R → Loc → FS → Prop
  | now (p : Proc X R) (loc : Loc) : CrashInLoop pk canOpen path P env start pause p loc p.fs
  | later {p : Proc X R} {loc loc' : Loc} {s' : Alg (X × R)} {fs : FS} :
      loopCond P env start pause p.alg loc = true → pass P env p.alg loc = .ok (s', loc') →
      saveDue P p.alg s' = false →
      CrashInLoop pk canOpen path P env start pause (p.setAlg s') loc' fs →
      CrashInLoop pk canOpen path P env start pause p loc fs
  | saving {p : Proc X R} {loc loc' : Loc} {s' : Alg (X × R)} {fs : FS} :
      loopCond P env start pause p.alg loc = true → pass P env p.alg loc = .ok (s', loc') →
      saveDue P p.alg s' = true → CrashWhileSaving pk canOpen (p.setAlg s') path fs →
      CrashInLoop pk canOpen path P env start pause p loc fs
  | saved {p q : Proc X R} {loc loc' : Loc} {s' : Alg (X × R)} {fs : FS} :
      loopCond P env start pause p.alg loc = true → pass P env p.alg loc = .ok (s', loc') →
      saveDue P p.alg s' = true → saveToFile pk canOpen (p.setAlg s') path = (q, none) →
      CrashInLoop pk canOpen path P env start pause q loc' fs →
      CrashInLoop pk canOpen path P env start pause p loc fs

end Rbfopt
