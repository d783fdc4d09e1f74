import Verif.Model.Persist

/-!
# The random number generator of the process

rbfopt_utils.py:2255-2271 `init_environment`, called by the constructor (rbfopt_algorithm.py:348-351) and
in every worker of the pool that each parallel `optimize()` creates (1222-1223); rbfopt_algorithm.py:746
`np.random.set_state` when an object is loaded.  There is one generator per process, numpy's global one.
-/

namespace Rbfopt

/-- An `RbfoptAlgorithm` object with its settings and black box. -/
structure SObj (X R : Type) where
  P : Params
  env : Env (X × R)
  attrs : Alg X

/-- A process with any number of objects and one generator. -/
structure Session (X R : Type) where
  objs : List (SObj X R)
  rng : R

variable {X R : Type}

/-- The state on which `optimize()` of this object works: its attributes and the generator. -/
def SObj.alg (b : SObj X R) (rng : R) : Alg (X × R) := b.attrs.mapOpq (fun x => (x, rng))

/-- The constructor (rbfopt_algorithm.py:244-461): `np.random.seed(rand_seed)`, then the initial
attributes; `seed` is the effect of `np.random.seed`. -/
def Session.construct (seed : ℕ → R) (s : Session X R) (P : Params) (env : Env (X × R)) (x : X)
    (randSeed : ℕ) : Session X R :=
  { objs := s.objs ++ [{ P := P, env := env, attrs := Alg.init P x }], rng := seed randSeed }

/-- The session after `optimize()` of object `i` returned `r`. -/
def Session.afterCall (s : Session X R) (i : ℕ) (b : SObj X R) (r : OptResult (X × R)) : Session X R :=
  { objs := s.objs.set i { b with attrs := r.final.mapOpq Prod.fst }, rng := r.final.opq.2 }

/-- What can happen in the process; the first argument says which object is concerned, if any.  After an
exception the state of the object and of the generator is left open (C87 says more). -/
inductive SStep (seed : ℕ → R) : Option ℕ → Session X R → Session X R → Prop
  | construct (s : Session X R) (P : Params) (env : Env (X × R)) (x : X) (randSeed : ℕ) :
      SStep seed none s (s.construct seed P env x randSeed)
  | optimize {s : Session X R} {i pause fuel : ℕ} {b : SObj X R} {r : OptResult (X × R)} :
      s.objs[i]? = some b → optimize b.P b.env fuel pause (b.alg s.rng) = .ret r →
      SStep seed (some i) s (s.afterCall i b r)
  | raised {s : Session X R} {i pause fuel : ℕ} {b : SObj X R} {e : PyErr} (a : Alg X) (rng : R) :
      s.objs[i]? = some b → optimize b.P b.env fuel pause (b.alg s.rng) = .raised e →
      SStep seed (some i) s { objs := s.objs.set i { b with attrs := a }, rng := rng }
  /-- `load_from_file()`: a new object, and the generator is set to the saved state -/
  | load (s : Session X R) (b : SObj X R) (rng : R) :
      SStep seed none s { objs := s.objs ++ [b], rng := rng }
  /-- other code of the process uses numpy's generator -/
  | other (s : Session X R) (rng : R) : SStep seed none s { s with rng := rng }

/-- Any history of the process in which object `i` is not used. -/
inductive SRunWithout (seed : ℕ → R) (i : ℕ) : Session X R → Session X R → Prop
  | refl (s : Session X R) : SRunWithout seed i s s
  | step {s t u : Session X R} {j : Option ℕ} : SRunWithout seed i s t → SStep seed j t u → j ≠ some i →
      SRunWithout seed i s u

/-- The calls `optimize(k)` for the `k` in the list, one after the other and with nothing in between, on
object `i`: the session afterwards and the results.  The call that raises ends the list. -/
inductive SCalls (i : ℕ) : List ℕ → Session X R → List (OptResult (X × R)) → Session X R → Prop
  | nil (s : Session X R) : SCalls i [] s [] s
  | cons {k : ℕ} {ks : List ℕ} {s t : Session X R} {b : SObj X R} {fuel : ℕ} {r : OptResult (X × R)}
      {rs : List (OptResult (X × R))} : s.objs[i]? = some b →
      optimize b.P b.env fuel k (b.alg s.rng) = .ret r → SCalls i ks (s.afterCall i b r) rs t →
      SCalls i (k :: ks) s (r :: rs) t

/-! ## Workers -/

/-- The generator of a worker process: seeded by `init_environment` when the pool of the call is created
(rbfopt_algorithm.py:1222-1223), then changed by the tasks it executes; the results of these tasks. -/
def workerRun {A B : Type} (seed : ℕ → R) (randSeed : ℕ) (task : A → R → B × R) (args : List A) :
    List B × R :=
  args.foldl (fun (acc : List B × R) a => (acc.1 ++ [(task a acc.2).1], (task a acc.2).2))
    ([], seed randSeed)

end Rbfopt
