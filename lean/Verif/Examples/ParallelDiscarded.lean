import Verif.Examples.Parallel
import Verif.Props.ParallelDiscarded

/-! # Concrete runs for C95 (parallel engine) -/

namespace Rbfopt.Demo

variable {O : Type}

/-- A sequence of steps, with the outcomes of the searches. -/
def hexecs (P : Params) (env : Env O) (pe : PEnv O) (start pause : ℕ) :
    PState O → List Bool → List Act → Option (PState O × List Bool)
  | s, h, [] => some (s, h)
  | s, h, a :: as =>
    match exec P env pe start pause s a with
    | none => none
    | some s' =>
      match s'.pc with
      | .raised _ => none
      | _ => hexecs P env pe start pause s' (searchOutcomes s s' h) as

theorem hexecs_sound {P : Params} {env : Env O} {pe : PEnv O} {o : O} {start pause : ℕ}
    (hpr : ∀ p, pe.proposes p) (as : List Act) {s s' : PState O} {h h' : List Bool}
    (he : hexecs P env pe start pause s h as = some (s', h'))
    (hr : PHistory P env pe o (.running start pause) s h) :
    PHistory P env pe o (.running start pause) s' h' := by
  induction as generalizing s h with
  | nil => cases he; exact hr
  | cons a as ih =>
    unfold hexecs at he
    split at he
    · cases he
    · rename_i s1 hs1
      split at he
      · cases he
      · rename_i hne
        exact ih he (.step hr (exec_sound hpr hs1) hne)

/-- The first call. -/
def hfirstCall (P : Params) (env : Env O) (pe : PEnv O) (o : O) (pause : ℕ) (sel : List ℕ)
    (as : List Act) : Option (PState O × List Bool) :=
  if P.refFreq = 0 then none
  else
    match execRestart P env pe (PState.fresh { alg := Alg.init P o }) sel with
    | some (.ok s) =>
      match (withGap P s).pc with
      | .raised _ => none
      | _ => hexecs P env pe 0 pause (withGap P s) [] as
    | _ => none

theorem hfirstCall_sound {P : Params} {env : Env O} {pe : PEnv O} {o : O} {pause : ℕ} {sel : List ℕ}
    {as : List Act} {s : PState O} {h : List Bool} (hpr : ∀ p, pe.proposes p)
    (he : hfirstCall P env pe o pause sel as = some (s, h)) :
    PHistory P env pe o (.running 0 pause) s h := by
  unfold hfirstCall at he
  split at he
  · cases he
  · rename_i hf
    split at he
    · rename_i s0 hs0
      split at he
      · cases he
      · rename_i hne
        exact hexecs_sound hpr as he (PHistory.call pause .init (.first hf rfl (execRestart_sound hs0)) hne)
    · cases he

def PD : Params := { Demo.P with discWindow := 3, maxFracDisc := 2/3, maxIter := 100, refFreq := 10 }

def envD : Env ℕ :=
  { Demo.env with
    initNodes := fun s =>
      .ok ((if s.itercount = 0 then [[0], [10]] else [[1], [9], [3]] : List Pt), s.opq) }

def pe1c : PEnv ℕ := { pe1 with numCpus := 1 }

/-- The first search (a refinement step) proposes 5, which is evaluated; the next two find nothing; the local
search proposes 7, which is sent for evaluation. -/
def actD : List Act :=
  ticks 7 ++ [.harvest 0 (propose 5)] ++ ticks 3 ++ [.collect 0] ++ ticks 8 ++ [.harvest 0 noPoint] ++
    ticks 5 ++ [.harvest 0 noPoint] ++ ticks 5 ++ [.harvest 0 (propose 7)]

/-- `C95_parallel_restart_rule`: after one successful, two useless and one successful search, the last three
outcomes are too bad for `max_fraction_discarded = 2/3`, although all four together are not.  When the
outstanding evaluation has been collected and the first step of the cycle is next, the run starts over. -/
theorem C95_parallel_example : ∃ s s' : PState ℕ,
    PHistory PD envD pe1c 0 (.running 0 100) s [false, true, true, false] ∧
    TooManyDiscarded PD [false, true, true, false] ∧
    ¬ TooManyDiscarded { PD with discWindow := 4 } [false, true, true, false] ∧
    s.pc = .submit ∧ s.evals = [] ∧ s.searches = [] ∧ PStep PD envD pe1c 0 100 s s' ∧
    s.alg.nAtRestart = 0 ∧ s'.alg.nAtRestart = 4 ∧ s'.alg.all.pos.length = 7 := by
  have h : (hfirstCall PD envD pe1c 0 100 [0, 0] (actD ++ ticks 3 ++ [.collect 0] ++ ticks 4)).map
      (fun x => (x.1.pc, decide (x.2 = [false, true, true, false] ∧ x.1.evals = [] ∧ x.1.searches = [] ∧
          x.1.alg.nAtRestart = 0),
        (exec PD envD pe1c 0 100 x.1 (.restart [0, 0, 0])).map
          (fun s' => (s'.alg.nAtRestart, s'.alg.all.pos.length)))) =
      some (.submit, true, some (4, 7)) := by
    decide +kernel
  rw [Option.map_eq_some_iff] at h
  obtain ⟨⟨s, hi⟩, h1, h2⟩ := h
  simp only [Prod.mk.injEq, decide_eq_true_eq] at h2
  obtain ⟨h3, ⟨rfl, h4, h4', h5⟩, h6⟩ := h2
  rw [Option.map_eq_some_iff] at h6
  obtain ⟨s', h6, h7⟩ := h6
  simp only [Prod.mk.injEq] at h7
  refine ⟨s, s', hfirstCall_sound (fun _ => trivial) h1, ?_, ?_, h3, h4, h4',
    exec_sound (fun _ => trivial) h6, h5, h7.1, h7.2⟩ <;>
  · unfold TooManyDiscarded; decide +kernel

end Rbfopt.Demo
