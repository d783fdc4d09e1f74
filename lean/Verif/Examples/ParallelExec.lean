import Verif.Spec.Parallel

/-!
# An executable scheduler for the parallel engine

`exec` performs one step of the transition system `PStep`, chosen by the caller; `exec_sound` shows
that it is a step.  Used to exhibit concrete runs.
-/

namespace Rbfopt.Demo

variable {O : Type}

/-- What the scheduler does next. -/
inductive Act
  /-- the step that does not depend on the workers -/
  | tick
  /-- collect evaluation `j` -/
  | collect (j : ℕ)
  /-- collect search `j` with this result -/
  | harvest (j : ℕ) (res : SearchRes)
  /-- restart, collecting these results while waiting -/
  | restart (sel : List ℕ)

/-- `restart()` with the given results arriving. -/
def execRestart (P : Params) (env : Env O) (pe : PEnv O) (s : PState O) (sel : List ℕ) :
    Option (Except PyErr (PState O)) :=
  match restartBegin P env s with
  | .error e => some (.error e)
  | .ok (s1, prev) =>
    match popJobs s1.evals sel with
    | none => none
    | some (done, rest) =>
      if initNeed P pe s.alg prev.pos.length ≤ sel.length ∧
          (initNeed P pe s.alg prev.pos.length = 0 → sel = []) then
        some (restartEnd P env pe s1 prev done rest)
      else none

theorem execRestart_sound {P : Params} {env : Env O} {pe : PEnv O} {s : PState O} {sel : List ℕ}
    {r : Except PyErr (PState O)} (h : execRestart P env pe s sel = some r) :
    RestartPar P env pe s r := by
  unfold execRestart at h
  split at h
  · rename_i e he
    cases h
    exact .failed he
  · rename_i s1 prev he
    split at h
    · cases h
    · rename_i done rest hp
      split at h
      · rename_i hc
        cases h
        exact .ends he hp hc.1 hc.2
      · cases h

/-- One step of the engine. -/
def exec (P : Params) (env : Env O) (pe : PEnv O) (start pause : ℕ) (s : PState O) :
    Act → Option (PState O)
  | .tick =>
    match s.pc with
    | .top => some (if parCond P env start pause s then { s with pc := .evals s.alg.itercount }
        else { s with pc := .closing s.evals })
    | .evals b => some { s with pc := if b < s.alg.itercount then .top else .searches }
    | .searches => some { s with pc := .submit }
    | .submit =>
      if parFull pe s then some { s with pc := .top }
      else if parSkip P s then some { s with alg := advanceStep P s.alg, pc := .top }
      else if shouldRestart P s.alg then (if parBusy s then some { s with pc := .top } else none)
      else some { s with pc := .model }
    | .model =>
      match env.prep s.alg with
      | .error e => some { s with pc := .raised e }
      | .ok o =>
        match env.modelFails { s.alg with opq := o } with
        | (true, o') =>
          if P.n + 1 ≤ s.alg.cur.pos.length + s.tPos.length ∧ s.alg.solveUnder = false then
            some { s with alg := { s.alg with opq := o', solveUnder := true }, pc := .top }
          else if pe.noCvList s.alg then some { s with pc := .raised .indexError }
          else if parBusy s then
            some { s with alg := { s.alg with opq := o', step := P.restorationStep }, pc := .top }
          else none
        | (false, o') =>
          if s.alg.step = P.restorationStep then none
          else some (s.orRaise .top
            (submitNext P env { s with alg := { s.alg with opq := o' } } false false))
    | .closing [] => some { s with pc := .done }
    | .closing (job :: todo) => some (s.orRaise (.closing todo) (closeJob P env pe s job))
    | .done => none
    | .raised _ => none
  | .collect j =>
    match s.pc with
    | .evals b => if j < s.evals.length then some (s.orRaise (.evals b) (collectJob P env pe s j))
        else none
    | _ => none
  | .harvest j res =>
    match s.pc with
    | .searches =>
      if j < s.searches.length ∧ (P.twoPhase = false ∨ s.searches[j]?.map SearchJob.noisy = some true → res.ind = none) then
        some (s.orRaise .searches (harvestJob P env pe s j res))
      else none
    | _ => none
  | .restart sel =>
    match s.pc with
    | .submit =>
      if parFull pe s = false ∧ parSkip P s = false ∧ shouldRestart P s.alg = true ∧
          parBusy s = false then
        (execRestart P env pe s sel).map (s.orRaise .model)
      else none
    | .model =>
      match env.prep s.alg with
      | .error _ => none
      | .ok o =>
        if parBusy s = true then none
        else
          match env.modelFails { s.alg with opq := o } with
          | (true, o') =>
            if P.n + 1 ≤ s.alg.cur.pos.length + s.tPos.length ∧ s.alg.solveUnder = false then none
            else if pe.noCvList s.alg then none
            else (execRestart P env pe { s with alg := { s.alg with opq := o'
                                                                    step := P.restorationStep
                                                                    solveUnder := false } }
              sel).map (s.orRaise .top)
          | (false, _) => none
    | _ => none

/-- The point found by a search is one that a search may propose. -/
def Act.Ok (pe : PEnv O) : Act → Prop
  | .harvest _ res => ∀ p, res.next = some p → pe.proposes p
  | _ => True

theorem exec_sound_ok {P : Params} {env : Env O} {pe : PEnv O} {start pause : ℕ} {s s' : PState O}
    {act : Act} (hpr : act.Ok pe) (h : exec P env pe start pause s act = some s') :
    PStep P env pe start pause s s' := by
  cases act with
  | tick =>
    unfold exec at h
    dsimp only at h
    split at h
    · rename_i hp
      split at h
      · rename_i hc; cases h; exact .enter hp hc
      · rename_i hc; cases h; exact .leave hp (by simpa using hc)
    · rename_i b hp; cases h; exact .evalsDone hp
    · rename_i hp; cases h; exact .searchesDone hp
    · rename_i hp
      split at h
      · rename_i h1; cases h; exact .full hp h1
      · rename_i h1
        rw [Bool.not_eq_true] at h1
        split at h
        · rename_i h2; cases h; exact .skip hp h1 h2
        · rename_i h2
          rw [Bool.not_eq_true] at h2
          split at h
          · rename_i h3
            split at h
            · rename_i h4; cases h; exact .waitRestart hp h1 h2 h3 h4
            · cases h
          · rename_i h3; cases h; exact .noRestart hp h1 h2 (by simpa using h3)
    · rename_i hp
      split at h
      · rename_i e he; cases h; exact .prepFails hp he
      · rename_i o ho
        split at h
        · rename_i o' hm
          split at h
          · rename_i hu; cases h; exact .underdetermined hp ho hm hu.1 hu.2
          · rename_i hu
            split at h
            · rename_i hn; cases h; exact .noList hp ho hm hu hn
            · rename_i hn
              split at h
              · rename_i hb
                cases h
                exact .waitRestoration hp ho hm (Or.inl ⟨rfl, hu, by simpa using hn⟩) hb
              · cases h
        · rename_i o' hm
          split at h
          · cases h
          · rename_i hst; cases h; exact .submit false false hp ho hm hst
    · rename_i hp; cases h; exact .finish hp
    · rename_i hp; cases h; exact .close hp
    · cases h
    · cases h
  | collect j =>
    unfold exec at h
    dsimp only at h
    split at h
    · rename_i b hp
      split at h
      · rename_i hj; cases h; exact .collect j hp hj
      · cases h
    · cases h
  | harvest j res =>
    unfold exec at h
    dsimp only at h
    split at h
    · rename_i hp
      split at h
      · rename_i hj; cases h; exact .harvest j res hp hj.1 hj.2 hpr
      · cases h
    · cases h
  | restart sel =>
    unfold exec at h
    dsimp only at h
    split at h
    · rename_i hp
      split at h
      · rename_i hc
        rw [Option.map_eq_some_iff] at h
        obtain ⟨r, hr, rfl⟩ := h
        exact .restart hp hc.1 hc.2.1 hc.2.2.1 hc.2.2.2 (execRestart_sound hr)
      · cases h
    · rename_i hp
      split at h
      · cases h
      · rename_i o ho
        split at h
        · cases h
        · rename_i hb
          rw [Bool.not_eq_true] at hb
          split at h
          · rename_i o' hm
            split at h
            · cases h
            · rename_i hu
              split at h
              · cases h
              · rename_i hn
                rw [Option.map_eq_some_iff] at h
                obtain ⟨r, hr, rfl⟩ := h
                exact .restoration hp ho hm (Or.inl ⟨rfl, hu, by simpa using hn⟩) hb
                  (execRestart_sound hr)
          · cases h
    · cases h

theorem exec_sound {P : Params} {env : Env O} {pe : PEnv O} {start pause : ℕ} {s s' : PState O}
    {act : Act} (hpr : ∀ p, pe.proposes p) (h : exec P env pe start pause s act = some s') :
    PStep P env pe start pause s s' :=
  exec_sound_ok (by cases act <;> first | trivial | exact fun p _ => hpr p) h

/-- A sequence of steps. -/
def execs (P : Params) (env : Env O) (pe : PEnv O) (start pause : ℕ) :
    PState O → List Act → Option (PState O)
  | s, [] => some s
  | s, a :: as =>
    match exec P env pe start pause s a with
    | none => none
    | some s' => execs P env pe start pause s' as

theorem execs_sound {P : Params} {env : Env O} {pe : PEnv O} {o : O} {start pause : ℕ}
    (hpr : ∀ p, pe.proposes p) (as : List Act) {s s' : PState O}
    (h : execs P env pe start pause s as = some s')
    (hr : PReach P env pe o (.running start pause) s) :
    PReach P env pe o (.running start pause) s' := by
  induction as generalizing s with
  | nil => cases h; exact hr
  | cons a as ih =>
    unfold execs at h
    split at h
    · cases h
    · rename_i s1 hs1; exact ih h (.step hr (exec_sound hpr hs1))

/-- The first call: initialization, collecting `sel` while waiting, then the steps `as`. -/
def firstCall (P : Params) (env : Env O) (pe : PEnv O) (o : O) (pause : ℕ) (sel : List ℕ)
    (as : List Act) : Option (PState O) :=
  if P.refFreq = 0 then none
  else
    match execRestart P env pe (PState.fresh { alg := Alg.init P o }) sel with
    | some (.ok s) => execs P env pe 0 pause (withGap P s) as
    | _ => none

/-- The states computed are reachable. -/
theorem firstCall_sound {P : Params} {env : Env O} {pe : PEnv O} {o : O} {pause : ℕ} {sel : List ℕ}
    {as : List Act} {s : PState O} (hpr : ∀ p, pe.proposes p)
    (h : firstCall P env pe o pause sel as = some s) :
    PReach P env pe o (.running 0 pause) s := by
  unfold firstCall at h
  split at h
  · cases h
  · rename_i hf
    split at h
    · rename_i s0 hs0
      refine execs_sound hpr as h ?_
      exact PReach.call pause .init (.first hf rfl (execRestart_sound hs0))
    · cases h

theorem execs_call {P : Params} {env : Env O} {pe : PEnv O} {o : O} {s0 : PState O} {pause : ℕ}
    (hpr : ∀ p, pe.proposes p) (as : List Act) {s s' : PState O}
    (h : execs P env pe s0.alg.itercount pause s as = some s')
    (hr : CallReach P env pe o s0 pause s) :
    CallReach P env pe o s0 pause s' := by
  induction as generalizing s with
  | nil => cases h; exact hr
  | cons a as ih =>
    unfold execs at h
    split at h
    · cases h
    · rename_i s1 hs1; exact ih h (.step hr (exec_sound hpr hs1))

theorem firstCall_call {P : Params} {env : Env O} {pe : PEnv O} {o : O} {pause : ℕ} {sel : List ℕ}
    {as : List Act} {s : PState O} (hpr : ∀ p, pe.proposes p)
    (h : firstCall P env pe o pause sel as = some s) :
    CallReach P env pe o { alg := Alg.init P o } pause s := by
  unfold firstCall at h
  split at h
  · cases h
  · rename_i hf
    split at h
    · rename_i s0 hs0
      refine execs_call hpr as h ?_
      exact .start .init (.first hf rfl (execRestart_sound hs0))
    · cases h

/-- A property of the final state of a computed run is a property of a reachable state. -/
theorem firstCall_exists {P : Params} {env : Env O} {pe : PEnv O} {o : O} {pause : ℕ} {sel : List ℕ}
    {as : List Act} {α : Type} {f : PState O → α} {v : α} (hpr : ∀ p, pe.proposes p)
    (h : (firstCall P env pe o pause sel as).map f = some v) :
    ∃ s, CallReach P env pe o { alg := Alg.init P o } pause s ∧
      PReach P env pe o (.running 0 pause) s ∧ f s = v := by
  rw [Option.map_eq_some_iff] at h
  obtain ⟨s, hs, hv⟩ := h
  exact ⟨s, firstCall_call hpr hs, firstCall_sound hpr hs, hv⟩

theorem execs_call_ok {P : Params} {env : Env O} {pe : PEnv O} {o : O} {s0 : PState O} {pause : ℕ}
    (as : List Act) (hpr : ∀ a ∈ as, a.Ok pe) {s s' : PState O}
    (h : execs P env pe s0.alg.itercount pause s as = some s')
    (hr : CallReach P env pe o s0 pause s) :
    CallReach P env pe o s0 pause s' := by
  induction as generalizing s with
  | nil => cases h; exact hr
  | cons a as ih =>
    unfold execs at h
    split at h
    · cases h
    · rename_i s1 hs1
      exact ih (fun b hb => hpr b (List.mem_cons_of_mem _ hb)) h
        (.step hr (exec_sound_ok (hpr a List.mem_cons_self) hs1))

/-- The same when only some points may be proposed. -/
theorem firstCall_exists_ok {P : Params} {env : Env O} {pe : PEnv O} {o : O} {pause : ℕ} {sel : List ℕ}
    {as : List Act} {α : Type} {f : PState O → α} {v : α} (hpr : ∀ a ∈ as, a.Ok pe)
    (h : (firstCall P env pe o pause sel as).map f = some v) :
    ∃ s, CallReach P env pe o { alg := Alg.init P o } pause s ∧ f s = v := by
  rw [Option.map_eq_some_iff] at h
  obtain ⟨s, hs, hv⟩ := h
  refine ⟨s, ?_, hv⟩
  unfold firstCall at hs
  split at hs
  · cases hs
  · rename_i hf
    split at hs
    · rename_i s0 hs0
      refine execs_call_ok as hpr hs ?_
      exact .start .init (.first hf rfl (execRestart_sound hs0))
    · cases hs

end Rbfopt.Demo
