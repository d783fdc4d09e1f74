import Verif.Props.Interrupt
import Verif.Examples.Serial
import Verif.Examples.Witness

/-!
# Interrupted calls: concrete runs

Tests, not proofs (except the soundness lemma of the executable interruption).
-/

namespace Rbfopt.Demo

/-- The black box raises at the second point of the first sample. -/
def interrupted : Alg ℕ :=
  (evalList env { restartEnter (Alg.init P 0) with opq := 0 } [[0]]).2

theorem interrupted_cut :
    RestartCut P env (Alg.init P 0) interrupted [.acc [0] 10] := by
  have h := RestartCut.accurate (P := P) (env := env) (s := Alg.init P 0) (pts := [[0], [10]]) (o := 0)
    (r := ⟨[[0], [10]], {}⟩) 1 (Or.inr rfl) rfl rfl (by decide +kernel) (by decide)
  have e : (evalList env { restartEnter (Alg.init P 0) with opq := 0 }
      (([[0], [10]] : List Pt).take 1)).2.log.drop (Alg.init P (0 : ℕ)).log.length =
      [.acc [0] 10] := by decide +kernel
  rw [e] at h
  exact h

/-- C87: a history with a lost result. -/
theorem interrupted_reach : IReach P env 0 .idle interrupted [.acc [0] 10] :=
  IReach.callRaises (lost := []) .init rfl interrupted_cut

/-- **C87** (the result of the interrupted sample is lost) The next call of `optimize()` evaluates the
point 0 again; it returns the best value 1 and reports 6 evaluations although 7 calls returned. -/
theorem C87_lost_sample_is_evaluated_again :
    (optimize P env 40 100 interrupted).result?.map
      (fun r => (r.value, r.evalcount, countAcc r.final.log,
        r.final.log.countP (fun c => decide (c.point = [0])))) = some (1, 6, 7, 2) := by
  decide +kernel

/-- An exception of the accurate evaluation in a pass, executed: the state left behind. -/
def raisePass (P : Params) (env : Env ℕ) (s : Alg ℕ) : Option (Alg ℕ) :=
  if (s.step = P.infStep ∧ P.doInf = false) ∨ (s.step = P.localStep ∧ P.doLocal = false) then none else
  match restartIfNeeded P env { s with passes := s.passes + 1 } with
  | .error _ => none
  | .ok s1 =>
    match env.prep s1 with
    | .error _ => none
    | .ok o =>
      match buildModel P env { s1 with opq := o } with
      | .ok (s2, false) =>
        match dispatch P env s2 with
        | .ok (.go s3 (some p0) _) =>
          match getMinDistance env.dist (clipPt p0 P.lLower P.lUpper) s3.cur.pos with
          | none => none
          | some d =>
            if P.minDist < d ∧ s3.mode = .accurate ∧
                reuseAcc P env s3 (env.toOrig (clipPt p0 P.lLower P.lUpper)) = none then some s3
            else none
        | _ => none
      | _ => none

theorem raisePass_sound {P : Params} {env : Env ℕ} {s t : Alg ℕ} (loc : Loc)
    (h : raisePass P env s = some t) : PassCut P env s loc t [] := by
  unfold raisePass at h
  split at h
  · cases h
  · rename_i hn
    split at h
    · cases h
    · rename_i s1 h1
      split at h
      · cases h
      · rename_i o ho
        split at h
        · rename_i s2 h2
          split at h
          · rename_i s3 p0 ref h3
            split at h
            · cases h
            · rename_i d hd
              split at h
              · rename_i hc
                cases h
                exact .eval hn h1 ho h2 h3 hd hc.1 (.accurate hc.2.1 hc.2.2)
              · cases h
          · cases h
        · cases h

/-- Two-phase parameters of the next example. -/
def PRe : Params := { PNw with maxNoisyIter := 0, maxIter := 3, target := -100 }

theorem raise_after {P : Params} {env : Env ℕ} {pause k : ℕ} {q : Alg ℕ → Alg ℕ → Bool}
    (h : ((after P env pause k).bind (fun x => (raisePass P env x.1).map (fun t =>
      q x.1 t && loopCond P env 0 pause x.1 x.2))) = some true) :
    ∃ s loc t, Reach P env 0 (.running 0 pause loc) s ∧ loopCond P env 0 pause s loc = true ∧
      PassCut P env s loc t [] ∧ q s t = true := by
  cases hx : after P env pause k with
  | none => rw [hx] at h; cases h
  | some x =>
    rw [hx] at h
    simp only [Option.bind_some, Option.map_eq_some_iff, Bool.and_eq_true] at h
    obtain ⟨t, ht, h1, h2⟩ := h
    exact ⟨x.1, x.2, t, after_reach hx, h2, raisePass_sound x.2 ht, h1⟩

/-- **C87** (violation, two-phase) The local search re-evaluates the noisy node 0 accurately.  If
`evaluate()` raises then, the record of the point 0 is gone, although nothing replaced it, and the
tracked best value 0 belongs to no record. -/
theorem C87_violated_reevaluation_interrupted :
    ∃ s loc t, Reach PRe envRe 0 (.running 0 10 loc) s ∧ loopCond PRe envRe 0 10 s loc = true ∧
      PassCut PRe envRe s loc t [] ∧ s.all.pos = [[0], [10], [1], [2]] ∧ s.all.val = [0, 10, 1, 2] ∧
      t.all.pos = [[10], [1], [2]] ∧ t.all.val = [10, 1, 2] ∧ t.fbest = ((0 : ℚ) : EVal) := by
  obtain ⟨s, loc, t, h1, h2, h3, h4⟩ := raise_after (P := PRe) (env := envRe) (pause := 10) (k := 2)
    (q := fun s t => decide (s.all.pos = [[0], [10], [1], [2]]) && decide (s.all.val = [0, 10, 1, 2]) &&
      decide (t.all.pos = [[10], [1], [2]]) && decide (t.all.val = [10, 1, 2]) &&
      decide (t.fbest = ((0 : ℚ) : EVal))) (by decide +kernel)
  simp only [Bool.and_eq_true, decide_eq_true_eq] at h4
  exact ⟨s, loc, t, h1, h2, h3, h4.1.1.1.1, h4.1.1.1.2, h4.1.1.2, h4.1.2, h4.2⟩

/-- C87: an exception of the second iteration of a single-phase run. -/
example : ∃ s loc t, IReach P env 0 (.running 0 100 loc) s [] ∧ PassCut P env s loc t [] ∧
    IReach P env 0 .idle t [] ∧ t.all.val = [10, 50, 5] := by
  obtain ⟨s, loc, t, h1, h2, h3, h4⟩ := raise_after (P := P) (env := env) (pause := 100) (k := 1)
    (q := fun s t => decide (t.all.val = [10, 50, 5])) (by decide +kernel)
  exact ⟨s, loc, t, h1.toIReach, h3, IReach.passRaises (lost := []) h1.toIReach h2 h3, by simpa using h4⟩

/-- Parameters and environment for a restart in the main loop: the run stalls at once. -/
def PSt : Params := { P with maxStalled := 1, maxEval := 1000, maxIter := 20, target := -100 }
@[inherit_doc PSt] def envSt : Env ℕ :=
  { env with initNodes := fun s => .ok (if s.all.pos = [] then [[0], [3]] else [[8], [9]], s.opq) }

/-- The state after three iterations, where a restart is due. -/
def due : Alg ℕ := (((after PSt envSt 100 3).map Prod.fst).getD (Alg.init PSt 0))

/-- The restart is interrupted at its second sample point. -/
def dueCut : Alg ℕ :=
  (evalList envSt { restartEnter { due with passes := due.passes + 1 } with opq := due.opq } [[8]]).2

/-- C87: a restart of the main loop interrupted at its second sample point; the next iteration restarts
again and leaves only new nodes (the hypotheses of `C87_interrupted_restart_is_repeated`). -/
example : due.itercount ≠ 0 ∧ NotSkipped PSt due ∧ shouldRestart PSt due = true ∧
    (∃ new, new ≠ [] ∧ RestartCut PSt envSt { due with passes := due.passes + 1 } dueCut new) ∧
    (∃ s' loc', pass PSt envSt dueCut ⟨⊤, none⟩ = .ok (s', loc') ∧
      s'.cur.pos = [[8], [9], [4]]) := by
  refine ⟨by decide +kernel, by unfold NotSkipped; decide +kernel, by decide +kernel, ?_, ?_⟩
  · have h := RestartCut.accurate (P := PSt) (env := envSt)
      (s := { due with passes := due.passes + 1 }) (pts := [[8], [9]]) (o := due.opq)
      (r := ⟨[[8], [9]], {}⟩) 1 (Or.inl (by decide +kernel)) ?_ ?_ (by decide +kernel) (by decide)
    · refine ⟨_, ?_, h⟩
      decide +kernel
    · have : due.all.pos ≠ [] := by decide +kernel
      simp only [envSt, restartEnter, if_neg this]
    · have e : (removeExistingIf PSt envSt
          { restartEnter { due with passes := due.passes + 1 } with opq := due.opq } [[8], [9]]).map
          (fun r => decide (r.pos = [[8], [9]]) && decide (r.prev.pos = []) && decide (r.prev.val = []) &&
            decide (r.prev.noisy = []) && decide (r.prev.err = [])) = some true := by decide +kernel
      cases hx : removeExistingIf PSt envSt
          { restartEnter { due with passes := due.passes + 1 } with opq := due.opq } [[8], [9]] with
      | none => rw [hx] at e; cases e
      | some r =>
        rw [hx] at e
        obtain ⟨rp, ⟨a, b, c, d⟩⟩ := r
        simp only [Option.map_some, Option.some.injEq, Bool.and_eq_true, decide_eq_true_eq] at e
        obtain ⟨⟨⟨⟨rfl, rfl⟩, rfl⟩, rfl⟩, rfl⟩ := e
        rfl
  · have e : (pass PSt envSt dueCut ⟨⊤, none⟩).toOption.map (fun x => x.1.cur.pos) =
        some [[8], [9], [4]] := by decide +kernel
    cases hx : pass PSt envSt dueCut ⟨⊤, none⟩ with
    | error _ => rw [hx] at e; cases e
    | ok x =>
      rw [hx] at e
      exact ⟨x.1, x.2, rfl, by simpa [Except.toOption] using e⟩

/-- `C87_interrupted_restarts_count`: a two-phase run with no noisy restart allowed. -/
example : ∃ t new, (Alg.init { P with twoPhase := true, maxNoisyRestarts := 0 } 0).mode = .noisy ∧
    RestartCut { P with twoPhase := true, maxNoisyRestarts := 0 } env
      (Alg.init { P with twoPhase := true, maxNoisyRestarts := 0 } 0) t new ∧
    t.numNoisyRestarts = 1 :=
  ⟨_, _, rfl, RestartCut.accurate (P := { P with twoPhase := true, maxNoisyRestarts := 0 })
    (env := env) (pts := [[0], [10]]) (o := 0)
    (r := ⟨[[0], [10]], {}⟩) 1 (Or.inr rfl) rfl rfl (by decide +kernel) (by decide), rfl⟩

end Rbfopt.Demo
