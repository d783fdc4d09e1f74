import Verif.Lemmas.Flags
import Verif.Lemmas.TwoPhase
import Verif.Examples.Demo

/-!
# Properties of the records kept by `optimize()` (one CPU)

Theorem names start with the id of the property in `/verif/properties.jsonl`.
`Reach P env o c s`: the object can be in state `s` (see `Spec/Reach.lean`), for arbitrary search
steps, linear algebra, initial sampling, black box and clock.
`s.all` is the table of all records, `s.log` the list of black box calls actually made.
-/

namespace Rbfopt

variable {O : Type} {P : Params} {env : Env O} {o : O} {c : Ctl} {s : Alg O}

/-! ## C01 -/

/-- **C01** Whenever `optimize()` returns, the returned value is a lower bound on the value of every
record, and the returned point is the record that attains it. -/
theorem C01_returns_best_record {fuel pause : ℕ} {r : OptResult O}
    (h : optimize P env fuel pause s = .ret r) :
    (∀ v ∈ r.final.all.val, r.value ≤ v) ∧
    ∃ i : ℕ, r.final.all.pos[i]? = some r.point ∧ r.final.all.val[i]? = some r.value := by
  obtain ⟨s1, loc, s2, loc2, hs, hl, hf, hle, hex, -⟩ := optimize_cases h
  rw [hf]
  exact ⟨hle.2, hex⟩

/-- **C01** (black boxes without `evaluate_noisy`) The returned value is at most every value the
black box ever returned to this object, over all calls of `optimize()`. -/
theorem C01_returns_best_evaluation (hP : P.twoPhase = false) (hd : ∀ p, env.dist p p = 0)
    (hm : 0 ≤ P.minDist) {fuel pause : ℕ} {r : OptResult O} (hr : Reach P env o .idle s)
    (h : optimize P env fuel pause s = .ret r) :
    ∀ c ∈ r.final.log, r.value ≤ c.value := by
  intro c hc
  have hcov := (optimize_reach hr h).cover hP (fun p => by rw [hd p]; exact hm)
  obtain ⟨i, p, _, h2, _⟩ := hcov c hc
  exact (C01_returns_best_record h).1 _ (List.mem_of_getElem? h2)

/-- **C01** If the returned record is an accurate one, its value was returned by `evaluate()` or
supplied by the user, for that point (up to the reuse of points closer than `eps_zero`). -/
theorem C01_returned_value_is_genuine (hP : P.twoPhase = false) {fuel pause : ℕ} {r : OptResult O}
    (hr : Reach P env o .idle s) (h : optimize P env fuel pause s = .ret r) :
    ∃ q, NearChain env P.epsZero r.point q ∧
      (Evaluated env r.final.log q r.value ∨ UserGave P q r.value) := by
  have hr' := optimize_reach hr h
  obtain ⟨i, h1, h2⟩ := (C01_returns_best_record h).2
  obtain ⟨_, b, e, _, hb, he⟩ := hr'.wf.allA.has h1
  have hp : ProvOK P env r.final :=
    hr'.inv' (I := ProvOK P env) (by simp [ProvOK, Alg.init, Table.All])
      (fun _ _ w hs hm => hs.micro w hm)
  have hs' := hr'.single hP
  have hbf := (hs'.2.2 i _ _ b e h1 h2 hb he).1
  obtain ⟨q, hq, h3⟩ := (hp i _ _ b e h1 h2 hb he).source
  refine ⟨q, hq, ?_⟩
  rcases h3 with h3 | ⟨_, h3⟩ | ⟨h3, _⟩
  · exact Or.inl h3
  · exact Or.inr h3
  · rw [hbf] at h3; cases h3

/-- Non-vacuity: a concrete run with 6 evaluations returns value 1 at point 3. -/
example : ∃ r, optimize Demo.P Demo.env 40 100 (Alg.init Demo.P 0) = .ret r ∧
    Reach Demo.P Demo.env 0 .idle (Alg.init Demo.P 0) ∧ Demo.P.twoPhase = false ∧
    (∀ p, Demo.env.dist p p = 0) ∧ 0 ≤ Demo.P.minDist := by
  obtain ⟨r, h⟩ := Demo.run_exists
  exact ⟨r, h, .init, rfl, fun p => by simp [Demo.env, Demo.dist1], by norm_num [Demo.P]⟩

/-! ## C02 -/

/-- **C02** (black boxes without `evaluate_noisy`) After the first initialization the tracked best
value is the smallest recorded value and its index points to such a record; the tracked minimum and
maximum of the current nodes are right as well.  Missing: two-phase optimization, where this holds in
noisy mode (`C02_tracked_best_noisy_mode`) and only an inequality remains in accurate mode
(`C02_tracked_bounds`, `Demo.C02_violated_reevaluation`). -/
theorem C02_tracked_best_single_phase (hP : P.twoPhase = false) (hd : ∀ p, env.dist p p = 0)
    (hm : 0 ≤ P.minDist) (h : Reach P env o c s) (hne : s.all.pos ≠ []) :
    ∃ f b M : ℚ, s.fmin = (f : EVal) ∧ s.fbest = (b : EVal) ∧ s.fmax = (M : EVal) ∧
      IsLeastAt s.cur.val s.fminIdx f ∧ IsLeastAt s.all.val s.fbestIdx b ∧
      IsGreatestOf s.cur.val M := by
  rcases h.best hP (fun p => by rw [hd p]; exact hm) with h1 | h1
  · rw [h1.1] at hne; simp at hne
  · exact h1

/-- **C02** (black boxes with `evaluate_noisy`) The same as long as the object is in noisy mode. -/
theorem C02_tracked_best_noisy_mode (hd : ∀ p, env.dist p p = 0) (hm : 0 ≤ P.minDist)
    (h : Reach P env o c s) (hmode : s.mode = .noisy) (hne : s.all.pos ≠ []) :
    ∃ f b M : ℚ, s.fmin = (f : EVal) ∧ s.fbest = (b : EVal) ∧ s.fmax = (M : EVal) ∧
      IsLeastAt s.cur.val s.fminIdx f ∧ IsLeastAt s.all.val s.fbestIdx b ∧
      IsGreatestOf s.cur.val M := by
  rcases h.best_noisy (fun p => by rw [hd p]; exact hm) with (h1 | h1) | h1
  · rw [h1.1] at hne; simp at hne
  · exact h1
  · rw [hmode] at h1; cases h1

/-- **C02** (any black box, any mode) The tracked best value is never above a recorded value, and the
tracked minimum and maximum enclose the values of the current nodes. -/
theorem C02_tracked_bounds (h : Reach P env o c s) :
    (∀ v ∈ s.all.val, s.fbest ≤ (v : EVal)) ∧
    ∀ v ∈ s.cur.val, s.fmin ≤ (v : EVal) ∧ (v : EVal) ≤ s.fmax := h.bound

/-- **C02** The value `optimize()` returns is the tracked best value (single-phase). -/
theorem C02_returned_is_tracked (hP : P.twoPhase = false) (hd : ∀ p, env.dist p p = 0)
    (hm : 0 ≤ P.minDist) {fuel pause : ℕ} {r : OptResult O} (hr : Reach P env o .idle s)
    (h : optimize P env fuel pause s = .ret r) : r.final.fbest = (r.value : EVal) := by
  have hr' := optimize_reach hr h
  obtain ⟨h1, i, h2, h3⟩ := C01_returns_best_record h
  have hne : r.final.all.pos ≠ [] := by rintro h0; rw [h0] at h2; simp at h2
  obtain ⟨f, b, M, -, e2, -, -, e5, -⟩ := C02_tracked_best_single_phase hP hd hm hr' hne
  rw [e2]
  congr 1
  exact le_antisymm (e5.2 _ (List.mem_of_getElem? h3)) (h1 _ (List.mem_of_getElem? e5.1))

/-! ## C03 -/

/-- **C03** Alignment of the four node tables and the four record tables; the current nodes are
exactly the records made since the last restart.  The error interval kept with a current node is the
recorded one, or has been set to zero; the latter only in two-phase optimization after the switch to the
accurate mode (see C55). -/
theorem C03_tables_aligned (h : Reach P env o c s) :
    s.cur.Aligned ∧ s.all.Aligned ∧ s.nAtRestart ≤ s.all.pos.length ∧
    s.cur.val = s.all.val.drop s.nAtRestart ∧ s.cur.noisy = s.all.noisy.drop s.nAtRestart ∧
    List.Forall₂ (fun e r => e = r ∨ e = (0, 0)) s.cur.err (s.all.err.drop s.nAtRestart) ∧
    (P.twoPhase = false ∨ s.mode = .noisy → s.cur.err = s.all.err.drop s.nAtRestart) ∧
    List.Forall₂ (fun q p => q = env.toInternal p ∨ p = env.toOrig q) s.cur.pos
      (s.all.pos.drop s.nAtRestart) := by
  have w := h.wf
  have he : ErrOK P s := h.inv' (I := ErrOK P) (fun _ => by simp [ErrEq, Alg.init])
    (fun _ _ w hs hm => hs.micro w hm)
  exact ⟨w.curA, w.allA, w.le, w.val, w.noisy, w.err, he, w.pos⟩

/-- Non-vacuity for C02, C03: a reachable state with several records. -/
example : ∃ s, Reach Demo.P Demo.env 0 .idle s ∧ s.all.pos ≠ [] := by
  obtain ⟨r, h⟩ := Demo.run_exists
  refine ⟨r.final, optimize_reach .init h, ?_⟩
  obtain ⟨i, h2, _⟩ := (C01_returns_best_record h).2
  rintro h0; rw [h0] at h2; simp at h2

/-! ## C04 -/

/-- **C04** The counters returned by `optimize()` are the numbers of calls of `evaluate()` and
`evaluate_noisy()` actually made over the life of the object. -/
theorem C04_counters_exact {fuel pause : ℕ} {r : OptResult O} (hr : Reach P env o .idle s)
    (h : optimize P env fuel pause s = .ret r) :
    r.evalcount = countAcc r.final.log ∧ r.noisyEvalcount = countNoisy r.final.log := by
  have hr' := optimize_reach hr h
  have hc : CountsOK r.final := hr'.inv' (I := CountsOK) (by simp [CountsOK, Alg.init])
    (fun _ _ w hs hm => hs.micro w hm)
  obtain ⟨s1, loc, s2, loc2, hs, hl, hf, -, -, -, e2, e3⟩ := optimize_cases h
  rw [e2, e3]
  rw [hf] at hc ⊢
  exact hc

/-- **C04** The same at every moment between iterations. -/
theorem C04_counters_exact_always (h : Reach P env o c s) :
    s.evalcount = countAcc s.log ∧ s.noisyEvalcount = countNoisy s.log :=
  h.inv' (I := CountsOK) (by simp [CountsOK, Alg.init]) (fun _ _ w hs hm => hs.micro w hm)

/-! ## C05 -/

/-- **C05** Every record flagged accurate has the value `evaluate()` returned, or the user supplied,
for that point (up to reuse of points closer than `eps_zero`). -/
theorem C05_accurate_records_genuine (h : Reach P env o c s) :
    s.all.All (fun p v b _ => b = false → ∃ q, NearChain env P.epsZero p q ∧
      (Evaluated env s.log q v ∨ UserGave P q v)) := by
  have hp : ProvOK P env s := h.inv' (I := ProvOK P env) (by simp [ProvOK, Alg.init, Table.All])
    (fun _ _ w hs hm => hs.micro w hm)
  refine hp.mono ?_
  intro p v b e hprov hb
  obtain ⟨q, hq, h3⟩ := hprov.source
  refine ⟨q, hq, ?_⟩
  rcases h3 with h3 | ⟨_, h3⟩ | ⟨h3, _⟩
  · exact Or.inl h3
  · exact Or.inr h3
  · rw [hb] at h3; cases h3

/-- **C05** Every record flagged noisy has the value `evaluate_noisy()` or `evaluate()` returned
for that point. -/
theorem C05_noisy_records_genuine (h : Reach P env o c s) :
    s.all.All (fun p v b _ => b = true → ∃ q, NearChain env P.epsZero p q ∧
      (Evaluated env s.log q v ∨ EvaluatedNoisy env s.log q v)) := by
  have hp : ProvOK P env s := h.inv' (I := ProvOK P env) (by simp [ProvOK, Alg.init, Table.All])
    (fun _ _ w hs hm => hs.micro w hm)
  refine hp.mono ?_
  intro p v b e hprov hb
  obtain ⟨q, hq, h3⟩ := hprov.source
  refine ⟨q, hq, ?_⟩
  rcases h3 with h3 | ⟨h3, _⟩ | ⟨_, h3⟩
  · exact Or.inl h3
  · rw [hb] at h3; cases h3
  · exact Or.inr h3

/-! ## C06 -/

/-- **C06** (part that holds) A record flagged accurate never carries an error interval; without
`evaluate_noisy` no record is flagged noisy.  Missing: the full property is false, see
`Demo.C06_violated_accurate_flagged_noisy`, `Demo.C06_violated_stale_interval` and
`Demo.C06_violated_unbound_interval`. -/
theorem C06_accurate_records_have_no_error (h : Reach P env o c s) :
    s.all.All (fun _ _ b e => b = false → e = (0, 0)) ∧
    (P.twoPhase = false → s.all.All (fun _ _ b _ => b = false)) :=
  ⟨h.flag, fun hP => (h.single hP).2.2.mono (fun _ _ _ _ h => h.1)⟩

/-! ## C07 -/

/-- **C07** If the black box does not declare `evaluate_noisy`, it is never called. -/
theorem C07_no_noisy_call_unless_declared (hP : P.twoPhase = false) (h : Reach P env o c s) :
    countNoisy s.log = 0 ∧ s.mode = .accurate :=
  ⟨(h.single hP).2.1, (h.single hP).1⟩

/-- **C07** Once in accurate mode, a pass stays in accurate mode and makes no noisy call. -/
theorem C07_accurate_mode_is_final_pass {s' : Alg O} {loc loc' : Loc} {start pause : ℕ}
    (h : Reach P env o (.running start pause loc) s) (hm : s.mode = .accurate)
    (hp : pass P env s loc = .ok (s', loc')) :
    s'.mode = .accurate ∧ countNoisy s'.log = countNoisy s.log :=
  (Micros.inv (I := fun t => WF env t ∧ t.mode = .accurate ∧ countNoisy t.log = countNoisy s.log)
    (fun a b ha hab => ⟨ha.1.micro hab, accurate_micro ha.1 ha.2 hab⟩) ⟨h.wf, hm, rfl⟩
    (pass_micros hp)).2

/-- **C07** Once in accurate mode, a whole call of `optimize()` (including the initialization of the
call) stays in accurate mode and makes no noisy call. -/
theorem C07_accurate_mode_is_final_call {fuel pause : ℕ} {r : OptResult O}
    (hr : Reach P env o .idle s) (hm : s.mode = .accurate)
    (h : optimize P env fuel pause s = .ret r) :
    r.final.mode = .accurate ∧ countNoisy r.final.log = countNoisy s.log := by
  obtain ⟨s1, loc, s2, loc2, hs, hl, hf, -⟩ := optimize_cases h
  have key : ∀ (fuel : ℕ) (a a' : Alg O) (l l' : Loc), WF env a → a.mode = .accurate →
      countNoisy a.log = countNoisy s.log →
      loop P env s.itercount pause fuel a l = .done a' l' →
      a'.mode = .accurate ∧ countNoisy a'.log = countNoisy s.log := by
    intro fuel
    induction fuel with
    | zero =>
      intro a a' l l' w h1 h2 hl
      simp only [loop] at hl
      split at hl
      · cases hl
      · cases hl; exact ⟨h1, h2⟩
    | succ fuel ih =>
      intro a a' l l' w h1 h2 hl
      simp only [loop] at hl
      split at hl
      · split at hl
        · cases hl
        · rename_i b l'' hp
          have := Micros.inv (I := fun t => WF env t ∧ t.mode = .accurate ∧
              countNoisy t.log = countNoisy s.log)
            (fun a b ha hab => ⟨ha.1.micro hab, accurate_micro ha.1 ha.2 hab⟩) ⟨w, h1, h2⟩
            (pass_micros hp)
          exact ih _ _ _ _ this.1 this.2.1 this.2.2 hl
      · cases hl; exact ⟨h1, h2⟩
  have h1 := Micros.inv (I := fun t => WF env t ∧ t.mode = .accurate ∧
      countNoisy t.log = countNoisy s.log)
    (fun a b ha hab => ⟨ha.1.micro hab, accurate_micro ha.1 ha.2 hab⟩) ⟨hr.wf, hm, rfl⟩
    (serialStart_micros hs)
  rw [hf]
  exact key fuel s1 s2 loc loc2 h1.1 h1.2.1 h1.2.2 hl

/-! ## C16 -/

/-- **C16** Any two current nodes, not both of which were installed by the last initialization, are
farther than `min_dist` apart. -/
theorem C16_spacing (h : Reach P env o c s) (i j : ℕ) (p q : Pt) (hij : i < j) (hj : s.nInit ≤ j)
    (hq : s.cur.pos[i]? = some q) (hp : s.cur.pos[j]? = some p) : P.minDist < env.dist p q :=
  (h.inv' (I := SpacedOK P env) (by simp [SpacedOK, Alg.init])
    (fun _ _ w hs hm => hs.micro w hm)).2 i j p q hij hj hq hp

/-- **C16** An iteration adds only points farther than `min_dist` from every node present. -/
theorem C16_added_point_is_far {s' : Alg O} {loc loc' : Loc} {next : Option Pt}
    {ref : Option RefProposal} (ha : s.all.Aligned)
    (h : processPoint P env s loc next ref = .ok (s', loc')) :
    s'.cur.pos = s.cur.pos ∨
    ∃ p, s'.cur.pos = s.cur.pos ++ [p] ∧ ∀ q ∈ s.cur.pos, P.minDist < env.dist p q := by
  rcases processPoint_cases h with ⟨rfl, rfl⟩ |
    ⟨p0, d, r, s1, gap, s2, rfl, hd, hlt, hev, hadd, hgap, haft, rfl, rfl⟩
  · left
    exact congrArg (fun d => d.cur.pos) (discardPoint_data P s)
  · right
    refine ⟨clipPt p0 P.lLower P.lUpper, ?_, fun q hq => getMinDistance_gt hd hlt q hq⟩
    have e1 : s2.cur = (updateLog s1 r.val gap).cur := congrArg Data.cur (afterAdd_data haft)
    obtain ⟨g, st, e⟩ := updateLog_frame s1 r.val gap
    rw [e] at e1
    dsimp only at e1 ⊢
    obtain ⟨calls, ho⟩ := evaluateNext_spec hev ha
    obtain ⟨er, hadd', _, _⟩ := addResult_spec hadd
    obtain ⟨q1, -⟩ := ho.data_eqs
    rw [e1, hadd'.cur, q1]
    rfl

/-! ## C64 -/

/-- **C64** The starred lines of the log show strictly decreasing gaps, and each shows the best value
known when it was printed. -/
theorem C64_stars (h : Reach P env o c s) :
    (s.stars.map (fun x => x.1)).Pairwise (· > ·) ∧ ∀ x ∈ s.stars, (x.2.1 : EVal) = x.2.2 := by
  have := h.inv (I := StarsOK) (by simp [StarsOK, Alg.init]) (fun _ _ hs hm => hs.micro hm)
  exact ⟨this.1, this.2.2⟩

end Rbfopt
