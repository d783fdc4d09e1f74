import Verif.Props.ParallelEnd

/-!
# Results of searches in the parallel engine: discarded, reused or evaluated (C75)
-/

namespace Rbfopt

variable {O : Type} {P : Params} {env : Env O} {pe : PEnv O} {o : O} {c : PCtl} {s s' : PState O}

theorem getMinDistance_gt_iff {dist : Pt → Pt → ℚ} {p : Pt} {l : List Pt} {d m : ℚ}
    (h : getMinDistance dist p l = some d) : m < d ↔ ∀ q ∈ l, m < dist p q := by
  refine ⟨getMinDistance_gt h, fun hq => ?_⟩
  obtain ⟨⟨q, h1, h2⟩, -⟩ := getMinDistance_some h
  rw [← h2]; exact hq q h1

theorem harvestUsable_iff {p : Pt} :
    harvestUsable P env s p = some true ↔ s.alg.cur.pos ≠ [] ∧
      (∀ q ∈ s.alg.cur.pos, P.minDist < env.dist p q) ∧ ∀ q ∈ s.tPos, P.minDist < env.dist p q := by
  unfold harvestUsable
  split
  · rename_i h
    simp [getMinDistance_none.mp h]
  · rename_i d hd
    have hn := getMinDistance_ne_nil hd
    split
    · rename_i hle
      refine ⟨(fun h => by cases h), fun h => ?_⟩
      exact absurd ((getMinDistance_gt_iff hd).mpr h.2.1) (not_lt.mpr hle)
    · rename_i hlt
      have h1 := (getMinDistance_gt_iff hd).mp (not_le.mp hlt)
      split
      · rename_i h2
        have := getMinDistance_none.mp h2
        simp [this, hn, h1]
        exact h1
      · rename_i d' hd'
        rw [Option.some.injEq, decide_eq_true_iff, getMinDistance_gt_iff hd']
        exact ⟨fun h => ⟨hn, h1, h⟩, fun h => h.2.2⟩

theorem harvestUsable_false {p : Pt} (h : harvestUsable P env s p = some false) :
    ∃ q ∈ s.alg.cur.pos ++ s.tPos, env.dist p q ≤ P.minDist := by
  by_contra hc
  push Not at hc
  have hne : s.alg.cur.pos ≠ [] := by
    intro h0
    unfold harvestUsable at h
    rw [getMinDistance_none.mpr h0] at h
    cases h
  have : harvestUsable P env s p = some true := harvestUsable_iff.mpr
    ⟨hne, fun q hq => hc q (by simp [hq]), fun q hq => hc q (by simp [hq])⟩
  rw [this] at h; cases h

theorem reuseIndex_far {a : Alg O} {orig : Pt} (h : reuseIndex P env a orig = none) :
    ∀ q ∈ a.all.pos.take a.nAtRestart, P.epsZero ≤ env.dist orig q := by
  unfold reuseIndex at h
  split at h
  · split at h
    · rename_i d i hd
      split at h
      · cases h
      · rename_i hlt
        intro q hq
        obtain ⟨-, -, -, h2⟩ := getMinDistanceAndIndex_some hd
        exact (not_lt.mp hlt).trans (h2 q hq)
    · rename_i hn
      have := argminVal_none.mp hn
      simp only [List.map_eq_nil_iff] at this
      rw [this]; simp
  · rename_i h0
    have : a.nAtRestart = 0 := by omega
    simp [this]

/-- In single-phase runs an old record is reused exactly if there is one within `eps_zero`. -/
theorem reusePar_single {a : Alg O} (hall : a.all.Aligned)
    (hS : a.all.All (fun _ _ b e => b = false ∧ e = (0, 0))) {orig : Pt} :
    (reusePar P env a orig false = none ∧
      ∀ q ∈ a.all.pos.take a.nAtRestart, P.epsZero ≤ env.dist orig q) ∨
    ∃ i q v, reusePar P env a orig false = some (false, v) ∧ i < a.nAtRestart ∧
      a.all.pos[i]? = some q ∧ a.all.val[i]? = some v ∧ env.dist orig q < P.epsZero ∧
      ∀ q' ∈ a.all.pos.take a.nAtRestart, env.dist orig q ≤ env.dist orig q' := by
  unfold reusePar
  split
  · rename_i h
    exact Or.inl ⟨rfl, reuseIndex_far h⟩
  · rename_i i hi
    right
    obtain ⟨q, hq, hlt, hd, hmin⟩ := reuseIndex_spec hi
    obtain ⟨v, b, e, hv, hb, he⟩ := hall.has hq
    obtain ⟨rfl, -⟩ := hS i q v b e hq hv hb he
    rw [hb, hv]
    exact ⟨i, q, v, rfl, hlt, hq, hv, hd, hmin⟩

/-- The result of a search that does not ask for the re-evaluation of a node. -/
theorem harvestJob_new {j : ℕ} {res : SearchRes} {job : SearchJob} (hj : s.searches[j]? = some job)
    (hi : res.ind = none) : ∃ rd, harvestJob P env pe s j res =
      match res.next with
      | none => .ok (harvestDiscard P (takeSearch s j rd s.alg s.tabu) job.tag)
      | some p0 =>
        match harvestUsable P env s (clipPt p0 P.lLower P.lUpper) with
        | none => .error .assertionError
        | some false => .ok (harvestDiscard P (takeSearch s j rd s.alg s.tabu) job.tag)
        | some true =>
          match reusePar P env s.alg (env.toOrig (clipPt p0 P.lLower P.lUpper)) job.noisy with
          | some (b, v) => harvestReuse P (takeSearch s j rd s.alg s.tabu) (clipPt p0 P.lLower P.lUpper)
              (env.toOrig (clipPt p0 P.lLower P.lUpper)) b v
          | none => .ok (harvestSubmit P pe (takeSearch s j rd s.alg s.tabu)
              (clipPt p0 P.lLower P.lUpper) (env.toOrig (clipPt p0 P.lLower P.lUpper)) job.noisy
              (harvestTag job.tag res)) := by
  refine ⟨if job.tag = .ref then (res.modelImpr, res.toReplace) else s.refData, ?_⟩
  unfold harvestJob
  rw [hj]
  dsimp only
  have hl : ∀ t : PState O, harvestLocal t res = .ok t := by
    intro t; unfold harvestLocal; rw [hi]
  rw [hl, ite_self]
  rfl

/-- **C75**, **C18** What happens to the result of a search in a single-phase run, if the engine goes
on: without a point, or if it is within `min_dist` of a node or of an outstanding evaluation, it is
discarded and nothing is recorded or submitted; if a record made before the last restart is within
`eps_zero`, the value of the closest such record is recorded at the new point and nothing is submitted;
otherwise the point, and no other, is submitted for evaluation. -/
theorem C75_search_result (hP : P.twoPhase = false) {start pause : ℕ}
    (h : PReach P env pe o (.running start pause) s) (hp : s.pc = .searches)
    (hs : PStep P env pe start pause s s') (hpc : s'.pc = .searches) :
    ∃ (j : ℕ) (next : Option Pt), j < s.searches.length ∧ s'.searches = s.searches.eraseIdx j ∧
      (∀ p, next = some p → pe.proposes p) ∧
      (((next = none ∨ ∃ p, next = some p ∧ ∃ q ∈ s.alg.cur.pos ++ s.tPos,
            env.dist (clipPt p P.lLower P.lUpper) q ≤ P.minDist) ∧
          s'.subs = s.subs ∧ s'.evals = s.evals ∧ s'.alg.all = s.alg.all ∧ s'.alg.cur = s.alg.cur) ∨
       ∃ p0 p, next = some p0 ∧ p = clipPt p0 P.lLower P.lUpper ∧
        (∀ q ∈ s.alg.cur.pos ++ s.tPos, P.minDist < env.dist p q) ∧
        ((∃ i q v, i < s.alg.nAtRestart ∧ s.alg.all.pos[i]? = some q ∧ s.alg.all.val[i]? = some v ∧
            env.dist (env.toOrig p) q < P.epsZero ∧
            (∀ q' ∈ s.alg.all.pos.take s.alg.nAtRestart,
              env.dist (env.toOrig p) q ≤ env.dist (env.toOrig p) q') ∧
            s'.subs = s.subs ∧ s'.evals = s.evals ∧
            s'.alg.all = s.alg.all.append
              { pos := [env.toOrig p], val := [v], noisy := [false], err := [(0, 0)] } ∧
            s'.alg.cur = s.alg.cur.append { pos := [p], val := [v], noisy := [false], err := [(0, 0)] }) ∨
         ((∀ q ∈ s.alg.all.pos.take s.alg.nAtRestart, P.epsZero ≤ env.dist (env.toOrig p) q) ∧
            s'.alg.all = s.alg.all ∧ s'.alg.cur = s.alg.cur ∧
            ∃ tag, s'.subs = s.subs ++ [(env.toOrig p, false, tag)] ∧
              s'.evals = s.evals ++ [⟨s.subs.length, p, false, tag⟩] ∧ s'.tPos = s.tPos ++ [p]))) := by
  have hI := h.single hP
  have hb := h.book
  cases hs with
  | harvest j res _ hj hi hprop =>
    unfold PState.orRaise at hpc ⊢
    split
    · rename_i e he
      rw [he] at hpc; cases hpc
    · rename_i s1 hc
      refine ⟨j, res.next, hj, ?_⟩
      dsimp only
      obtain ⟨job, hjob⟩ : ∃ job, s.searches[j]? = some job := ⟨_, List.getElem?_eq_getElem hj⟩
      have hjn : job.noisy = false := hI.searches _ (List.mem_of_getElem? hjob)
      obtain ⟨rd, e⟩ := harvestJob_new (P := P) (env := env) (pe := pe) hjob (hi (Or.inl hP))
      rw [e, hjn] at hc
      obtain ⟨nc, rc, rb, _, _, ed⟩ := harvestDiscard_eq (P := P) (takeSearch s j rd s.alg s.tabu) job.tag
      split at hc
      · rename_i hn
        cases hc
        rw [ed]
        exact ⟨rfl, hprop, .inl ⟨.inl hn, rfl, rfl, rfl, rfl⟩⟩
      · rename_i p0 hp0
        split at hc
        · cases hc
        · rename_i hu
          cases hc
          rw [ed]
          exact ⟨rfl, hprop, .inl ⟨.inr ⟨p0, hp0, harvestUsable_false hu⟩, rfl, rfl, rfl, rfl⟩⟩
        · rename_i hu
          obtain ⟨-, hu1, hu2⟩ := harvestUsable_iff.mp hu
          have hfar : ∀ q ∈ s.alg.cur.pos ++ s.tPos,
              P.minDist < env.dist (clipPt p0 P.lLower P.lUpper) q := by
            intro q hq
            rcases List.mem_append.mp hq with hq | hq
            · exact hu1 q hq
            · exact hu2 q hq
          rcases reusePar_single (P := P) (env := env) hb.wf.allA hI.all
            (orig := env.toOrig (clipPt p0 P.lLower P.lUpper)) with ⟨hr, hno⟩ | ⟨i, q, v, hr, hlt, hq, hv, hd, hmin⟩
          · rw [hr] at hc
            cases hc
            exact ⟨rfl, hprop, .inr ⟨p0, _, hp0, rfl, hfar, .inr ⟨hno, rfl, rfl, _, rfl, rfl, rfl⟩⟩⟩
          · rw [hr] at hc
            obtain ⟨a1, e, gap, a2, hadd, hz, _, hg, he, rfl⟩ := harvestReuse_cases hc
            obtain ⟨-, -, -, -, -, -, -, c2, c1, -⟩ := endPass_ctl he
            obtain ⟨g, st, hl⟩ := updateLog_frame a1 v gap
            rw [hz.1 rfl] at hadd
            refine ⟨rfl, hprop, .inr ⟨p0, _, hp0, rfl, hfar, .inl ⟨i, q, v, hlt, hq, hv, hd, hmin, rfl, rfl,
              ?_, ?_⟩⟩⟩
            · exact (c1.trans (congrArg Alg.all hl)).trans hadd.all
            · exact (c2.trans (congrArg Alg.cur hl)).trans hadd.cur
  | searchesDone _ => cases hpc
  | _ => simp_all

/-- **C75** A search of a single-phase run proposes a point that is not too close to the nodes and to
the outstanding evaluations, but has a record made before the last restart within `eps_zero`: if an
evaluation has been collected in this call, its value is recorded without a new evaluation; if not,
the run ends with `NameError`. -/
theorem C75_reuse (hP : P.twoPhase = false) (hsave : P.saveInterval ≠ 0) {start pause : ℕ}
    (h : PReach P env pe o (.running start pause) s) (hp : s.pc = .searches) {j : ℕ}
    (hj : j < s.searches.length) {p0 p : Pt} (hpp : p = clipPt p0 P.lLower P.lUpper)
    (hfar : ∀ q ∈ s.alg.cur.pos ++ s.tPos, P.minDist < env.dist p q)
    (hold : ∃ q ∈ s.alg.all.pos.take s.alg.nAtRestart, env.dist (env.toOrig p) q < P.epsZero)
    {res : SearchRes} (hres : res.next = some p0) (hind : res.ind = none) (hprop : pe.proposes p0) :
    ∃ s', PStep P env pe start pause s s' ∧ s'.subs = s.subs ∧
      (s.iid = none → s'.pc = .raised .nameError) ∧
      (s.iid ≠ none → s'.pc = .searches ∧ ∃ (v : ℚ) (q : Pt) (i : ℕ), s.alg.all.pos[i]? = some q ∧
        s.alg.all.val[i]? = some v ∧ env.dist (env.toOrig p) q < P.epsZero ∧
        s'.alg.all = s.alg.all.append
          { pos := [env.toOrig p], val := [v], noisy := [false], err := [(0, 0)] }) := by
  have hI := h.single hP
  have hb := h.book
  obtain ⟨job, hjob⟩ : ∃ job, s.searches[j]? = some job := ⟨_, List.getElem?_eq_getElem hj⟩
  have hjn : job.noisy = false := hI.searches _ (List.mem_of_getElem? hjob)
  have hstep := PStep.harvest (P := P) (env := env) (pe := pe) (start := start) (pause := pause) j res hp
    hj (fun _ => hind) (fun p hp => by rw [hres] at hp; cases hp; exact hprop)
  obtain ⟨rd, e⟩ := harvestJob_new (P := P) (env := env) (pe := pe) hjob hind
  have hbest := h.best hP
  have hne : s.alg.cur.pos ≠ [] := by
    obtain ⟨q, hq, -⟩ := hold
    rcases hbest with ⟨h1, h2, -⟩ | ⟨f, bb, M, h1, h2, h3, ⟨h4, -⟩, -⟩
    · rw [h1] at hq; simp at hq
    · intro h0
      have := (List.getElem?_eq_some_iff.mp h4).1
      rw [hb.wf.curA.1, h0] at this
      simp at this
  rw [e, hres, hjn] at hstep
  dsimp only at hstep
  rw [← hpp, harvestUsable_iff.mpr ⟨hne, fun q hq => hfar q (by simp [hq]), fun q hq => hfar q (by simp [hq])⟩]
    at hstep
  dsimp only at hstep
  rcases reusePar_single (P := P) (env := env) hb.wf.allA hI.all (orig := env.toOrig p) with
    ⟨hr, hno⟩ | ⟨i, q, v, hr, hlt, hq, hv, hd, hmin⟩
  · obtain ⟨q, hq, hlt⟩ := hold
    exact absurd hlt (not_lt.mpr (hno q hq))
  · rw [hr] at hstep
    dsimp only at hstep
    refine ⟨_, hstep, ?_⟩
    have hadd := addNode_spec s.alg p (env.toOrig p) v
    have hgap : ∃ g, currentGap P (addNode s.alg p (env.toOrig p) v) = .ok g := by
      have h1 := BestOK.add hadd hb.wf.curA hb.wf.allA hne hbest
      rcases h1 with ⟨h1, -⟩ | ⟨f, bb, M, -, -, -, -, ⟨h4, -⟩, -⟩
      · rw [hadd.all] at h1
        simp [Table.append] at h1
      · have h5 : (addNode s.alg p (env.toOrig p) v).all.Aligned := by
          rw [hadd.all]; exact hb.wf.allA.append ⟨rfl, rfl, rfl⟩
        have := (List.getElem?_eq_some_iff.mp h4).1
        unfold currentGap
        cases hx : (addNode s.alg p (env.toOrig p) v).all.err[(addNode s.alg p (env.toOrig p) v).fbestIdx]? with
        | some e => exact ⟨_, rfl⟩
        | none =>
          rw [List.getElem?_eq_none_iff] at hx
          obtain ⟨a1, a2, a3⟩ := h5
          omega
    obtain ⟨g, hg⟩ := hgap
    unfold harvestReuse
    simp only [takeSearch, Bool.false_eq_true, if_false]
    rw [hg]
    dsimp only
    cases hiid : s.iid with
    | none => exact ⟨rfl, fun _ => rfl, (fun h => by cases h rfl)⟩
    | some t =>
      dsimp only
      unfold mainUpdates
      cases hE : endPass P (updateLog (addNode s.alg p (env.toOrig p) v) v g) with
      | error er =>
        exfalso
        unfold endPass at hE
        dsimp only at hE
        rw [if_neg hsave] at hE
        cases hE
      | ok a2 =>
        obtain ⟨-, -, -, -, -, -, -, -, c1, -⟩ := endPass_ctl hE
        obtain ⟨g', st, hl⟩ := updateLog_frame (addNode s.alg p (env.toOrig p) v) v g
        refine ⟨rfl, (fun h => by cases h), fun _ => ⟨rfl, v, q, i, hq, hv, hd, ?_⟩⟩
        exact (c1.trans (congrArg Alg.all hl)).trans hadd.all

end Rbfopt
