import Verif.Props.ParallelReuse
import Verif.Props.ParallelEnd
import Verif.Props.ParallelRefine
import Verif.Spec.Restart
import Mathlib.Logic.Relation

/-!
# The two phases of a parallel run (C24, C80)

What happens to the results of noisy evaluations, and to the requests of local searches to evaluate a
node again.
-/

namespace Rbfopt

variable {O : Type} {P : Params} {env : Env O} {pe : PEnv O} {o : O} {c : PCtl} {s s' : PState O}

/-- A distance on these points: positive between distinct ones. -/
def IsDistOn (l : List Pt) (dist : Pt → Pt → ℚ) : Prop :=
  ∀ p ∈ l, ∀ q ∈ l, 0 ≤ dist p q ∧ (dist p q = 0 ↔ p = q)

theorem IsDistOn.self {l : List Pt} {dist : Pt → Pt → ℚ} (h : IsDistOn l dist) {p : Pt} (hp : p ∈ l) :
    dist p p = 0 := (h p hp p hp).2.mpr rfl

/-- A noisy result `v` with lower error bound `el` is promising: it could improve on the best current
value by `eps_impr`, or could reach the target. -/
def Promising (P : Params) (s : PState O) (v el : ℚ) : Prop :=
  v + el ≤ P.target + P.epsOpt * |P.target| ∨ Improves P ((v + el : ℚ) : EVal) s.alg.fmin

theorem requireAccurate_iff {a : Alg O} {x : ℚ} :
    requireAccurate P a x = true ↔
      (x ≤ P.target + P.epsOpt * |P.target| ∨ Improves P ((x : ℚ) : EVal) a.fmin) := by
  unfold requireAccurate
  simp only [Bool.or_eq_true, decide_eq_true_eq, Improves]
  rw [or_comm]
  refine or_congr Iff.rfl ?_
  induction a.fmin using WithTop.recTopCoe with
  | top => simp
  | coe b =>
    dsimp only
    rw [decide_eq_true_eq]
    constructor
    · intro h; exact ⟨b, rfl, by exact_mod_cast h⟩
    · rintro ⟨r, h1, h2⟩
      have : b = r := by exact_mod_cast h1
      subst this
      exact_mod_cast h2

/-- The tabu entry removed is the first one equal to the point. -/
theorem tabu_erase {dist : Pt → Pt → ℚ} {p : Pt} {l : List Pt} (hd : IsDistOn l dist) (h : p ∈ l)
    {d : ℚ} {i : ℕ} (hi : getMinDistanceAndIndex dist p l = some (d, i)) : l.eraseIdx i = l.erase p := by
  obtain ⟨h1, h2, h3⟩ := argminVal_some hi
  simp only [List.getElem?_map, Option.map_eq_some_iff] at h1
  obtain ⟨q, hq, hdq⟩ := h1
  have h0 : d ≤ 0 := by
    have := h2 _ (List.mem_map_of_mem h)
    rwa [hd.self h] at this
  have hdz : d = 0 := le_antisymm h0 (hdq ▸ (hd p h q (List.mem_of_getElem? hq)).1)
  have hpq : p = q := (hd p h q (List.mem_of_getElem? hq)).2.mp (hdq.trans hdz)
  subst hpq
  obtain ⟨hlt, hget⟩ := List.getElem?_eq_some_iff.mp hq
  have hidx : l.idxOf p = i := by
    rcases lt_trichotomy (l.idxOf p) i with hlt' | he | hgt
    · exfalso
      have hpl := List.idxOf_lt_length_of_mem h
      have hg : l[l.idxOf p]? = some p := by rw [List.getElem?_eq_getElem hpl]; simp
      have := h3 (l.idxOf p) 0 hlt' (by rw [List.getElem?_map, hg]; simp [hd.self h])
      exact absurd hdz this.ne
    · exact he
    · have := List.not_of_lt_findIdx (xs := l) (p := (· == p)) hgt
      simp [hget] at this
  rw [List.erase_eq_eraseIdx_of_idxOf hidx]

/-- **C24** In a parallel run, let an evaluation of a point `p` finish with value `v` and error bounds
`el, eu`.  Exactly one of these happens.  (1) `p` is within `min_dist` of a node, or the evaluation was
noisy and `p` has been put on the tabu list: the result is ignored.  (2) The evaluation was noisy and
promising: the value is not recorded, and `p` is submitted again, for an accurate evaluation; until
then its value is estimated by `v`, clipped to the range of the known values.  (3) Otherwise the value
is recorded. -/
theorem C24_parallel_collected (hd : IsDistOn s.tabu env.dist) {start pause b : ℕ}
    (hp : s.pc = .evals b)
    (hs : PStep P env pe start pause s s') (hpc : s'.pc = .evals b) :
    ∃ (j : ℕ) (job : EvalJob) (v el eu : ℚ), s.evals[j]? = some job ∧
      (job.noisy = true → pe.noisyRes job.id = (v, el, eu)) ∧
      (job.noisy = false → pe.acc job.id = v ∧ el = 0 ∧ eu = 0) ∧
      (((∃ q ∈ s.alg.cur.pos, env.dist job.pt q ≤ P.minDist) ∧ s'.tabu = s.tabu ∨
          (∀ q ∈ s.alg.cur.pos, P.minDist < env.dist job.pt q) ∧ job.noisy = true ∧ job.pt ∈ s.tabu ∧
            s'.tabu = s.tabu.erase job.pt) ∧
        s'.evals = s.evals.eraseIdx j ∧ s'.subs = s.subs ∧ s'.hist = s.hist ++ [(job.id, .skipped)] ∧
        s'.alg = s.alg ∨
       (∀ q ∈ s.alg.cur.pos, P.minDist < env.dist job.pt q) ∧ (job.noisy = true → job.pt ∉ s.tabu) ∧
        s'.tabu = s.tabu ∧ s'.alg.itercount = s.alg.itercount + 1 ∧
        ((job.noisy = true ∧ Promising P s v el ∧
            s'.evals = s.evals.eraseIdx j ++ [⟨s.subs.length, job.pt, false, job.tag⟩] ∧
            s'.subs = s.subs ++ [(env.toOrig job.pt, false, job.tag)] ∧
            s'.hist = s.hist ++ [(job.id, .repeated)] ∧
            s'.tVal = s.tVal.eraseIdx j ++ [min (max (v : EVal) s.alg.fmin) s.alg.fmax] ∧
            s'.alg.evalcount = s.alg.evalcount + 1 ∧ s'.alg.all = s.alg.all ∧ s'.alg.cur = s.alg.cur) ∨
         (¬ (job.noisy = true ∧ Promising P s v el) ∧ s'.evals = s.evals.eraseIdx j ∧
            s'.subs = s.subs ∧ s'.hist = s.hist ++ [(job.id, .recorded)] ∧
            s'.alg.evalcount = s.alg.evalcount ∧
            s'.alg.cur = s.alg.cur.append
              { pos := [job.pt], val := [v], noisy := [job.noisy], err := [(el, eu)] } ∧
            s'.alg.all = s.alg.all.append
              { pos := [env.toOrig job.pt], val := [v], noisy := [job.noisy], err := [(el, eu)] }))) := by
  cases hs with
  | collect j hp' hj =>
    unfold PState.orRaise at hpc ⊢
    split
    · rename_i e he
      rw [he] at hpc; cases hpc
    · rename_i s1 hc
      obtain ⟨job, hjob⟩ : ∃ job, s.evals[j]? = some job := ⟨_, List.getElem?_eq_getElem hj⟩
      refine ⟨j, job, (jobResult pe job).1, (jobResult pe job).2.1, (jobResult pe job).2.2, hjob,
        (fun hn => by simp [jobResult, hn]), (fun hn => by simp [jobResult, hn]), ?_⟩
      dsimp only
      have hfar0 : ∀ {d : ℚ}, getMinDistance env.dist job.pt s.alg.cur.pos = some d → ¬ d ≤ P.minDist →
          ∀ q ∈ s.alg.cur.pos, P.minDist < env.dist job.pt q :=
        fun h1 h2 => getMinDistance_gt h1 (not_le.mp h2)
      have hc0 := hc
      unfold collectJob at hc
      rw [hjob] at hc
      dsimp only at hc
      split at hc
      · cases hc
      · rename_i d hdist
        have hdist' : getMinDistance env.dist job.pt s.alg.cur.pos = some d := hdist
        split at hc
        · rename_i hle
          cases hc
          refine .inl ⟨.inl ⟨?_, rfl⟩, rfl, rfl, rfl, rfl⟩
          obtain ⟨⟨q, hq, he⟩, -⟩ := getMinDistance_some hdist'
          exact ⟨q, hq, he ▸ hle⟩
        · rename_i hle
          split at hc
          · rename_i ht
            have ht' : job.noisy = true ∧ job.pt ∈ s.tabu := ht
            split at hc
            · cases hc
            · rename_i x i hi
              cases hc
              exact .inl ⟨.inr ⟨hfar0 hdist' hle, ht'.1, ht'.2, tabu_erase hd ht'.2 hi⟩, rfl, rfl, rfl, rfl⟩
          · rename_i ht
            refine .inr ⟨hfar0 hdist' hle, (fun hn hm => ht ⟨hn, hm⟩), ?_⟩
            split at hc
            · rename_i hn
              obtain ⟨a, ha, rfl⟩ := mainUpdates_ok hc
              obtain ⟨c1, -, -, -, -, -, -, c2, c3, -, c5, -⟩ := endPass_ctl ha
              exact ⟨rfl, c1, .inl ⟨hn.1, requireAccurate_iff.mp hn.2, rfl, rfl, rfl, rfl, c5, c3, c2⟩⟩
            · rename_i hn
              split at hc
              · cases hc
              · rename_i s2 h2
                obtain ⟨a', ha', rfl⟩ := mainUpdates_ok hc
                unfold collectRecord at h2
                dsimp only at h2
                split at h2
                · cases h2
                · rename_i gap hg
                  obtain ⟨a, rc, rb, e1, e2, e3, e4, rfl, e5, e6⟩ := collectRefine_cases h2
                  have hadd := addJob_spec (pe := pe) (env := env) s.alg job
                  obtain ⟨g, st, hl⟩ := updateLog_frame (addJob pe env s.alg job)
                    (jobResult pe job).1 gap
                  obtain ⟨c1, -, -, -, -, -, -, c2, c3, -, c5, -⟩ := endPass_ctl ha'
                  have e1' : a.data = (updateLog (addJob pe env s.alg job) (jobResult pe job).1 gap).data := e1
                  rw [hl] at e1'
                  have d1 : a.all = (addJob pe env s.alg job).all := congrArg Data.all e1'
                  have d2 : a.cur = (addJob pe env s.alg job).cur := congrArg Data.cur e1'
                  have d3 : a.evalcount = (addJob pe env s.alg job).evalcount := congrArg Data.evalcount e1'
                  have e2' : a.itercount = (updateLog (addJob pe env s.alg job) (jobResult pe job).1 gap).itercount := e2
                  rw [hl] at e2'
                  refine ⟨rfl, ?_, .inr ⟨fun h => hn ⟨h.1, requireAccurate_iff.mpr h.2⟩, rfl, rfl, rfl,
                    (c5.trans d3).trans ?_, (c2.trans d2).trans hadd.cur, (c3.trans d1).trans hadd.all⟩⟩
                  · rw [c1]
                    dsimp only
                    rw [e2']
                    dsimp only
                    rw [hadd.ctl.1]
                  · exact hadd.rest.2.1
  | evalsDone _ => dsimp only at hpc; split at hpc <;> cases hpc
  | _ => simp_all

/-! ## Requests to evaluate a node again -/

/-- The effect on the nodes, the records and the tabu list of a finished search that started a step of
kind `tag` and returned `res`. -/
inductive Withdraws (a : Alg O) (tabu : List Pt) (tag : Tag) (res : SearchRes) :
    Table → Table → List Pt → Prop
  /-- no request -/
  | nothing : (tag ≠ .loc ∨ res.ind = none ∨ res.next = none) →
      Withdraws a tabu tag res a.cur a.all tabu
  /-- the node has the expected index: it and its record are removed -/
  | expected {i : ℕ} {p : Pt} : tag = .loc → res.ind = some i → res.next = some p →
      a.cur.pos[i]? = some p →
      Withdraws a tabu tag res (a.cur.eraseIdx i) (a.all.eraseIdx (a.nAtRestart + i)) tabu
  /-- the node has another index: the first node at this point is removed -/
  | moved {i k : ℕ} {p : Pt} : tag = .loc → res.ind = some i → res.next = some p →
      a.cur.pos[i]? ≠ some p → a.cur.pos[k]? = some p → (∀ k' < k, a.cur.pos[k']? ≠ some p) →
      Withdraws a tabu tag res (a.cur.eraseIdx k) (a.all.eraseIdx (a.nAtRestart + k)) (tabu ++ [p])
  /-- there is no such node: the point is put on the tabu list -/
  | absent {i : ℕ} {p : Pt} : tag = .loc → res.ind = some i → res.next = some p →
      p ∉ a.cur.pos → Withdraws a tabu tag res a.cur a.all (tabu ++ [p])

/-- Same object up to the nodes and records (and the number of initial nodes among them). -/
structure SameButNodes (a a' : Alg O) : Prop where
  fmin : a'.fmin = a.fmin
  fbest : a'.fbest = a.fbest
  fbestIdx : a'.fbestIdx = a.fbestIdx
  evalcount : a'.evalcount = a.evalcount
  noisyEvalcount : a'.noisyEvalcount = a.noisyEvalcount
  itercount : a'.itercount = a.itercount
  mode : a'.mode = a.mode
  nAtRestart : a'.nAtRestart = a.nAtRestart
  discarded : a'.discarded = a.discarded

theorem SameButNodes.refl (a : Alg O) : SameButNodes a a := ⟨rfl, rfl, rfl, rfl, rfl, rfl, rfl, rfl, rfl⟩

theorem Withdraws.aligned {a : Alg O} {tabu tb : List Pt} {tag : Tag} {res : SearchRes} {cur all : Table}
    (h : Withdraws a tabu tag res cur all tb) (ha : a.all.Aligned) : all.Aligned := by
  cases h with
  | nothing => exact ha
  | expected => exact ha.eraseIdx _
  | moved => exact ha.eraseIdx _
  | absent => exact ha

/-- An old record is not used: there is none within `eps_zero`, or the closest is noisy although an
accurate value is required. -/
theorem reusePar_none {a : Alg O} (hall : a.all.Aligned) {orig : Pt} {noisy : Bool}
    (h : reusePar P env a orig noisy = none) :
    (∀ q ∈ a.all.pos.take a.nAtRestart, P.epsZero ≤ env.dist orig q) ∨
    (noisy = false ∧ ∃ i q, i < a.nAtRestart ∧ a.all.pos[i]? = some q ∧ a.all.noisy[i]? = some true ∧
      env.dist orig q < P.epsZero ∧
      ∀ q' ∈ a.all.pos.take a.nAtRestart, env.dist orig q ≤ env.dist orig q') := by
  unfold reusePar at h
  split at h
  · rename_i h1
    exact Or.inl (reuseIndex_far h1)
  · rename_i i hi
    obtain ⟨q, hq, hlt, hd, hmin⟩ := reuseIndex_spec hi
    obtain ⟨v, b, e, hv, hb, he⟩ := hall.has hq
    rw [hv, hb] at h
    dsimp only at h
    split at h
    · cases h
    · rename_i hc
      push Not at hc
      refine Or.inr ⟨by simpa using hc.1, i, q, hlt, hq, ?_, hd, hmin⟩
      rw [hb]; simpa using hc.2

theorem reusePar_some {a : Alg O} {orig : Pt} {noisy b : Bool} {v : ℚ}
    (h : reusePar P env a orig noisy = some (b, v)) :
    ∃ i q, i < a.nAtRestart ∧ a.all.pos[i]? = some q ∧ a.all.val[i]? = some v ∧
      a.all.noisy[i]? = some b ∧ (noisy = true ∨ b = false) ∧ env.dist orig q < P.epsZero ∧
      ∀ q' ∈ a.all.pos.take a.nAtRestart, env.dist orig q ≤ env.dist orig q' := by
  unfold reusePar at h
  split at h
  · cases h
  · rename_i i hi
    obtain ⟨q, hq, hlt, hd, hmin⟩ := reuseIndex_spec hi
    split at h
    · rename_i b' v' hb hv
      split at h
      · rename_i hc
        cases h
        exact ⟨i, q, hlt, hq, hv, hb, hc, hd, hmin⟩
      · cases h
    · cases h

theorem harvestLocal_withdraws {res : SearchRes} (h : harvestLocal s res = .ok s') :
    ∃ a tb, s' = { s with alg := a, tabu := tb } ∧ SameButNodes s.alg a ∧
      Withdraws s.alg s.tabu .loc res a.cur a.all tb := by
  unfold harvestLocal at h
  split at h
  · rename_i i p hi hn
    split at h
    · rename_i he
      split at h
      · cases h
      · rename_i a ha
        cases h
        obtain ⟨_, _, rfl⟩ := removeNode_spec ha
        exact ⟨_, _, rfl, ⟨rfl, rfl, rfl, rfl, rfl, rfl, rfl, rfl, rfl⟩, .expected rfl hi hn he⟩
    · rename_i he
      split at h
      · rename_i k hk
        split at h
        · cases h
        · rename_i a ha
          cases h
          obtain ⟨_, _, rfl⟩ := removeNode_spec ha
          obtain ⟨hlt, hbeq, hbef⟩ := List.findIdx?_eq_some_iff_getElem.mp hk
          refine ⟨_, _, rfl, ⟨rfl, rfl, rfl, rfl, rfl, rfl, rfl, rfl, rfl⟩, .moved rfl hi hn he (k := k) ?_ ?_⟩
          · rw [List.getElem?_eq_getElem hlt]
            simpa using hbeq
          · intro k' hk' he'
            have hb := hbef k' hk'
            rw [List.getElem?_eq_getElem (by omega)] at he'
            simp at he' hb
            exact hb he'
      · rename_i hk
        cases h
        refine ⟨_, _, rfl, .refl _, .absent rfl hi hn ?_⟩
        rw [List.findIdx?_eq_none_iff] at hk
        intro hm
        have := hk p hm
        simp at this
  · rename_i hno
    cases h
    refine ⟨_, _, rfl, .refl _, .nothing (Or.inr ?_)⟩
    cases hi : res.ind with
    | none => exact Or.inl rfl
    | some i =>
      cases hn : res.next with
      | none => exact Or.inr rfl
      | some p => exact absurd hn (hno i p hi)

/-- **C80** A search of a parallel run that finishes in the main loop and does not raise: first, if it
was a local search that asks for a node to be evaluated again, the node and its record are removed
(`Withdraws`); no other result removes anything.  Then, without a point, or if the point is within
`min_dist` of a remaining node or of an outstanding evaluation, the result is discarded; otherwise, if
the closest record made before the last restart is within `eps_zero` and was accurate or a noisy value
suffices, its value is recorded; otherwise exactly this point is submitted, in the mode in which the
search was submitted. -/
theorem C80_search_result {start pause : ℕ} (h : PReach P env pe o (.running start pause) s)
    (hp : s.pc = .searches) (hs : PStep P env pe start pause s s') (hpc : s'.pc = .searches) :
    ∃ (j : ℕ) (job : SearchJob) (res : SearchRes) (cur all : Table),
      s.searches[j]? = some job ∧ s'.searches = s.searches.eraseIdx j ∧
      (P.twoPhase = false ∨ job.noisy = true → res.ind = none) ∧
      (job.tag = .ref → s'.refData = (res.modelImpr, res.toReplace)) ∧
      (job.tag ≠ .ref → s'.refData = s.refData) ∧
      Withdraws s.alg s.tabu job.tag res cur all s'.tabu ∧
      (((res.next = none ∨ ∃ p, res.next = some p ∧ ∃ q ∈ cur.pos ++ s.tPos,
            env.dist (clipPt p P.lLower P.lUpper) q ≤ P.minDist) ∧
          s'.subs = s.subs ∧ s'.evals = s.evals ∧ s'.alg.all = all ∧ s'.alg.cur = cur ∧
          s'.alg.discarded = dequePush P.discWindow s.alg.discarded true ∧
          s'.alg.itercount = s.alg.itercount + 1 ∧
          (job.tag = .ref → s'.refBusy = false ∧ s'.refCount = s.refCount + 1 ∧ s'.alg.numCons = 0) ∧
          (job.tag ≠ .ref → s'.refBusy = s.refBusy ∧ s'.refCount = s.refCount)) ∨
       ∃ p0 p, res.next = some p0 ∧ p = clipPt p0 P.lLower P.lUpper ∧
        (∀ q ∈ cur.pos ++ s.tPos, P.minDist < env.dist p q) ∧
        ((∃ i q v nb e, i < s.alg.nAtRestart ∧ all.pos[i]? = some q ∧ all.val[i]? = some v ∧
            all.noisy[i]? = some nb ∧ (job.noisy = true ∨ nb = false) ∧
            env.dist (env.toOrig p) q < P.epsZero ∧
            (∀ q' ∈ all.pos.take s.alg.nAtRestart,
              env.dist (env.toOrig p) q ≤ env.dist (env.toOrig p) q') ∧
            s'.subs = s.subs ∧ s'.evals = s.evals ∧
            (nb = false → e = (0, 0)) ∧ (nb = true → s.err = some e) ∧
            s'.alg.all = all.append
              { pos := [env.toOrig p], val := [v], noisy := [nb], err := [e] } ∧
            s'.alg.cur = cur.append { pos := [p], val := [v], noisy := [nb], err := [e] } ∧
            s'.alg.itercount = s.alg.itercount + 1) ∨
         (((∀ q ∈ all.pos.take s.alg.nAtRestart, P.epsZero ≤ env.dist (env.toOrig p) q) ∨
            (job.noisy = false ∧ ∃ i q, i < s.alg.nAtRestart ∧ all.pos[i]? = some q ∧
              all.noisy[i]? = some true ∧ env.dist (env.toOrig p) q < P.epsZero ∧
              ∀ q' ∈ all.pos.take s.alg.nAtRestart,
                env.dist (env.toOrig p) q ≤ env.dist (env.toOrig p) q')) ∧
            s'.alg.all = all ∧ s'.alg.cur = cur ∧ s'.alg.itercount = s.alg.itercount ∧
            s'.alg.discarded = dequePush P.discWindow s.alg.discarded false ∧
            ∃ tag, (job.tag ≠ .loc → tag = job.tag) ∧
              (job.tag = .loc → tag = if res.adj then .adj else .loc) ∧
              s'.subs = s.subs ++ [(env.toOrig p, job.noisy, tag)] ∧
              s'.evals = s.evals ++ [⟨s.subs.length, p, job.noisy, tag⟩] ∧
              s'.tPos = s.tPos ++ [p] ∧ s'.tNoisy = s.tNoisy ++ [job.noisy]))) := by
  have hb := h.book
  cases hs with
  | harvest j res _ hj hi hprop =>
    unfold PState.orRaise at hpc ⊢
    split
    · rename_i e he
      rw [he] at hpc; cases hpc
    · rename_i s1 hc
      obtain ⟨job, hjob⟩ : ∃ job, s.searches[j]? = some job := ⟨_, List.getElem?_eq_getElem hj⟩
      unfold harvestJob at hc
      rw [hjob] at hc
      dsimp only at hc
      split at hc
      · cases hc
      · rename_i s2 h2
        obtain ⟨a, tb, rfl, hsame, hw⟩ : ∃ a tb, s2 = takeSearch s j
            (if job.tag = .ref then (res.modelImpr, res.toReplace) else s.refData) a tb ∧
            SameButNodes s.alg a ∧ Withdraws s.alg s.tabu job.tag res a.cur a.all tb := by
          split at h2
          · rename_i ht
            obtain ⟨a, tb, e, h3, h4⟩ := harvestLocal_withdraws h2
            exact ⟨a, tb, e, h3, by rw [ht]; exact h4⟩
          · rename_i ht
            cases h2
            exact ⟨s.alg, s.tabu, rfl, .refl _, .nothing (Or.inl ht)⟩
        have hal := hw.aligned hb.wf.allA
        have hrd1 : job.tag = .ref → (if job.tag = .ref then (res.modelImpr, res.toReplace)
            else s.refData) = (res.modelImpr, res.toReplace) := fun h => if_pos h
        have hrd2 : job.tag ≠ .ref → (if job.tag = .ref then (res.modelImpr, res.toReplace)
            else s.refData) = s.refData := fun h => if_neg h
        generalize (if job.tag = .ref then (res.modelImpr, res.toReplace) else s.refData) = rd
          at hc hrd1 hrd2
        have hdisc : ∀ t : PState O, t = harvestDiscard P (takeSearch s j rd a tb) job.tag →
            t.refData = rd ∧ t.tabu = tb ∧ t.searches = s.searches.eraseIdx j ∧
            t.subs = s.subs ∧ t.evals = s.evals ∧ t.alg.all = a.all ∧ t.alg.cur = a.cur ∧
            t.alg.discarded = dequePush P.discWindow a.discarded true ∧
            t.alg.itercount = a.itercount + 1 ∧
            (job.tag = .ref → t.refBusy = false ∧ t.refCount = s.refCount + 1 ∧ t.alg.numCons = 0) ∧
            (job.tag ≠ .ref → t.refBusy = s.refBusy ∧ t.refCount = s.refCount) := by
          rintro t rfl
          unfold harvestDiscard
          by_cases ht : job.tag = .ref
          · rw [if_pos ht]
            exact ⟨rfl, rfl, rfl, rfl, rfl, rfl, rfl, rfl, rfl, fun _ => ⟨rfl, rfl, rfl⟩,
              fun h => absurd ht h⟩
          · rw [if_neg ht]
            exact ⟨rfl, rfl, rfl, rfl, rfl, rfl, rfl, rfl, rfl, fun h => absurd h ht,
              fun _ => ⟨rfl, rfl⟩⟩
        refine ⟨j, job, res, a.cur, a.all, hjob, ?_⟩
        have hi : P.twoPhase = false ∨ job.noisy = true → res.ind = none := fun h =>
          hi (h.imp_right (fun h => by rw [hjob, Option.map_some, h]))
        dsimp only
        rw [← hsame.nAtRestart, ← hsame.itercount, ← hsame.discarded]
        split at hc
        · rename_i hn
          obtain ⟨d1, d2, d3, d⟩ := hdisc s1 (by cases hc; rfl)
          exact ⟨d3, hi, d1 ▸ hrd1, d1 ▸ hrd2, d2 ▸ hw, .inl ⟨.inl hn, d⟩⟩
        · rename_i p0 hp0
          split at hc
          · cases hc
          · rename_i hu
            obtain ⟨d1, d2, d3, d⟩ := hdisc s1 (by cases hc; rfl)
            exact ⟨d3, hi, d1 ▸ hrd1, d1 ▸ hrd2, d2 ▸ hw, .inl ⟨.inr ⟨p0, hp0, harvestUsable_false hu⟩, d⟩⟩
          · rename_i hu
            obtain ⟨-, hu1, hu2⟩ := harvestUsable_iff.mp hu
            have hfar : ∀ q ∈ a.cur.pos ++ s.tPos,
                P.minDist < env.dist (clipPt p0 P.lLower P.lUpper) q := by
              intro q hq
              rcases List.mem_append.mp hq with hq | hq
              · exact hu1 q hq
              · exact hu2 q hq
            split at hc
            · rename_i b v hr
              obtain ⟨i, q, r1, r2, r3, r4, r5, r6, r7⟩ := reusePar_some hr
              obtain ⟨a1, e, gap, a2, hadd, hz, hz2, hg, he, rfl⟩ := harvestReuse_cases hc
              obtain ⟨c0, -, -, -, -, -, -, c2, c1, -⟩ := endPass_ctl he
              obtain ⟨g, st, hl⟩ := updateLog_frame a1 v gap
              refine ⟨rfl, hi, hrd1, hrd2, hw, .inr ⟨p0, _, hp0, rfl, hfar,
                .inl ⟨i, q, v, b, e, r1, r2, r3, r4, r5, r6, r7, rfl, rfl, hz.1, hz2, ?_, ?_, ?_⟩⟩⟩
              · exact (c1.trans (congrArg Alg.all hl)).trans hadd.all
              · exact (c2.trans (congrArg Alg.cur hl)).trans hadd.cur
              · rw [c0, congrArg Alg.itercount hl]
                dsimp only
                rw [hadd.ctl.1]; rfl
            · rename_i hr
              cases hc
              refine ⟨rfl, hi, hrd1, hrd2, hw, .inr ⟨p0, _, hp0, rfl, hfar,
                .inr ⟨reusePar_none hal hr, rfl, rfl, rfl, rfl, harvestTag job.tag res, ?_, ?_, rfl, rfl,
                  rfl, rfl⟩⟩⟩
              · intro ht; simp [harvestTag, ht]
              · intro ht; simp [harvestTag, ht]
  | searchesDone _ => cases hpc
  | _ => simp_all

/-- **C80** A step of a parallel run only ever appends to the records, except when a local search of a
two-phase run asks for a node to be evaluated again: then the record of this node (at most one) is
removed first. -/
theorem C80_removed_only_for_reevaluation {start pause : ℕ}
    (h : PReach P env pe o (.running start pause) s) (hs : PStep P env pe start pause s s') :
    (∃ t, s'.alg.all = s.alg.all.append t) ∨
    (P.twoPhase = true ∧ s.pc = .searches ∧ ∃ (job : SearchJob) (k : ℕ) (p : Pt), job ∈ s.searches ∧
      job.tag = .loc ∧ job.noisy = false ∧ s.alg.cur.pos[k]? = some p ∧
      ∃ t, s'.alg.all = (s.alg.all.eraseIdx (s.alg.nAtRestart + k)).append t) := by
  have hnil : ∀ t : Table, t = t.append {} := fun t => by simp [Table.append]
  have hk := hs.kind
  cases hk with
  | harvest hp' _ _ _ e =>
    have hpc : s'.pc = .searches := by rw [e]
    obtain ⟨j, job, res, cur, all, hj, -, hi, -, -, hw, hcase⟩ := C80_search_result h hp' hs hpc
    have happ : ∃ t, s'.alg.all = all.append t := by
      rcases hcase with ⟨-, -, -, h1, -⟩ | ⟨p0, p, -, -, -, ⟨i, q, v, nb, er, hx⟩ | ⟨-, h1, -⟩⟩
      · exact ⟨{}, h1.trans (hnil _)⟩
      · exact ⟨_, hx.2.2.2.2.2.2.2.2.2.2.2.1⟩
      · exact ⟨{}, h1.trans (hnil _)⟩
    have h2 : res.ind ≠ none → P.twoPhase = true := by
      intro hne
      by_contra hc
      exact hne (hi (Or.inl (by simpa using hc)))
    have h3 : res.ind ≠ none → job.noisy = false := by
      intro hne
      by_contra hc
      exact hne (hi (Or.inr (by simpa using hc)))
    generalize s'.tabu = tb at hw
    cases hw with
    | nothing _ => exact Or.inl happ
    | absent => exact Or.inl happ
    | expected ht hri hrn hk =>
      exact Or.inr ⟨h2 (by simp [hri]), hp', job, _, _, List.mem_of_getElem? hj, ht, h3 (by simp [hri]), hk,
        happ⟩
    | moved ht hri hrn _ hk =>
      exact Or.inr ⟨h2 (by simp [hri]), hp', job, _, _, List.mem_of_getElem? hj, ht, h3 (by simp [hri]), hk,
        happ⟩
  | ctrl hc => exact Or.inl ⟨{}, (congrArg Data.all hc.data).trans (hnil _)⟩
  | collect _ hc e =>
    subst e
    left
    obtain ⟨job, _, ⟨h1, _⟩ | ⟨_, _, _, _, h1⟩⟩ := collect_records hc
    · exact ⟨{}, h1.trans (hnil _)⟩
    · exact ⟨_, h1⟩
  | restart hc _ _ hr _ e =>
    subst e
    obtain ⟨pts, noisy, o, done, rest, prev, u, calls, a, m, M, i, hp⟩ := restartPar_ok hr
    have h1 : a.all = _ := hp.install.all
    have h2 := congrArg Data.all hc.data
    simp only [Alg.data] at h2
    simp only [beginAlg, h2] at h1
    rw [hp.eq]
    exact Or.inl ⟨_, h1⟩
  | submit _ hd _ _ _ _ e =>
    subst e
    exact Or.inl ⟨{}, (congrArg Data.all hd).trans (hnil _)⟩
  | close _ hc e =>
    subst e
    obtain ⟨hn, hne, a, gap, g, st, ha, _, rfl⟩ := closeJob_cases hc
    exact Or.inl ⟨_, ha.all⟩

/-- **C80** A local search asks for the node with index `i` at the point `p` to be evaluated again.  If
`p` is farther than `min_dist` from all other nodes and from the outstanding evaluations, and no record
made before the last restart is within `eps_zero`, then (unless the last restart was interrupted by an
exception, see C90) the node and its record are removed and `p` is submitted for
accurate evaluation. -/
theorem C80_node_evaluated_again {start pause : ℕ} (h : PReach P env pe o (.running start pause) s)
    (hcut : s.cut = false) (hp : s.pc = .searches) {j i : ℕ} {job : SearchJob} (hj : s.searches[j]? = some job)
    (ht : job.tag = .loc) (hac : job.noisy = false) {res : SearchRes} {p : Pt} (hi : res.ind = some i) (hn : res.next = some p)
    (hprop : pe.proposes p) (h2 : P.twoPhase = true) (hbox : clipPt p P.lLower P.lUpper = p)
    (hk : s.alg.cur.pos[i]? = some p) (htwo : 2 ≤ s.alg.cur.pos.length)
    (hfar : ∀ (k : ℕ) (q : Pt), k ≠ i → s.alg.cur.pos[k]? = some q → P.minDist < env.dist p q)
    (hout : ∀ q ∈ s.tPos, P.minDist < env.dist p q)
    (hold : ∀ q ∈ s.alg.all.pos.take s.alg.nAtRestart, P.epsZero ≤ env.dist (env.toOrig p) q) :
    ∃ s', PStep P env pe start pause s s' ∧ s'.pc = .searches ∧
      s'.alg.cur = s.alg.cur.eraseIdx i ∧ s'.alg.all = s.alg.all.eraseIdx (s.alg.nAtRestart + i) ∧
      s'.tabu = s.tabu ∧
      s'.subs = s.subs ++ [(env.toOrig p, false, if res.adj then .adj else .loc)] ∧
      s'.alg.evalcount = s.alg.evalcount + 1 := by
  have hb := h.book
  have hstep := PStep.harvest (P := P) (env := env) (pe := pe) (start := start) (pause := pause) j res hp
    (List.getElem?_eq_some_iff.mp hj).1 (fun h => by
      rcases h with h | h
      · rw [h2] at h; cases h
      · rw [hj, Option.map_some, hac] at h; cases h)
    (fun q hq => by rw [hn] at hq; cases hq; exact hprop)
  have hil := (List.getElem?_eq_some_iff.mp hk).1
  have hall : s.alg.nAtRestart + i < s.alg.all.pos.length := by
    have := (hb.wf.tail hcut).pos.length_eq
    rw [List.length_drop] at this
    omega
  refine ⟨_, hstep, ?_⟩
  unfold harvestJob
  rw [hj]
  dsimp only
  rw [if_pos ht]
  unfold harvestLocal
  rw [hi, hn]
  dsimp only
  rw [if_pos hk]
  unfold removeNode
  rw [if_pos ⟨hil, hall⟩]
  dsimp only
  rw [hbox]
  have hu : ∀ t : PState O, t.alg.cur = s.alg.cur.eraseIdx i → t.tPos = s.tPos →
      harvestUsable P env t p = some true := by
    intro t e1 e2
    refine harvestUsable_iff.mpr ⟨?_, ?_, by rw [e2]; exact hout⟩
    · rw [e1]
      dsimp only [Table.eraseIdx]
      intro h0
      have := congrArg List.length h0
      rw [List.length_eraseIdx, if_pos hil] at this
      simp at this
      omega
    · rw [e1]
      dsimp only [Table.eraseIdx]
      intro q hq
      obtain ⟨k, hk'⟩ := List.getElem?_of_mem hq
      rw [List.getElem?_eraseIdx] at hk'
      split at hk'
      · exact hfar k q (by omega) hk'
      · exact hfar (k + 1) q (by omega) hk'
  rw [hu]
  rotate_left
  · rfl
  · rfl
  · dsimp only
    have hr : reuseIndex P env { s.alg with
        cur := s.alg.cur.eraseIdx i, all := s.alg.all.eraseIdx (s.alg.nAtRestart + i)
        nInit := if i < s.alg.nInit then s.alg.nInit - 1 else s.alg.nInit } (env.toOrig p) = none := by
      cases hr : reuseIndex P env { s.alg with
          cur := s.alg.cur.eraseIdx i, all := s.alg.all.eraseIdx (s.alg.nAtRestart + i)
          nInit := if i < s.alg.nInit then s.alg.nInit - 1 else s.alg.nInit } (env.toOrig p) with
      | none => rfl
      | some r =>
        exfalso
        obtain ⟨q, hq, hlt, hd, -⟩ := reuseIndex_spec hr
        dsimp only [Table.eraseIdx] at hq hlt
        rw [List.getElem?_eraseIdx, if_pos (by omega)] at hq
        refine absurd (hold q ?_) (not_le.mpr hd)
        exact List.mem_of_getElem? (i := r) (by rw [List.getElem?_take, if_pos hlt]; exact hq)
    unfold reusePar
    rw [hr]
    dsimp only
    simp only [harvestTag, ht, if_true, hac]
    exact ⟨rfl, rfl, rfl, rfl, rfl, rfl⟩

/-- **C80** (violation) A local search asks for the accurate evaluation of a point whose noisy
evaluation is still outstanding (the point is a temporary node): nothing is submitted and the point is
put on the tabu list.  When the noisy result arrives it is ignored (`C80_tabu_result_ignored`), so both
the noisy value and the accurate evaluation are lost. -/
theorem C80_violated_outstanding_not_submitted (hm : 0 ≤ P.minDist) {start pause : ℕ}
    (hp : s.pc = .searches) {j i : ℕ} {job : SearchJob} (hj : s.searches[j]? = some job)
    (ht : job.tag = .loc) (hac : job.noisy = false) {res : SearchRes} {p : Pt} (hi : res.ind = some i) (hn : res.next = some p)
    (hprop : pe.proposes p) (h2 : P.twoPhase = true) (hbox : clipPt p P.lLower P.lUpper = p)
    (hne : s.alg.cur.pos ≠ []) (hk : p ∉ s.alg.cur.pos) (hout : p ∈ s.tPos)
    (hd : env.dist p p = 0) :
    ∃ s', PStep P env pe start pause s s' ∧ s'.pc = .searches ∧ s'.tabu = s.tabu ++ [p] ∧
      s'.subs = s.subs ∧ s'.evals = s.evals ∧ s'.alg.cur = s.alg.cur ∧ s'.alg.all = s.alg.all := by
  have hstep := PStep.harvest (P := P) (env := env) (pe := pe) (start := start) (pause := pause) j res hp
    (List.getElem?_eq_some_iff.mp hj).1 (fun h => by
      rcases h with h | h
      · rw [h2] at h; cases h
      · rw [hj, Option.map_some, hac] at h; cases h)
    (fun q hq => by rw [hn] at hq; cases hq; exact hprop)
  refine ⟨_, hstep, ?_⟩
  have hk' : s.alg.cur.pos[i]? ≠ some p := fun h => hk (List.mem_of_getElem? h)
  have hf : s.alg.cur.pos.findIdx? (· == p) = none := by
    rw [List.findIdx?_eq_none_iff]
    intro q hq
    simp only [beq_eq_false_iff_ne]
    rintro rfl
    exact hk hq
  unfold harvestJob
  rw [hj]
  dsimp only
  rw [if_pos ht]
  unfold harvestLocal
  rw [hi, hn]
  dsimp only
  rw [if_neg hk', hf]
  dsimp only
  rw [hbox]
  have hu : ∀ t : PState O, t.alg.cur.pos = s.alg.cur.pos → t.tPos = s.tPos →
      harvestUsable P env t p = some false := by
    intro t e1 e2
    cases hu : harvestUsable P env t p with
    | none =>
      exfalso
      unfold harvestUsable at hu
      split at hu
      · rename_i h0
        rw [e1] at h0
        exact hne (getMinDistance_none.mp h0)
      · split at hu
        · cases hu
        · split at hu <;> cases hu
    | some b =>
      cases b with
      | false => rfl
      | true =>
        exfalso
        obtain ⟨-, -, h3⟩ := harvestUsable_iff.mp hu
        have := h3 p (by rw [e2]; exact hout)
        rw [hd] at this
        exact absurd this (not_lt.mpr hm)
  rw [hu]
  rotate_left
  · rfl
  · rfl
  dsimp only [PState.orRaise]
  rw [ht]
  unfold harvestDiscard
  rw [if_neg (by decide)]
  exact ⟨rfl, rfl, rfl, rfl, rfl, rfl⟩

/-- **C80** When the noisy evaluation of a point on the tabu list finishes, its value is not recorded
and nothing is submitted; the tabu entry is used up. -/
theorem C80_tabu_result_ignored (hd : IsDistOn s.tabu env.dist) {start pause b j : ℕ} {job : EvalJob}
    (hp : s.pc = .evals b) (hj : s.evals[j]? = some job) (hnoisy : job.noisy = true)
    (htabu : job.pt ∈ s.tabu) (hne : s.alg.cur.pos ≠ [])
    (hfar : ∀ q ∈ s.alg.cur.pos, P.minDist < env.dist job.pt q) :
    ∃ s', PStep P env pe start pause s s' ∧ s'.pc = .evals b ∧
      s'.hist = s.hist ++ [(job.id, .skipped)] ∧ s'.subs = s.subs ∧ s'.evals = s.evals.eraseIdx j ∧
      s'.alg = s.alg ∧ s'.tabu = s.tabu.erase job.pt := by
  have hstep := PStep.collect (P := P) (env := env) (pe := pe) (start := start) (pause := pause) j hp
    (List.getElem?_eq_some_iff.mp hj).1
  refine ⟨_, hstep, ?_⟩
  unfold collectJob
  rw [hj]
  dsimp only
  have e1 : (takeJob pe s j job).alg = s.alg := rfl
  have e2 : (takeJob pe s j job).tabu = s.tabu := rfl
  rw [e1, e2]
  cases hd1 : getMinDistance env.dist job.pt s.alg.cur.pos with
  | none => exact absurd (getMinDistance_none.mp hd1) hne
  | some d =>
    dsimp only
    rw [if_neg (not_le.mpr ((getMinDistance_gt_iff hd1).mpr hfar)), if_pos ⟨hnoisy, htabu⟩]
    cases hd2 : getMinDistanceAndIndex env.dist job.pt s.tabu with
    | none =>
      have := argminVal_none.mp hd2
      simp only [List.map_eq_nil_iff] at this
      rw [this] at htabu; cases htabu
    | some x => exact ⟨rfl, rfl, rfl, rfl, rfl, tabu_erase hd htabu hd2⟩

/-! ## The mode -/

/-- Outstanding searches that were started in the noisy phase. -/
def PState.noisySearches (s : PState O) : ℕ := s.searches.countP (fun x => x.noisy)

theorem StepKind.mode_final (hk : StepKind P env pe s s') (hm : s.alg.mode = .accurate) :
    s'.alg.mode = .accurate ∧
      s'.numSubs true + s'.noisySearches ≤ s.numSubs true + s.noisySearches := by
  cases hk with
  | ctrl hc =>
    refine ⟨(congrArg Data.mode hc.data).trans hm, ?_⟩
    unfold PState.numSubs PState.noisySearches
    rw [hc.subs, hc.searches]
  | collect _ hc e =>
    subst e
    obtain ⟨job, d, hj, hd, ⟨_, tb, rfl⟩ | ⟨_, hn, _, a, ha, rfl⟩ |
      ⟨hlt, gap, a, a', rc, rb, _, hda, _, _, _, ha, _, _, rfl⟩⟩ := collectJob_cases hc
    · exact ⟨hm, le_refl _⟩
    · refine ⟨endPass_mode_accurate ha hm, ?_⟩
      simp [PState.numSubs, PState.noisySearches, collectRepeat, takeJob, PState.popTemp, PState.fate,
        PState.submitEval, PState.pushTemp, List.countP_append]
    · refine ⟨endPass_mode_accurate ha ?_, le_refl _⟩
      have h1 : a.mode = _ := congrArg Data.mode hda
      obtain ⟨g, st, hl⟩ := updateLog_frame (addJob pe env s.alg job) (jobResult pe job).1 gap
      rw [h1]
      show (updateLog (addJob pe env s.alg job) (jobResult pe job).1 gap).mode = _
      rw [hl]
      exact (addJob_spec (pe := pe) (env := env) s.alg job).rest.2.2.2.1.trans hm
  | @harvest j res s1 _ _ _ hc e =>
    subst e
    obtain ⟨job, rd, a, tb, hj, ha, hcase⟩ := harvestJob_cases hc
    have hma : a.mode = .accurate := by
      rcases ha with rfl | ⟨_, _, _, _, _, hr⟩
      · exact hm
      · obtain ⟨_, _, rfl⟩ := removeNode_spec hr; exact hm
    have hcount := countP_eraseIdx (fun x : SearchJob => x.noisy) hj
    rcases hcase with rfl | ⟨p0, hp0, hu, ⟨b, v, hr, hre⟩ | ⟨hr, rfl⟩⟩
    · obtain ⟨nc, rc, rb, _, _, e⟩ := harvestDiscard_eq (P := P) (takeSearch s j rd a tb) job.tag
      rw [e]
      refine ⟨hma, ?_⟩
      simp only [PState.numSubs, PState.noisySearches, takeSearch] at hcount ⊢
      omega
    · obtain ⟨a1, e, gap, a2, hadd, hz, _, hg, he, rfl⟩ := harvestReuse_cases hre
      obtain ⟨g, st, hl⟩ := updateLog_frame a1 v gap
      refine ⟨endPass_mode_accurate he ?_, ?_⟩
      · rw [hl]; exact hadd.rest.2.2.2.1.trans hma
      · simp only [PState.numSubs, PState.noisySearches, takeSearch] at hcount ⊢
        omega
    · refine ⟨hma, ?_⟩
      simp only [PState.numSubs, PState.noisySearches, takeSearch, harvestSubmit, PState.submitEval,
        PState.pushTemp, List.countP_append, List.countP_singleton] at hcount ⊢
      cases hn : job.noisy <;> simp [hn] at hcount ⊢ <;> omega
  | restart hc he hs' hr _ e =>
    subst e
    obtain ⟨pts, noisy, o, done, rest, prev, u, calls, a, m, M, i, hp⟩ := restartPar_ok hr
    have hm0 := (congrArg Data.mode hc.data).trans hm
    have hn : noisy = false := by
      cases hnn : noisy with
      | false => rfl
      | true => exact absurd ((hp.noisyMode hnn).symm.trans hm0) (by decide)
    rw [hp.eq]
    refine ⟨?_, ?_⟩
    · exact hp.install.mode.trans hm0
    · subst hn
      simp only [PState.numSubs, PState.noisySearches, PState.fates, List.countP_append, hc.subs,
        hc.searches]
      simp [List.countP_eq_zero]
  | submit _ hd _ hn _ _ e =>
    subst e
    refine ⟨(congrArg Data.mode hd).trans hm, ?_⟩
    rw [hm] at hn
    simp [PState.numSubs, PState.noisySearches, PState.submitSearch, hn]
  | close _ hc e =>
    subst e
    obtain ⟨hn, hne, a, gap, g, st, ha, _, rfl⟩ := closeJob_cases hc
    exact ⟨ha.rest.2.2.2.1.trans hm, le_refl _⟩

/-- **C07** (parallel) Once in accurate mode, a call stays in accurate mode.  The only noisy
evaluations submitted from then on are those of points found by searches that were already running: no
more than there are such searches. -/
theorem C07_parallel_accurate_mode_is_final {start pause : ℕ} (hm : s.alg.mode = .accurate)
    (hs : Relation.ReflTransGen (PStep P env pe start pause) s s') :
    s'.alg.mode = .accurate ∧
      s'.numSubs true + s'.noisySearches ≤ s.numSubs true + s.noisySearches := by
  induction hs with
  | refl => exact ⟨hm, le_refl _⟩
  | tail _ h1 ih =>
    obtain ⟨i1, i2⟩ := ih
    obtain ⟨j1, j2⟩ := h1.kind.mode_final i1
    exact ⟨j1, j2.trans i2⟩

/-! ## Refinement -/

theorem addNode_refRadius (s : Alg O) (p orig : Pt) (v : ℚ) :
    (addNode s p orig v).refRadius = s.refRadius := by
  unfold addNode; dsimp only; split <;> split <;> rfl

theorem addNoisyNode_refRadius (s : Alg O) (p orig : Pt) (v el eu : ℚ) :
    (addNoisyNode s p orig v el eu).refRadius = s.refRadius := by
  unfold addNoisyNode; dsimp only; split <;> split <;> rfl

theorem addJob_refRadius (a : Alg O) (job : EvalJob) :
    (addJob pe env a job).refRadius = a.refRadius := by
  unfold addJob
  split
  · exact addNoisyNode_refRadius _ _ _ _ _ _
  · exact addNode_refRadius _ _ _ _

/-- **C54** (parallel) When the evaluation of a refinement step is recorded, the radius is updated with
the decrease predicted by the last refinement search that finished (`C80_search_result`) and the
decrease obtained, in this order; the refinement is no longer in progress and counted.  No other result
changes any of these. -/
theorem C54_parallel_collected {start pause b id : ℕ} (hp : s.pc = .evals b)
    (hs : PStep P env pe start pause s s') (hrec : s'.hist = s.hist ++ [(id, .recorded)]) :
    ∃ (job : EvalJob) (v : ℚ), job ∈ s.evals ∧ job.id = id ∧
    (job.noisy = true → (pe.noisyRes id).1 = v) ∧ (job.noisy = false → pe.acc id = v) ∧
    (job.tag = .ref → ∃ (a : Alg O) (real : ℚ),
      a.cur = s'.alg.cur ∧ a.refIter = s.alg.refIter ∧ env.realImpr a v = .ok real ∧
      s'.alg.refRadius = (updateRefinementRadius P s.alg.refRadius s.refData.1 real).1 ∧
      (P.refMove ≤ decreaseRatio P.epsZero s.refData.1 real →
        s'.alg.refIter + 1 = s'.alg.cur.pos.length) ∧
      s'.refCount = s.refCount + 1 ∧ s'.refBusy = false) ∧
    (job.tag ≠ .ref → s'.alg.refRadius = s.alg.refRadius ∧ s'.alg.refSet = s.alg.refSet ∧
      s'.alg.refIter = s.alg.refIter ∧ s'.refCount = s.refCount ∧ s'.refBusy = s.refBusy) := by
  cases hs with
  | collect j hp' hj =>
    unfold PState.orRaise at hrec ⊢
    split
    · rename_i e he
      rw [he] at hrec
      simp at hrec
    · rename_i s1 hc
      rw [hc] at hrec
      dsimp only at hrec ⊢
      obtain ⟨job, hjob⟩ : ∃ job, s.evals[j]? = some job := ⟨_, List.getElem?_eq_getElem hj⟩
      unfold collectJob at hc
      rw [hjob] at hc
      dsimp only at hc
      split at hc
      · cases hc
      · split at hc
        · cases hc
          simp [PState.fate, takeJob, PState.popTemp] at hrec
        · split at hc
          · split at hc
            · cases hc
            · cases hc
              simp [PState.fate, takeJob, PState.popTemp] at hrec
          · split at hc
            · obtain ⟨a, ha, rfl⟩ := mainUpdates_ok hc
              simp [collectRepeat, PState.fate, PState.submitEval, PState.pushTemp, takeJob,
                PState.popTemp] at hrec
            · split at hc
              · cases hc
              · rename_i s2 h1
                obtain ⟨a2, ha2, rfl⟩ := mainUpdates_ok hc
                obtain ⟨-, -, -, c4, c5, c6, c7, c8, -⟩ := endPass_ctl ha2
                unfold collectRecord at h1
                dsimp only at h1
                split at h1
                · cases h1
                · rename_i gap hg
                  have hadd := addJob_spec (pe := pe) (env := env) s.alg job
                  have hctl := hadd.ctl
                  have hl := updateLog_ref (addJob pe env s.alg job) (jobResult pe job).1 gap
                  have hrad : (updateLog (addJob pe env s.alg job) (jobResult pe job).1 gap).refRadius =
                      s.alg.refRadius := by
                    obtain ⟨g, st, hl⟩ := updateLog_frame (addJob pe env s.alg job)
                      (jobResult pe job).1 gap
                    rw [hl]
                    exact addJob_refRadius _ _
                  have e1 : (updateLog (addJob pe env s.alg job) (jobResult pe job).1 gap).refSet =
                      s.alg.refSet := hl.1.trans hctl.2.2.2.2.2.2.1
                  have e2 : (updateLog (addJob pe env s.alg job) (jobResult pe job).1 gap).refIter =
                      s.alg.refIter := hl.2.1.trans hctl.2.2.2.2.2.2.2.1
                  unfold collectRefine at h1
                  split at h1
                  · rename_i ht
                    split at h1
                    · cases h1
                    · rename_i real hreal
                      split at h1
                      · cases h1
                      · rename_i a ha
                        cases h1
                        have hid : job.id = id := by
                          simpa [PState.fate, takeJob, PState.popTemp] using hrec
                        obtain ⟨u1, u2, -, -, u5, -⟩ := C54_parallel_update ha
                        refine ⟨job, (jobResult pe job).1, List.mem_of_getElem? hjob, hid,
                          (fun hn => by rw [← hid]; simp [jobResult, hn]),
                          (fun hn => by rw [← hid]; simp [jobResult, hn]),
                          fun _ => ⟨_, real, ?_, e2, hreal, ?_, ?_, rfl, rfl⟩, fun h => absurd ht h⟩
                        · exact (c8.trans u2).symm
                        · refine (c7.trans u1).trans ?_
                          dsimp only [PState.fate]
                          exact congrArg (fun r => (updateRefinementRadius P r s.refData.1 real).1) hrad
                        · intro hm
                          dsimp only
                          rw [c6, c8, u2]
                          exact u5 (Or.inl hm)
                  · rename_i ht
                    cases h1
                    have hid : job.id = id := by
                      simpa [PState.fate, takeJob, PState.popTemp] using hrec
                    exact ⟨job, (jobResult pe job).1, List.mem_of_getElem? hjob, hid,
                      (fun hn => by rw [← hid]; simp [jobResult, hn]),
                      (fun hn => by rw [← hid]; simp [jobResult, hn]), fun h => absurd h ht,
                      fun _ => ⟨c7.trans hrad, c5.trans e1, c6.trans e2, rfl, rfl⟩⟩
  | evalsDone _ => simp at hrec
  | _ => simp_all

end Rbfopt
