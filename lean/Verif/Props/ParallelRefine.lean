import Verif.Props.ParallelEnd
import Verif.Props.Improving

/-!
# The refinement phase of the parallel engine (C22, C54)
-/

namespace Rbfopt

variable {O : Type} {P : Params} {env : Env O} {pe : PEnv O} {o : O} {c : PCtl} {s s' : PState O}

theorem refContinuePar_cases {a a' : Alg O} {t : ℕ} {b : Bool}
    (h : refContinuePar P env a t b = .ok a') :
    (a.refRadius < P.refMinRadius ∧ a' = { a with numCons := 0 }) ∨
    (P.refMinRadius ≤ a.refRadius ∧ a.cur.pos ≠ [] ∧
      (a' = a ∨ a' = { a with refSet := a.refSet.set t (a.cur.pos.length - 1) })) := by
  unfold refContinuePar at h
  split at h
  · rename_i hr
    cases h
    exact Or.inl ⟨hr, rfl⟩
  · rename_i hr
    right
    refine ⟨not_lt.mp hr, ?_⟩
    split at h
    · rename_i last it r hl hi hr
      refine ⟨by rintro h0; simp [h0] at hl, ?_⟩
      split at h
      · cases h
      · split at h
        · cases h; exact Or.inr rfl
        · cases h; exact Or.inl rfl
    · cases h

/-- **C54** (parallel engine) A refinement update sets the radius according to the ratio of the
decreases, and the phase ends exactly if the new radius is below the minimum; otherwise one more
step of the phase is counted.  The new point becomes the center exactly if the step is accepted or
the element of the model set that is to be replaced is the center; otherwise the center stays. -/
theorem C54_parallel_update {a a' : Alg O} {mi ri : ℚ} {t : ℕ} {rd : Bool}
    (h : refinementUpdatePar P env a mi ri t rd = .ok a') :
    a'.refRadius = (updateRefinementRadius P a.refRadius mi ri).1 ∧ a'.cur = a.cur ∧
    (a'.refRadius < P.refMinRadius → a'.numCons = 0) ∧
    (P.refMinRadius ≤ a'.refRadius → a'.numCons = a.numCons + 1) ∧
    (P.refMove ≤ decreaseRatio P.epsZero mi ri ∨ a.refSet[t]? = some a.refIter →
      a'.refIter + 1 = a.cur.pos.length) ∧
    (¬ (P.refMove ≤ decreaseRatio P.epsZero mi ri ∨ a.refSet[t]? = some a.refIter) →
      a'.refIter = a.refIter) ∧
    (a'.refSet = a.refSet ∨ a.cur.pos ≠ [] ∧ P.refMinRadius ≤ a'.refRadius ∧
      ∃ k < a.refSet.length, a'.refSet = a.refSet.set k (a.cur.pos.length - 1)) := by
  have hmove := (C54_update P a.refRadius mi ri).2.2.2
  unfold refinementUpdatePar at h
  dsimp only at h
  split at h
  · cases h
  · rename_i r0 hr0
    have ht := (List.getElem?_eq_some_iff.mp hr0).1
    split at h
    · cases h
    · rename_i s1 t1 h1
      split at h
      · cases h
      · rename_i s2 h2
        cases h
        have e1 := refAccept_cases h1
        have e2 := refContinuePar_cases h2
        have key : ∀ b : Alg O, (if b.numCons < P.maxConsRef then
            { b with fminLastRefine := b.fmin } else b).refRadius = b.refRadius ∧
            (if b.numCons < P.maxConsRef then
              { b with fminLastRefine := b.fmin } else b).cur = b.cur ∧
            (if b.numCons < P.maxConsRef then
              { b with fminLastRefine := b.fmin } else b).numCons = b.numCons ∧
            (if b.numCons < P.maxConsRef then
              { b with fminLastRefine := b.fmin } else b).refIter = b.refIter ∧
            (if b.numCons < P.maxConsRef then
              { b with fminLastRefine := b.fmin } else b).refSet = b.refSet := by
          intro b; split <;> simp
        obtain ⟨k1, k2, k3, k4, k5⟩ := key s2
        rw [k1, k2, k3, k4, k5]
        rcases e1 with ⟨rfl, e1, e1', e1''⟩ | ⟨rfl, rfl, e1, e1'⟩
        · have hacc : P.refMove ≤ decreaseRatio P.epsZero mi ri ∨
              a.refSet[t]? = some a.refIter := by
            rcases e1'' with hm | hm
            · exact Or.inl (hmove.mp hm)
            · right; rw [hr0, hm]
          have hpos : 0 < a.cur.pos.length := List.length_pos_of_ne_nil e1
          have hlen : a.cur.pos.length - 1 + 1 = a.cur.pos.length := by omega
          rcases e2 with ⟨e2, rfl⟩ | ⟨e2, e3, rfl | rfl⟩
          · exact ⟨rfl, rfl, fun _ => rfl, fun h => absurd h (not_le.mpr e2), fun _ => hlen,
              fun h => absurd hacc h, Or.inl rfl⟩
          · exact ⟨rfl, rfl, fun h => absurd h (not_lt.mpr e2), fun _ => rfl, fun _ => hlen,
              fun h => absurd hacc h, Or.inl rfl⟩
          · exact ⟨rfl, rfl, fun h => absurd h (not_lt.mpr e2), fun _ => rfl, fun _ => hlen,
              fun h => absurd hacc h, Or.inr ⟨e1, e2, t1, e1', rfl⟩⟩
        · have hacc : ¬ (P.refMove ≤ decreaseRatio P.epsZero mi ri ∨
              a.refSet[t1]? = some a.refIter) := by
            rintro (hm | hm)
            · rw [hmove.mpr hm] at e1; cases e1
            · rw [hr0] at hm; exact e1' (Option.some.inj hm)
          rcases e2 with ⟨e2, rfl⟩ | ⟨e2, e3, rfl | rfl⟩
          · exact ⟨rfl, rfl, fun _ => rfl, fun h => absurd h (not_le.mpr e2),
              fun h => absurd h hacc, fun _ => rfl, Or.inl rfl⟩
          · exact ⟨rfl, rfl, fun h => absurd h (not_lt.mpr e2), fun _ => rfl,
              fun h => absurd h hacc, fun _ => rfl, Or.inl rfl⟩
          · exact ⟨rfl, rfl, fun h => absurd h (not_lt.mpr e2), fun _ => rfl,
              fun h => absurd h hacc, fun _ => rfl, Or.inr ⟨e3, e2, t1, ht, rfl⟩⟩

/-- The model set and the center of the refinement phase denote existing nodes. -/
def RefValid (a : Alg O) : Prop :=
  (∀ j ∈ a.refSet, j < a.cur.pos.length) ∧ a.refIter < a.cur.pos.length

theorem RefValid.mono {a b : Alg O} (h : RefValid a) (e1 : b.refSet = a.refSet)
    (e2 : b.refIter = a.refIter) (e3 : a.cur.pos.length ≤ b.cur.pos.length) : RefValid b := by
  refine ⟨fun j hj => ?_, ?_⟩
  · rw [e1] at hj
    exact (h.1 j hj).trans_le e3
  · rw [e2]
    exact h.2.trans_le e3

theorem RefValid.update {a a' : Alg O} {mi ri : ℚ} {t : ℕ} {rd : Bool} (h : RefValid a)
    (hu : refinementUpdatePar P env a mi ri t rd = .ok a') : RefValid a' := by
  obtain ⟨-, h2, -, -, h5, h6, h7⟩ := C54_parallel_update hu
  have hpos : 0 < a.cur.pos.length := by have := h.2; omega
  refine ⟨fun j hj => ?_, ?_⟩
  · rw [h2]
    rcases h7 with h7 | ⟨-, -, k, -, h7⟩
    · rw [h7] at hj; exact h.1 j hj
    · rw [h7] at hj
      rcases List.mem_or_eq_of_mem_set hj with hj | rfl
      · exact h.1 j hj
      · omega
  · rw [h2]
    by_cases hc : P.refMove ≤ decreaseRatio P.epsZero mi ri ∨ a.refSet[t]? = some a.refIter
    · have := h5 hc; omega
    · rw [h6 hc]; exact h.2

theorem refAccept_ok {a : Alg O} {mv : Bool} {t r0 : ℕ} (hv : RefValid a) (ht : t < a.refSet.length) :
    ∃ a' t', refAccept env a mv t r0 = .ok (a', t') ∧ t' < a.refSet.length := by
  have hne : a.cur.pos ≠ [] := by
    intro h0; have := hv.2; simp [h0] at this
  unfold refAccept
  split
  · rw [List.getLast?_eq_some_getLast hne]
    dsimp only
    rw [if_pos hv.1]
    cases hg : getMaxDistanceAndIndex env.dist (a.cur.pos.getLast hne)
        (a.refSet.filterMap (fun j => a.cur.pos[j]?)) with
    | none =>
      exfalso
      unfold getMaxDistanceAndIndex at hg
      have h1 := argmaxVal_none.mp hg
      rw [List.map_eq_nil_iff] at h1
      have h2 := filterMap_getElem?_length a.cur.pos a.refSet hv.1
      rw [h1] at h2
      simp at h2
      omega
    | some x =>
      obtain ⟨d, t1⟩ := x
      refine ⟨_, _, rfl, ?_⟩
      obtain ⟨q, hq, _⟩ := getMaxDistanceAndIndex_some hg
      have hlt := (List.getElem?_eq_some_iff.mp hq).1
      rw [filterMap_getElem?_length _ _ hv.1] at hlt
      exact hlt
  · exact ⟨_, _, rfl, ht⟩

/-- **C54** While the model set and the center denote existing nodes, a refinement update succeeds for
every position in the model set: serial and parallel engine. -/
theorem C54_update_completes {a : Alg O} (hv : ∀ j ∈ a.refSet, j < a.cur.pos.length)
    (hi : a.refIter < a.cur.pos.length) {t : ℕ} (ht : t < a.refSet.length) (mi ri : ℚ) (rd : Bool) :
    (∃ a', refinementUpdate P env a mi ri t rd = .ok a') ∧
    (∃ a', refinementUpdatePar P env a mi ri t rd = .ok a') := by
  obtain ⟨m, hm⟩ : ∃ m, m = updateRefinementRadius P a.refRadius mi ri := ⟨_, rfl⟩
  have hV : RefValid ({ a with numCons := a.numCons + 1, refRadius := m.1 } : Alg O) := ⟨hv, hi⟩
  obtain ⟨b, t', h1, h2⟩ := refAccept_ok (env := env) (mv := m.2) (t := t)
    (r0 := a.refSet[t]) hV ht
  have hb : RefValid b ∧ t' < b.refSet.length := by
    rcases refAccept_cases h1 with ⟨rfl, h3, h4, -⟩ | ⟨rfl, -, -, -⟩
    · refine ⟨⟨hv, ?_⟩, h4⟩
      have := List.length_pos_of_ne_nil h3
      show a.cur.pos.length - 1 < a.cur.pos.length
      have h5 : 0 < a.cur.pos.length := this
      omega
    · exact ⟨hV, h2⟩
  obtain ⟨⟨hb1, hb2⟩, hb3⟩ := hb
  have hne : b.cur.pos ≠ [] := by
    intro h0; simp [h0] at hb2
  have hr : b.refSet[t']'hb3 < b.cur.pos.length := hb1 _ (List.getElem_mem hb3)
  constructor
  · unfold refinementUpdate
    dsimp only
    rw [← hm, List.getElem?_eq_getElem ht]
    dsimp only
    rw [h1]
    dsimp only
    have : ∃ c, refContinue P env b t' rd = .ok c := by
      unfold refContinue
      split
      · exact ⟨_, rfl⟩
      · rw [List.getLast?_eq_some_getLast hne, List.getElem?_eq_getElem hb2,
          List.getElem?_eq_getElem hb3]
        dsimp only
        rw [List.getElem?_eq_getElem hr]
        dsimp only
        split <;> exact ⟨_, rfl⟩
    obtain ⟨c, hc⟩ := this
    rw [hc]
    exact ⟨_, rfl⟩
  · unfold refinementUpdatePar
    dsimp only
    rw [← hm, List.getElem?_eq_getElem ht]
    dsimp only
    rw [h1]
    dsimp only
    have : ∃ c, refContinuePar P env b t' rd = .ok c := by
      unfold refContinuePar
      split
      · exact ⟨_, rfl⟩
      · rw [List.getLast?_eq_some_getLast hne, List.getElem?_eq_getElem hb2,
          List.getElem?_eq_getElem hb3]
        dsimp only
        rw [List.getElem?_eq_getElem hr]
        dsimp only
        split <;> exact ⟨_, rfl⟩
    obtain ⟨c, hc⟩ := this
    rw [hc]
    exact ⟨_, rfl⟩

/-- **C54** (serial engine) A refinement update ends the phase exactly if the new radius is below the
minimum, or the limit on consecutive steps is reached and unlimited refinement is not active; then the
next step is the first one of a new cycle.  Otherwise one more step of the phase is counted. -/
theorem C54_serial_update {a a' : Alg O} {mi ri : ℚ} {t : ℕ} {rd : Bool}
    (h : refinementUpdate P env a mi ri t rd = .ok a') :
    a'.refRadius = (updateRefinementRadius P a.refRadius mi ri).1 ∧ a'.cur = a.cur ∧
    (a'.refRadius < P.refMinRadius ∨
        (P.maxConsRef ≤ a.numCons + 1 ∧ unlimitedRefinement P a = false) →
      a'.numCons = 0 ∧ a'.step = P.firstStep ∧ a'.cyc = a.cyc + 1) ∧
    (¬ (a'.refRadius < P.refMinRadius ∨
        (P.maxConsRef ≤ a.numCons + 1 ∧ unlimitedRefinement P a = false)) →
      a'.numCons = a.numCons + 1 ∧ a'.step = a.step ∧ a'.cyc = a.cyc) := by
  have hfr := refinementUpdate_data h
  obtain ⟨-, h1, h2, h3, h4, -, -, -, h8, -, -, hcase⟩ := refinementUpdate_cases h
  have hun : unlimitedRefinement P a' = unlimitedRefinement P a := by
    have he : a'.evalcount = a.evalcount := congrArg Data.evalcount hfr
    unfold unlimitedRefinement
    rw [h3, h4, h8, he]
  rw [hun] at hcase
  refine ⟨h1, h2, fun hc => ?_, fun hc => ?_⟩
  · rcases hcase with ⟨g1, g2, g3, -⟩ | ⟨-, -, g3, g4, g5, -⟩
    · exact ⟨g3, g1, g2⟩
    · exfalso
      rcases hc with hc | ⟨hc, hc'⟩
      · exact g4 hc
      · rcases g5 with g5 | g5
        · omega
        · rw [hc'] at g5; cases g5
  · rcases hcase with ⟨-, -, -, g4⟩ | ⟨g1, g2, g3, -⟩
    · exact absurd g4 hc
    · exact ⟨g3, g1, g2⟩

/-- In progress: a step of the phase has been counted, or one is being computed or evaluated. -/
def PState.RefActive (s : PState O) : Prop := 0 < s.alg.numCons ∨ 0 < s.refJobs

def RefInv (s : PState O) : Prop := s.RefActive → RefValid s.alg

theorem RefInv.same (h : RefInv s) (e1 : s'.alg.refSet = s.alg.refSet)
    (e2 : s'.alg.refIter = s.alg.refIter) (e3 : s.alg.cur.pos.length ≤ s'.alg.cur.pos.length)
    (e4 : 0 < s'.alg.numCons → 0 < s.alg.numCons) (e5 : s'.refJobs ≤ s.refJobs) : RefInv s' := by
  rintro (hn | hn)
  · exact (h (Or.inl (e4 hn))).mono e1 e2 e3
  · exact (h (Or.inr (by omega))).mono e1 e2 e3

theorem updateLog_ref (a : Alg O) (v : ℚ) (gap : EVal) :
    (updateLog a v gap).refSet = a.refSet ∧ (updateLog a v gap).refIter = a.refIter ∧
    (updateLog a v gap).numCons = a.numCons ∧ (updateLog a v gap).cur = a.cur := by
  obtain ⟨g, st, hl⟩ := updateLog_frame a v gap
  rw [hl]
  exact ⟨rfl, rfl, rfl, rfl⟩

theorem AddOut.len {a a' : Alg O} {p orig : Pt} {v : ℚ} {b : Bool} {e : ℚ × ℚ}
    (h : AddOut a a' p orig v b e) : a'.cur.pos.length = a.cur.pos.length + 1 := by
  rw [h.cur]; simp [Table.append]

theorem RefInv.collect {j : ℕ} (h : RefInv s) (hc : collectJob P env pe s j = .ok s') :
    RefInv s' := by
  unfold collectJob at hc
  split at hc
  · cases hc
  · rename_i job hj
    have hcnt := countP_eraseIdx (fun x : EvalJob => x.tag == Tag.ref) hj
    dsimp only at hc
    split at hc
    · cases hc
    · rename_i d hd
      split at hc
      · cases hc
        refine h.same rfl rfl le_rfl id ?_
        simp only [PState.refJobs, PState.fate, takeJob, PState.popTemp]
        omega
      · split at hc
        · split at hc
          · cases hc
          · cases hc
            refine h.same rfl rfl le_rfl id ?_
            simp only [PState.refJobs, PState.fate, takeJob, PState.popTemp]
            omega
        · split at hc
          · obtain ⟨a, ha, rfl⟩ := mainUpdates_ok hc
            obtain ⟨-, -, -, c4, c5, c6, -, c8, -⟩ := endPass_ctl ha
            refine h.same c5 c6 (le_of_eq (congrArg (fun t : Table => t.pos.length) c8).symm)
              (fun h0 => ?_) ?_
            · dsimp only at h0
              rw [c4] at h0
              exact h0
            · simp only [PState.refJobs, collectRepeat, PState.fate, PState.pushTemp,
                PState.submitEval, takeJob, PState.popTemp, List.countP_append,
                List.countP_singleton]
              cases ht : (job.tag == Tag.ref) <;> simp_all <;> omega
          · split at hc
            · cases hc
            · rename_i s1 h1
              obtain ⟨a2, ha2, rfl⟩ := mainUpdates_ok hc
              obtain ⟨-, -, -, c4, c5, c6, -, c8, -⟩ := endPass_ctl ha2
              suffices hs1 : RefInv s1 ∧ s1.refJobs ≤ s1.refJobs from
                hs1.1.same c5 c6 (le_of_eq (congrArg (fun t : Table => t.pos.length) c8).symm)
                  (fun h0 => by dsimp only at h0; rw [c4] at h0; exact h0) le_rfl
              refine ⟨?_, le_rfl⟩
              unfold collectRecord at h1
              dsimp only at h1
              split at h1
              · cases h1
              · rename_i gap hg
                have hadd := addJob_spec (pe := pe) (env := env) s.alg job
                have hctl := hadd.ctl
                have hl := updateLog_ref (addJob pe env s.alg job) (jobResult pe job).1 gap
                have e1 : (updateLog (addJob pe env s.alg job) (jobResult pe job).1 gap).refSet =
                    s.alg.refSet := hl.1.trans hctl.2.2.2.2.2.2.1
                have e2 : (updateLog (addJob pe env s.alg job) (jobResult pe job).1 gap).refIter =
                    s.alg.refIter := hl.2.1.trans hctl.2.2.2.2.2.2.2.1
                have e3 : s.alg.cur.pos.length ≤
                    (updateLog (addJob pe env s.alg job) (jobResult pe job).1 gap).cur.pos.length := by
                  rw [hl.2.2.2, hadd.len]; omega
                have e4 : (updateLog (addJob pe env s.alg job) (jobResult pe job).1 gap).numCons =
                    s.alg.numCons := hl.2.2.1.trans hctl.2.2.2.1
                unfold collectRefine at h1
                split at h1
                · rename_i ht
                  have hv : RefValid s.alg := by
                    refine h (Or.inr ?_)
                    simp only [ht, beq_self_eq_true, Bool.toNat_true] at hcnt
                    simp only [PState.refJobs]
                    omega
                  split at h1
                  · cases h1
                  · split at h1
                    · cases h1
                    · rename_i a ha
                      cases h1
                      intro _
                      exact (hv.mono e1 e2 e3).update ha
                · cases h1
                  refine h.same e1 e2 e3 (fun h0 => ?_) ?_
                  · have h0' : 0 < (updateLog (addJob pe env s.alg job)
                      (jobResult pe job).1 gap).numCons := h0
                    rw [e4] at h0'; exact h0'
                  · simp only [PState.refJobs, PState.fate, takeJob, PState.popTemp]
                    omega

theorem RefInv.harvest {j : ℕ} {res : SearchRes} (h : RefInv s)
    (hi : res.ind = none)
    (hc : harvestJob P env pe s j res = .ok s') : RefInv s' := by
  obtain ⟨job, rd, a, tb, hj, ha, hcase⟩ := harvestJob_cases hc
  have ha' : a = s.alg := by
    rcases ha with h | ⟨_, _, h, _⟩
    · exact h
    · exact absurd hi h
  subst ha'
  have hcnt := countP_eraseIdx (fun x : SearchJob => x.tag == Tag.ref) hj
  have htag : (harvestTag job.tag res == Tag.ref) = (job.tag == Tag.ref) := by
    unfold harvestTag
    split
    · rename_i h; rw [h]; split <;> rfl
    · rfl
  rcases hcase with rfl | ⟨p0, hp0, hu, ⟨b, v, hr, hre⟩ | ⟨hr, rfl⟩⟩
  · refine h.same ?_ ?_ ?_ ?_ ?_
    all_goals (unfold harvestDiscard; dsimp only; split)
    all_goals first | rfl | exact le_rfl | exact id | (intro h0; exact absurd h0 (lt_irrefl 0)) |
      (simp only [PState.refJobs, takeSearch]; omega)
  · obtain ⟨a1, e, gap, a2, hadd, hz, _, hg, he, rfl⟩ := harvestReuse_cases hre
    obtain ⟨-, -, -, c4, c5, c6, -, c8, -⟩ := endPass_ctl he
    obtain ⟨l1, l2, l3, l4⟩ := updateLog_ref a1 v gap
    have hctl := hadd.ctl
    refine h.same (c5.trans (l1.trans hctl.2.2.2.2.2.2.1))
      (c6.trans (l2.trans hctl.2.2.2.2.2.2.2.1)) ?_ ?_ ?_
    · show _ ≤ a2.cur.pos.length
      rw [c8, l4, hadd.len]
      exact Nat.le_succ _
    · intro h0
      have h0' : 0 < a2.numCons := h0
      rw [c4, l3, hctl.2.2.2.1] at h0'
      exact h0'
    · simp only [PState.refJobs, takeSearch]; omega
  · refine h.same rfl rfl le_rfl id ?_
    simp only [PState.refJobs, harvestSubmit, PState.pushTemp, PState.submitEval, takeSearch,
      List.countP_append, List.countP_singleton, htag]
    cases ht : (job.tag == Tag.ref) <;> simp_all <;> omega

theorem RefInv.restart {s0 : PState O} {pc : PC} {gap : EVal} (hs : s0.searches = [])
    (hr : RestartPar P env pe s0 (.ok s')) : RefInv { s' with pc := pc, gap := gap } := by
  obtain ⟨pts, noisy, o, done, rest, prev, u, calls, a, m, M, i, hp⟩ := restartPar_ok hr
  rw [hp.eq]
  have h1 : rest.countP (fun x : EvalJob => x.tag == Tag.ref) = 0 := by
    rw [List.countP_eq_zero]
    intro x hx
    have hx' := hp.perm.subset (List.mem_append_right done hx)
    rw [(initJobs_get hx').2.2.2]
    decide
  rintro (h0 | h0)
  · have h0' : 0 < a.numCons := h0
    rw [hp.install.numCons] at h0'
    exact absurd h0' (lt_irrefl 0)
  · simp only [PState.refJobs, PState.fates, hs, h1] at h0
    simp at h0

theorem RefInv.submit {r1 r2 : Bool} {pc : PC} (h : RefInv s)
    (hin : ∀ a set rad o, env.initRef a = .ok ((set, rad), o) → ∀ j ∈ set, j < a.cur.pos.length)
    (hc : submitNext P env s r1 r2 = .ok s') : RefInv { s' with pc := pc } := by
  unfold submitNext at hc
  split at hc
  · unfold submitRefine at hc
    split at hc
    · cases hc
    · rename_i a ha
      have hv : RefValid a := by
        split at ha
        · rcases initRefIfNeeded_cases ha with ⟨-, h1, set, rad, o, h2, rfl⟩ | ⟨h1, -⟩
          · exact ⟨fun j hj => hin _ _ _ _ h2 j hj, h1⟩
          · exact absurd rfl h1
        · rename_i hn
          cases ha
          exact h (Or.inl (by omega))
      dsimp only at hc
      split at hc
      · cases hc
        exact fun _ => hv.mono rfl rfl le_rfl
      · cases hc
        exact fun _ => hv.mono rfl rfl le_rfl
  · cases hc
    refine h.same rfl rfl le_rfl id ?_
    simp only [PState.refJobs, PState.submitSearch, List.countP_append, List.countP_singleton]
    split
    · simp
    · split <;> simp

/-- **C22** (parallel engine, black boxes without `evaluate_noisy`) While a refinement phase is in
progress (a step has been counted, or one is being computed or evaluated), its model set and its
center denote existing nodes, whatever the schedule. -/
theorem C22_parallel_indices_valid (hP : P.twoPhase = false)
    (hin : ∀ a set rad o, env.initRef a = .ok ((set, rad), o) → ∀ j ∈ set, j < a.cur.pos.length)
    (h : PReach P env pe o c s) (ha : 0 < s.alg.numCons ∨ 0 < s.refJobs) :
    (∀ j ∈ s.alg.refSet, j < s.alg.cur.pos.length) ∧ s.alg.refIter < s.alg.cur.pos.length := by
  suffices hI : RefInv s from hI ha
  clear ha
  have hgap : ∀ q : PState O, RefInv q → RefInv (withGap P q) := by
    intro q hq
    unfold withGap
    split <;> exact hq
  have hfresh : ∀ q : PState O, RefInv q → ∀ pc, RefInv { q.fresh with pc := pc } := by
    intro q hq pc
    exact hq.same rfl rfl le_rfl id (by simp [PState.refJobs, PState.fresh])
  induction h with
  | init => rintro (h | h) <;> simp [Alg.init, PState.refJobs] at h
  | call pause h0 hs ih =>
    cases hs with
    | zeroFrequency _ => exact hfresh _ ih _
    | firstFails _ _ _ => exact hfresh _ ih _
    | first _ _ hr => exact hgap _ (RefInv.restart rfl hr (pc := _) (gap := _))
    | resumed _ _ =>
      refine hgap _ ?_
      exact ih.same rfl rfl le_rfl id (by simp [PState.refJobs, PState.fresh])
  | ret h0 hp ih => exact ih.same rfl rfl le_rfl id le_rfl
  | load h0 hp ih =>
    exact ih.same rfl rfl le_rfl id (by simp [PState.refJobs, PState.lose, PState.fresh])
  | raises h0 hc ih =>
    obtain ⟨-, rfl | ⟨s1, -, -, -, hr, he⟩⟩ := hc.cases
    · exact ih.same rfl rfl le_rfl id (by simp [PState.refJobs, PState.lose, PState.fresh])
    · obtain ⟨pts, noisy, o, rfl, -, -⟩ := hr.frame
      rcases he with rfl | ⟨o', rfl⟩
      · exact ih.same rfl rfl le_rfl id (by simp [PState.refJobs, PState.lose, PState.fresh])
      · exact ih.same rfl rfl le_rfl id (by simp [PState.refJobs, PState.lose, PState.fresh])
  | firstRaises h0 _ _ hr ih =>
    obtain ⟨pts, noisy, o, rfl, -, -⟩ := hr.frame
    exact ih.same rfl rfl le_rfl id (by simp [PState.refJobs, PState.lose, PState.fresh])
  | @step s s' start pause h0 hs ih =>
    cases hs with
    | collect j hp hj =>
      unfold PState.orRaise
      split
      · exact ih
      · rename_i s1 hc
        have h1 : RefInv s1 := ih.collect hc
        exact h1
    | harvest j res hp hj hi _ =>
      unfold PState.orRaise
      split
      · exact ih
      · rename_i s1 hc
        have h1 : RefInv s1 := ih.harvest (hi (Or.inl hP)) hc
        exact h1
    | @restart r hp _ _ _ hb hr =>
      unfold PState.orRaise
      have hb' : s.evals = [] ∧ s.searches = [] := by simpa [parBusy] using hb
      split
      · exact ih
      · exact RefInv.restart hb'.2 hr (gap := _)
    | restoration hp _ _ _ hb hr =>
      unfold PState.orRaise
      have hb' : s.evals = [] ∧ s.searches = [] := by simpa [parBusy] using hb
      split
      · exact ih
      · refine RefInv.restart ?_ hr (gap := _)
        exact hb'.2
    | submit r1 r2 hp _ _ _ =>
      unfold PState.orRaise
      split
      · exact ih
      · rename_i hc
        refine RefInv.submit ?_ hin hc
        exact ih
    | close hp =>
      unfold PState.orRaise
      split
      · exact ih
      · rename_i hc
        obtain ⟨hn, hne, a, gap, g, st, hadd, _, rfl⟩ := closeJob_cases hc
        have hctl := hadd.ctl
        refine ih.same hctl.2.2.2.2.2.2.1 hctl.2.2.2.2.2.2.2.1 ?_ ?_ ?_
        · show _ ≤ a.cur.pos.length
          rw [hadd.len]; exact Nat.le_succ _
        · intro h0
          have h0' : 0 < a.numCons := h0
          rw [hctl.2.2.2.1] at h0'
          exact h0'
        · simp only [PState.refJobs, PState.fate]
          have := (List.tail_sublist s.evals).countP_le (p := fun x : EvalJob => x.tag == Tag.ref)
          omega
    | _ => exact ih

end Rbfopt
