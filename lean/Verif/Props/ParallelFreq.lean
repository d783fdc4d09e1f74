import Verif.Props.ParallelOrder

/-!
# How often refinement steps are made in a parallel run (C21)
-/

namespace Rbfopt

variable {O : Type} {P : Params} {env : Env O} {pe : PEnv O} {o : O} {c : PCtl} {s s' : PState O}

theorem restartPar_ref {t t' : PState O} (h : RestartPar P env pe t (.ok t')) :
    t'.refSubs = t.refSubs ∧ t'.repeats = t.repeats ∧ t'.refSearches = t.refSearches ∧
    t'.refCount = t.refCount ∧ t'.refBusy = t.refBusy ∧ t'.alg.itercount = t.alg.itercount := by
  obtain ⟨pts, noisy, o, done, rest, prev, u, calls, a, m, M, i, hq⟩ := restartPar_ok h
  have hi := hq.install.itercount
  rw [hq.eq]
  refine ⟨?_, ?_, rfl, rfl, rfl, hi⟩
  · simp only [PState.refSubs, PState.fates, List.countP_append]
    have : (List.map (fun p => (p, noisy, Tag.init)) pts).countP (fun x => x.2.2 == Tag.ref) = 0 := by
      rw [List.countP_eq_zero]
      intro x hx
      obtain ⟨p, -, rfl⟩ := List.mem_map.mp hx
      simp
    omega
  · simp only [PState.repeats, PState.fates, List.countP_append]
    have : (List.map (fun x : EvalJob => (x.id, Fate.recorded)) done).countP
        (fun x => x.2 == Fate.repeated) = 0 := by
      rw [List.countP_eq_zero]
      intro x hx
      obtain ⟨p, -, rfl⟩ := List.mem_map.mp hx
      simp
    omega

/-- One step keeps the bookkeeping of refinement steps. -/
theorem RefFreq.step {start pause k0 r0 : ℕ} {c0 : ℚ} (hi : RefFreq P k0 r0 c0 s)
    (hb : s.refJobs ≤ s.refBusy.toNat) (hs : PStep P env pe start pause s s') :
    RefFreq P k0 r0 c0 s' := by
  have hmono : ((s.alg.itercount : ℚ)) / P.refFreq ≤ (s'.alg.itercount : ℚ) / P.refFreq := by
    have := hs.iter_mono
    gcongr
  have keep : ∀ {t : PState O}, t.refSubs = s.refSubs → t.repeats = s.repeats →
      t.refSearches ≤ s.refSearches → t.refCount = s.refCount → t.refBusy = s.refBusy →
      ((s.alg.itercount : ℚ)) / P.refFreq ≤ (t.alg.itercount : ℚ) / P.refFreq →
      RefFreq P k0 r0 c0 t := by
    intro t h1 h2 h3 h4 h5 h6
    have h3' : (t.refSearches : ℚ) ≤ s.refSearches := by exact_mod_cast h3
    refine ⟨?_, ?_, ?_⟩
    · have := hi.subs
      rw [h1, h2, h4, h5]; linarith
    · intro hh; rw [h5] at hh; have := hi.busy hh; rw [h4]; linarith
    · have := hi.count; rw [h4]; linarith
  have hre : ∀ {t t' : PState O} {r : Except PyErr (PState O)} {pc : PC}, RestartPar P env pe t r →
      t.refSubs = s.refSubs → t.repeats = s.repeats →
      t.refSearches = s.refSearches → t.refCount = s.refCount → t.refBusy = s.refBusy →
      t.alg.itercount = s.alg.itercount → RefFreq P k0 r0 c0 (s.orRaise pc r) := by
    intro t t' r pc h h1 h2 h3 h4 h5 h6
    unfold PState.orRaise
    split
    · exact keep rfl rfl le_rfl rfl rfl le_rfl
    · obtain ⟨g1, g2, g3, g4, g5, g6⟩ := restartPar_ref h
      exact keep (g1.trans h1) (g2.trans h2) (g3.trans h3).le (g4.trans h4) (g5.trans h5)
        (by show _ ≤ ((_ : ℕ) : ℚ) / _; rw [g6, h6])
  have hcb : ∀ {j : ℕ} {job : EvalJob}, s.evals[j]? = some job → job.tag = .ref → s.refBusy = true := by
    intro j job hj ht
    have hcnt := countP_eraseIdx (fun x : EvalJob => x.tag == Tag.ref) hj
    simp only [ht, beq_self_eq_true, Bool.toNat_true] at hcnt
    cases hh : s.refBusy with
    | true => rfl
    | false => rw [hh] at hb; simp only [PState.refJobs, Bool.toNat_false] at hb; omega
  have hsb : ∀ {j : ℕ} {job : SearchJob}, s.searches[j]? = some job → job.tag = .ref →
      s.refBusy = true := by
    intro j job hj ht
    have hcnt := countP_eraseIdx (fun x : SearchJob => x.tag == Tag.ref) hj
    simp only [ht, beq_self_eq_true, Bool.toNat_true] at hcnt
    cases hh : s.refBusy with
    | true => rfl
    | false => rw [hh] at hb; simp only [PState.refJobs, Bool.toNat_false] at hb; omega
  cases hs with
  | collect j hp hj =>
    unfold PState.orRaise at hmono ⊢
    split
    · exact keep rfl rfl le_rfl rfl rfl le_rfl
    · rename_i s1 hc
      rw [hc] at hmono
      dsimp only at hmono
      obtain ⟨job, hj, hcase⟩ := collectJob_more hc
      have hsr : s1.searches = s.searches := by
        obtain ⟨job, d, -, -, hcase⟩ := collectJob_cases hc
        rcases hcase with ⟨_, tb, rfl⟩ | ⟨_, hn, _, a, ha, rfl⟩ |
          ⟨_, gap, a, a', rc, rb, hg, hda, hit, hst, _, ha, _, _, rfl⟩ <;> rfl
      have hsr' : s1.refSearches = s.refSearches := by unfold PState.refSearches; rw [hsr]
      rcases hcase with ⟨h1, h2, h3, h4, h5⟩ | ⟨h1, h2, h3, h4, h5⟩ | ⟨h1, h2, h3, h4, h5⟩
      · exact keep (t := { s1 with pc := _ }) (by unfold PState.refSubs; simp only; rw [h4])
          (by unfold PState.repeats; simp only; rw [h1]; simp) hsr'.le h2 h3 hmono
      · have e1 : s1.repeats = s.repeats + 1 := by unfold PState.repeats; rw [h1]; simp
        have e2 : s1.refSubs ≤ s.refSubs + 1 := by
          unfold PState.refSubs; rw [h4, List.countP_append]
          have := List.countP_le_length (p := fun x : Pt × Bool × Tag => x.2.2 == Tag.ref)
            (l := [(env.toOrig job.pt, false, job.tag)])
          simp only [List.length_singleton] at this
          omega
        have e2' : (s1.refSubs : ℚ) ≤ s.refSubs + 1 := by exact_mod_cast e2
        have e1' : (s1.repeats : ℚ) = s.repeats + 1 := by exact_mod_cast e1
        refine ⟨?_, ?_, ?_⟩
        · have := hi.subs
          show (s1.refSubs : ℚ) + s1.refSearches ≤ k0 + ((s1.repeats : ℚ) - r0) + (s1.refCount - c0) +
            (if s1.refBusy then 1 else 0)
          rw [hsr', e1', h2, h3]; linarith
        · intro hh
          have hh' : s1.refBusy = true := hh
          rw [h3] at hh'
          have := hi.busy hh'
          show s1.refCount ≤ _
          rw [h2]; exact this.trans hmono
        · have := hi.count
          show s1.refCount ≤ _
          rw [h2]
          exact this.trans (by linarith)
      · have e1 : s1.repeats = s.repeats := by unfold PState.repeats; rw [h1]; simp
        have e2 : s1.refSubs = s.refSubs := by unfold PState.refSubs; rw [h4]
        by_cases ht : job.tag = .ref
        · have hbz := hcb hj ht
          obtain ⟨h6, h7⟩ := h2 ht
          refine ⟨?_, ?_, ?_⟩
          · have := hi.subs
            show (s1.refSubs : ℚ) + s1.refSearches ≤ k0 + ((s1.repeats : ℚ) - r0) + (s1.refCount - c0) +
              (if s1.refBusy then 1 else 0)
            rw [hsr', e1, e2, h6, h7]
            rw [hbz] at this
            simp only [if_true, Bool.false_eq_true, if_false] at this ⊢
            linarith
          · intro hh
            have hh' : s1.refBusy = true := hh
            rw [h7] at hh'; cases hh'
          · have := hi.busy hbz
            show s1.refCount ≤ _
            rw [h6]
            exact add_le_add_left (this.trans hmono) 1
        · obtain ⟨h6, h7⟩ := h3 ht
          exact keep (t := { s1 with pc := _ }) e2 e1 hsr'.le h6 h7 hmono
  | harvest j res hp hj hi' hprop =>
    unfold PState.orRaise at hmono ⊢
    split
    · exact keep rfl rfl le_rfl rfl rfl le_rfl
    · rename_i s1 hc
      rw [hc] at hmono
      dsimp only at hmono
      obtain ⟨job, hj, hse, hhi, hcase⟩ := harvestJob_more hc
      have hcnt := countP_eraseIdx (fun x : SearchJob => x.tag == Tag.ref) hj
      have e1 : s1.repeats = s.repeats := by unfold PState.repeats; rw [hhi]
      have es : s1.refSearches ≤ s.refSearches := by
        unfold PState.refSearches; rw [hse]; omega
      rcases hcase with ⟨h1, h2, h3, -⟩ | ⟨h1, h2, h3, -⟩ | ⟨h1, h2, ⟨x, noisy, tag, ht, h3⟩, -⟩
      · have e2 : s1.refSubs = s.refSubs := by unfold PState.refSubs; rw [h3]
        by_cases ht : job.tag = .ref
        · have hbz := hsb hj ht
          obtain ⟨h6, h7⟩ := h1 ht
          refine ⟨?_, ?_, ?_⟩
          · have := hi.subs
            show (s1.refSubs : ℚ) + s1.refSearches ≤ k0 + ((s1.repeats : ℚ) - r0) + (s1.refCount - c0) +
              (if s1.refBusy then 1 else 0)
            have es' : (s1.refSearches : ℚ) ≤ s.refSearches := by exact_mod_cast es
            rw [e1, e2, h6, h7]
            rw [hbz] at this
            simp only [if_true, Bool.false_eq_true, if_false] at this ⊢
            linarith
          · intro hh
            have hh' : s1.refBusy = true := hh
            rw [h7] at hh'; cases hh'
          · have := hi.busy hbz
            show s1.refCount ≤ _
            rw [h6]
            exact add_le_add_left (this.trans hmono) 1
        · obtain ⟨h6, h7⟩ := h2 ht
          exact keep (t := { s1 with pc := _ }) e2 e1 es h6 h7 hmono
      · exact keep (t := { s1 with pc := _ }) (by unfold PState.refSubs; simp only; rw [h3]) e1 es
          h1 h2 hmono
      · have e2 : s1.refSubs + s1.refSearches = s.refSubs + s.refSearches := by
          unfold PState.refSubs PState.refSearches
          rw [h3, hse, List.countP_append, ← hcnt]
          by_cases hr : job.tag = .ref
          · have := ht.mpr hr
            simp [hr, this]; omega
          · have : tag ≠ .ref := fun h => hr (ht.mp h)
            simp [hr, this]
        have e2' : (s1.refSubs : ℚ) + s1.refSearches = s.refSubs + s.refSearches := by exact_mod_cast e2
        refine ⟨?_, ?_, ?_⟩
        · have := hi.subs
          show (s1.refSubs : ℚ) + s1.refSearches ≤ k0 + ((s1.repeats : ℚ) - r0) + (s1.refCount - c0) +
            (if s1.refBusy then 1 else 0)
          rw [e1, h1, h2, e2']; exact this
        · intro hh
          have hh' : s1.refBusy = true := hh
          rw [h2] at hh'
          have := hi.busy hh'
          show s1.refCount ≤ _
          rw [h1]; exact this.trans hmono
        · have := hi.count
          show s1.refCount ≤ _
          rw [h1]
          exact this.trans (by linarith)
  | restart _ _ _ _ _ hr => exact hre (t' := s) hr rfl rfl rfl rfl rfl rfl
  | restoration _ _ _ _ _ hr => exact hre (t' := s) hr rfl rfl rfl rfl rfl rfl
  | submit r1 r2 hp _ _ hne =>
    unfold PState.orRaise at hmono ⊢
    split
    · exact keep rfl rfl le_rfl rfl rfl le_rfl
    · rename_i s1 hc
      rw [hc] at hmono
      dsimp only at hmono
      unfold submitNext at hc
      split at hc
      · rename_i hdue
        rcases submitRefine_step hc with ⟨a, rfl, -⟩ | ⟨a, b, rfl, -⟩
        · have e : (({ s with alg := a, rankDef := r2, refBusy := true } : PState O).submitSearch
              (decide (s.alg.mode = .noisy)) .ref).refSearches = s.refSearches + 1 := by
            simp [PState.refSearches, PState.submitSearch]
          refine ⟨?_, ?_, ?_⟩
          · have := hi.subs
            have hb0 : s.refBusy = false := hdue.1
            rw [hb0] at this
            show ((s.refSubs : ℕ) : ℚ) + (((({ s with alg := a, rankDef := r2, refBusy := true } : PState O).submitSearch
              (decide (s.alg.mode = .noisy)) .ref).refSearches : ℕ) : ℚ) ≤
              k0 + ((s.repeats : ℚ) - r0) + (s.refCount - c0) + (if true then 1 else 0)
            rw [e]
            push_cast
            simp only [if_true, Bool.false_eq_true, if_false] at this ⊢
            linarith
          · intro _
            have h2 : s.refCount ≤ (s.alg.itercount : ℚ) / P.refFreq := hdue.2
            exact h2.trans hmono
          · have := hi.count
            show s.refCount ≤ _
            exact this.trans (by linarith)
        · exact keep rfl rfl le_rfl rfl rfl hmono
      · cases hc
        refine keep rfl rfl ?_ rfl rfl hmono
        simp only [PState.refSearches, PState.submitSearch, List.countP_append]
        have : ∀ {x : Bool} {t : Tag}, t ≠ .ref →
            List.countP (fun x : SearchJob => x.tag == Tag.ref) [⟨x, t⟩] = 0 := by
          intro x t ht; simp [ht]
        rw [this]
        · omega
        · split
          · simp
          · split <;> simp
  | close hp =>
    unfold PState.orRaise at hmono ⊢
    split
    · exact keep rfl rfl le_rfl rfl rfl le_rfl
    · rename_i s1 hc
      rw [hc] at hmono
      dsimp only at hmono
      obtain ⟨hn, hne, a, gap, g, st, ha, _, rfl⟩ := closeJob_cases hc
      refine keep rfl ?_ le_rfl rfl rfl hmono
      simp [PState.repeats, PState.fate]
  | _ => exact keep rfl rfl le_rfl rfl rfl le_rfl

/-- **C21** (parallel) Within a call, the number of evaluations submitted by refinement steps is at most
one more than the iterations of the call divided by `refinement_frequency`, not counting evaluations
that only repeat a noisy one accurately. -/
theorem C21_parallel_frequency {s0 : PState O} {pause : ℕ} (h : CallReach P env pe o s0 pause s) :
    (s.refSubs : ℚ) ≤ s0.refSubs + ((s.repeats : ℚ) - s0.repeats) +
      ((s.alg.itercount : ℚ) - s0.alg.itercount) / P.refFreq + 1 := by
  have hw : ∀ {q : PState O}, RefFreq P s0.refSubs s0.repeats ((s0.alg.itercount : ℚ) / P.refFreq) q →
      RefFreq P s0.refSubs s0.repeats ((s0.alg.itercount : ℚ) / P.refFreq) (withGap P q) := by
    intro q h; unfold withGap; split <;> exact ⟨h.subs, h.busy, h.count⟩
  have hf : ∀ {pc : PC} {x : ℚ}, (s0.alg.itercount : ℚ) / P.refFreq = x →
      RefFreq P s0.refSubs s0.repeats ((s0.alg.itercount : ℚ) / P.refFreq)
        { s0.fresh with refCount := x, pc := pc } := by
    intro pc x hx
    refine ⟨?_, (fun h => by cases h), ?_⟩
    · show ((s0.refSubs : ℕ) : ℚ) + ((List.countP _ [] : ℕ) : ℚ) ≤ _ + ((s0.repeats : ℚ) - _) + (x - _) +
        (if false then 1 else 0)
      rw [hx]; simp
    · show x ≤ (s0.alg.itercount : ℚ) / _ + 1
      rw [hx]; linarith
  have hinv : RefFreq P s0.refSubs s0.repeats ((s0.alg.itercount : ℚ) / P.refFreq) s := by
    induction h with
    | start h1 h2 =>
      cases h2 with
      | zeroFrequency hz => exact hf (by rw [hz]; simp [PState.fresh])
      | firstFails _ h0 => exact hf (by rw [h0]; simp [PState.fresh])
      | first _ h0 hr =>
        apply hw
        obtain ⟨g1, g2, g3, g4, g5, g6⟩ := restartPar_ref hr
        have := hf (pc := .top) (x := 0) (by rw [h0]; simp)
        refine ⟨?_, ?_, ?_⟩
        · rw [g1, g2, g3, g4, g5]; exact this.subs
        · rw [g5]; exact (fun h => by cases h)
        · rw [g4, g6]; exact this.count
      | resumed _ h0 => exact hw (hf rfl)
    | step h1 hs ih => exact ih.step (C71_one_refinement_at_a_time h1.reach) hs
  have h1 := hinv.subs
  have h2 : s.refCount + (if s.refBusy then 1 else 0) ≤ (s.alg.itercount : ℚ) / P.refFreq + 1 := by
    by_cases hb : s.refBusy = true
    · have := hinv.busy hb
      rw [hb]; simpa using this
    · have := hinv.count
      rw [Bool.eq_false_iff.mpr hb]; simpa using this
  have h3 : (0 : ℚ) ≤ s.refSearches := by positivity
  rw [sub_div]
  linarith

end Rbfopt
