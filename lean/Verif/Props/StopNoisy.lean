import Verif.Lemmas.ErrSource
import Verif.Props.Control
import Verif.Props.Records

/-!
# Error intervals (C06) and why an optimization with `evaluate_noisy()` stops (C12)
-/

namespace Rbfopt

variable {O : Type} {P : Params} {env : Env O} {o : O} {c : Ctl} {s : Alg O}

/-- **C06** Every recorded error interval is empty or was returned by a call of `evaluate_noisy()`, though
not always at the point of the record (`Demo.C06_violated_stale_interval`). -/
theorem C06_intervals_genuine (h : Reach P env o c s) :
    ∀ e ∈ s.all.err, e = (0, 0) ∨ ∃ x v, Call.noisy x v e.1 e.2 ∈ s.log := by
  cases c with
  | idle => exact h.errSrc
  | running _ _ _ => exact h.errSrc.1

/-- If the upper ends of the intervals are not negative, no recorded upper end is. -/
theorem Reach.err_nonneg (hn : ∀ before x, 0 ≤ (env.evalNoisy before x).2.2)
    (h : Reach P env o c s) : ∀ e ∈ s.all.err, 0 ≤ e.2 := by
  intro e he
  rcases C06_intervals_genuine h e he with rfl | ⟨x, v, hx⟩
  · exact le_refl _
  · obtain ⟨k, hk⟩ := List.getElem?_of_mem hx
    have hv : (v, e.1, e.2) = env.evalNoisy (s.log.take k) x := C01_values_are_answers h k _ hk
    have := hn (s.log.take k) x
    rw [← hv] at this
    exact this

theorem currentGap_ge (hz : 0 < P.epsZero) (he : ∀ e ∈ s.all.err, 0 ≤ e.2) {gap : EVal}
    (h : currentGap P s = .ok gap) : computeGap P s.fbest ≤ gap := by
  unfold currentGap at h
  split at h
  · cases h
  · rename_i e he'
    cases h
    have := he e (List.mem_of_getElem? he')
    refine computeGap_mono hz ?_
    calc s.fbest = s.fbest + 0 := (add_zero _).symm
      _ ≤ s.fbest + (e.2 : EVal) := by
        gcongr
        exact_mod_cast this

/-- The gap tested by the loop is at least the gap of the tracked best value. -/
theorem Reach.gapNoisy (hz : 0 < P.epsZero) (hn : ∀ before x, 0 ≤ (env.evalNoisy before x).2.2)
    (h : Reach P env o c s) : GapOK P c s := by
  refine h.inv_pass (I := GapOK P) trivial ?_ ?_ (fun _ _ _ _ _ _ _ => trivial)
    (fun _ _ _ _ _ _ => trivial)
  · intro s s' loc pause hr hs h
    obtain ⟨-, hg, -⟩ := serialStart_cases h
    have hr' : Reach P env o (.running s.itercount pause loc) s' := hr.call pause h
    exact currentGap_ge hz (hr'.err_nonneg hn) hg
  · intro s s' start pause loc loc' hr hs hc hp
    have hr' := hr.pass hc hp
    have w := hr.wf
    have hmon := (fbest_micros w (pass_micros hp)).1
    have same : loc' = loc → GapOK P (.running start pause loc') s' := by
      intro e
      rw [e]
      exact (computeGap_mono hz hmon).trans hs
    cases pass_inv hp with
    | skip hs hs' hl => exact same hl
    | linFail s1 o hs h1 h2 h3 hl => exact same hl
    | cont s1 s2 o hs h1 h2 h3 h4 hl => exact same hl
    | iter s1 s2 s3 s4 o' next ref hp =>
      rcases processPoint_cases hp.proc with ⟨_, e⟩ |
        ⟨p0, d, r, t1, gap, t2, rfl, hd, hlt, hev, hadd, hgap, haft, rfl, rfl⟩
      · exact same e
      · have e1 : t2.fbest = (updateLog t1 r.val gap).fbest :=
          congrArg Data.fbest (afterAdd_data haft)
        have e1' : t2.all = (updateLog t1 r.val gap).all :=
          congrArg Data.all (afterAdd_data haft)
        have e1'' : t2.fbestIdx = (updateLog t1 r.val gap).fbestIdx :=
          congrArg Data.fbestIdx (afterAdd_data haft)
        obtain ⟨g, st, e⟩ := updateLog_frame t1 r.val gap
        rw [e] at e1 e1' e1''
        obtain ⟨-, -, -, -, -, -, -, -, f1, -, -, -, f2, f3, -⟩ := endPass_ctl hp.fin
        dsimp only at e1 e1' e1'' f1 f2 f3
        have hgap' : currentGap P s' = .ok gap := by
          unfold currentGap at hgap ⊢
          rw [f1, f2, f3, e1, e1', e1'']; exact hgap
        exact currentGap_ge hz (hr'.err_nonneg hn) hgap'

/-- **C12** (any black box) If upper ends of error intervals are not negative: when `optimize()` returns,
one of the declared reasons holds, where the last one is that the best value the object tracks is within
`eps_opt` of `target_objval`; as long as the object is in noisy mode this is the value returned.  In
accurate mode it need not be (`Demo.C12_violated_stale_best`). -/
theorem C12_stop_reason_two_phase (hd : ∀ p, env.dist p p = 0)
    (hm : 0 ≤ P.minDist) (hz : 0 < P.epsZero) (hn : ∀ before x, 0 ≤ (env.evalNoisy before x).2.2)
    {fuel pause : ℕ} {r : OptResult O}
    (hr : Reach P env o .idle s) (h : optimize P env fuel pause s = .ret r) :
    s.itercount + pause ≤ r.itercount ∨ P.maxIter ≤ r.itercount ∨ P.maxEval ≤ r.evalcount ∨
    P.searchSpace ≤ ((r.evalcount : ℚ) : EVal) ∨ (P.maxCycles : ℤ) ≤ r.final.cyc ∨
    (∃ s' : Alg O, r.final = { s' with elapsed := r.final.elapsed } ∧
      P.maxClock ≤ ((env.clock s' : ℚ) : EVal)) ∨
    ∃ b : ℚ, r.final.fbest = (b : EVal) ∧ b ≤ r.value ∧ (r.final.mode = .noisy → b = r.value) ∧
      b ≤ P.target + P.epsOpt * (if P.epsZero ≤ |P.target| then |P.target| else 1) := by
  have hr' := optimize_reach hr h
  obtain ⟨s1, loc, s2, loc2, hs, hl, hf, hleast, ⟨i, hi1, hi2⟩, e1, e2, -⟩ := optimize_cases h
  obtain ⟨h1, h2⟩ := loop_reach (hr.call pause hs) hl
  have h3 : ¬ loopCond P env s.itercount pause s2 loc2 = true := by rw [h2]; simp
  rw [loopCond_iff] at h3
  have hfb : r.final.fbest = s2.fbest := by rw [hf]
  have hall : r.final.all = s2.all := by rw [hf]
  rw [e1, e2]
  by_contra hne
  simp only [not_or, not_le] at hne
  obtain ⟨n1, n2, n3, n4, n5, n6, n7⟩ := hne
  rw [hf] at n5 n6
  apply h3
  have hit := h1.iter.2.1
  refine ⟨by omega, n2, n3, n4, n5, ?_, ?_⟩
  · by_contra hcl
    exact n6 ⟨s2, rfl, not_lt.mp hcl⟩
  · by_contra hgap
    have hgap := not_lt.mp hgap
    have hg : computeGap P s2.fbest ≤ loc2.gap := h1.gapNoisy hz hn
    apply n7
    rw [hfb]
    have hvm : r.value ∈ s2.all.val := List.mem_of_getElem? hi2
    have hle := (C02_tracked_bounds h1).1 _ hvm
    obtain ⟨b, hb⟩ : ∃ b : ℚ, s2.fbest = (b : EVal) := by
      induction hx : s2.fbest using WithTop.recTopCoe with
      | top => rw [hx] at hle; simp at hle
      | coe b => exact ⟨b, rfl⟩
    refine ⟨b, hb, ?_, ?_, ?_⟩
    · rw [hb] at hle; exact WithTop.coe_le_coe.mp hle
    · intro hmode
      have hne : s2.all.pos ≠ [] := by rintro h0; rw [h0] at hi1; simp at hi1
      obtain ⟨f, b', M, -, hb', -, -, hbl, -⟩ := C02_tracked_best_noisy_mode hd hm h1
        (by rw [hf] at hmode; exact hmode) hne
      rw [hb] at hb'
      have : b = b' := WithTop.coe_injective hb'
      rw [this]
      exact le_antisymm (hbl.2 _ hvm) (hleast.2 _ (List.mem_of_getElem? hbl.1))
    · rw [hb] at hg
      have h4 := hg.trans hgap
      simp only [computeGap, WithTop.map_coe] at h4
      have h5 := WithTop.coe_le_coe.mp h4
      unfold computeGapQ at h5
      dsimp only at h5
      have hden : 0 < (if P.epsZero ≤ |P.target| then |P.target| else 1) := by
        split
        · rename_i h; exact lt_of_lt_of_le hz h
        · norm_num
      have h6 : (b - P.target) / (if P.epsZero ≤ |P.target| then |P.target| else 1) ≤
          P.epsOpt := h5
      rw [div_le_iff₀ hden] at h6
      linarith

end Rbfopt
