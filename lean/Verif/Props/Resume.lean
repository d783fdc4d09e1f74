import Verif.Lemmas.ResumeLoop
import Verif.Spec.Resume
import Verif.Props.Control

/-!
# Pausing and resuming `optimize()` in the same process
-/

namespace Rbfopt

variable {O : Type} {P : Params} {env : Env O} {o : O} {s : Alg O}

theorem optimizeReturn_withE {s : Alg O} {e e' : ℚ} :
    optimizeReturn (s.withE e) = .outOfFuel ∨
    SameOutcome (optimizeReturn (s.withE e')) (optimizeReturn (s.withE e)) := by
  unfold optimizeReturn
  rw [show (s.withE e).all = s.all from rfl, show (s.withE e').all = s.all from rfl]
  cases argminVal s.all.val with
  | none => exact Or.inr rfl
  | some x =>
    obtain ⟨v, i⟩ := x
    dsimp only
    cases s.all.pos[i]? <;> cases s.all.err[i]? <;> cases s.all.noisy[i]? <;>
      first
      | exact Or.inr rfl
      | exact Or.inr ⟨rfl, rfl, rfl, rfl, rfl, rfl⟩

/-- **C13** Calling `optimize(k)` and then `optimize(k')` on the same object gives exactly what
`optimize(k + k')` would have given (result, counters, recorded data, random state, even the
exception raised), provided that the black box has no noisy oracle, that there is no clock limit,
that the first call made at least one iteration, and that it did not reach the target.
`IgnoresElapsed`: the search steps do not read `elapsed_time`. -/
theorem C13_pause_resume (hP : P.twoPhase = false) (hd : ∀ p, env.dist p p = 0)
    (hm : 0 ≤ P.minDist) (hz : 0 < P.epsZero) (hc : P.maxClock = ⊤) (he : env.IgnoresElapsed)
    {fuel k k' : ℕ} (hf : 2 * (P.maxIter + P.maxCycles) + 3 ≤ fuel) {r : OptResult O}
    (hr : Reach P env o .idle s) (h1 : optimize P env fuel k s = .ret r)
    (hi : r.itercount ≠ 0)
    (hv : P.target + P.epsOpt * (if P.epsZero ≤ |P.target| then |P.target| else 1) < r.value) :
    SameOutcome (optimize P env fuel (k + k') s) (optimize P env fuel k' r.final) := by
  obtain ⟨s1, loc, s2, loc2, hs, hl, hfin, hleast, ⟨i, hi1, hi2⟩, e1, e2, -⟩ := optimize_cases h1
  obtain ⟨hr2, hlc⟩ := loop_reach (hr.call k hs) hl
  -- the best value at the pause
  have hne : s2.all.pos ≠ [] := by rintro h0; rw [h0] at hi1; simp at hi1
  have hgap2 : ((P.epsOpt : ℚ) : EVal) < computeGap P s2.fbest := by
    rcases hr2.best hP (fun p => by rw [hd p]; exact hm) with hb | ⟨f, b, M, -, hb, -, -, hbl, -⟩
    · exact absurd (by rw [hb.1]) hne
    · have hvb : b = r.value :=
        le_antisymm (hbl.2 _ (List.mem_of_getElem? hi2)) (hleast.2 _ (List.mem_of_getElem? hbl.1))
      rw [hb, hvb]
      simp only [computeGap, WithTop.map_coe]
      rw [WithTop.coe_lt_coe]
      unfold computeGapQ
      have hden : 0 < (if P.epsZero ≤ |P.target| then |P.target| else 1) := by
        split
        · rename_i h; exact lt_of_lt_of_le hz h
        · norm_num
      show P.epsOpt < (r.value - P.target) / (if P.epsZero ≤ |P.target| then |P.target| else 1)
      rw [lt_div_iff₀ hden]
      linarith
  have hgapl : ((P.epsOpt : ℚ) : EVal) < loc2.gap := lt_of_lt_of_le hgap2 (hr2.gap hz hP)
  -- the resumed call
  have hrf : Reach P env o .idle r.final := by rw [hfin]; exact hr2.ret hlc
  have hit : r.final.itercount = s2.itercount := by rw [hfin]
  have hfe : r.final = s2.withE r.final.elapsed := by rw [hfin]; rfl
  obtain ⟨l3, hst⟩ : ∃ l3, serialStart P env r.final = .ok (r.final, l3) := by
    unfold serialStart firstRestart
    rw [if_neg (by rw [hit, ← e1]; exact hi)]
    dsimp only
    obtain ⟨s4, l4, hs4⟩ : ∃ g, currentGap P r.final = .ok g ∧ True := by
      rcases hr2.best hP (fun p => by rw [hd p]; exact hm) with hb | ⟨f, b, M, -, hb, -, -, hbl, -⟩
      · exact absurd (by rw [hb.1]) hne
      · have hlt := (List.getElem?_eq_some_iff.mp hbl.1).1
        obtain ⟨a1, a2, a3⟩ := hr2.wf.allA
        unfold currentGap
        rw [hfin]
        dsimp only
        rw [List.getElem?_eq_getElem (show s2.fbestIdx < s2.all.err.length by omega)]
        exact ⟨_, rfl, trivial⟩
    rw [l4]
    exact ⟨_, rfl⟩
  have hr3 := hrf.call k' hst
  have hg3 : ((P.epsOpt : ℚ) : EVal) < l3.gap := by
    obtain ⟨-, hg, -⟩ := serialStart_cases hst
    rw [currentGap_single (hr3.single hP) hr3.wf.allA hg, hfe]
    exact hgap2
  -- the uninterrupted call
  obtain ⟨n, hn, hpro⟩ := loop_prolong (k' := k + k') (Nat.le_add_right k k') hl
  have hno := C11_terminates (pause := k + k') hr hf
  have hunint : loop P env s.itercount (k + k') fuel s1 loc =
      loop P env s.itercount (k + k') fuel s2 loc2 := by
    have h3 := hpro (fuel - n)
    rw [Nat.add_sub_cancel' hn] at h3
    have h4 : loop P env s.itercount (k + k') (fuel - n) s2 loc2 ≠ .outOfFuel := by
      intro h5
      unfold optimize at hno
      rw [hs] at hno
      dsimp only at hno
      rw [h3, h5] at hno
      exact hno rfl
    have h5 := loop_fuel (fuel - n) n h4
    rw [Nat.sub_add_cancel hn] at h5
    rw [h3, h5]
  have hno' := C11_terminates (pause := k') hrf hf
  have hrel : LoopRel r.final.elapsed (loop P env s.itercount (k + k') fuel s2 loc2)
      (loop P env r.final.itercount k' fuel r.final l3) := by
    by_cases hstop : s2.itercount = s.itercount + k
    · rw [hit, hstop]
      conv => rhs; rw [hfe]
      refine loop_withE (o := o) he hc hP ?_ (Or.inr ⟨hgapl, hg3⟩)
      rw [← hfe, ← hstop, ← hit]
      exact hr3
    · -- the first call stopped for another reason: both calls stop at once
      have hlt : s2.itercount < s.itercount + k := by
        have := hr2.iter.2.2.1
        omega
      have hno1 : ¬ (s2.itercount < P.maxIter ∧ s2.evalcount < P.maxEval ∧
          ((s2.evalcount : ℚ) : EVal) < P.searchSpace ∧ s2.cyc < (P.maxCycles : ℤ)) := by
        intro hall
        have : loopCond P env s.itercount k s2 loc2 = true := by
          rw [loopCond_iff]
          have := hr2.iter.2.1
          exact ⟨by omega, hall.1, hall.2.1, hall.2.2.1, hall.2.2.2, by rw [hc]; simp, hgapl⟩
        rw [hlc] at this; cases this
      have c1 : loopCond P env s.itercount (k + k') s2 loc2 = false := by
        rw [Bool.eq_false_iff]
        intro h; rw [loopCond_iff] at h
        exact hno1 ⟨h.2.1, h.2.2.1, h.2.2.2.1, h.2.2.2.2.1⟩
      have c2 : loopCond P env r.final.itercount k' r.final l3 = false := by
        rw [Bool.eq_false_iff]
        intro h; rw [loopCond_iff, hfin] at h
        exact hno1 ⟨h.2.1, h.2.2.1, h.2.2.2.1, h.2.2.2.2.1⟩
      have d1 : loop P env s.itercount (k + k') fuel s2 loc2 = .done s2 loc2 := by
        cases fuel <;> simp [loop, c1]
      have d2 : loop P env r.final.itercount k' fuel r.final l3 = .done r.final l3 := by
        cases fuel <;> simp [loop, c2]
      rw [d1, d2]
      exact hfe
  unfold optimize at hno hno' ⊢
  rw [hs, hst] at *
  dsimp only at hno hno' ⊢
  rw [hunint] at hno ⊢
  generalize loop P env s.itercount (k + k') fuel s2 loc2 = x at hrel hno
  generalize loop P env r.final.itercount k' fuel r.final l3 = y at hrel hno'
  cases x with
  | outOfFuel => exact absurd rfl hno
  | raised a => cases y with
    | raised b => exact hrel
    | outOfFuel => exact hrel.elim
    | done b c => exact hrel.elim
  | done a la => cases y with
    | raised b => exact hrel.elim
    | outOfFuel => exact hrel.elim
    | done b c =>
      have hb : b = a.withE r.final.elapsed := hrel
      subst hb
      rcases optimizeReturn_withE (s := a)
        (e := (a.withE r.final.elapsed).elapsed + env.callTime (a.withE r.final.elapsed))
        (e' := a.elapsed + env.callTime a) with h | h
      · exact absurd h hno'
      · exact h

end Rbfopt
