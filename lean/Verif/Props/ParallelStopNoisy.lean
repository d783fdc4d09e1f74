import Verif.Props.ParallelStop
import Verif.Props.ParallelIntervals
import Verif.Props.StopNoisy

/-!
# Why a parallel call stops, with `evaluate_noisy()` (C12)
-/

namespace Rbfopt

variable {O : Type} {P : Params} {env : Env O} {pe : PEnv O} {o : O} {c : PCtl} {s s' : PState O}

/-- If the upper ends of the intervals are not negative, no recorded upper end is. -/
theorem PReach.err_nonneg (hn : ∀ id, 0 ≤ (pe.noisyRes id).2.2) (h : PReach P env pe o c s) :
    ∀ e ∈ s.alg.all.err, 0 ≤ e.2 := by
  intro e he
  obtain ⟨i, hi⟩ := List.getElem?_of_mem he
  obtain ⟨a1, a2, a3⟩ := h.book.wf.allA
  have hl := (List.getElem?_eq_some_iff.mp hi).1
  have hp : i < s.alg.all.pos.length := by omega
  have hv : i < s.alg.all.val.length := by omega
  have hb : i < s.alg.all.noisy.length := by omega
  rcases h.errOK.all i _ _ _ e (List.getElem?_eq_getElem hp) (List.getElem?_eq_getElem hv)
    (List.getElem?_eq_getElem hb) hi with rfl | ⟨id, x, tag, v, -, h2⟩
  · exact le_refl _
  · have := hn id
    rw [h2] at this
    exact this

/-- The gap tested by the loop is at least the gap of the tracked best value. -/
def PGapN (P : Params) (s : PState O) : Prop :=
  s.pc.Active → computeGap P s.alg.fbest ≤ s.gap

theorem PStep.gapN (hz : 0 < P.epsZero) (hn : ∀ id, 0 ≤ (pe.noisyRes id).2.2) {start pause : ℕ}
    (hr : PReach P env pe o (.running start pause) s) (hI : PGapN P s)
    (hs : PStep P env pe start pause s s') : PGapN P s' := by
  have hr' := hr.step hs
  have keep : ∀ t : PState O, t.gap = s.gap → t.alg.fbest = s.alg.fbest → s.pc.Active →
      PGapN P t := by
    intro t h1 e1 h3 _
    rw [h1, e1]
    exact hI h3
  have exact' : ∀ t : PState O, PReach P env pe o (.running start pause) t →
      currentGap P t.alg = .ok t.gap → PGapN P t := by
    intro t ht hg _
    exact currentGap_ge hz (ht.err_nonneg hn) hg
  have rest' : ∀ (t s1 : PState O) (pc : PC) {pts noisy o done rest prev u calls a m M i},
      RestartParts P env pe t s1 pts noisy o done rest prev u calls a m M i →
      t.gap = s.gap → s.pc.Active → t.alg.fbest = s.alg.fbest → PGapN P { s1 with pc := pc } := by
    intro t s1 pc pts noisy o done rest prev u calls a m M i hq e1 e2 e3 _
    have hb : a.fbest ≤ s.alg.fbest := by
      rw [hq.install.fbest, ← e3]
      exact min_le_left _ _
    rw [hq.eq]
    dsimp only [PState.fates]
    rw [e1]
    exact (computeGap_mono hz hb).trans (hI e2)
  cases hs with
  | enter hp _ => exact keep _ rfl rfl (by rw [hp]; trivial)
  | leave hp _ => intro h; exact absurd h (by simp [PC.Active])
  | evalsDone hp => exact keep _ rfl rfl (by rw [hp]; trivial)
  | searchesDone hp => exact keep _ rfl rfl (by rw [hp]; trivial)
  | full hp => exact keep _ rfl rfl (by rw [hp]; trivial)
  | skip hp => exact keep _ rfl rfl (by rw [hp]; trivial)
  | waitRestart hp => exact keep _ rfl rfl (by rw [hp]; trivial)
  | noRestart hp => exact keep _ rfl rfl (by rw [hp]; trivial)
  | underdetermined hp => exact keep _ rfl rfl (by rw [hp]; trivial)
  | waitRestoration hp => exact keep _ rfl rfl (by rw [hp]; trivial)
  | prepFails => intro h; exact absurd h (by simp [PC.Active])
  | noList => intro h; exact absurd h (by simp [PC.Active])
  | finish => intro h; exact absurd h (by simp [PC.Active])
  | close hp =>
    intro h
    unfold PState.orRaise at h
    split at h <;> exact absurd h (by simp [PC.Active])
  | collect j hp hj =>
    unfold PState.orRaise at hr' ⊢
    split at hr'
    · intro h; exact absurd h (by simp [PC.Active])
    · rename_i s1 hc
      obtain ⟨job, d, hjob, -, hcase⟩ := collectJob_cases hc
      rcases hcase with ⟨_, tb, rfl⟩ | ⟨_, hn, _, a, ha, rfl⟩ |
        ⟨_, gap, a, a', rc, rb, hg, hda, _, _, _, ha, _, _, rfl⟩
      · exact keep _ rfl rfl (by rw [hp]; trivial)
      · refine keep _ rfl ?_ (by rw [hp]; trivial)
        exact (endPass_ctl ha).2.2.2.2.2.2.2.2.2.2.2.2.1
      · refine exact' _ hr' ?_
        dsimp only [PState.fate]
        rw [endPass_gap ha, data_gap hda, updateLog_gap, hg]
  | harvest j res hp hj hi hprop =>
    unfold PState.orRaise at hr' ⊢
    split at hr'
    · intro h; exact absurd h (by simp [PC.Active])
    · rename_i s1 hc
      obtain ⟨job, rd, a, tb, -, ha, hcase⟩ := harvestJob_cases hc
      have ha' : a.fbest = s.alg.fbest := by
        rcases ha with rfl | ⟨_, _, _, _, _, h⟩
        · rfl
        · obtain ⟨_, _, rfl⟩ := removeNode_spec h
          rfl
      rcases hcase with rfl | ⟨p0, hp0, hu, ⟨b, v, -, hre⟩ | ⟨-, rfl⟩⟩
      · obtain ⟨nc, rc, rb, _, _, e⟩ := harvestDiscard_eq (P := P) (takeSearch s j rd a tb) job.tag
        rw [e]
        exact keep _ rfl ha' (by rw [hp]; trivial)
      · obtain ⟨a1, e, gap, a2, hadd, hz, _, hg, he, rfl⟩ := harvestReuse_cases hre
        refine exact' _ hr' ?_
        dsimp only
        rw [endPass_gap he, updateLog_gap, hg]
      · exact keep _ rfl ha' (by rw [hp]; trivial)
  | restart hp _ _ _ _ hre =>
    unfold PState.orRaise
    split
    · intro h; exact absurd h (by simp [PC.Active])
    · obtain ⟨pts, noisy, o, done, rest, prev, u, calls, a, m, M, i, hq⟩ := restartPar_ok hre
      exact rest' _ _ _ hq rfl (by rw [hp]; trivial) rfl
  | restoration hp _ _ _ _ hre =>
    unfold PState.orRaise
    split
    · intro h; exact absurd h (by simp [PC.Active])
    · obtain ⟨pts, noisy, o, done, rest, prev, u, calls, a, m, M, i, hq⟩ := restartPar_ok hre
      exact rest' _ _ _ hq rfl (by rw [hp]; trivial) rfl
  | submit r1 r2 hp _ _ _ =>
    unfold PState.orRaise
    split
    · intro h; exact absurd h (by simp [PC.Active])
    · rename_i s1 hc
      obtain ⟨a, rd, rb, hd, -, rfl | ⟨noisy, tag, rfl, -⟩⟩ := submitNext_cases hc
      · exact keep _ rfl (congrArg Data.fbest hd) (by rw [hp]; trivial)
      · exact keep _ rfl (congrArg Data.fbest hd) (by rw [hp]; trivial)


theorem PReach.gapN (hz : 0 < P.epsZero) (hn : ∀ id, 0 ≤ (pe.noisyRes id).2.2) {start pause : ℕ}
    (h : PReach P env pe o (.running start pause) s) : PGapN P s := by
  generalize hc : PCtl.running start pause = c at h
  have hw : ∀ {q : PState O}, PReach P env pe o (.running start pause) (withGap P q) →
      PGapN P (withGap P q) := by
    intro q
    unfold withGap
    split
    · intro _ h; exact absurd h (by simp [PC.Active])
    · rename_i gap hg
      intro hq _
      exact currentGap_ge hz (hq.err_nonneg hn) hg
  induction h with
  | init => cases hc
  | call pause' h1 h2 ih =>
    cases hc
    have hr := PReach.call pause h1 h2
    cases h2 with
    | zeroFrequency => intro ha; exact absurd ha (by simp [PC.Active])
    | firstFails => intro ha; exact absurd ha (by simp [PC.Active])
    | first => exact hw hr
    | resumed => exact hw hr
  | step h1 hs ih => cases hc; exact PStep.gapN hz hn h1 (ih rfl) hs
  | ret => cases hc
  | load => cases hc
  | raises => cases hc
  | firstRaises => cases hc

/-- As `StopReason`, where the last reason is that the best value the object tracks is within `eps_opt`
of the target. -/
def StopReasonTracked (P : Params) (env : Env O) (pe : PEnv O) (o : O) (s0 : PState O) (pause : ℕ)
    (s : PState O) : Prop :=
  s0.alg.itercount + pause ≤ s.alg.itercount ∨ P.maxIter ≤ s.alg.itercount ∨
  P.maxEval ≤ s.alg.evalcount ∨ P.searchSpace ≤ ((s.alg.evalcount : ℚ) : EVal) ∨
  (P.maxCycles : ℤ) ≤ s.alg.cyc ∨
  (∃ t : PState O, CallReach P env pe o s0 pause t ∧ t.pc = .top ∧
    P.maxClock ≤ ((env.clock t.alg : ℚ) : EVal)) ∨
  ∃ b : ℚ, s.alg.fbest = (b : EVal) ∧ TargetReached P b

/-- **C12** (parallel, any black box) If upper ends of error intervals are not negative: when a parallel call
returns, one of the declared reasons holds, where the last one is that the best value the object tracks
is within `eps_opt` of the target. -/
theorem C12_parallel_stop_reason_two_phase (hz : 0 < P.epsZero)
    (hnn : ∀ id, 0 ≤ (pe.noisyRes id).2.2) {s0 : PState O}
    {pause : ℕ} (h : CallReach P env pe o s0 pause s) (hd : s.pc = .done) :
    StopReasonTracked P env pe o s0 pause s := by
  suffices key : s0.alg.itercount ≤ s.alg.itercount ∧ (((∃ todo, s.pc = .closing todo) ∨ s.pc = .done) →
      StopReasonTracked P env pe o s0 pause s) from key.2 (Or.inr hd)
  clear hd
  induction h with
  | start h1 h2 =>
    have hw : ∀ {q : PState O}, (withGap P q).alg = q.alg ∧ ∀ todo, (withGap P q).pc ≠ .closing todo ∧
        (withGap P q).pc ≠ .done := by
      intro q; unfold withGap; split <;> simp
    cases h2 with
    | zeroFrequency => exact ⟨le_refl _, by simp⟩
    | firstFails => exact ⟨le_refl _, by simp⟩
    | first _ _ hre =>
      obtain ⟨pts, noisy, o, done, rest, prev, u, calls, a, m, M, i, hq⟩ := restartPar_ok hre
      refine ⟨?_, ?_⟩
      · rw [hw.1, hq.eq]
        dsimp only [PState.fates]
        rw [hq.install.itercount]
        exact le_refl _
      · rintro (⟨todo, h⟩ | h)
        · exact absurd h (hw.2 todo).1
        · exact absurd h (hw.2 []).2
    | resumed =>
      refine ⟨?_, ?_⟩
      · rw [hw.1]; exact le_refl _
      · rintro (⟨todo, h⟩ | h)
        · exact absurd h (hw.2 todo).1
        · exact absurd h (hw.2 []).2
  | @step s s' h1 hs ih =>
    refine ⟨ih.1.trans hs.iter_mono, ?_⟩
    have hr := h1.reach
    cases hs with
    | leave hp hc =>
      intro _
      unfold parCond at hc
      have hc' : ¬ loopCond P env s0.alg.itercount pause s.alg { gap := s.gap, err := none } = true := by
        rw [hc]; simp
      rw [loopCond_iff] at hc'
      by_contra hne
      unfold StopReasonTracked at hne
      simp only [not_or, not_le] at hne
      obtain ⟨n1, n2, n3, n4, n5, n6, n7⟩ := hne
      apply hc'
      dsimp only at *
      have := ih.1
      refine ⟨by omega, n2, n3, n4, n5, ?_, ?_⟩
      · by_contra hcl
        exact n6 ⟨s, h1, hp, not_lt.mp hcl⟩
      · by_contra hgap
        have hg : computeGap P s.alg.fbest ≤ ((P.epsOpt : ℚ) : EVal) :=
          (hr.gapN hz hnn (by rw [hp]; trivial)).trans (not_lt.mp hgap)
        apply n7
        induction hx : s.alg.fbest using WithTop.recTopCoe with
        | top => rw [hx] at hg; simp [computeGap] at hg
        | coe b =>
          rw [hx] at hg
          exact ⟨b, rfl, (computeGap_le_iff hz).mp hg⟩
    | close hp =>
      unfold PState.orRaise
      split
      · intro h; simp at h
      · rename_i s1 hc
        intro _
        have := ih.2 (Or.inl ⟨_, hp⟩)
        obtain ⟨hn, hne, a, gap, g, st, ha, _, rfl⟩ := closeJob_cases hc
        have e1 := ha.rest.2.1
        have e2 := ha.ctl.2.2.1
        unfold StopReasonTracked at this ⊢
        dsimp only [PState.fate]
        rw [e1, e2, ha.fbest]
        rcases this with h | h | h | h | h | h | ⟨v, hv, h⟩
        · left; omega
        · right; left; omega
        · exact .inr (.inr (.inl h))
        · exact .inr (.inr (.inr (.inl h)))
        · exact .inr (.inr (.inr (.inr (.inl h))))
        · exact .inr (.inr (.inr (.inr (.inr (.inl h)))))
        · refine .inr (.inr (.inr (.inr (.inr (.inr ?_)))))
          rw [hv]
          refine ⟨min v _, (WithTop.coe_min _ _).symm, ?_⟩
          unfold TargetReached at *
          exact (min_le_left _ _).trans h
    | finish hp =>
      intro _
      exact ih.2 (Or.inl ⟨_, hp⟩)
    | enter => intro h; simp at h
    | evalsDone => intro h; dsimp only at h; split at h <;> simp at h
    | collect => intro h; unfold PState.orRaise at h; split at h <;> simp at h
    | harvest => intro h; unfold PState.orRaise at h; split at h <;> simp at h
    | restart => intro h; unfold PState.orRaise at h; split at h <;> simp at h
    | restoration => intro h; unfold PState.orRaise at h; split at h <;> simp at h
    | submit => intro h; unfold PState.orRaise at h; split at h <;> simp at h
    | _ => intro h; simp at h

end Rbfopt
