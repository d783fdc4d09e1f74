import Verif.Props.Sound
import Verif.Props.ParallelSound

/-!
# What the result says about the true optimum when there is an `evaluate_noisy()` (C97)
-/

namespace Rbfopt

variable {O : Type} {P : Params} {env : Env O} {o : O} {eps : ℚ} {vars : List Var} {sc : Scaling}
  {C : InitCfg} {f : Pt → ℚ}

/-- **C97** (with `evaluate_noisy`) If the noisy evaluations are within `δ` of the function `f` that
`evaluate()` computes, the value returned by `optimize()` is within `δ` of the value of `f` at a feasible point
identified with the returned one; so it is at least every lower bound of `f`, up to `δ`.  If the
record returned is flagged accurate, this holds without `δ`. -/
theorem C97_noisy_value (hc : CodeRun P env eps vars sc C) (hf : Computes P env eps vars f) {δ : ℚ} (hδ : 0 ≤ δ)
    (hn : ∀ before x, FeasibleUser eps vars x → |(env.evalNoisy before x).1 - f x| ≤ δ) {s : Alg O}
    {fuel pause : ℕ} {r : OptResult O} (hr : Reach P env o .idle s) (h : optimize P env fuel pause s = .ret r) :
    (∃ q, NearChain env P.epsZero r.point q ∧ FeasibleUser eps vars (env.decode q) ∧
      |r.value - f (env.decode q)| ≤ δ) ∧
    (∀ m, (∀ x, FeasibleUser eps vars x → m ≤ f x) → m - δ ≤ r.value) ∧
    (∀ i : ℕ, r.final.all.pos[i]? = some r.point → r.final.all.val[i]? = some r.value →
      r.final.all.noisy[i]? = some false →
      (∃ q, NearChain env P.epsZero r.point q ∧ FeasibleUser eps vars (env.decode q) ∧
        f (env.decode q) = r.value) ∧
      ∀ m, (∀ x, FeasibleUser eps vars x → m ≤ f x) → m ≤ r.value) := by
  have hr' := optimize_reach hr h
  have huser : ∀ q v, UserGave P q v → FeasibleUser eps vars (env.decode q) ∧ f (env.decode q) = v := by
    intro q v hug
    refine ⟨?_, (hf.user _ _ hug).symm⟩
    obtain ⟨i, hi, -⟩ := hug
    rw [hc.runs.decode]
    exact ((C30_bijection (eps := eps) hc.wellFormed).2 q (hc.init q (List.mem_of_getElem? hi))).1
  have hacc : ∀ q v, Evaluated env r.final.log q v →
      FeasibleUser eps vars (env.decode q) ∧ f (env.decode q) = v := by
    intro q v hev
    obtain ⟨h1, h2⟩ := hc.call hf hr' hev
    exact ⟨h1, h2.symm⟩
  have hnoi : ∀ q v, EvaluatedNoisy env r.final.log q v →
      FeasibleUser eps vars (env.decode q) ∧ |v - f (env.decode q)| ≤ δ := by
    rintro q v ⟨el, eu, hx⟩
    have hfeas : FeasibleUser eps vars (env.decode q) :=
      (C17_whole_run hc.wellFormed hc.runs hc.scaling hc.dim hc.steps hc.samples hc.dist
        hc.strategy hc.init hr').1 _ hx
    obtain ⟨k, hk⟩ := List.mem_iff_getElem?.mp hx
    have hv : (v, el, eu) = env.evalNoisy (r.final.log.take k) (env.decode q) :=
      C01_values_are_answers hr' k _ hk
    have := hn (r.final.log.take k) _ hfeas
    rw [← hv] at this
    exact ⟨hfeas, this⟩
  have key : ∃ q, NearChain env P.epsZero r.point q ∧ FeasibleUser eps vars (env.decode q) ∧
      |r.value - f (env.decode q)| ≤ δ := by
    obtain ⟨i, h1, h2⟩ := (C01_returns_best_record h).2
    obtain ⟨_, b, e, _, hb, he⟩ := hr'.wf.allA.has h1
    cases b with
    | false =>
      obtain ⟨q, hq, h3⟩ := C05_accurate_records_genuine hr' i _ _ _ e h1 h2 hb he rfl
      have : FeasibleUser eps vars (env.decode q) ∧ f (env.decode q) = r.value :=
        h3.elim (hacc _ _) (huser _ _)
      exact ⟨q, hq, this.1, by rw [this.2, sub_self, abs_zero]; exact hδ⟩
    | true =>
      obtain ⟨q, hq, h3⟩ := C05_noisy_records_genuine hr' i _ _ _ e h1 h2 hb he rfl
      rcases h3 with h3 | h3
      · have := hacc _ _ h3
        exact ⟨q, hq, this.1, by rw [this.2, sub_self, abs_zero]; exact hδ⟩
      · exact ⟨q, hq, hnoi _ _ h3⟩
  refine ⟨key, fun m hm => ?_, fun i h1 h2 hb => ?_⟩
  · obtain ⟨q, -, h1, h2⟩ := key
    have := (abs_le.mp h2).1
    have := hm _ h1
    linarith
  · obtain ⟨a1, a2, a3⟩ := hr'.wf.allA
    have hlt := (List.getElem?_eq_some_iff.mp h1).1
    obtain ⟨q, hq, h3⟩ := C05_accurate_records_genuine hr' i _ _ _ _ h1 h2 hb
      (List.getElem?_eq_getElem (show i < r.final.all.err.length by omega)) rfl
    have : FeasibleUser eps vars (env.decode q) ∧ f (env.decode q) = r.value :=
      h3.elim (hacc _ _) (huser _ _)
    exact ⟨⟨q, hq, this⟩, fun m hm => by rw [← this.2]; exact hm _ this.1⟩

variable {pe : PEnv O} {c : PCtl} {s : PState O}

/-- Every value with a source is within `δ` of a value of `f` at a feasible point. -/
theorem PSource.attainedNoisy (hc : ParRun P env pe eps vars sc) (htwo : P.twoPhase = true → sc = .off)
    (hf : PComputes P env pe s eps vars f) {δ : ℚ} (hδ : 0 ≤ δ)
    (hn : ∀ id x tag, s.subs[id]? = some (x, true, tag) → FeasibleUser eps vars (env.decode x) →
      |(pe.noisyRes id).1 - f (env.decode x)| ≤ δ)
    (h : PReach P env pe o c s) {p : Pt} {v : ℚ} {b : Bool}
    (hs : PSource P env pe s p v b) : ∃ x, FeasibleUser eps vars x ∧ |v - f x| ≤ δ ∧ (b = false → f x = v) := by
  obtain ⟨h1, h2⟩ := C17_parallel_feasible hc.wellFormed hc.runs hc.scaling htwo hc.proposes hc.samples
    hc.init h
  have hret : ∀ {id x nb tag v e}, s.Returned pe id x nb tag v e →
      ∃ x, FeasibleUser eps vars x ∧ |v - f x| ≤ δ ∧ (nb = false → f x = v) := by
    rintro id x nb tag v e ⟨r1, r2⟩
    have hx := h1 _ (List.mem_of_getElem? r1)
    refine ⟨_, hx, ?_⟩
    cases nb with
    | false =>
      have h3 := hf.workers id x tag r1 hx
      have h4 : pe.acc id = v := by simpa using r2.1
      have : f (env.decode x) = v := by rw [← h3, h4]
      exact ⟨by rw [this, sub_self, abs_zero]; exact hδ, fun _ => this⟩
    | true =>
      have h3 := hn id x tag r1 hx
      have h4 : pe.noisyRes id = (v, e.1, e.2) := by simpa using r2
      rw [h4] at h3
      exact ⟨h3, fun h => by cases h⟩
  have hdec : ∀ p ∈ P.initPos, FeasibleUser eps vars (env.decode p) := by
    intro p hp
    rw [hc.runs.decode]
    exact ((C30_bijection (eps := eps) hc.wellFormed).2 p (hc.init p hp)).1
  have hex : ∀ {p v}, FeasibleUser eps vars (env.decode p) → v = f (env.decode p) →
      ∃ x, FeasibleUser eps vars x ∧ |v - f x| ≤ δ ∧ (b = false → f x = v) := by
    intro p v hp hv
    exact ⟨_, hp, by rw [hv, sub_self, abs_zero]; exact hδ, fun _ => hv.symm⟩
  induction hs with
  | @job _ _ b nb _ _ _ _ a2 a3 =>
    obtain ⟨x, g1, g2, g3⟩ := hret a2
    refine ⟨x, g1, g2, fun hb => g3 ?_⟩
    cases nb with
    | false => rfl
    | true => rw [a3 rfl] at hb; cases hb
  | late _ a2 => exact hret a2
  | userEval a1 a2 => exact hex (hdec _ a1) (hf.main _ _ a2 (hdec _ a1))
  | userVal i a1 a2 => exact hex (hdec _ (List.mem_of_getElem? a1)) (hf.user _ _ ⟨i, a1, a2⟩)
  | near _ _ ih => exact ih hex

/-- **C97** (parallel, with `evaluate_noisy`) If the noisy evaluations are within `δ` of `f`, then, whatever the
order in which the workers answer, the value returned is within `δ` of the value of `f` at a feasible
point, and at least every lower bound of `f` up to `δ`; without `δ` if the record is flagged accurate. -/
theorem C97_parallel_noisy_value (hc : ParRun P env pe eps vars sc) (htwo : P.twoPhase = true → sc = .off)
    (hf : PComputes P env pe s eps vars f) {δ : ℚ} (hδ : 0 ≤ δ)
    (hn : ∀ id x tag, s.subs[id]? = some (x, true, tag) → FeasibleUser eps vars (env.decode x) →
      |(pe.noisyRes id).1 - f (env.decode x)| ≤ δ)
    (h : PReach P env pe o c s) {r : OptResult O} (hr : optimizeReturn s.alg = .ret r) :
    (∃ x, FeasibleUser eps vars x ∧ |r.value - f x| ≤ δ) ∧
    (∀ m, (∀ x, FeasibleUser eps vars x → m ≤ f x) → m - δ ≤ r.value) ∧
    (∀ i : ℕ, s.alg.all.pos[i]? = some r.point → s.alg.all.val[i]? = some r.value →
      s.alg.all.noisy[i]? = some false → (∃ x, FeasibleUser eps vars x ∧ f x = r.value) ∧
        ∀ m, (∀ x, FeasibleUser eps vars x → m ≤ f x) → m ≤ r.value) := by
  obtain ⟨b1, ⟨i, b2, b3⟩, -⟩ := C01_parallel_returns_best_record hr
  obtain ⟨a1, a2, a3⟩ := h.book.wf.allA
  have hlt := (List.getElem?_eq_some_iff.mp b2).1
  have hsrc := C60_records_genuine h i _ _ _ _ b2 b3
    (List.getElem?_eq_getElem (show i < s.alg.all.noisy.length by omega))
    (List.getElem?_eq_getElem (show i < s.alg.all.err.length by omega))
  obtain ⟨x, hx, hv, -⟩ := PSource.attainedNoisy hc htwo hf hδ hn h hsrc
  refine ⟨⟨x, hx, hv⟩, fun m hm => ?_, fun j g1 g2 g3 => ?_⟩
  · have := (abs_le.mp hv).1
    have := hm _ hx
    linarith
  · have hj := (List.getElem?_eq_some_iff.mp g1).1
    have hsj := C60_records_genuine h j _ _ _ _ g1 g2 g3
      (List.getElem?_eq_getElem (show j < s.alg.all.err.length by omega))
    obtain ⟨y, hy, -, hvy⟩ := PSource.attainedNoisy hc htwo hf hδ hn h hsj
    exact ⟨⟨y, hy, hvy rfl⟩, fun m hm => by rw [← hvy rfl]; exact hm y hy⟩

end Rbfopt
