import Verif.Model.UserBB
import Verif.Props.EndToEnd
import Verif.Props.Records
import Verif.Props.HonestLog

/-!
# Ready-made black boxes (C81, C82)
-/

namespace Rbfopt

variable {O : Type}

/-- **C81** The wrapper is created exactly when the three arrays have the given length, and then it
reports what it was given. -/
theorem C81_constructor {n : ℕ} {l u : List ℚ} {ty : List VType} {f : List Call → Pt → ℚ}
    {g : Option (List Call → Pt → ℚ × ℚ × ℚ)} :
    ((∃ bb, newUserBB n l u ty f g = .ok bb) ↔ l.length = n ∧ u.length = n ∧ ty.length = n) ∧
    (∀ bb, newUserBB n l u ty f g = .ok bb →
      bb.getDimension = n ∧ bb.getVarLower = l ∧ bb.getVarUpper = u ∧ bb.getVarType = ty ∧
      bb.hasEvaluateNoisy = g.isSome ∧ bb.vars.length = n ∧
      bb.vars.map Var.lower = l ∧ bb.vars.map Var.upper = u ∧ bb.vars.map Var.type = ty) := by
  unfold newUserBB
  refine ⟨?_, ?_⟩
  · constructor
    · rintro ⟨bb, h⟩
      split at h
      · cases h
      · split at h
        · cases h
        · split at h
          · cases h
          · simp_all
    · rintro ⟨h1, h2, h3⟩
      simp [h1, h2, h3]
  · intro bb h
    split at h
    · cases h
    · split at h
      · cases h
      · split at h
        · cases h
        · rename_i h1 h2 h3
          push Not at h1 h2 h3
          cases h
          have key : ∀ (n : ℕ) (l u : List ℚ) (ty : List VType), l.length = n → u.length = n →
              ty.length = n →
              (List.zipWith (fun (lu : ℚ × ℚ) t => (⟨lu.1, lu.2, t⟩ : Var)) (l.zip u) ty).length = n ∧
              (List.zipWith (fun (lu : ℚ × ℚ) t => (⟨lu.1, lu.2, t⟩ : Var)) (l.zip u) ty).map
                Var.lower = l ∧
              (List.zipWith (fun (lu : ℚ × ℚ) t => (⟨lu.1, lu.2, t⟩ : Var)) (l.zip u) ty).map
                Var.upper = u ∧
              (List.zipWith (fun (lu : ℚ × ℚ) t => (⟨lu.1, lu.2, t⟩ : Var)) (l.zip u) ty).map
                Var.type = ty := by
            intro n
            induction n with
            | zero =>
              intro l u ty e1 e2 e3
              rw [List.length_eq_zero_iff] at e1 e2 e3
              subst e1 e2 e3
              simp
            | succ n ih =>
              intro l u ty e1 e2 e3
              obtain ⟨a, l, rfl⟩ := List.exists_cons_of_length_eq_add_one e1
              obtain ⟨b, u, rfl⟩ := List.exists_cons_of_length_eq_add_one e2
              obtain ⟨c, ty, rfl⟩ := List.exists_cons_of_length_eq_add_one e3
              obtain ⟨i1, i2, i3, i4⟩ := ih l u ty (by simpa using e1) (by simpa using e2)
                (by simpa using e3)
              simp [i1, i2, i3, i4]
          exact ⟨rfl, rfl, rfl, rfl, rfl, key _ _ _ _ h1 h2 h3⟩

/-- **C81** The wrapper calls the user's functions on points of the right length, raises
`AssertionError` on others, and `NotImplementedError` if a noisy evaluation is asked for without a noisy
function. -/
theorem C81_evaluation {n : ℕ} {l u : List ℚ} {ty : List VType} {f : List Call → Pt → ℚ}
    {g : Option (List Call → Pt → ℚ × ℚ × ℚ)} {bb : UserBB} (h : newUserBB n l u ty f g = .ok bb)
    (before : List Call) (x : Pt) :
    (x.length = n → bb.evaluate before x = .ok (f before x) ∧
      (g = none → bb.evaluateNoisy before x = .error .notImplementedError) ∧
      (∀ g', g = some g' → bb.evaluateNoisy before x = .ok (g' before x))) ∧
    (x.length ≠ n → bb.evaluate before x = .error .assertionError ∧
      bb.evaluateNoisy before x = .error .assertionError) := by
  unfold newUserBB at h
  split at h
  · cases h
  · split at h
    · cases h
    · split at h
      · cases h
      · cases h
        refine ⟨fun hx => ?_, fun hx => ?_⟩
        · simp only [UserBB.evaluate, UserBB.evaluateNoisy, hx, ne_eq, not_true, if_false, true_and]
          exact ⟨fun h => by rw [h], fun g' h => by rw [h]⟩
        · simp only [UserBB.evaluate, UserBB.evaluateNoisy, ne_eq, hx, not_false_eq_true, if_true,
            and_self]

/-- The engine calls the wrapper: where the wrapper returns a value, this is the answer. -/
structure UsesBB (P : Params) (env : Env O) (bb : UserBB) : Prop where
  twoPhase : P.twoPhase = bb.hasEvaluateNoisy
  acc : ∀ before x v, bb.evaluate before x = .ok v → env.evalAcc before x = v
  noisy : ∀ before x r, bb.evaluateNoisy before x = .ok r → env.evalNoisy before x = r

/-- The wrapper answers this call without raising an exception, with this result. -/
def UserBB.Answers (bb : UserBB) (before : List Call) : Call → Prop
  | .acc x v => bb.evaluate before x = .ok v
  | .noisy x v el eu => bb.evaluateNoisy before x = .ok (v, el, eu)

/-- **C81** (whole run) When a problem is given by `RbfoptUserBlackBox`, no call ever made by a serial
run makes the wrapper raise an exception (the points have the declared dimension, and the noisy function
is only asked for if there is one), and each call carries what the user's function returned. -/
theorem C81_whole_run {P : Params} {env : Env O} {o : O} {c : Ctl} {s : Alg O} {C : InitCfg}
    {eps : ℚ} {sc : Scaling} {n : ℕ} {l u : List ℚ} {ty : List VType} {f : List Call → Pt → ℚ}
    {g : Option (List Call → Pt → ℚ × ℚ × ℚ)} {bb : UserBB}
    (hbb : newUserBB n l u ty f g = .ok bb) (hu : UsesBB P env bb)
    (hw : WellFormed bb.vars) (hrun : RunsOn P env eps bb.vars sc)
    (hsc : sc = .off ∨ (construct eps bb.vars).intVars = []) (hdim : 0 < (construct eps bb.vars).dim)
    (hsteps : StepsComputed env (stepProblem sc (construct eps bb.vars)))
    (hsamp : SamplesComputed env C (construct eps bb.vars)) (hdist : ∀ p, C.dist p p = 0)
    (hs : C.strategy.isLhd = true ∨ (construct eps bb.vars).expansion = [])
    (huser : ∀ p ∈ P.initPos, FeasibleInternal (construct eps bb.vars) p)
    (h : Reach P env o c s) :
    ∀ (k : ℕ) (call : Call), s.log[k]? = some call → bb.Answers (s.log.take k) call := by
  intro k call hk
  have hfeas := (C17_whole_run hw hrun hsc hdim hsteps hsamp hdist hs huser h).1 call
    (List.mem_of_getElem? hk)
  have hlen : call.point.length = n := by
    rw [← hfeas.length_eq]
    exact (C81_constructor.2 bb hbb).2.2.2.2.2.1
  have hans := C01_values_are_answers h k call hk
  have hev := (C81_evaluation hbb (s.log.take k) call.point).1 hlen
  cases call with
  | acc x v =>
    have h1 := hev.1
    have h2 := hu.acc _ _ _ h1
    have hans' : v = env.evalAcc (s.log.take k) x := hans
    show bb.evaluate _ x = .ok v
    rw [hans']
    exact h1.trans (by rw [← h2]; rfl)
  | noisy x v el eu =>
    have hg : g.isSome = true := by
      by_contra hg
      have : P.twoPhase = false := by
        rw [hu.twoPhase, (C81_constructor.2 bb hbb).2.2.2.2.1]; simpa using hg
      have h0 := (C07_no_noisy_call_unless_declared this h).1
      have hmem := List.mem_of_getElem? hk
      rw [countNoisy, List.countP_eq_zero] at h0
      exact h0 _ hmem rfl
    obtain ⟨g', rfl⟩ := Option.isSome_iff_exists.mp hg
    have h1 : bb.evaluateNoisy (s.log.take k) x = .ok (g' (s.log.take k) x) := hev.2.2 g' rfl
    have h2 := hu.noisy _ _ _ h1
    have hans' : (v, el, eu) = env.evalNoisy (s.log.take k) x := hans
    show bb.evaluateNoisy _ x = .ok (v, el, eu)
    rw [hans', h2]; exact h1

/-- **C82** The noisy test black box keeps its promise: the accurate value lies between `value + lower`
and `value + upper`, with `lower ≤ 0 ≤ upper`, and the deviation is at most the sum of the declared
relative and absolute errors; without errors the value is exact. -/
theorem C82_noisy_interval {v rel ab maxRel maxAbs : ℚ} (hr : |rel| ≤ maxRel) (ha : |ab| ≤ maxAbs) :
    ((testNoisy v rel ab).1 + (testNoisy v rel ab).2.1 ≤ v ∧
      v ≤ (testNoisy v rel ab).1 + (testNoisy v rel ab).2.2) ∧
    ((testNoisy v rel ab).2.1 ≤ 0 ∧ 0 ≤ (testNoisy v rel ab).2.2) ∧
    |(testNoisy v rel ab).1 - v| ≤ maxRel * |v| + maxAbs ∧
    (maxRel = 0 → maxAbs = 0 → testNoisy v rel ab = (v, 0, 0)) := by
  simp only [testNoisy]
  refine ⟨⟨?_, ?_⟩, ⟨?_, abs_nonneg _⟩, ?_, ?_⟩
  · have := le_abs_self (rel * |v| + ab); linarith
  · have := neg_abs_le (rel * |v| + ab); linarith
  · have := abs_nonneg (rel * |v| + ab); linarith
  · have e : v + rel * |v| + ab - v = rel * |v| + ab := by ring
    rw [e]
    calc |rel * |v| + ab| ≤ |(rel * |v|)| + |ab| := abs_add_le _ _
      _ = |rel| * |v| + |ab| := by rw [abs_mul, abs_abs]
      _ ≤ maxRel * |v| + maxAbs := by
        have := mul_le_mul_of_nonneg_right hr (abs_nonneg v)
        linarith
  · intro h1 h2
    subst h1 h2
    have e1 : rel = 0 := abs_eq_zero.mp (le_antisymm hr (abs_nonneg _))
    have e2 : ab = 0 := abs_eq_zero.mp (le_antisymm ha (abs_nonneg _))
    subst e1 e2
    simp

end Rbfopt
