import Verif.Props.Rounded
import Verif.Props.ParallelDomain

/-!
# C105: runs with domain scaling in floating point arithmetic
-/

namespace Rbfopt

variable {O : Type} {fl : ℚ → ℚ} {eps : ℚ} {vars : List Var}

/-- `RunsOn` with affine scaling computed in the arithmetic with rounding `fl`. -/
structure RunsOnR (fl : ℚ → ℚ) (P : Params) (env : Env O) (eps : ℚ) (vars : List Var) : Prop where
  lower : P.lLower = (transformBounds .affine (construct eps vars).lower (construct eps vars).upper).1
  upper : P.lUpper = (transformBounds .affine (construct eps vars).lower (construct eps vars).upper).2
  toInternal : ∀ p, env.toInternal p = transformDomainR fl .affine (construct eps vars).lower
    (construct eps vars).upper (construct eps vars).intVars false p
  toOrig : ∀ p, env.toOrig p = transformDomainR fl .affine (construct eps vars).lower
    (construct eps vars).upper (construct eps vars).intVars true p
  decode : ∀ p, env.decode p = decodePt (construct eps vars) p

/-- All variables that are not fixed are real. -/
def RealUnlessFixed (eps : ℚ) (vars : List Var) : Prop := ∀ v ∈ vars, v.isFixed eps = false → v.type = .R

/-- The variable with its upper bound replaced by the rounded `(upper - lower) + lower`, if this is larger;
fixed variables are left alone. -/
def Var.widen (fl : ℚ → ℚ) (eps : ℚ) (v : Var) : Var :=
  if v.isFixed eps then v else ⟨v.lower, max v.upper (topOf fl v.lower v.upper), v.type⟩

theorem Var.widen_fixed (v : Var) (h : v.lower ≤ v.upper) : (v.widen fl eps).isFixed eps = v.isFixed eps := by
  unfold Var.widen
  cases hv : v.isFixed eps with
  | true => simp [hv]
  | false =>
    simp only [Bool.false_eq_true, if_false]
    unfold Var.isFixed at hv ⊢
    rw [decide_eq_false_iff_not, not_le] at hv ⊢
    refine hv.trans_le ?_
    have h1 : v.upper ≤ max v.upper (topOf fl v.lower v.upper) := le_max_left _ _
    rw [abs_of_nonpos (by linarith), abs_of_nonpos (by linarith)]
    linarith

theorem WellFormed.widen (hw : WellFormed vars) (hc : RealUnlessFixed eps vars) :
    WellFormed (vars.map (Var.widen fl eps)) := by
  intro w hwm
  obtain ⟨v, hv, rfl⟩ := List.mem_map.mp hwm
  unfold Var.widen
  cases hf : v.isFixed eps with
  | true => simpa using hw v hv
  | false =>
    simp only [Bool.false_eq_true, if_false]
    exact ⟨(hw v hv).1.trans (le_max_left _ _), fun h => absurd (hc v hv hf) h⟩

/-- The internal problem of a continuous problem. -/
theorem layout_continuous (hc : RealUnlessFixed eps vars) : layout eps vars =
    { dim := (unfixedSpec eps vars).length
      lower := (unfixedSpec eps vars).map Var.lower
      upper := (unfixedSpec eps vars).map Var.upper
      intVars := []
      categorical := []
      notCategorical := List.range (unfixedSpec eps vars).length
      expansion := []
      fixed := fixedFrom eps 0 vars } := by
  have hR : ∀ v ∈ unfixedSpec eps vars, v.type = .R := by
    intro v hv
    have h := List.mem_filter.mp hv
    exact hc v h.1 (by simpa using h.2)
  have hs : simpVars eps vars = unfixedSpec eps vars := by
    unfold simpVars
    conv_rhs => rw [← List.map_id (unfixedSpec eps vars)]
    apply List.map_congr_left
    intro v hv
    simp [Var.simplify, hR v hv]
  unfold layout
  rw [hs]
  generalize unfixedSpec eps vars = vs at hR
  have w0 : ∀ (f : Var → Bool) (k : ℕ) (l : List Var), (∀ v ∈ l, f v = false) → whereFrom f k l = [] := by
    intro f k l
    induction l generalizing k with
    | nil => intro _; rfl
    | cons a l ih => intro h; simp [whereFrom, h a (by simp), ih (k + 1) (fun v hv => h v (by simp [hv]))]
  have w1 : ∀ (f : Var → Bool) (k : ℕ) (l : List Var), (∀ v ∈ l, f v = true) → whereFrom f k l =
      List.range' k l.length := by
    intro f k l
    induction l generalizing k with
    | nil => intro _; rfl
    | cons a l ih =>
      intro h
      simp [whereFrom, h a (by simp), ih (k + 1) (fun v hv => h v (by simp [hv])), List.range'_succ]
  have c0 : catIdx vs = [] := w0 _ _ _ (fun v hv => by simp [hR v hv])
  have c1 : notCatIdx vs = List.range vs.length := by
    rw [List.range_eq_range']; exact w1 _ _ _ (fun v hv => by simp [hR v hv])
  have c2 : nonCats vs = vs := List.filter_eq_self.mpr (fun v hv => by simp [hR v hv])
  have c3 : numBin vs = 0 := by rw [numBin, c0]; rfl
  have c4 : whereFrom (fun v => decide (v.type = .I)) 0 vs = [] := w0 _ _ _ (fun v hv => by simp [hR v hv])
  simp only [c0, c1, c2, c3, c4, List.replicate_zero, List.append_nil, List.range'_zero, Nat.add_zero, expansionFrom]

theorem unfixedSpec_widen (hw : WellFormed vars) : unfixedSpec eps (vars.map (Var.widen fl eps)) =
    (unfixedSpec eps vars).map (Var.widen fl eps) := by
  unfold unfixedSpec
  rw [List.filter_map]
  congr 1
  apply List.filter_congr
  intro v hv
  simp [Var.widen_fixed v (hw v hv).1]

theorem fixedFrom_widen (hw : WellFormed vars) (k : ℕ) :
    fixedFrom eps k (vars.map (Var.widen fl eps)) = fixedFrom eps k vars := by
  induction vars generalizing k with
  | nil => rfl
  | cons v vs ih =>
    have h1 := Var.widen_fixed (fl := fl) (eps := eps) v (hw v (by simp)).1
    have h2 := ih (fun w hw' => hw w (by simp [hw']))
    simp only [List.map_cons, fixedFrom, h1, h2]
    split
    · rename_i hf; simp [Var.widen, hf]
    · rfl

/-- Widening the variables replaces the upper bounds of the internal problem by `roundedUpper`. -/
theorem layout_widen (hw : WellFormed vars) (hc : RealUnlessFixed eps vars) :
    layout eps (vars.map (Var.widen fl eps)) =
      { layout eps vars with
        upper := roundedUpper fl (layout eps vars).lower (layout eps vars).upper } := by
  have hc' : RealUnlessFixed eps (vars.map (Var.widen fl eps)) := by
    intro w hwm hf
    obtain ⟨v, hv, rfl⟩ := List.mem_map.mp hwm
    rw [Var.widen_fixed v (hw v hv).1] at hf
    simp only [Var.widen, hf, Bool.false_eq_true, if_false]
    exact hc v hv hf
  have hU : ∀ v ∈ unfixedSpec eps vars, v.isFixed eps = false := fun v hv => by
    simpa using (List.mem_filter.mp hv).2
  rw [layout_continuous hc', layout_continuous hc, unfixedSpec_widen hw, fixedFrom_widen hw]
  generalize unfixedSpec eps vars = vs at hU
  simp only [List.length_map, List.map_map, Internal.mk.injEq, and_true, true_and]
  constructor
  · apply List.map_congr_left
    intro v hv
    simp [Var.widen, hU v hv]
  · unfold roundedUpper
    rw [List.zipWith_map, List.zipWith_self]
    apply List.map_congr_left
    intro v hv
    simp [Var.widen, hU v hv]

theorem roundedUpper_ge {l u p : Pt} (h : l.length = u.length) (hp : List.Forall₂ (· ≤ ·) p u) :
    List.Forall₂ (· ≤ ·) p (roundedUpper fl l u) := by
  induction hp generalizing l with
  | nil => cases l <;> simp [roundedUpper]
  | cons hab hp ih =>
    cases l with
    | nil => simp at h
    | cons c l => exact .cons (hab.trans (le_max_left _ _)) (ih (by simpa using h))

theorem topOf_le_rounded {l u p : Pt} (hp : List.Forall₂ (· ≤ ·) p (List.zipWith (topOf fl) l u)) :
    List.Forall₂ (· ≤ ·) p (roundedUpper fl l u) := by
  induction l generalizing u p with
  | nil => simpa [roundedUpper] using hp
  | cons a l ih =>
    cases u with
    | nil => simpa [roundedUpper] using hp
    | cons b u =>
      simp only [List.zipWith_cons_cons] at hp
      cases hp with
      | cons h1 h2 => exact .cons (h1.trans (le_max_right _ _)) (ih h2)

/-- The transformations of a run with rounding: feasible points are feasible for the widened problem, and clipped
proposals are transformed to feasible points of that. -/
theorem RunsOnR.points {P : Params} {env : Env O} (hf : Rounding fl) (hw : WellFormed vars)
    (hc : RealUnlessFixed eps vars) (hrun : RunsOnR fl P env eps vars)
    (hrep : Representable fl (construct eps vars).lower) :
    (∀ p, FeasibleInternal (construct eps vars) p →
      FeasibleInternal (construct eps (vars.map (Var.widen fl eps))) p) ∧
    (∀ p, FeasibleInternal (construct eps (vars.map (Var.widen fl eps))) p →
      Proposable (construct eps vars) (env.toInternal p)) ∧
    (∀ p, Proposable (construct eps vars) p →
      Proposable (construct eps vars) (clipPt p P.lLower P.lUpper) ∧
      FeasibleInternal (construct eps (vars.map (Var.widen fl eps)))
        (env.toOrig (clipPt p P.lLower P.lUpper))) := by
  have hce := construct_eq (eps := eps) hw
  have hce' := construct_eq (eps := eps) (hw.widen (fl := fl) hc)
  obtain ⟨hb, hl, -, -⟩ := layout_bounds (eps := eps) hw
  obtain ⟨r1, r2, r3, r4, -⟩ := hrun
  rw [hce] at hrep r1 r2 ⊢
  rw [hce', layout_widen hw hc]
  simp only [hce] at r3 r4
  have hi : (layout eps vars).intVars = [] := by rw [layout_continuous hc]
  have he : (layout eps vars).expansion = [] := by rw [layout_continuous hc]
  have K : ∀ {q : Pt}, q.length = (layout eps vars).dim → Proposable (layout eps vars) q := fun h =>
    ⟨h, fun i h' => by rw [hi] at h'; simp at h', fun e h' => by rw [he] at h'; simp at h'⟩
  have Q : ∀ {q : Pt}, q.length = (layout eps vars).dim → List.Forall₂ (· ≤ ·) (layout eps vars).lower q →
      List.Forall₂ (· ≤ ·) q (roundedUpper fl (layout eps vars).lower (layout eps vars).upper) →
      FeasibleInternal { layout eps vars with
        upper := roundedUpper fl (layout eps vars).lower (layout eps vars).upper } q := fun h h1 h2 =>
    ⟨h, h1, h2, fun i h' => by rw [hi] at h'; simp at h', fun e h' => by rw [he] at h'; simp at h'⟩
  have W : ∀ {q : Pt}, FeasibleInternal (layout eps vars) q → FeasibleInternal { layout eps vars with
      upper := roundedUpper fl (layout eps vars).lower (layout eps vars).upper } q := fun h =>
    Q h.length h.lower (roundedUpper_ge hb.length_eq h.upper)
  have lenF : ∀ (l u q : Pt), l.length = u.length → l.length = q.length → (affineFwdR fl l u q).length = q.length := by
    intro l
    induction l with
    | nil => intro u q _ h2; cases q <;> simp_all [affineFwdR]
    | cons a l ih =>
      intro u q h1 h2
      cases u with
      | nil => simp at h1
      | cons b u =>
        cases q with
        | nil => simp at h2
        | cons c q => simp [affineFwdR, ih u q (by simpa using h1) (by simpa using h2)]
  refine ⟨fun p hp => W hp, ?_, ?_⟩
  · intro p hp
    rw [r3]
    apply K
    simp only [transformDomainR, hi, reduceCtorEq, ne_eq, not_true_eq_false, or_self, if_false, Bool.false_eq_true]
    rw [lenF _ _ _ hb.length_eq (by rw [hl]; exact hp.length.symm)]
    exact hp.length
  · intro p hp
    rw [r1, r2, r4]
    simp only [transformBounds, transformDomainR, hi, reduceCtorEq, ne_eq, not_true_eq_false, or_self, if_false,
      if_true]
    have hlu := hb.length_eq
    have hbox01 : List.Forall₂ (· ≤ ·) (List.replicate (layout eps vars).lower.length (0:ℚ))
        (List.replicate (layout eps vars).upper.length 1) := by
      rw [← hlu]; exact replicate_le zero_le_one _
    have hbox := clipPt_inBox hbox01 (p := p) (by rw [List.length_replicate, hl, hp.length])
    have hclen := clipPt_length (p := p) (l := List.replicate (layout eps vars).lower.length (0:ℚ))
        (u := List.replicate (layout eps vars).upper.length 1) (by rw [List.length_replicate, hl, hp.length])
        (by rw [List.length_replicate, ← hlu, hl, hp.length])
    refine ⟨K (by rw [hclen, hp.length]), ?_⟩
    have hrev := C105_reverse hf hrep hb hbox
    have hq := Q (by rw [← hrev.1.length_eq, hl]) hrev.1 (topOf_le_rounded hrev.2)
    simp only [hi] at hq
    exact hq

/-- The sources of points of a run with rounding. -/
theorem RunsOnR.sources {P : Params} {env : Env O} (hf : Rounding fl) (hw : WellFormed vars)
    (hc : RealUnlessFixed eps vars) (hrun : RunsOnR fl P env eps vars)
    (hrep : Representable fl (construct eps vars).lower)
    (hprop : ProposalsFrom env (Proposable (construct eps vars)))
    (hinit : SamplesIn env (FeasibleInternal (construct eps vars)))
    (huser : ∀ p ∈ P.initPos, FeasibleInternal (construct eps vars) p) :
    Sources P env (Proposable (construct eps vars))
      (FeasibleInternal (construct eps (vars.map (Var.widen fl eps)))) := by
  obtain ⟨k1, k2, k3⟩ := hrun.points hf hw hc hrep
  exact ⟨fun s pts o h p hp => k1 p (hinit s pts o h p hp), fun p hp => k1 p (huser p hp), k2, k3, hprop⟩

/-- `x` is the value of a fixed variable, or respects the lower bound and the upper bound or, where that is
larger, `(upper - lower) + lower` computed with rounding. -/
def Var.FeasibleRounded (fl : ℚ → ℚ) (eps : ℚ) (v : Var) (x : ℚ) : Prop :=
  if |v.lower - v.upper| ≤ eps then x = v.lower
  else v.lower ≤ x ∧ x ≤ max v.upper (fl (fl (v.upper - v.lower) + v.lower))

/-- Points of the widened internal problem are decoded to points that are feasible up to rounding. -/
theorem widened_decode (hw : WellFormed vars) (hc : RealUnlessFixed eps vars) {p : Pt}
    (hp : FeasibleInternal (construct eps (vars.map (Var.widen fl eps))) p) :
    List.Forall₂ (Var.FeasibleRounded fl eps) vars (decodePt (construct eps vars) p) := by
  have hce := construct_eq (eps := eps) hw
  have hce' := construct_eq (eps := eps) (hw.widen (fl := fl) hc)
  have hd : decodePt (construct eps vars) p = decodePt (construct eps (vars.map (Var.widen fl eps))) p := by
    rw [hce, hce', layout_widen hw hc]; rfl
  rw [hd]
  have := ((C30_bijection (eps := eps) (hw.widen (fl := fl) hc)).2 p hp).1
  unfold FeasibleUser at this
  rw [List.forall₂_map_left_iff] at this
  have aux : ∀ (vs : List Var) (x : Pt), (∀ v ∈ vs, v.lower ≤ v.upper) →
      List.Forall₂ (fun v x => Var.Feasible eps (v.widen fl eps) x) vs x →
      List.Forall₂ (Var.FeasibleRounded fl eps) vs x := by
    intro vs x hv h
    induction h with
    | nil => exact .nil
    | @cons v x vs xs h1 _ ih =>
      refine .cons ?_ (ih (fun w hw => hv w (by simp [hw])))
      have hfix := Var.widen_fixed (fl := fl) (eps := eps) v (hv v (by simp))
      unfold Var.Feasible at h1
      unfold Var.FeasibleRounded
      by_cases hx : |v.lower - v.upper| ≤ eps
      · have hx1 : v.isFixed eps = true := by simp [Var.isFixed, hx]
        have : v.widen fl eps = v := by simp [Var.widen, hx1]
        rw [this, if_pos hx] at h1
        rw [if_pos hx]; exact h1
      · have hx1 : v.isFixed eps = false := by simpa [Var.isFixed] using hx
        have hx2 : ¬ |(v.widen fl eps).lower - (v.widen fl eps).upper| ≤ eps := by
          rw [hx1] at hfix; simpa [Var.isFixed] using hfix
        rw [if_neg hx2] at h1
        rw [if_neg hx]
        have e : v.widen fl eps = ⟨v.lower, max v.upper (topOf fl v.lower v.upper), v.type⟩ := by
          simp [Var.widen, hx1]
        rw [e] at h1
        exact ⟨h1.1, h1.2.1⟩
  exact aux vars _ (fun v hv => (hw v hv).1) this

/-- **C105** With affine scaling computed with rounding, every point at which the black box is called is a
feasible point of the problem with the upper bound of each variable that is not fixed replaced by the rounded
`(upper - lower) + lower`, if that is larger; lower bounds are respected, and fixed variables have their
values. -/
theorem C105_evaluations {P : Params} {env : Env O} {o : O} {c : Ctl} {s : Alg O} (hf : Rounding fl)
    (hw : WellFormed vars) (hc : RealUnlessFixed eps vars) (hrun : RunsOnR fl P env eps vars)
    (hrep : Representable fl (construct eps vars).lower)
    (hprop : ProposalsIn env (Proposable (construct eps vars)))
    (hinit : SamplesIn env (FeasibleInternal (construct eps vars)))
    (huser : ∀ p ∈ P.initPos, FeasibleInternal (construct eps vars) p)
    (h : Reach P env o c s) : ∀ call ∈ s.log, List.Forall₂ (Var.FeasibleRounded fl eps) vars call.point := by
  have hsource := hrun.sources hf hw hc hrep hprop.from hinit huser
  intro call hcall
  obtain ⟨p, hp, hpt⟩ := (h.domK hsource).2.2 call hcall
  rw [hpt, hrun.decode]
  exact widened_decode hw hc hp

/-- **C105** The same with workers, for all points given to workers and all points evaluated by the main
process, if there is no `evaluate_noisy`. -/
theorem C105_parallel_evaluations {P : Params} {env : Env O} {pe : PEnv O} {o : O} {c : PCtl} {s : PState O}
    (hf : Rounding fl) (hw : WellFormed vars) (hc : RealUnlessFixed eps vars) (hrun : RunsOnR fl P env eps vars)
    (hrep : Representable fl (construct eps vars).lower) (htwo : P.twoPhase = false)
    (hprop : ∀ p, pe.proposes p → Proposable (construct eps vars) p)
    (hinit : SamplesIn env (FeasibleInternal (construct eps vars)))
    (huser : ∀ p ∈ P.initPos, FeasibleInternal (construct eps vars) p)
    (h : PReach P env pe o c s) :
    (∀ x ∈ s.subs, List.Forall₂ (Var.FeasibleRounded fl eps) vars (env.decode x.1)) ∧
    ∀ call ∈ s.alg.log, List.Forall₂ (Var.FeasibleRounded fl eps) vars call.point := by
  obtain ⟨k1, k2, k3⟩ := hrun.points hf hw hc hrep
  have hq : PSources (FeasibleInternal (construct eps (vars.map (Var.widen fl eps)))) P env pe :=
    ⟨fun s pts o h p hp => k1 p (hinit s pts o h p hp), fun p hp => k1 p (huser p hp),
      fun p hp => (k3 p (hprop p hp)).2, fun h2 => by rw [htwo] at h2; cases h2⟩
  obtain ⟨h1, h2⟩ := C17_parallel_evaluations hq h
  refine ⟨fun x hx => by rw [hrun.decode]; exact widened_decode hw hc (h1 x hx), ?_⟩
  intro call hcall
  obtain ⟨p, hp, e⟩ := h2 call hcall
  rw [e, hrun.decode]
  exact widened_decode hw hc hp

/-- **C105** If in addition the rounded `(upper - lower) + lower` does not exceed the upper bound, for each
variable that is not fixed (for instance if the widths are computed exactly), the black box is called at
feasible points only. -/
theorem C105_feasible_evaluations {P : Params} {env : Env O} {o : O} {c : Ctl} {s : Alg O} (hf : Rounding fl)
    (hw : WellFormed vars) (hc : RealUnlessFixed eps vars) (hrun : RunsOnR fl P env eps vars)
    (hrep : Representable fl (construct eps vars).lower)
    (hprop : ProposalsIn env (Proposable (construct eps vars)))
    (hinit : SamplesIn env (FeasibleInternal (construct eps vars)))
    (huser : ∀ p ∈ P.initPos, FeasibleInternal (construct eps vars) p)
    (htop : ∀ v ∈ vars, eps < |v.lower - v.upper| → fl (fl (v.upper - v.lower) + v.lower) ≤ v.upper)
    (h : Reach P env o c s) : ∀ call ∈ s.log, FeasibleUser eps vars call.point := by
  intro call hcall
  have h1 := C105_evaluations hf hw hc hrun hrep hprop hinit huser h call hcall
  generalize call.point = x at h1
  unfold FeasibleUser
  clear hrun hrep hprop hinit huser hw
  induction h1 with
  | nil => exact .nil
  | @cons v x vs xs h1 _ ih =>
    refine .cons ?_ (ih (fun w hw => hc w (by simp [hw])) (fun w hw => htop w (by simp [hw])))
    unfold Var.Feasible
    unfold Var.FeasibleRounded at h1
    split
    · rename_i hx; rwa [if_pos hx] at h1
    · rename_i hx
      rw [if_neg hx] at h1
      have hR := hc v (by simp) (by simpa [Var.isFixed] using hx)
      refine ⟨h1.1, ?_, fun hn => absurd hR hn⟩
      rw [max_eq_left (htop v (by simp) (not_le.mp hx))] at h1
      exact h1.2

/-- **C105** With integer variables, or without scaling, points are left as they are, in both directions. -/
theorem C105_not_scaled {sc : Scaling} {ints : List ℕ} (h : sc = .off ∨ ints ≠ []) (l u p : Pt) (rev : Bool) :
    transformDomainR fl sc l u ints rev p = p := if_pos h

/-- **C105** Without rounding this is the scaling of C34. -/
theorem C105_exact (sc : Scaling) (l u p : Pt) (ints : List ℕ) (rev : Bool) :
    transformDomainR id sc l u ints rev p = transformDomain sc l u ints rev p := by
  have h1 : ∀ l u p : Pt, affineFwdR id l u p = affineFwd l u p := by
    intro l
    induction l with
    | nil => intro u p; rfl
    | cons a l ih => intro u p; cases u <;> cases p <;> simp [affineFwdR, affineFwd, ih]
  have h2 : ∀ l u p : Pt, affineRevR id l u p = affineRev l u p := by
    intro l
    induction l with
    | nil => intro u p; rfl
    | cons a l ih => intro u p; cases u <;> cases p <;> simp [affineRevR, affineRev, ih]
  simp only [transformDomainR, transformDomain, h1, h2]

/-- **C105** (violation) The bounds -0.2 and 0.1 in double precision: the upper end of the internal interval
is mapped to 0.10000000000000003, above the upper bound. -/
theorem C105_violated_upper_bound :
    rndBits 53 (1/10) < topOf (rndBits 53) (rndBits 53 (-2/10)) (rndBits 53 (1/10)) ∧
    affineRevR (rndBits 53) [rndBits 53 (-2/10)] [rndBits 53 (1/10)] [1] =
      [1801439850948199/18014398509481984] := by
  decide +kernel

end Rbfopt
