import Verif.Lemmas.SubBox
import Verif.Props.Improving
import Verif.Props.Target
import Verif.Props.Bump
import Verif.Spec.Steps

/-!
# The search steps propose feasible points
-/

namespace Rbfopt

/-! ## The box of a search -/

/-- Bounds inside those of `J`, with integral bounds for integer variables. -/
structure BoxIn (J : Internal) (lo up : Pt) : Prop where
  dim : lo.length = J.dim
  length : lo.length = up.length
  le : ∀ i < lo.length, lo.getD i 0 ≤ up.getD i 0
  int : ∀ i ∈ J.intVars, IsInt (lo.getD i 0) ∧ IsInt (up.getD i 0)
  inside : ∀ i < lo.length, J.lower.getD i 0 ≤ lo.getD i 0 ∧ up.getD i 0 ≤ J.upper.getD i 0

theorem BoxIn.sub {J : Internal} (hJ : GoodLayout J) {lo up : Pt} (h : BoxIn J lo up) :
    SubBox J lo up := by
  refine ⟨⟨h.length, h.le, fun i hi => ⟨?_, h.int i hi⟩⟩, h.dim, fun e he i hi => ?_⟩
  · rw [h.dim, ← hJ.dim]; exact (hJ.box.int i hi).1
  · obtain ⟨-, p2, -, p4, p5⟩ := hJ.pos e he i hi
    have := h.inside i (by rw [h.dim]; exact p2)
    rwa [p4, p5] at this

theorem boxIn_self {J : Internal} (hJ : GoodLayout J) : BoxIn J J.lower J.upper :=
  ⟨hJ.dim, hJ.box.length, hJ.box.le, fun i hi => (hJ.box.int i hi).2,
    fun _ _ => ⟨le_rfl, le_rfl⟩⟩

theorem boxIn_local {J : Internal} (hJ : GoodLayout J) {C : TargetCfg}
    (hb : 0 ≤ C.localSearchBoxScaling) {c : Pt} (hc : FeasibleInternal J c) :
    BoxIn J (localBox C J.intVars J.lower J.upper c).1 (localBox C J.intVars J.lower J.upper c).2 := by
  obtain ⟨h1, h2, h3⟩ := localBox_bounds (C := C) (ints := J.intVars) hb hJ.box.length
    (fun i hi _ => (hJ.box.int i hi).2) hc.good.box
  refine ⟨h1.trans hJ.dim, by rw [h1, h2, hJ.box.length], fun i hi => ?_, fun i hi => ?_,
    fun i hi => ?_⟩
  · obtain ⟨-, g2, g3, -⟩ := h3 i (by omega); exact g2.trans g3
  · exact (h3 i (hJ.box.int i hi).1).2.2.2.2 hi
  · obtain ⟨g1, -, -, g4, -⟩ := h3 i (by omega); exact ⟨g1, g4⟩

theorem InSubBox.found {vs : List Var} {J : Internal} (hF : CatFacts vs J) {lo up : Pt}
    (hb : BoxIn J lo up) {q : Pt} (hq : InSubBox J lo up q) : FoundIn J lo up q := by
  have hplain := fun k hk => hq.plain hF (hb.sub hF.good) (k := k) hk
  refine ⟨feasibleInternal_of hF.good ⟨by rw [hq.1.length, hF.good.dim], fun i hi => ?_,
    hq.1.integral⟩ hq.1.oneHot, hplain⟩
  rw [hF.good.dim] at hi
  by_cases hk : i < J.notCategorical.length
  · have h1 := hplain i hk
    have h2 := hb.inside i (by rw [hb.dim]; exact hi)
    exact ⟨h2.1.trans h1.1, h1.2.trans h2.2⟩
  · obtain ⟨e, he, hie⟩ := hF.good.cover i (by omega) hi
    obtain ⟨-, -, -, p4, p5⟩ := hF.good.pos e he i hie
    rw [p4, p5]
    rcases oneHot_value (hq.1.oneHot e he) i hie with h | h <;> rw [h] <;> norm_num

theorem feasible_withBox {vs : List Var} {J : Internal} (hF : CatFacts vs J) {lo up : Pt}
    (hb : BoxIn J lo up) {y : Pt} (h : FeasibleInternal (J.withBox lo up) y) : FoundIn J lo up y := by
  have hJ := hF.good
  have hg := h.good
  have hl : y.length = lo.length := hg.length
  refine ⟨feasibleInternal_of hJ ⟨by rw [h.length, hJ.dim]; rfl, fun i hi => ?_, h.integral⟩ h.oneHot,
    fun k hk => hg.box k ?_⟩
  · have h0 : i < lo.length := by rw [hb.dim, ← hJ.dim]; exact hi
    have h1 := hg.box i h0
    have h2 := hb.inside i h0
    exact ⟨h2.1.trans h1.1, h1.2.trans h2.2⟩
  · show k < lo.length
    rw [hF.layout.notCat] at hk
    rw [hb.dim, hF.dim]
    omega

theorem roundInts_near {ints : List ℕ} {x y : Pt} (h : SolverNear ints x y)
    (hy : ∀ i ∈ ints, IsInt (y.getD i 0)) : roundInts ints x = y := by
  obtain ⟨hl, hn⟩ := h
  apply List.ext_getElem (by rw [roundInts_length, hl])
  intro i h1 h2
  rw [roundInts_length] at h1
  rw [← getD_of (d := (0:ℚ)) (List.getElem?_eq_getElem h2),
    ← getD_of (d := (0:ℚ)) (List.getElem?_eq_getElem (by rw [roundInts_length]; exact h1)),
    roundInts_get _ _ h1]
  have := hn i h1
  split
  · rename_i hi
    rw [if_pos hi] at this
    obtain ⟨z, hz⟩ := hy i hi
    rw [hz] at this ⊢
    rw [abs_lt] at this
    have e : aroundEven (x.getD i 0) = z := by
      have := aroundEven_mem (x := x.getD i 0) (a := z) (b := z) (by linarith) (by linarith)
      omega
    rw [e]
  · rename_i hi
    rw [if_neg hi] at this
    exact this

/-- What the solver finds, after the rounding of the integer variables. -/
theorem solverSearch_feasible {J : Internal} {o : SolverOutcome} (ho : SolverPointOk J o) {p : Pt}
    (h : solverSearch J.intVars o = .ok (some p)) : FeasibleInternal J p := by
  cases o with
  | unavailable => cases h
  | failed => cases h
  | optimal x =>
    cases h
    obtain ⟨y, hy, hn⟩ := ho x rfl
    rw [roundInts_near hn hy.integral]
    exact hy

/-! ## The searches -/

/-- **C78** Every search (genetic algorithm, sampling, solver) in a box inside that of the problem
finds a feasible point of the problem in that box, whatever the random numbers and the fitness; the
genetic algorithm and sampling always find one. -/
theorem auxSearch_found {vs : List Var} {J : Internal} (hF : CatFacts vs J) (hdim : 0 < J.dim)
    {lo up : Pt} (hb : BoxIn J lo up) {m : SearchMethod} {base : ℕ} {objfun : List Pt → List EVal}
    {d : SearchDraws} (hobj : ∀ pts, (objfun pts).length = pts.length)
    (hd : SearchDrawsOk (J.withBox lo up) m base objfun d) :
    (∀ p, auxSearch (J.withBox lo up) m base objfun d = .ok (some p) → FoundIn J lo up p) ∧
    (m ≠ .solver → ∃ p, auxSearch (J.withBox lo up) m base objfun d = .ok (some p)) := by
  have hS := searchSpace_subBox hF (hb.sub hF.good)
  cases m with
  | genetic =>
    obtain ⟨d1, d2, ⟨gens, d3⟩, d4⟩ := hd
    obtain ⟨p, h1, h2, -⟩ := gaOptimize_in hS hobj (I := J.withBox lo up) hdim d1 d2 d3 d4
    have e : auxSearch (J.withBox lo up) .genetic base objfun d = .ok (some p) := by
      unfold auxSearch; rw [h1]
    exact ⟨fun q hq => by rw [e] at hq; cases hq; exact h2.found hF hb, fun _ => ⟨p, e⟩⟩
  | sampling =>
    obtain ⟨d1, d2⟩ := hd
    obtain ⟨p, -, -, h1, h2, -⟩ := samplingSearch_in hS hobj d2 d1
    have e : auxSearch (J.withBox lo up) .sampling base objfun d = .ok (some p) := by
      unfold auxSearch; rw [h1]
    exact ⟨fun q hq => by rw [e] at hq; cases hq; exact h2.found hF hb, fun _ => ⟨p, e⟩⟩
  | solver =>
    refine ⟨fun q hq => ?_, fun h => absurd rfl h⟩
    exact feasible_withBox hF hb (solverSearch_feasible (J := J.withBox lo up) hd hq)

/-! ## The steps -/

section steps

variable {vs : List Var} {J : Internal} {m : SearchMethod} {base : ℕ} {d : SearchDraws}

theorem modelMin_feasible {C : TargetCfg} {rbfMin : Option (Pt × ℚ)} {best : Pt} {fmin : ℚ}
    (hb : FeasibleInternal J best) (hr : ∀ p v, rbfMin = some (p, v) → FeasibleInternal J p) :
    FeasibleInternal J (modelMin C rbfMin best fmin).1 := by
  unfold modelMin
  split
  · split
    · exact hb
    · split
      · exact hb
      · rename_i p v _ _; exact hr _ _ rfl
  · exact hb

theorem globalStepInputs_box (hF : CatFacts vs J) {C : TargetCfg} {nodes : List Pt} {fminIdx : ℕ}
    {vals : List ℚ} {fmin fmax : ℚ} {step : ℕ} {rbfVal : Pt → ℚ} {rbfSolver : SolverOutcome}
    (hs : 0 ≤ C.localSearchBoxScaling) (hsol : SolverPointOk J rbfSolver)
    (hn : ∀ q ∈ nodes, FeasibleInternal J q) {r : GlobalInputs}
    (h : globalStepInputs C J nodes fminIdx vals fmin fmax step rbfVal rbfSolver = .ok r) :
    BoxIn J r.lower r.upper := by
  unfold globalStepInputs at h
  split at h
  · cases h
  · rename_i best hbest
    split at h
    · cases h
    · split at h
      · cases h
      · rename_i p hp
        have hbf := hn best (List.mem_of_getElem? hbest)
        have hc : FeasibleInternal J
            (modelMin C (p.map (fun p => (p, rbfVal p))) best fmin).1 := by
          refine modelMin_feasible hbf fun q v hq => ?_
          cases p with
          | none => cases hq
          | some p' =>
            cases hq
            split at hp
            · exact solverSearch_feasible hsol hp
            · cases hp
        unfold globalInputs at h
        dsimp only at h
        split at h
        · cases h
        · split at h
          · cases h
          · cases h
            dsimp only
            split
            · exact boxIn_local hF.good hs hc
            · exact boxIn_self hF.good

theorem globalStep_found (hF : CatFacts vs J) (hdim : 0 < J.dim) {C : TargetCfg} {nodes : List Pt}
    {fminIdx : ℕ} {vals : List ℚ} {fmin fmax : ℚ} {step : ℕ} {rbfVal : Pt → ℚ}
    {rbfSolver : SolverOutcome} {objfun : GlobalInputs → List Pt → List EVal}
    (hok : GlobalStepOk C m base J nodes fminIdx vals fmin fmax step rbfVal rbfSolver objfun d)
    (hn : ∀ q ∈ nodes, FeasibleInternal J q) {p : Pt}
    (h : globalStep C m base J nodes fminIdx vals fmin fmax step rbfVal rbfSolver objfun d =
      .ok (some p)) :
    step ≤ C.numGlobalSearches ∧
    ∃ r, globalStepInputs C J nodes fminIdx vals fmin fmax step rbfVal rbfSolver = .ok r ∧
      FoundIn J r.lower r.upper p := by
  unfold globalStep at h
  split at h
  · cases h
  · rename_i r hr
    have hst : step ≤ C.numGlobalSearches := by
      unfold globalStepInputs at hr
      split at hr
      · cases hr
      · split at hr
        · cases hr
        · rename_i hlt; exact not_lt.mp hlt
    unfold globalSearch at h
    split at h
    · exact ⟨hst, r, hr, (auxSearch_found hF hdim
        (globalStepInputs_box hF hok.scaling hok.solver hn hr) (hok.fitness r) (hok.draws r hr)).1 p h⟩
    · cases h

theorem localStepMin_feasible {C : LocalCfg} {nodes : List Pt}
    {fminIdx : ℕ} {fmin : ℚ} {rbfVal : Pt → ℚ} {rbfSolver : SolverOutcome}
    (hsol : SolverPointOk J rbfSolver) (hn : ∀ q ∈ nodes, FeasibleInternal J q) {mr : Pt × ℚ}
    (h : localStepMin C J nodes fminIdx fmin rbfVal rbfSolver = .ok mr) :
    FeasibleInternal J mr.1 ∧
      ((nodes[fminIdx]? = some mr.1 ∧ mr.2 = fmin) ∨
        (mr.2 = rbfVal mr.1 ∧ mr.2 < fmin + C.target.epsZero)) := by
  unfold localStepMin at h
  split at h
  · cases h
  · rename_i best hbest
    split at h
    · cases h
    · rename_i p hp
      cases h
      have hbf := hn best (List.mem_of_getElem? hbest)
      unfold rbfMinimum
      split
      · exact ⟨hbf, .inl ⟨hbest, rfl⟩⟩
      · rename_i q
        split
        · exact ⟨hbf, .inl ⟨hbest, rfl⟩⟩
        · rename_i hlt
          exact ⟨solverSearch_feasible hsol hp, .inr ⟨rfl, not_le.mp hlt⟩⟩

theorem localSearchPoint_found (hF : CatFacts vs J) (hdim : 0 < J.dim) {C : LocalCfg}
    {nodes : List Pt} {fminIdx : ℕ} {fmin fmax : ℚ} {rbfVal : Pt → ℚ} {rbfSolver : SolverOutcome}
    {objfun : Pt × Pt → List Pt → List EVal}
    (hok : LocalStepOk C m base J nodes fminIdx fmin rbfVal rbfSolver objfun d)
    (hn : ∀ q ∈ nodes, FeasibleInternal J q) {out : LocalSearchOut}
    (h : localSearchPoint C m base J nodes fminIdx fmin fmax rbfVal rbfSolver objfun d = .ok out)
    {p : Pt} (hp : out.next = some p) :
    FeasibleInternal J p ∧
    (out.adjusted = false → 0 < C.epsImpr → out.target = rbfVal p ∧
      rbfVal p ≤ fmin - C.epsImpr * max 1 |fmin|) ∧
    (out.adjusted = true → ∃ c v, localStepMin C J nodes fminIdx fmin rbfVal rbfSolver = .ok (c, v) ∧
      fmin - C.epsImpr * max 1 |fmin| < v ∧ ((nodes[fminIdx]? = some c ∧ v = fmin) ∨ v = rbfVal c) ∧
      out.target = fmin - 1/100 * max 1 |fmin| ∧
      FoundIn J (localBox C.target J.intVars J.lower J.upper c).1
        (localBox C.target J.intVars J.lower J.upper c).2 p) := by
  unfold localSearchPoint at h
  split at h
  · cases h
  · rename_i mr hmr
    obtain ⟨hf, hcase⟩ := localStepMin_feasible hok.solver hn hmr
    split at h
    · rename_i himp
      cases h
      cases hp
      refine ⟨hf, fun _ he => ?_, (fun hc => by cases hc)⟩
      unfold improves at himp
      rcases hcase with ⟨-, hv⟩ | ⟨hv, -⟩
      · rw [hv] at himp
        have : 0 < C.epsImpr * max 1 |fmin| := mul_pos he (lt_max_of_lt_left one_pos)
        linarith
      · dsimp only; exact ⟨hv, by rw [← hv]; exact himp⟩
    · rename_i himp
      dsimp only at h
      split at h
      · cases h
      · rename_i q hq
        cases h
        dsimp only at hp
        subst hp
        unfold globalSearch at hq
        split at hq
        · have hfound := (auxSearch_found hF hdim (boxIn_local hF.good hok.scaling hf) (hok.fitness _)
            (hok.draws mr hmr himp)).1 p hq
          refine ⟨hfound.1, (fun hc => by cases hc), fun _ => ⟨mr.1, mr.2, hmr, not_le.mp himp, ?_, rfl,
            hfound⟩⟩
          rcases hcase with hc | hc
          · exact .inl hc
          · exact .inr hc.1
        · cases hq

/-- `local_step`: a node to re-evaluate is a node, its position is returned, and it is chosen only
when the step may do so; otherwise the result is that of the search. -/
theorem localStep_cases {C : LocalCfg} {dist : Pt → Pt → ℚ}
    {nodes : List Pt} {fminIdx : ℕ} {fmin fmax : ℚ} {rbfVal : Pt → ℚ} {rbfSolver : SolverOutcome}
    {objfun : Pt × Pt → List Pt → List EVal} {re : ReevalData} {adj : Bool} {next : Option Pt}
    {ind : Option ℕ}
    (h : localStep C m base J dist nodes fminIdx fmin fmax rbfVal rbfSolver objfun d re =
      .ok (adj, next, ind)) :
    ∃ out, localSearchPoint C m base J nodes fminIdx fmin fmax rbfVal rbfSolver objfun d = .ok out ∧
      ((ind = none ∧ adj = out.adjusted ∧ next = out.next) ∨
        ∃ i p q, ind = some i ∧ next = some p ∧ nodes[i]? = some p ∧ out.next = some q ∧
          re.active = true ∧ adj = true ∧ (∀ p' ∈ nodes, dist q p ≤ dist q p') ∧
          (dist q p ≤ C.minDist → re.noisy.getD i false = true)) := by
  unfold localStep at h
  split at h
  · cases h
  · rename_i out hout
    refine ⟨out, hout, ?_⟩
    split at h
    · rename_i ha
      dsimp only at h
      split at h
      · rename_i hnx
        cases h; exact .inl ⟨rfl, rfl, hnx.symm⟩
      · rename_i q hq
        split at h
        · rename_i i hi
          obtain ⟨-, -, dd, h1, h2, h3, -⟩ := C69_reevaluation hi
          split at h
          · cases h
          · rename_i p hp
            cases h
            rw [List.getElem?_map, hp, Option.map_some] at h1
            cases h1
            refine .inr ⟨i, p, q, rfl, rfl, hp, hq, ha, rfl, fun p' hp' => ?_, h3⟩
            exact h2 _ (List.mem_map_of_mem hp')
        · cases h; exact .inl ⟨rfl, rfl, hq.symm⟩
    · cases h; exact .inl ⟨rfl, rfl, rfl⟩

theorem descentPoint_inBox (hJ : GoodLayout J) {epsZero : ℚ} {start : Pt}
    (hs : FeasibleInternal J start) (D : RefData) :
    InBoxPt J (descentPoint epsZero J.lower J.upper start D).1 := by
  have hg := hs.good
  unfold descentPoint
  split
  · exact ⟨hs.length, fun i hi => hg.box i (by rw [hJ.dim]; exact hi)⟩
  · refine ⟨by simp [hs.length], fun i hi => ?_⟩
    dsimp only
    rw [mapIdx_getD (by rw [hs.length]; exact hi)]
    have := hJ.box.le i (by rw [hJ.dim]; exact hi)
    unfold clipQ
    exact ⟨le_min (le_max_right _ _) this, min_le_right _ _⟩

theorem dotQ_sub {h a b : Pt} (hl : a.length = b.length) (hh : h.length = a.length) :
    dotQ h (List.zipWith (· - ·) a b) = dotQ h a - dotQ h b := by
  induction h generalizing a b with
  | nil => simp [dotQ]
  | cons x h ih =>
    cases a with
    | nil => simp at hh
    | cons y a =>
      cases b with
      | nil => simp at hl
      | cons z b =>
        simp only [List.length_cons, Nat.add_right_cancel_iff] at hl hh
        have := ih hl hh
        unfold dotQ at this ⊢
        simp only [List.zipWith_cons_cons, List.sum_cons, this]
        ring

theorem descentPoint_impr {epsZero : ℚ} {start : Pt} {D : RefData} {lower upper : Pt}
    (hh : D.h.length = start.length) : (descentPoint epsZero lower upper start D).2 =
      dotQ D.h start - dotQ D.h (descentPoint epsZero lower upper start D).1 := by
  unfold descentPoint
  split
  · simp
  · dsimp only
    exact dotQ_sub (by simp) hh

theorem refinementCandidate_spec (hJ : GoodLayout J) {epsZero minGradNorm radius : ℚ}
    {dist : Pt → Pt → ℚ} {nodes : List Pt} {modelSet : List ℕ} {start : Pt} {D : RefData}
    (hD : RefDataOk D) (hh : D.h.length = start.length) (hs : FeasibleInternal J start)
    {next : Option Pt} {impr : ℚ} {r : ℕ}
    (h : refinementCandidate epsZero minGradNorm J dist nodes modelSet start radius D =
      .ok (next, impr, r)) :
    ∃ p, next = (if D.gradNorm ≤ minGradNorm then none else some p) ∧ FeasibleInternal J p ∧
      impr = dotQ D.h start - dotQ D.h p ∧
      ∃ i, modelSet[r]? = some i ∧
        ∀ j ∈ modelSet, dist start (nodes.getD j []) ≤ dist start (nodes.getD i []) := by
  unfold refinementCandidate at h
  dsimp only at h
  have hbox := descentPoint_inBox (epsZero := epsZero) hJ hs D
  have himp := descentPoint_impr (epsZero := epsZero) (lower := J.lower) (upper := J.upper) hh
  split at h
  · cases h
  · rename_i v r' hr
    split at h
    · cases h
    · rename_i p adj hp
      cases h
      have hfar : ∃ i, modelSet[r]? = some i ∧
          ∀ j ∈ modelSet, dist start (nodes.getD j []) ≤ dist start (nodes.getD i []) := by
        obtain ⟨a1, a2, -⟩ := argmaxVal_some hr
        rw [List.getElem?_map] at a1
        cases hi : modelSet[r]? with
        | none => rw [hi] at a1; cases a1
        | some i =>
          rw [hi] at a1; cases a1
          exact ⟨i, rfl, fun j hj => a2 _ (List.mem_map_of_mem hj)⟩
      refine ⟨p, rfl, ?_, ?_, hfar⟩
      · split at hp
        · rename_i hi
          cases hp
          refine feasibleInternal_of hJ ⟨by rw [hbox.length, hJ.dim],
            fun i hi' => hbox.box i (by rw [← hJ.dim]; exact hi'), fun i hi' => ?_⟩ fun e he => ?_
          · rw [hi] at hi'; cases hi'
          · exfalso
            obtain ⟨i, hie⟩ := List.exists_mem_of_ne_nil _ (hJ.nonempty e he)
            have := (hJ.pos e he i hie).2.2.1
            rw [hi] at this; cases this
        · exact (C51_rounding hJ hD.first (fun ds hds => hD.round ds hds) hbox.length hp).1.feasible hJ
            hbox
      · rw [himp]
        split at hp
        · cases hp; ring
        · rw [(C51_rounding hJ hD.first (fun ds hds => hD.round ds hds) hbox.length hp).2]; ring

end steps

/-! ## The problem given to the steps -/

theorem expansion_nil_of_no_ints {J : Internal} (hJ : GoodLayout J) (h : J.intVars = []) :
    J.expansion = [] := by
  rw [List.eq_nil_iff_forall_not_mem]
  intro e he
  obtain ⟨i, hie⟩ := List.exists_mem_of_ne_nil _ (hJ.nonempty e he)
  have := (hJ.pos e he i hie).2.2.1
  rw [h] at this; cases this

theorem catFacts_step {eps : ℚ} {vars : List Var} {sc : Scaling} (hw : WellFormed vars)
    (hsc : sc = .off ∨ (construct eps vars).intVars = []) :
    CatFacts (simpVars eps vars) (stepProblem sc (construct eps vars)) := by
  have hF := catFacts_construct (eps := eps) hw
  cases sc with
  | off => exact hF
  | affine =>
    have hnil : (construct eps vars).intVars = [] := by simpa using hsc
    have hexp := expansion_nil_of_no_ints hF.good hnil
    refine ⟨⟨hF.layout.1, hF.layout.2, hF.layout.3⟩, hF.wf, hF.dim, hF.ints, hF.cints, ?_⟩
    have hg := hF.good
    have hl := hg.box.length
    refine ⟨⟨?_, ?_, ?_⟩, ?_, ?_, ?_, ?_, ?_, ?_⟩
    · simp [stepProblem, Internal.withBox, transformBounds, hl]
    · intro i hi
      have hi' : i < (construct eps vars).lower.length := by
        simpa [stepProblem, Internal.withBox, transformBounds] using hi
      rw [getD_of (l := (stepProblem .affine (construct eps vars)).lower) (x := (0:ℚ)) ?_,
        getD_of (l := (stepProblem .affine (construct eps vars)).upper) (x := (1:ℚ)) ?_]
      · norm_num
      · simp [stepProblem, Internal.withBox, transformBounds, hl ▸ hi']
      · simp [stepProblem, Internal.withBox, transformBounds, hi']
    · intro i hi
      have : i ∈ (construct eps vars).intVars := hi
      rw [hnil] at this; cases this
    · have := hg.dim
      simpa [stepProblem, Internal.withBox, transformBounds] using this
    · exact hg.nodup
    · exact hg.nonempty
    · exact hg.disjoint
    · intro e he
      have : e ∈ (construct eps vars).expansion := he
      rw [hexp] at this; cases this
    · exact hg.cover

theorem stepProblem_dim (sc : Scaling) (I : Internal) : (stepProblem sc I).dim = I.dim := rfl

/-! ## C78: global and local search steps -/

section main

variable {eps : ℚ} {vars : List Var} {sc : Scaling} {m : SearchMethod} {base : ℕ} {d : SearchDraws}

/-- **C78** The pure global search (genetic algorithm, sampling or solver) proposes a feasible point of
the problem, whatever the random numbers and the fitness function, and always proposes one unless the
solver is used; without an installed solver it raises RuntimeError. -/
theorem C78_pure_global_step (hw : WellFormed vars)
    (hsc : sc = .off ∨ (construct eps vars).intVars = []) (hdim : 0 < (construct eps vars).dim)
    {objfun : List Pt → List EVal} (hobj : ∀ pts, (objfun pts).length = pts.length)
    (hd : SearchDrawsOk (stepProblem sc (construct eps vars)) m base objfun d) :
    (∀ p, auxSearch (stepProblem sc (construct eps vars)) m base objfun d = .ok (some p) →
      FeasibleInternal (stepProblem sc (construct eps vars)) p) ∧
    (m ≠ .solver → ∃ p,
      auxSearch (stepProblem sc (construct eps vars)) m base objfun d = .ok (some p)) ∧
    (m = .solver → d.solver = .unavailable →
      auxSearch (stepProblem sc (construct eps vars)) m base objfun d = .error .runtimeError) := by
  have hF := catFacts_step (eps := eps) hw hsc
  obtain ⟨h1, h2⟩ := auxSearch_found hF hdim (boxIn_self hF.good) hobj hd
  exact ⟨fun p hp => (h1 p hp).1, h2, fun hm hs => by subst hm; unfold auxSearch; rw [hs]; rfl⟩

/-- **C78** A global search step proposes a feasible point of the problem; its real and integer
coordinates are in the box the step computed, which is inside that of the problem. -/
theorem C78_global_step (hw : WellFormed vars)
    (hsc : sc = .off ∨ (construct eps vars).intVars = []) (hdim : 0 < (construct eps vars).dim)
    {C : TargetCfg} {nodes : List Pt} {fminIdx : ℕ} {vals : List ℚ} {fmin fmax : ℚ} {step : ℕ}
    {rbfVal : Pt → ℚ} {rbfSolver : SolverOutcome} {objfun : GlobalInputs → List Pt → List EVal}
    (hok : GlobalStepOk C m base (stepProblem sc (construct eps vars)) nodes fminIdx vals fmin fmax
      step rbfVal rbfSolver objfun d)
    (hn : ∀ q ∈ nodes, FeasibleInternal (stepProblem sc (construct eps vars)) q) {p : Pt}
    (h : globalStep C m base (stepProblem sc (construct eps vars)) nodes fminIdx vals fmin fmax step
      rbfVal rbfSolver objfun d = .ok (some p)) :
    FeasibleInternal (stepProblem sc (construct eps vars)) p ∧ step ≤ C.numGlobalSearches ∧
    ∃ r, globalStepInputs C (stepProblem sc (construct eps vars)) nodes fminIdx vals fmin fmax step
        rbfVal rbfSolver = .ok r ∧
      ∀ k < (construct eps vars).notCategorical.length,
        r.lower.getD k 0 ≤ p.getD k 0 ∧ p.getD k 0 ≤ r.upper.getD k 0 := by
  obtain ⟨h0, r, h1, h2, h3⟩ := globalStep_found (catFacts_step (eps := eps) hw hsc) hdim hok hn h
  exact ⟨h2, h0, r, h1, h3⟩

/-- **C78** The local search step: the point proposed is feasible; if the step says the point is not
adjusted, the value of the RBF there improves on the best value by at least `eps_impr` (relative);
if it is adjusted, the minimum found for the RBF is no such improvement and the real and integer
coordinates of the point are in the local search box around it. -/
theorem C78_local_search (hw : WellFormed vars)
    (hsc : sc = .off ∨ (construct eps vars).intVars = []) (hdim : 0 < (construct eps vars).dim)
    {C : LocalCfg} {nodes : List Pt} {fminIdx : ℕ} {fmin fmax : ℚ} {rbfVal : Pt → ℚ}
    {rbfSolver : SolverOutcome} {objfun : Pt × Pt → List Pt → List EVal}
    (hok : LocalStepOk C m base (stepProblem sc (construct eps vars)) nodes fminIdx fmin rbfVal
      rbfSolver objfun d)
    (hn : ∀ q ∈ nodes, FeasibleInternal (stepProblem sc (construct eps vars)) q)
    {out : LocalSearchOut}
    (h : localSearchPoint C m base (stepProblem sc (construct eps vars)) nodes fminIdx fmin fmax rbfVal
      rbfSolver objfun d = .ok out) {p : Pt} (hp : out.next = some p) :
    FeasibleInternal (stepProblem sc (construct eps vars)) p ∧
    (out.adjusted = false → 0 < C.epsImpr → out.target = rbfVal p ∧
      rbfVal p ≤ fmin - C.epsImpr * max 1 |fmin|) ∧
    (out.adjusted = true → ∃ c v, localStepMin C (stepProblem sc (construct eps vars)) nodes fminIdx
        fmin rbfVal rbfSolver = .ok (c, v) ∧ fmin - C.epsImpr * max 1 |fmin| < v ∧
      ((nodes[fminIdx]? = some c ∧ v = fmin) ∨ v = rbfVal c) ∧
      out.target = fmin - 1/100 * max 1 |fmin| ∧
      FoundIn (stepProblem sc (construct eps vars))
        (localBox C.target (construct eps vars).intVars
          (stepProblem sc (construct eps vars)).lower (stepProblem sc (construct eps vars)).upper c).1
        (localBox C.target (construct eps vars).intVars
          (stepProblem sc (construct eps vars)).lower (stepProblem sc (construct eps vars)).upper c).2
        p) :=
  localSearchPoint_found (catFacts_step (eps := eps) hw hsc) hdim hok hn h hp

/-- **C78** What `local_step` returns: the result of its search, or, in the second phase of two-phase
optimization, an existing node, the one closest to the point found, which is noisy if the point found
is within `min_dist` of it. -/
theorem C78_local_step (hw : WellFormed vars)
    (hsc : sc = .off ∨ (construct eps vars).intVars = []) (hdim : 0 < (construct eps vars).dim)
    {C : LocalCfg} {dist : Pt → Pt → ℚ} {nodes : List Pt} {fminIdx : ℕ} {fmin fmax : ℚ}
    {rbfVal : Pt → ℚ} {rbfSolver : SolverOutcome} {objfun : Pt × Pt → List Pt → List EVal}
    {re : ReevalData} {adj : Bool} {p : Pt} {ind : Option ℕ}
    (hok : LocalStepOk C m base (stepProblem sc (construct eps vars)) nodes fminIdx fmin rbfVal
      rbfSolver objfun d)
    (hn : ∀ q ∈ nodes, FeasibleInternal (stepProblem sc (construct eps vars)) q)
    (h : localStep C m base (stepProblem sc (construct eps vars)) dist nodes fminIdx fmin fmax rbfVal
      rbfSolver objfun d re = .ok (adj, some p, ind)) :
    FeasibleInternal (stepProblem sc (construct eps vars)) p ∧
    ∃ out, localSearchPoint C m base (stepProblem sc (construct eps vars)) nodes fminIdx fmin fmax
        rbfVal rbfSolver objfun d = .ok out ∧
      ((ind = none ∧ adj = out.adjusted ∧ out.next = some p) ∨
        ∃ i q, ind = some i ∧ nodes[i]? = some p ∧ out.next = some q ∧ re.active = true ∧
          (∀ p' ∈ nodes, dist q p ≤ dist q p') ∧
          (dist q p ≤ C.minDist → re.noisy.getD i false = true)) := by
  obtain ⟨out, h1, h2⟩ := localStep_cases h
  rcases h2 with ⟨a, b, c⟩ | ⟨i, p', q, a, b, c, e, f, -, g, k⟩
  · exact ⟨(C78_local_search hw hsc hdim hok hn h1 c.symm).1, out, h1, .inl ⟨a, b, c.symm⟩⟩
  · cases b
    exact ⟨hn p (List.mem_of_getElem? c), out, h1, .inr ⟨i, q, a, c, e, f, g, k⟩⟩

/-! ## C79: the refinement step -/

/-- **C79** The point proposed by a refinement step is feasible.  Unless it is a model-improving point
(possible only if the model set is rank deficient; the reported improvement is then the *value* of the
linear model), the reported improvement is the decrease of the
linear model from the center to the point, the index to replace is that of a model point farthest
from the center, and no point is proposed exactly if the gradient is at most `ref_min_grad_norm`. -/
theorem C79_refinement_step (hw : WellFormed vars)
    (hsc : sc = .off ∨ (construct eps vars).intVars = []) {epsZero minGradNorm radius : ℚ}
    (he : epsZero ≤ 1) {dist : Pt → Pt → ℚ} {nodes : List Pt} {modelSet : List ℕ} {startIdx : ℕ}
    {start : Pt} (hstart : nodes[startIdx]? = some start) {D : RefData} (hD : RefDataOk D)
    (hh : D.h.length = (construct eps vars).dim)
    (hn : ∀ q ∈ nodes, FeasibleInternal (stepProblem sc (construct eps vars)) q)
    {next : Option Pt} {impr : ℚ} {r : ℕ}
    (h : refinementStepFn epsZero minGradNorm (stepProblem sc (construct eps vars)) dist nodes modelSet
      startIdx radius D = .ok (next, impr, r)) :
    (∀ p, next = some p → FeasibleInternal (stepProblem sc (construct eps vars)) p) ∧
    ((D.rankDeficient = true ∧ ∃ p dir, next = some p ∧ p = addPt start dir ∧ D.better dir = true ∧
        impr = dotQ D.h p + D.b) ∨
      ∃ p, next = (if D.gradNorm ≤ minGradNorm then none else some p) ∧
        impr = dotQ D.h start - dotQ D.h p ∧
        ∃ i, modelSet[r]? = some i ∧
          ∀ j ∈ modelSet, dist start (nodes.getD j []) ≤ dist start (nodes.getD i [])) := by
  have hF := catFacts_step (eps := eps) hw hsc
  have hs := hn start (List.mem_of_getElem? hstart)
  have key : ∀ {next : Option Pt} {impr : ℚ} {r : ℕ},
      refinementCandidate epsZero minGradNorm (stepProblem sc (construct eps vars)) dist nodes modelSet
        start radius D = .ok (next, impr, r) →
      (∀ p, next = some p → FeasibleInternal (stepProblem sc (construct eps vars)) p) ∧
      ∃ p, next = (if D.gradNorm ≤ minGradNorm then none else some p) ∧
        impr = dotQ D.h start - dotQ D.h p ∧
        ∃ i, modelSet[r]? = some i ∧
          ∀ j ∈ modelSet, dist start (nodes.getD j []) ≤ dist start (nodes.getD i []) := by
    intro next impr r h
    obtain ⟨p, h1, h2, h3, h4⟩ := refinementCandidate_spec hF.good hD
      (by rw [hh, hs.length]; rfl) hs h
    refine ⟨fun q hq => ?_, p, h1, h3, h4⟩
    rw [h1] at hq
    split at hq
    · cases hq
    · cases hq; exact h2
  unfold refinementStepFn at h
  rw [hstart] at h
  dsimp only at h
  split at h
  · cases h
  · split at h
    · rename_i hrd
      split at h
      · cases h
      · rename_i p found r' hm
        have hst : nodes.getD startIdx [] = start := by
          rw [List.getD_eq_getElem?_getD, hstart]; rfl
        split at h
        · rename_i hf
          cases h
          subst hf
          obtain ⟨g1, dir, g2, g3⟩ := modelImproving_feasible hF.good he
            (fun us hus => hD.improving us hus) (by rw [hst]; exact hs) hm
          rw [hst] at g2
          exact ⟨fun q hq => by cases hq; exact g1, .inl ⟨hrd, p, dir, rfl, g2, g3, rfl⟩⟩
        · obtain ⟨k1, k2⟩ := key h
          exact ⟨k1, .inr k2⟩
    · obtain ⟨k1, k2⟩ := key h
      exact ⟨k1, .inr k2⟩

end main

/-- **C79** (violated) With a rank-deficient model set the "model value difference" returned is not a
difference: here the linear model `x₀` has the same value 1 at the center (1, 1) and at the proposed
point (1, 2), but an improvement of 1 is reported, against which the actual improvement is then
compared.  The index 0 to replace is also that of the center itself in the model set, since it refers to
the model set without the center. -/
theorem C79_violated_improvement :
    ∃ D : RefData, D.rankDeficient = true ∧ RefDataOk D ∧
      refinementStepFn (1/1000000) (1/1000)
        (stepProblem .off (construct (1/1000000) [⟨0, 10, .R⟩, ⟨0, 10, .R⟩]))
        (fun p q => (List.zipWith (fun a b => |a - b|) p q).sum) [[1, 1], [2, 1], [3, 1]] [0, 1, 2] 0 1 D
        = .ok (some [1, 2], 1, 0) ∧
      dotQ D.h [1, 1] - dotQ D.h [1, 2] = 0 :=
  ⟨{ h := [1, 0], b := 0, rankDeficient := true, qr := ⟨1, [1, 0], [[1, 0], [0, 1]]⟩,
     better := fun d => d.getD 1 0 ≠ 0, improvingDraws := [], gradNorm := 1, stepLength := 1,
     firstDraws := [], roundDraws := [] }, rfl, ⟨by simp, by simp, by simp⟩, by decide +kernel,
    by decide +kernel⟩

end Rbfopt
