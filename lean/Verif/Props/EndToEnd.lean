import Verif.Props.Steps
import Verif.Props.Samples

/-!
# Feasibility of every evaluation of a whole run, with the steps of the code
-/

namespace Rbfopt

variable {O : Type} {eps : ℚ} {vars : List Var} {sc : Scaling}

theorem roundInts_self {ints : List ℕ} {p : Pt} (h : ∀ i ∈ ints, IsInt (p.getD i 0)) :
    roundInts ints p = p := by
  refine roundInts_near ⟨rfl, fun i _ => ?_⟩ h
  split
  · simp
  · rfl

/-- The steps of the code propose feasible points as long as the nodes are feasible. -/
theorem StepsComputed.proposals {env : Env O} (hw : WellFormed vars)
    (hsc : sc = .off ∨ (construct eps vars).intVars = []) (hdim : 0 < (construct eps vars).dim)
    (h : StepsComputed env (stepProblem sc (construct eps vars))) :
    ProposalsFrom env (FeasibleInternal (stepProblem sc (construct eps vars))) := by
  refine ⟨fun s hn p o hs => ?_, fun s hn lp o p hl hp => ?_, fun s hn rp o p hr hp => ?_,
    fun s hn i => ?_⟩
  · rcases h.search s p o hs with ⟨m, base, objfun, d, h1, h2, h3⟩ |
      ⟨C, m, base, fi, vals, fmin, fmax, step, rv, rs, objfun, d, h1, h2⟩
    · exact (C78_pure_global_step hw hsc hdim h1 h2).1 p h3
    · exact (C78_global_step hw hsc hdim h1 hn h2).1
  · obtain ⟨C, m, base, fi, fmin, fmax, rv, rs, objfun, d, out, h1, h2, h3, -⟩ := h.loc s lp o hl
    exact (C78_local_search hw hsc hdim h1 hn h2 (h3.symm.trans hp)).1
  · obtain ⟨e, g, D, start, h1, h2, h3, h4, -, h6⟩ := h.ref s rp o hr
    exact (C79_refinement_step hw hsc h1 h2 h3 h4 hn h6).1 p hp
  · obtain ⟨base, objfun, d, p, h1, h2, h3, h4⟩ := h.rest s i
    have := (C78_pure_global_step hw hsc hdim h1 h2).1 p h3
    rw [h4, roundInts_self (ints := (stepProblem sc (construct eps vars)).intVars) this.integral]
    exact this

theorem clipPt_self {p l u : Pt} (h : InBox l u p) : clipPt p l u = p := by
  obtain ⟨h1, h2⟩ := h
  induction h1 generalizing u with
  | nil => cases h2; rfl
  | cons ha _ ih =>
    cases h2 with
    | cons hb h2 => simp only [clipPt, ih h2, clip1_self ha hb]

/-- The run on the problem as the steps see it. -/
theorem RunsOn.stepSources {P : Params} {env : Env O} (hw : WellFormed vars)
    (hrun : RunsOn P env eps vars sc) (hsc : sc = .off ∨ (construct eps vars).intVars = [])
    (hprop : ProposalsFrom env (FeasibleInternal (stepProblem sc (construct eps vars))))
    (hinit : SamplesIn env (FeasibleInternal (construct eps vars)))
    (huser : ∀ p ∈ P.initPos, FeasibleInternal (construct eps vars) p) :
    Sources P env (FeasibleInternal (stepProblem sc (construct eps vars)))
      (FeasibleInternal (construct eps vars)) := by
  have hF := catFacts_step (eps := eps) hw hsc
  have hg := goodLayout_construct (eps := eps) hw
  refine ⟨hinit, huser, fun p hp => ?_, fun p hp => ?_, hprop⟩
  · rw [hrun.toInternal]
    obtain ⟨h1, -⟩ := (C34_domain_scaling (sc := sc) (ints := (construct eps vars).intVars) hsc
      (lower := (construct eps vars).lower) (upper := (construct eps vars).upper)
      (forall₂_iff_get.mpr ⟨hg.box.length.symm, fun i a b ha hb => by
        have := hg.box.le i (List.getElem?_eq_some_iff.mp ha).1
        rwa [getD_of ha, getD_of hb] at this⟩)).1 p ⟨hp.lower, hp.upper⟩
    have hlen : (transformDomain sc (construct eps vars).lower (construct eps vars).upper
        (construct eps vars).intVars false p).length = (stepProblem sc (construct eps vars)).dim := by
      rw [← h1.1.length_eq]
      exact hF.good.dim
    refine ⟨hlen, h1.1, h1.2, ?_, ?_⟩
    · intro i hi
      rcases hsc with rfl | hnil
      · simpa [transformDomain] using hp.integral i hi
      · have : i ∈ (construct eps vars).intVars := hi
        rw [hnil] at this; cases this
    · intro e he
      rcases hsc with rfl | hnil
      · simpa [transformDomain] using hp.oneHot e he
      · have : e ∈ (construct eps vars).expansion := he
        rw [expansion_nil_of_no_ints hg hnil] at this; cases this
  · have hbox : InBox P.lLower P.lUpper p := by
      rw [hrun.lower, hrun.upper]; exact ⟨hp.lower, hp.upper⟩
    rw [clipPt_self hbox]
    refine ⟨hp, ?_⟩
    have := hrun.lower
    have hce := construct_eq (eps := eps) hw
    have hq := clip_toOrig_feasible (env := env) (P := P) (sc := sc) (eps := eps) hw
      (by rw [← hce]; exact hrun.lower) (by rw [← hce]; exact hrun.upper)
      (by rw [← hce]; exact hrun.toOrig) (by rw [← hce]; exact hsc) (p := p)
      (by rw [← hce]; exact ⟨hp.length, hp.integral, hp.oneHot⟩)
    rw [clipPt_self hbox, ← hce] at hq
    exact hq.2

/-- **C17** (whole run) Every point at which the black box is ever evaluated is feasible for the user's
problem, when samples and search steps are those of the code: genetic algorithm, sampling or a solver
whose results are feasible up to the integrality tolerance, any RBF and fitness, any random numbers,
any settings. -/
theorem C17_whole_run {P : Params} {env : Env O} {o : O} {c : Ctl} {s : Alg O} {C : InitCfg}
    (hw : WellFormed vars) (hrun : RunsOn P env eps vars sc)
    (hsc : sc = .off ∨ (construct eps vars).intVars = []) (hdim : 0 < (construct eps vars).dim)
    (hsteps : StepsComputed env (stepProblem sc (construct eps vars)))
    (hsamp : SamplesComputed env C (construct eps vars)) (hdist : ∀ p, C.dist p p = 0)
    (hs : C.strategy.isLhd = true ∨ (construct eps vars).expansion = [])
    (huser : ∀ p ∈ P.initPos, FeasibleInternal (construct eps vars) p)
    (h : Reach P env o c s) :
    (∀ call ∈ s.log, FeasibleUser eps vars call.point) ∧
    (∀ p ∈ s.cur.pos, FeasibleInternal (stepProblem sc (construct eps vars)) p) ∧
    (∀ p ∈ s.all.pos, FeasibleInternal (construct eps vars) p) := by
  have hinit : SamplesIn env (FeasibleInternal (construct eps vars)) := by
    intro s pts o' he
    obtain ⟨draws, hd, hr⟩ := hsamp s pts o' he
    exact C36_samples_feasible hw hdist hs hd hr
  have hsource := hrun.stepSources hw hsc (hsteps.proposals hw hsc hdim) hinit huser
  obtain ⟨h1, h2, h3⟩ := h.domK hsource
  refine ⟨fun call hcall => ?_, h1, h2⟩
  obtain ⟨p, hp, hpt⟩ := h3 call hcall
  rw [hpt, hrun.decode]
  exact ((C30_bijection (eps := eps) hw).2 p hp).1

end Rbfopt
