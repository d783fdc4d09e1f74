import Verif.Props.Coverage
import Verif.Props.Sound

/-!
# C104: what covering the search space says about the optimum
-/

namespace Rbfopt

variable {O : Type} {P : Params} {env : Env O} {o : O} {c : Ctl} {eps : ℚ} {vars : List Var}
  {C : InitCfg} {s : Alg O} {f : Pt → ℚ}

/-- `q` is reached from `p` by jumps shorter than `eps` between points of `Q`. -/
inductive NearChainIn (env : Env O) (eps : ℚ) (Q : Pt → Prop) : Pt → Pt → Prop
  | refl {p : Pt} : Q p → NearChainIn env eps Q p p
  | jump {p q r : Pt} : Q p → env.dist p q < eps → NearChainIn env eps Q q r → NearChainIn env eps Q p r

/-- `eta` bounds how much `f` changes between points that the algorithm identifies (values are reused at points
less than `eps_zero` apart).  It is 0 if no two different points of the search space are that near. -/
def IdentifiedWithin (P : Params) (env : Env O) (I : Internal) (f : Pt → ℚ) (eta : ℚ) : Prop :=
  ∀ p q, NearChainIn env P.epsZero (FeasibleInternal I) p q → f (env.decode q) ≤ f (env.decode p) + eta

theorem IdentifiedWithin.of_sep {I : Internal}
    (h : ∀ p q, FeasibleInternal I p → FeasibleInternal I q → env.dist p q < P.epsZero → p = q) :
    IdentifiedWithin P env I f 0 := by
  intro p q hc
  suffices p = q by rw [this]; linarith
  induction hc with
  | refl _ => rfl
  | @jump p q r hp hd hc ih =>
    have hq : FeasibleInternal I q := by cases hc with | refl h => exact h | jump h _ _ => exact h
    exact (h p q hp hq hd).trans ih

/-- Sources of the records, if all records are in `Q`: the points passed through are in `Q`, too. -/
def SourceIn (P : Params) (env : Env O) (Q : Pt → Prop) (s : Alg O) : Prop :=
  (∀ p ∈ s.all.pos, Q p) → s.all.All (fun p v b _ => ∃ q, NearChainIn env P.epsZero Q p q ∧
    (Evaluated env s.log q v ∨ (b = false ∧ UserGave P q v) ∨ (b = true ∧ EvaluatedNoisy env s.log q v)))

theorem Table.All.self {R : Pt → ℚ → Bool → ℚ × ℚ → Prop} {t : Table}
    (h : t.All (fun p v b e => p ∈ t.pos → R p v b e)) : t.All R :=
  fun i p v b e h1 h2 h3 h4 => h i p v b e h1 h2 h3 h4 (List.mem_of_getElem? h1)

theorem SourceIn.micro {Q : Pt → Prop} {s t : Alg O} (hP : P.twoPhase = false)
    (hd : ∀ p, env.dist p p ≤ P.minDist) (w : WF env s) (h : SourceIn P env Q s)
    (hm : Micro P env s t) : SourceIn P env Q t := by
  cases hm with
  | ctrl e =>
    have e1 : t.all = s.all := congrArg Data.all e
    have e3 : t.log = s.log := congrArg Data.log e
    unfold SourceIn; rw [e1, e3]; exact h
  | log obj gap =>
    obtain ⟨g, st, e⟩ := updateLog_frame s obj gap
    rw [e]; exact h
  | restart hr =>
    obtain ⟨tb, calls, m, M, i, ho⟩ := restart_spec hr
    unfold SourceIn
    rw [ho.all, ho.log]
    intro hQ
    have h' := h (fun p hp => hQ p (List.mem_append_left _ hp))
    have hold : ∀ {p v b e}, s.all.Has p v b e → ∃ q, NearChainIn env P.epsZero Q p q ∧
        (Evaluated env (s.log ++ calls) q v ∨ (b = false ∧ UserGave P q v) ∨
          (b = true ∧ EvaluatedNoisy env (s.log ++ calls) q v)) := by
      intro p v b e hh
      obtain ⟨q, hq, h3⟩ := h'.has hh
      refine ⟨q, hq, ?_⟩
      rcases h3 with h3 | h3 | ⟨hb, el, eu, h3⟩
      · exact .inl (List.mem_append_left _ h3)
      · exact .inr (.inl h3)
      · exact .inr (.inr ⟨hb, el, eu, List.mem_append_left _ h3⟩)
    refine Table.All.append w.allA (fun i p v b e h1 h2 h3 h4 => hold ⟨i, h1, h2, h3, h4⟩) ?_
    refine Table.All.self (ho.recs.mono ?_)
    intro p v b e hrec hp
    have hQp : Q p := hQ p (List.mem_append_right _ hp)
    rcases hrec with ⟨h1, h2, _⟩ | ⟨h1, h2, h3⟩ | ⟨h1, _⟩ | ⟨k, h1, h2, h3, h4 | h4⟩
    · exact ⟨p, .refl hQp, .inl (List.mem_append_right _ h1)⟩
    · exact ⟨p, .refl hQp, .inr (.inr ⟨h3, _, _, List.mem_append_right _ h1⟩)⟩
    · exact hold h1
    · exact ⟨p, .refl hQp, .inl (List.mem_append_right _ h4)⟩
    · exact ⟨p, .refl hQp, .inr (.inl ⟨h2, k, h1, h4⟩)⟩
  | removeLocal i h1 _ _ => rw [hP] at h1; cases h1
  | erase is _ _ => exact h
  | removeRest i p t' hl hr => rw [restorationLoop_none hd] at hl; cases hl
  | add loc p0 d r hd hlt hev hadd =>
    obtain ⟨calls, ho⟩ := evaluateNext_spec hev w.allA
    obtain ⟨e, ha, _, _⟩ := addResult_spec hadd
    obtain ⟨r1, r2, r3, -⟩ := ha.rest
    obtain ⟨q0, q0', -, -, -, -, -, -, -, q1, q2, q3, -⟩ := ho.data_eqs
    unfold SourceIn
    rw [ha.all, r1, q1, q0']
    intro hQ
    have h' := h (fun p hp => hQ p (List.mem_append_left _ hp))
    have hold : ∀ {p v b e}, s.all.Has p v b e → ∃ q, NearChainIn env P.epsZero Q p q ∧
        (Evaluated env (s.log ++ calls) q v ∨ (b = false ∧ UserGave P q v) ∨
          (b = true ∧ EvaluatedNoisy env (s.log ++ calls) q v)) := by
      intro p v b e hh
      obtain ⟨q, hq, h3⟩ := h'.has hh
      refine ⟨q, hq, ?_⟩
      rcases h3 with h3 | h3 | ⟨hb, el, eu, h3⟩
      · exact .inl (List.mem_append_left _ h3)
      · exact .inr (.inl h3)
      · exact .inr (.inr ⟨hb, el, eu, List.mem_append_left _ h3⟩)
    refine Table.All.append w.allA (fun i p v b e h1 h2 h3 h4 => hold ⟨i, h1, h2, h3, h4⟩) ?_
    intro k p' v' b' e' h1 h2 h3 h4
    cases k with
    | succ k => simp at h1
    | zero =>
      simp only [List.getElem?_cons_zero, Option.some.injEq] at h1 h2 h3 h4
      subst h1 h2 h3 h4
      have hQp : Q (env.toOrig (clipPt p0 P.lLower P.lUpper)) :=
        hQ _ (by simp [Table.append])
      rcases ho.src with ⟨_, hc⟩ | ⟨hn, el, eu, hc, _⟩ | ⟨rfl, i, q, e', _, g1, g2, g3, g4, g5, _⟩
      · exact ⟨_, .refl hQp, .inl (List.mem_append_right _ hc)⟩
      · exact ⟨_, .refl hQp, .inr (.inr ⟨hn, el, eu, List.mem_append_right _ hc⟩)⟩
      · obtain ⟨q', hq', h3⟩ := hold ⟨i, g1, g2, g3, g4⟩
        exact ⟨q', .jump hQp g5 hq', h3⟩
  | phase _ _ => exact h

/-- `f` increases by at most `L` times the distance. -/
def LipschitzOn (env : Env O) (I : Internal) (f : Pt → ℚ) (L : ℚ) : Prop :=
  ∀ x q, FeasibleInternal I x → FeasibleInternal I q → f (env.decode q) ≤ f (env.decode x) + L * env.dist x q

/-- Each current node has a record with the value of `f` there, up to the identification of near points. -/
theorem node_record (hP : P.twoPhase = false) (hd : ∀ p, env.dist p p ≤ P.minDist) (hc : CodeRun P env eps vars .off C)
    (hf : Computes P env eps vars f) (h : Reach P env o c s) {eta : ℚ} (hi : IdentifiedWithin P env (construct eps vars) f eta)
    {q : Pt} (hq : q ∈ s.cur.pos) :
    FeasibleInternal (construct eps vars) q ∧ ∃ v ∈ s.all.val, v ≤ f (env.decode q) + eta := by
  obtain ⟨j, hj⟩ := List.mem_iff_getElem?.mp hq
  have hlen := h.wf.pos.length_eq
  have hlt := (List.getElem?_eq_some_iff.mp hj).1
  have hrel := (List.forall₂_iff_get.mp h.wf.pos).2 j hlt (by omega)
  have hid : ∀ p, env.toInternal p = p := fun p => by rw [hc.runs.toInternal]; simp [transformDomain]
  have hid' : ∀ p, env.toOrig p = p := fun p => by rw [hc.runs.toOrig]; simp [transformDomain]
  have hqe : s.all.pos[s.nAtRestart + j]? = some q := by
    simp only [List.get_eq_getElem, hid, hid', List.getElem_drop] at hrel
    have e1 : s.cur.pos[j] = q := (List.getElem?_eq_some_iff.mp hj).2
    rw [List.length_drop] at hlen
    rw [List.getElem?_eq_getElem (by omega)]
    rcases hrel with e | e
    · rw [← e, e1]
    · rw [e, e1]
  obtain ⟨v, b, e, hv, hb, he⟩ := h.wf.allA.has hqe
  have hall := (C17_whole_run hc.wellFormed hc.runs hc.scaling hc.dim hc.steps hc.samples hc.dist hc.strategy
    hc.init h).2.2
  have hp := (h.inv' (I := SourceIn P env (FeasibleInternal (construct eps vars)))
    (by simp [SourceIn, Alg.init, Table.All]) (fun _ _ w hs hm => hs.micro hP hd w hm)) hall
  have hbf := ((h.single hP).2.2 _ _ _ b e hqe hv hb he).1
  obtain ⟨q', hq', h3⟩ := hp _ _ _ b e hqe hv hb he
  refine ⟨hall q (List.mem_of_getElem? hqe), v, List.mem_of_getElem? hv, ?_⟩
  have hval : v = f (env.decode q') := by
    rcases h3 with h3 | ⟨_, h3⟩ | ⟨h3, _⟩
    · exact (hc.call hf h h3).2
    · exact hf.user _ _ h3
    · rw [hbf] at h3; cases h3
  rw [hval]
  exact hi _ _ hq'

/-- **C104** If every point of `D` is within `R` of a node, the best value tracked is at most
`L * R` (and the slack for identified points) above the value of `f` at any point of `D`. -/
theorem C104_cover_bounds_gap (hP : P.twoPhase = false) (hd : ∀ p, env.dist p p ≤ P.minDist) (hc : CodeRun P env eps vars .off C)
    (hf : Computes P env eps vars f) (h : Reach P env o c s) {eta L R : ℚ}
    (hi : IdentifiedWithin P env (construct eps vars) f eta) (hL : 0 ≤ L) (hlip : LipschitzOn env (construct eps vars) f L)
    {D : Set Pt} (hD : ∀ x ∈ D, FeasibleInternal (construct eps vars) x)
    (hcover : ∀ x ∈ D, ∃ q ∈ s.cur.pos, env.dist x q ≤ R) :
    ∀ x ∈ D, s.fbest ≤ ((f (env.decode x) + L * R + eta : ℚ) : EVal) := by
  intro x hx
  obtain ⟨q, hq, hxq⟩ := hcover x hx
  obtain ⟨hfq, v, hv, hle⟩ := node_record hP hd hc hf h hi hq
  refine ((C02_tracked_bounds h).1 v hv).trans ?_
  have h1 := hlip x q (hD x hx) hfq
  have h2 := mul_le_mul_of_nonneg_left hxq hL
  exact_mod_cast (by linarith : v ≤ f (env.decode x) + L * R + eta)

/-- **C104** So for the value returned. -/
theorem C104_returned_value (hP : P.twoPhase = false) (hd : ∀ p, env.dist p p ≤ P.minDist) (hc : CodeRun P env eps vars .off C)
    (hf : Computes P env eps vars f) {fuel pause : ℕ} {r : OptResult O} (hr : Reach P env o .idle s)
    (h : optimize P env fuel pause s = .ret r) {eta L R : ℚ}
    (hi : IdentifiedWithin P env (construct eps vars) f eta) (hL : 0 ≤ L) (hlip : LipschitzOn env (construct eps vars) f L)
    {D : Set Pt} (hD : ∀ x ∈ D, FeasibleInternal (construct eps vars) x)
    (hcover : ∀ x ∈ D, ∃ q ∈ r.final.cur.pos, env.dist x q ≤ R) :
    ∀ x ∈ D, r.value ≤ f (env.decode x) + L * R + eta := by
  intro x hx
  obtain ⟨q, hq, hxq⟩ := hcover x hx
  obtain ⟨hfq, v, hv, hle⟩ := node_record hP hd hc hf (optimize_reach hr h) hi hq
  have h0 := (C01_returns_best_record h).1 v hv
  have h1 := hlip x q (hD x hx) hfq
  have h2 := mul_le_mul_of_nonneg_left hxq hL
  linarith

/-- **C104** With exact InfSteps: after more InfSteps than cells without a restart, the best value is within
`L * (max r min_dist + tau) + eta` of the minimum over the search space. -/
theorem C104_infsteps_bound_gap (hP : P.twoPhase = false) (hd : ∀ p, env.dist p p ≤ P.minDist) (hc : CodeRun P env eps vars .off C)
    (hf : Computes P env eps vars f) {eta L tau delta r : ℚ}
    (hi : IdentifiedWithin P env (construct eps vars) f eta) (hL : 0 ≤ L) (hlip : LipschitzOn env (construct eps vars) f L)
    (hfar : FarthestSearch env {x | FeasibleInternal (construct eps vars) x} tau) (hdelta : 0 < delta)
    (hr : ∀ p q, FeasibleInternal (construct eps vars) p → FeasibleInternal (construct eps vars) q →
      (∀ i < P.lLower.length, |p.getD i 0 - q.getD i 0| ≤ delta) → env.dist p q ≤ r)
    (g : ℕ → Alg O × Loc) (m start pause : ℕ)
    (h0 : Reach P env o (.running start pause (g 0).2) (g 0).1)
    (hrun : ∀ k < m, loopCond P env start pause (g k).1 (g k).2 = true ∧
      pass P env (g k).1 (g k).2 = .ok (g (k + 1)))
    (hkeep : ∀ k < m, (g k).1.cur.pos <+: (g (k + 1)).1.cur.pos)
    (S : Finset ℕ) (hS : ∀ k ∈ S, k < m ∧ IsInfPass P env (g k).1)
    (hcard : cellCount P.lLower P.lUpper delta < S.card) :
    ∀ x, FeasibleInternal (construct eps vars) x →
      (g m).1.fbest ≤ ((f (env.decode x) + L * (max r P.minDist + tau) + eta : ℚ) : EVal) := by
  have hreach : ∀ k ≤ m, Reach P env o (.running start pause (g k).2) (g k).1 := by
    intro k
    induction k with
    | zero => intro _; exact h0
    | succ k ih => intro hk; exact (ih (by omega)).pass (hrun k (by omega)).1 (hrun k (by omega)).2
  have hbox : ∀ p ∈ {x | FeasibleInternal (construct eps vars) x}, InBox P.lLower P.lUpper p := by
    intro p hp
    rw [hc.runs.lower, hc.runs.upper]
    exact ⟨FeasibleInternal.lower hp, FeasibleInternal.upper hp⟩
  have hcov := C102_infsteps_cover hfar hbox hdelta (fun p hp q hq => hr p q hp hq) g m
    (fun k hk => (hrun k hk).2) hkeep S hS hcard
  exact C104_cover_bounds_gap hP hd hc hf (hreach m le_rfl) hi hL hlip (fun x hx => hx) hcov

/-- **C104** If different points of the search space are farther apart than `min_dist` (plus the tolerance of
the search), an InfStep that records nothing shows that the best value is the minimum over the search space. -/
theorem C104_exhausted (hP : P.twoPhase = false) (hd : ∀ p, env.dist p p ≤ P.minDist) (hc : CodeRun P env eps vars .off C)
    (hf : Computes P env eps vars f) {tau : ℚ} (hi : IdentifiedWithin P env (construct eps vars) f 0)
    (hfar : FarthestSearch env {x | FeasibleInternal (construct eps vars) x} tau)
    (hsep : ∀ x q, FeasibleInternal (construct eps vars) x → FeasibleInternal (construct eps vars) q →
      env.dist x q ≤ P.minDist + tau → x = q)
    {start pause : ℕ} {loc loc' : Loc} {s' : Alg O} (h0 : Reach P env o (.running start pause loc) s)
    (hgo : loopCond P env start pause s loc = true) (hp : pass P env s loc = .ok (s', loc'))
    (hinf : IsInfPass P env s) (hno : s'.cur.pos = s.cur.pos) :
    ∀ x, FeasibleInternal (construct eps vars) x →
      x ∈ s'.cur.pos ∧ s'.fbest ≤ ((f (env.decode x) : ℚ) : EVal) := by
  have hbox : ∀ p ∈ {x | FeasibleInternal (construct eps vars) x}, InBox P.lLower P.lUpper p := by
    intro p hp
    rw [hc.runs.lower, hc.runs.upper]
    exact ⟨FeasibleInternal.lower hp, FeasibleInternal.upper hp⟩
  have hr' := h0.pass hgo hp
  intro x hx
  obtain ⟨q, hq, hnear⟩ := C102_discarded_infstep hfar hbox hinf hp hno x hx
  obtain ⟨hfq, v, hv, hle⟩ := node_record hP hd hc hf hr' hi hq
  have hxq := hsep x q hx hfq hnear
  subst hxq
  refine ⟨hq, ((C02_tracked_bounds hr').1 v hv).trans ?_⟩
  exact_mod_cast (by linarith : v ≤ f (env.decode x))

/-- **C97** The value returned is the value of `f` at a feasible point reached from the point returned by jumps
shorter than `eps_zero` between feasible points; so if different points of the search space are at least
`eps_zero` apart, it is the value of `f` at the point returned. -/
theorem C97_value_at_returned_point {sc : Scaling} (hP : P.twoPhase = false) (hd : ∀ p, env.dist p p ≤ P.minDist)
    (hc : CodeRun P env eps vars sc C) (hf : Computes P env eps vars f) {fuel pause : ℕ} {r : OptResult O}
    (hr : Reach P env o .idle s) (h : optimize P env fuel pause s = .ret r) :
    FeasibleUser eps vars (env.decode r.point) ∧
    (∃ q, NearChainIn env P.epsZero (FeasibleInternal (construct eps vars)) r.point q ∧
      r.value = f (env.decode q)) ∧
    ((∀ p q, FeasibleInternal (construct eps vars) p → FeasibleInternal (construct eps vars) q →
      env.dist p q < P.epsZero → p = q) → r.value = f (env.decode r.point)) := by
  have hr' := optimize_reach hr h
  obtain ⟨i, h1, h2⟩ := (C01_returns_best_record h).2
  obtain ⟨_, b, e, _, hb, he⟩ := hr'.wf.allA.has h1
  have hall := (C17_whole_run hc.wellFormed hc.runs hc.scaling hc.dim hc.steps hc.samples hc.dist hc.strategy
    hc.init hr').2.2
  have hp := (hr'.inv' (I := SourceIn P env (FeasibleInternal (construct eps vars)))
    (by simp [SourceIn, Alg.init, Table.All]) (fun _ _ w hs hm => hs.micro hP hd w hm)) hall
  have hbf := ((hr'.single hP).2.2 i _ _ b e h1 h2 hb he).1
  obtain ⟨q, hq, h3⟩ := hp i _ _ b e h1 h2 hb he
  have hval : r.value = f (env.decode q) := by
    rcases h3 with h3 | ⟨_, h3⟩ | ⟨h3, _⟩
    · exact (hc.call hf hr' h3).2
    · exact hf.user _ _ h3
    · rw [hbf] at h3; cases h3
  refine ⟨?_, ⟨q, hq, hval⟩, fun hsep => ?_⟩
  · rw [hc.runs.decode]
    exact ((C30_bijection (eps := eps) hc.wellFormed).2 _ (hall _ (List.mem_of_getElem? h1))).1
  · rw [hval]
    suffices r.point = q by rw [this]
    clear hval h3 h1 h2 hb he
    generalize r.point = p at hq
    induction hq with
    | refl _ => rfl
    | @jump p q r hp hd hc ih =>
      have hq : FeasibleInternal (construct eps vars) q := by
        cases hc with | refl h => exact h | jump h _ _ => exact h
      exact (hsep p q hp hq hd).trans ih

end Rbfopt
