import Verif.Props.EndToEnd
import Verif.Props.Distances
import Mathlib.Combinatorics.Pigeonhole
import Mathlib.Data.Fintype.BigOperators
import Mathlib.Algebra.Order.Floor.Div
import Mathlib.Data.Rat.Floor

/-!
# C102: the InfSteps cover the search space
-/

namespace Rbfopt

variable {O : Type} {P : Params} {env : Env O}

/-- The search of an InfStep finds a point of `D` whose distance to the nodes is largest, up to `tau`. -/
def FarthestSearch (env : Env O) (D : Set Pt) (tau : ℚ) : Prop :=
  ∀ s res, s.step = 0 → env.search s = .ok res →
    ∃ p, res.1 = some p ∧ p ∈ D ∧
      ∀ x ∈ D, ∀ q' ∈ s.cur.pos, ∃ q ∈ s.cur.pos, env.dist x q ≤ env.dist p q' + tau

/-- A pass in this state is an InfStep: it is the turn of the InfStep, these are enabled, there is no restart
and the model can be built. -/
def IsInfPass (P : Params) (env : Env O) (s : Alg O) : Prop :=
  s.step = 0 ∧ P.doInf = true ∧ shouldRestart P s = false ∧
    ∀ o, (env.modelFails { s with passes := s.passes + 1, opq := o }).1 = false

/-- Number of boxes of side `delta` that cover the box. -/
noncomputable def cellCount (l u : Pt) (delta : ℚ) : ℕ :=
  ∏ i ∈ Finset.range l.length, (⌊(u.getD i 0 - l.getD i 0) / delta⌋₊ + 1)

theorem evaluateNext_cur {s : Alg O} {loc : Loc} {orig : Pt} {r : EvalRes O}
    (h : evaluateNext P env s loc orig = .ok r) : r.s.cur = s.cur := by
  have hu : ∀ (a : Alg O) v g, (updateLog a v g).cur = a.cur := by
    intro a v g
    unfold updateLog
    split <;> rfl
  unfold evaluateNext at h
  split at h
  · split at h
    · cases h; rfl
    · cases h; rfl
  · dsimp only at h
    have hn : (noisyFirst P env s loc orig).s.cur = s.cur := by
      unfold noisyFirst
      split <;> rfl
    split at h
    · split at h
      · cases h
      · split at h
        · cases h
          show (objfun env (updateLog _ _ _) orig).2.cur = _
          unfold objfun
          rw [hu, hn]
        · cases h; exact hn
    · cases h; exact hn

/-- What an InfStep does: the point found is recorded as a node, or it is within `min_dist` of a node. -/
theorem infPass_cases {D : Set Pt} {tau : ℚ} (hfar : FarthestSearch env D tau)
    (hD : ∀ p ∈ D, InBox P.lLower P.lUpper p) {s s' : Alg O} {loc loc' : Loc} (hi : IsInfPass P env s)
    (h : pass P env s loc = .ok (s', loc')) :
    ∃ p ∈ D, (∀ x ∈ D, ∀ q' ∈ s.cur.pos, ∃ q ∈ s.cur.pos, env.dist x q ≤ env.dist p q' + tau) ∧
      ((∃ q ∈ s.cur.pos, env.dist p q ≤ P.minDist) ∧ s'.cur.pos = s.cur.pos ∨
       (∀ q ∈ s.cur.pos, P.minDist < env.dist p q) ∧ s'.cur.pos = s.cur.pos ++ [p]) := by
  obtain ⟨h0, hdo, hre, hmf⟩ := hi
  unfold pass at h
  dsimp only at h
  have hc : ¬ ((s.step = P.infStep ∧ P.doInf = false) ∨ (s.step = P.localStep ∧ P.doLocal = false)) := by
    rintro (⟨-, h1⟩ | ⟨h1, -⟩)
    · rw [hdo] at h1; cases h1
    · rw [h0] at h1; simp [Params.localStep] at h1
  rw [if_neg hc] at h
  have hr : restartIfNeeded P env { s with passes := s.passes + 1 } = .ok { s with passes := s.passes + 1 } := by
    unfold restartIfNeeded
    rw [show shouldRestart P { s with passes := s.passes + 1 } = shouldRestart P s from rfl, hre]
    rfl
  rw [hr] at h
  dsimp only at h
  split at h
  · cases h
  · rename_i o ho
    have hb : buildModel P env { s with passes := s.passes + 1, opq := o } =
        .ok ({ s with
          passes := s.passes + 1
          opq := (env.modelFails { s with passes := s.passes + 1, opq := o }).2 }, false) := by
      unfold buildModel
      rw [if_pos (show s.step ≤ P.localStep by rw [h0]; exact Nat.zero_le _)]
      have := hmf o
      cases hx : env.modelFails { s with passes := s.passes + 1, opq := o } with
      | mk f o' => rw [hx] at this; dsimp only at this; subst this; rfl
    rw [hb] at h
    dsimp only at h
    generalize (env.modelFails { s with passes := s.passes + 1, opq := o }).2 = o1 at h
    unfold dispatch at h
    rw [if_pos (show ({ s with passes := s.passes + 1, opq := o1 } : Alg O).step = P.infStep from h0)] at h
    cases hs : env.search { s with passes := s.passes + 1, opq := o1 } with
    | error e => rw [hs] at h; cases h
    | ok res =>
      rw [hs] at h
      obtain ⟨p, hp, hpD, hpf⟩ := hfar { s with passes := s.passes + 1, opq := o1 } res h0 hs
      obtain ⟨np, o2⟩ := res
      dsimp only at hp h
      subst hp
      split at h
      · cases h
      · rename_i s3 loc3 hpp
        split at h
        · cases h
        · rename_i s4 he
          cases h
          have hcur : s'.cur = s3.cur := by
            obtain ⟨-, -, -, -, -, -, -, h8, -⟩ := endPass_ctl he
            exact h8
          refine ⟨p, hpD, hpf, ?_⟩
          rw [hcur]
          have hclip := clipPt_self (hD p hpD)
          unfold processPoint at hpp
          dsimp only at hpp
          rw [hclip] at hpp
          split at hpp
          · cases hpp
          · rename_i d hd
            obtain ⟨i, hmin⟩ : ∃ i, argminVal (s.cur.pos.map (env.dist p)) = some (d, i) := by
              unfold getMinDistance at hd
              cases hx : argminVal (s.cur.pos.map (env.dist p)) with
              | none => rw [hx] at hd; cases hd
              | some vi => rw [hx] at hd; cases hd; exact ⟨vi.2, rfl⟩
            obtain ⟨a1, a2, -⟩ := argminVal_some hmin
            split at hpp
            · rename_i hle
              cases hpp
              refine Or.inl ⟨?_, rfl⟩
              rw [List.getElem?_map] at a1
              obtain ⟨q, hq, rfl⟩ := Option.map_eq_some_iff.mp a1
              exact ⟨q, List.mem_of_getElem? hq, hle⟩
            · rename_i hgt
              refine Or.inr ⟨fun q hq => lt_of_lt_of_le (not_le.mp hgt)
                (a2 _ (List.mem_map_of_mem hq)), ?_⟩
              split at hpp
              · cases hpp
              · rename_i r hr
                split at hpp
                · cases hpp
                · rename_i s5 ha
                  split at hpp
                  · cases hpp
                  · rename_i gap hg
                    split at hpp
                    · cases hpp
                    · rename_i s6 hf
                      cases hpp
                      have e1 : s6.cur = (updateLog s5 r.val gap).cur := congrArg Data.cur (afterAdd_data hf)
                      have e2 : (updateLog s5 r.val gap).cur = s5.cur := by
                        unfold updateLog; split <;> rfl
                      obtain ⟨e, hout, -⟩ := addResult_spec ha
                      show s6.cur.pos = _
                      rw [e1, e2, hout.cur, Table.append, evaluateNext_cur hr]

/-- A maximal separated set in a box: more points than cells, two of them in one cell. -/
theorem same_cell {l u : Pt} {delta : ℚ} (hdelta : 0 < delta) (S : Finset ℕ) (p : ℕ → Pt)
    (hbox : ∀ k ∈ S, InBox l u (p k)) (hcard : cellCount l u delta < S.card) :
    ∃ j ∈ S, ∃ k ∈ S, j < k ∧ ∀ i < l.length, |(p k).getD i 0 - (p j).getD i 0| ≤ delta := by
  classical
  have hget : ∀ k ∈ S, ∀ i < l.length, l.getD i 0 ≤ (p k).getD i 0 ∧ (p k).getD i 0 ≤ u.getD i 0 := by
    intro k hk i hi
    obtain ⟨h1, h2⟩ := hbox k hk
    have e1 := h1.length_eq
    have e2 := h2.length_eq
    have g1 := (List.forall₂_iff_get.mp h1).2 i hi (by omega)
    have g2 := (List.forall₂_iff_get.mp h2).2 i (by omega) (by omega)
    rw [List.getD_eq_getElem _ _ hi, List.getD_eq_getElem _ _ (show i < (p k).length by omega),
      List.getD_eq_getElem _ _ (show i < u.length by omega)]
    exact ⟨g1, g2⟩
  let cell : ℕ → (Fin l.length → ℕ) := fun k i => ⌊((p k).getD i 0 - l.getD i 0) / delta⌋₊
  let T : Finset (Fin l.length → ℕ) :=
    Fintype.piFinset (fun i => Finset.range (⌊(u.getD i 0 - l.getD i 0) / delta⌋₊ + 1))
  have hT : T.card = cellCount l u delta := by
    rw [Fintype.card_piFinset, cellCount, Finset.prod_range]
    simp
  have hmaps : ∀ k ∈ S, cell k ∈ T := by
    intro k hk
    rw [Fintype.mem_piFinset]
    intro i
    rw [Finset.mem_range, Nat.lt_succ_iff]
    apply Nat.floor_mono
    have := hget k hk i i.2
    gcongr
    exact this.2
  obtain ⟨j, hj, k, hk, hne, heq⟩ :=
    Finset.exists_ne_map_eq_of_card_lt_of_maps_to (hT ▸ hcard) hmaps
  have key : ∀ a ∈ S, ∀ b ∈ S, cell a = cell b →
      ∀ i < l.length, |(p b).getD i 0 - (p a).getD i 0| ≤ delta := by
    intro a ha b hb hab i hi
    have h1 : ⌊((p a).getD i 0 - l.getD i 0) / delta⌋₊ = ⌊((p b).getD i 0 - l.getD i 0) / delta⌋₊ :=
      congrFun hab ⟨i, hi⟩
    have ga := hget a ha i hi
    have gb := hget b hb i hi
    have fa := Nat.floor_le (show 0 ≤ ((p a).getD i 0 - l.getD i 0) / delta from
      div_nonneg (by linarith) hdelta.le)
    have fa' := Nat.lt_floor_add_one (((p a).getD i 0 - l.getD i 0) / delta)
    have fb := Nat.floor_le (show 0 ≤ ((p b).getD i 0 - l.getD i 0) / delta from
      div_nonneg (by linarith) hdelta.le)
    have fb' := Nat.lt_floor_add_one (((p b).getD i 0 - l.getD i 0) / delta)
    rw [h1] at fa fa'
    have h2 : |(((p b).getD i 0 - l.getD i 0) / delta) - (((p a).getD i 0 - l.getD i 0) / delta)| ≤ 1 := by
      rw [abs_le]; constructor <;> linarith
    rw [← sub_div, abs_div, abs_of_pos hdelta, div_le_one hdelta] at h2
    simpa using h2
  rcases lt_or_gt_of_ne hne with h | h
  · exact ⟨j, hj, k, hk, h, key j hj k hk heq⟩
  · exact ⟨k, hk, j, hj, h, key k hk j hj heq.symm⟩

/-- **C102** If an InfStep records no point, every point of the search space is within `min_dist` (plus the
tolerance of the search) of a node. -/
theorem C102_discarded_infstep {D : Set Pt} {tau : ℚ} (hfar : FarthestSearch env D tau)
    (hD : ∀ p ∈ D, InBox P.lLower P.lUpper p) {s s' : Alg O} {loc loc' : Loc} (hi : IsInfPass P env s)
    (h : pass P env s loc = .ok (s', loc')) (hno : s'.cur.pos = s.cur.pos) :
    ∀ x ∈ D, ∃ q ∈ s'.cur.pos, env.dist x q ≤ P.minDist + tau := by
  obtain ⟨p, -, hf, ⟨⟨q', hq', hd⟩, -⟩ | ⟨-, h2⟩⟩ := infPass_cases hfar hD hi h
  · intro x hx
    obtain ⟨q, hq, hle⟩ := hf x hx q' hq'
    exact ⟨q, hno ▸ hq, by linarith⟩
  · rw [hno] at h2
    have := congrArg List.length h2
    simp at this

/-- **C102** In any part of a run in which no node is taken out (no restart, no restoration), after more
InfSteps than there are boxes of side `delta` in the search space, every point of the search space is within
`r` (at least `min_dist`, plus the tolerance of the search) of a node, where `r` is the largest distance of
two points of such a box. -/
theorem C102_infsteps_cover {D : Set Pt} {tau delta r : ℚ} (hfar : FarthestSearch env D tau)
    (hD : ∀ p ∈ D, InBox P.lLower P.lUpper p) (hdelta : 0 < delta)
    (hr : ∀ p ∈ D, ∀ q ∈ D, (∀ i < P.lLower.length, |p.getD i 0 - q.getD i 0| ≤ delta) → env.dist p q ≤ r)
    (f : ℕ → Alg O × Loc) (m : ℕ)
    (hrun : ∀ k < m, pass P env (f k).1 (f k).2 = .ok (f (k + 1)))
    (hkeep : ∀ k < m, (f k).1.cur.pos <+: (f (k + 1)).1.cur.pos)
    (S : Finset ℕ) (hS : ∀ k ∈ S, k < m ∧ IsInfPass P env (f k).1)
    (hcard : cellCount P.lLower P.lUpper delta < S.card) :
    ∀ x ∈ D, ∃ q ∈ (f m).1.cur.pos, env.dist x q ≤ max r P.minDist + tau := by
  intro x hx
  by_contra hcon
  push Not at hcon
  have hmono : ∀ j k, j ≤ k → k ≤ m → (f j).1.cur.pos <+: (f k).1.cur.pos := by
    intro j k hjk
    induction k, hjk using Nat.le_induction with
    | base => intro _; exact List.prefix_refl _
    | succ k _ ih => intro hk; exact (ih (by omega)).trans (hkeep k (by omega))
  have hstep : ∀ k, ∃ p, k ∈ S → p ∈ D ∧ (f (k + 1)).1.cur.pos = (f k).1.cur.pos ++ [p] ∧
      ∀ q ∈ (f k).1.cur.pos, max r P.minDist < env.dist p q := by
    intro k
    by_cases hk : k ∈ S
    · obtain ⟨hkm, hi⟩ := hS k hk
      obtain ⟨p, hpD, hf, hc⟩ := infPass_cases hfar hD hi
        (show pass P env (f k).1 (f k).2 = .ok ((f (k + 1)).1, (f (k + 1)).2) from hrun k hkm)
      have hall : ∀ q ∈ (f k).1.cur.pos, max r P.minDist < env.dist p q := by
        intro q' hq'
        obtain ⟨q, hq, hle⟩ := hf x hx q' hq'
        have := hcon q ((hmono k m (by omega) le_rfl).subset hq)
        linarith
      refine ⟨p, fun _ => ⟨hpD, ?_, hall⟩⟩
      rcases hc with ⟨⟨q, hq, hd⟩, -⟩ | ⟨-, h2⟩
      · exact absurd (lt_of_le_of_lt (le_max_right r P.minDist) (hall q hq)) (not_lt.mpr hd)
      · exact h2
    · exact ⟨[], fun h => absurd h hk⟩
  choose p hp using hstep
  obtain ⟨j, hj, k, hk, hjk, hclose⟩ := same_cell hdelta S p (fun k hk => hD _ (hp k hk).1) hcard
  have h1 := hr _ (hp k hk).1 _ (hp j hj).1 hclose
  have hmem : p j ∈ (f k).1.cur.pos := by
    apply (hmono (j + 1) k (by omega) (by have := (hS k hk).1; omega)).subset
    rw [(hp j hj).2.1]
    simp
  exact absurd ((le_max_left r P.minDist).trans_lt ((hp k hk).2.2 _ hmem)) (not_lt.mpr h1)

/-- The distance of the engine is the one of `rbfopt_utils.distance`, up to `rho`. -/
def DistWithin (env : Env O) (D : Set Pt) (rho : ℝ) : Prop :=
  ∀ p ∈ D, ∀ q ∈ D, ∃ d, distancePy (p.map (fun x : ℚ => (x : ℝ))) (q.map (fun x : ℚ => (x : ℝ))) = .ok d ∧
    |(env.dist p q : ℝ) - d| ≤ rho

/-- Two points of a box of side `delta` are at most `√n * delta` apart. -/
theorem distancePy_box {n : ℕ} {p q : Pt} {delta : ℚ} {d : ℝ} (hd : 0 ≤ delta) (hp : p.length = n) (hq : q.length = n)
    (h : ∀ i < n, |p.getD i 0 - q.getD i 0| ≤ delta)
    (he : distancePy (p.map (fun x : ℚ => (x : ℝ))) (q.map (fun x : ℚ => (x : ℝ))) = .ok d) :
    d ≤ Real.sqrt n * delta := by
  unfold distancePy at he
  rw [if_pos (by simp [hp, hq]), dotSelf_sub (n := n) (by simpa using hp) (by simpa using hq)] at he
  cases he
  have hd' : (0 : ℝ) ≤ delta := by exact_mod_cast hd
  apply Real.sqrt_le_iff.mpr
  refine ⟨mul_nonneg (Real.sqrt_nonneg _) hd', ?_⟩
  rw [mul_pow, Real.sq_sqrt (Nat.cast_nonneg n)]
  calc _ ≤ ∑ _i ∈ Finset.range n, (delta : ℝ) ^ 2 := by
        apply Finset.sum_le_sum
        intro i hi
        have hi := Finset.mem_range.mp hi
        rw [← sq_abs]
        apply pow_le_pow_left₀ (abs_nonneg _)
        have e1 : (p.map (fun x : ℚ => (x : ℝ))).getD i 0 = (p.getD i 0 : ℝ) := by
          simp [List.getD_eq_getElem?_getD, hp, hi]
        have e2 : (q.map (fun x : ℚ => (x : ℝ))).getD i 0 = (q.getD i 0 : ℝ) := by
          simp [List.getD_eq_getElem?_getD, hq, hi]
        rw [e1, e2]
        exact_mod_cast h i hi
    _ = _ := by simp

/-- **C102** With Euclidean distances (computed up to `rho`), more InfSteps than boxes of side `delta` leave no
point of the search space farther than `max (√n * delta + rho) min_dist + tau` from the nodes. -/
theorem C102_infsteps_cover_euclid {D : Set Pt} {tau delta r : ℚ} {rho : ℝ} (hfar : FarthestSearch env D tau)
    (hD : ∀ p ∈ D, InBox P.lLower P.lUpper p) (hdelta : 0 < delta) (hdist : DistWithin env D rho)
    (hr : Real.sqrt P.lLower.length * delta + rho ≤ r)
    (f : ℕ → Alg O × Loc) (m : ℕ)
    (hrun : ∀ k < m, pass P env (f k).1 (f k).2 = .ok (f (k + 1)))
    (hkeep : ∀ k < m, (f k).1.cur.pos <+: (f (k + 1)).1.cur.pos)
    (S : Finset ℕ) (hS : ∀ k ∈ S, k < m ∧ IsInfPass P env (f k).1)
    (hcard : cellCount P.lLower P.lUpper delta < S.card) :
    ∀ x ∈ D, ∃ q ∈ (f m).1.cur.pos, env.dist x q ≤ max r P.minDist + tau := by
  refine C102_infsteps_cover hfar hD hdelta ?_ f m hrun hkeep S hS hcard
  intro p hp q hq h
  obtain ⟨d, hd, hab⟩ := hdist p hp q hq
  have h1 := distancePy_box hdelta.le (hD p hp).1.length_eq.symm (hD q hq).1.length_eq.symm h hd
  have h2 := (abs_le.mp hab).2
  have : (env.dist p q : ℝ) ≤ (r : ℝ) := by linarith
  exact_mod_cast this
end Rbfopt
