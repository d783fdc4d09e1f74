import Verif.Props.Restart
import Verif.Lemmas.More

/-!
# What one pass of the main loop does to the records (black boxes without `evaluate_noisy`)
-/

namespace Rbfopt

variable {O : Type} {P : Params} {env : Env O} {o : O} {c : Ctl} {s : Alg O}

theorem cur_ne_micro {s t : Alg O} (hP : P.twoPhase = false) (hd : ∀ p, env.dist p p ≤ P.minDist)
    (w : WF env s) (h : s.cur.pos ≠ []) (hm : Micro P env s t) : t.cur.pos ≠ [] := by
  cases hm with
  | ctrl e => have e1 : t.cur = s.cur := congrArg Data.cur e; rw [e1]; exact h
  | log obj gap =>
    obtain ⟨g, st, e⟩ := updateLog_frame s obj gap
    rw [e]; exact h
  | restart hr =>
    obtain ⟨tb, calls, m, M, i, ho⟩ := restart_spec hr
    have := ho.two_le
    rw [ho.cur]
    rintro h0
    simp only [List.map_eq_nil_iff] at h0
    rw [h0] at this
    simp at this
  | removeLocal i h1 _ hr => simp [hP] at h1
  | erase is h1 _ => simp [hP] at h1
  | removeRest i p t' hl hr => rw [restorationLoop_none hd] at hl; cases hl
  | add loc p0 d r hd' hlt hev hadd =>
    obtain ⟨e, ha, _, _⟩ := addResult_spec hadd
    rw [ha.cur]
    simp [Table.append]
  | phase h1 _ => simp [hP] at h1

/-- While a call is running there is at least one current node. -/
theorem Reach.cur_ne {start pause : ℕ} {loc : Loc} (hP : P.twoPhase = false)
    (hd : ∀ p, env.dist p p ≤ P.minDist) (h : Reach P env o (.running start pause loc) s) :
    s.cur.pos ≠ [] := by
  have := h.inv_pass (I := fun c s => match c with
    | .idle => s.itercount ≠ 0 → s.cur.pos ≠ []
    | .running _ _ _ => s.cur.pos ≠ []) (by simp [Alg.init]) ?_ ?_ ?_ ?_
  · exact this
  · intro s s' loc pause hr h0 hs
    obtain ⟨-, -, ⟨_, hre⟩ | ⟨h1, rfl⟩⟩ := serialStart_cases hs
    · obtain ⟨tb, calls, m, M, i, ho⟩ := restart_spec hre
      have := ho.two_le
      dsimp only
      rw [ho.cur]
      rintro h0
      simp only [List.map_eq_nil_iff] at h0
      rw [h0] at this
      simp at this
    · exact h0 h1
  · intro s s' start pause loc loc' hr h0 _ hp
    exact (Micros.inv (I := fun s => WF env s ∧ s.cur.pos ≠ [])
      (fun _ _ hs hm => ⟨hs.1.micro hm, cur_ne_micro hP hd hs.1 hs.2 hm⟩) ⟨hr.wf, h0⟩
      (pass_micros hp)).2
  · intro s start pause loc _ h0 _ _; exact h0
  · intro s start pause loc _ h0 _; exact h0

/-- **C18, C16** What a pass without restart does to the records and to the black box, if there is no
`evaluate_noisy`: nothing at all; or exactly one point `p` is added to the nodes, the records and the
best values, flagged accurate; it is farther than `min_dist` from all nodes.  Its value was returned by
a single call of `evaluate()` at this point, and then no record made before the last restart is closer
than `eps_zero`; or it is the value of such a record and no call was made. -/
theorem C18_pass (hP : P.twoPhase = false) (hd : ∀ p, env.dist p p = 0) (hm : 0 ≤ P.minDist)
    {start pause : ℕ} {loc loc' : Loc} {s' : Alg O}
    (hr : Reach P env o (.running start pause loc) s)
    (h : pass P env s loc = .ok (s', loc')) (hn : s'.nAtRestart = s.nAtRestart) :
    (s'.log = s.log ∧ s'.all = s.all ∧ s'.cur = s.cur) ∨
    ∃ p v, (∀ q ∈ s.cur.pos, P.minDist < env.dist p q) ∧
      s'.cur = s.cur.append { pos := [p], val := [v], noisy := [false], err := [(0, 0)] } ∧
      s'.all = s.all.append
        { pos := [env.toOrig p], val := [v], noisy := [false], err := [(0, 0)] } ∧
      ((s'.log = s.log ++ [Call.acc (env.decode (env.toOrig p)) v] ∧
          ∀ j q, OldRecord s j q → P.epsZero ≤ env.dist (env.toOrig p) q) ∨
       (s'.log = s.log ∧ ∃ j q, OldRecord s j q ∧ env.dist (env.toOrig p) q < P.epsZero ∧
          s.all.val[j]? = some v)) := by
  have hd' : ∀ p, env.dist p p ≤ P.minDist := fun p => by rw [hd]; exact hm
  have w := hr.wf
  have hne := hr.cur_ne hP hd'
  have hlt : s.nAtRestart < s.all.pos.length := by
    have h1 := w.pos.length_eq
    simp only [List.length_drop] at h1
    have : 0 < s.cur.pos.length := List.length_pos_iff.mpr hne
    omega
  have hmode : s.mode = .accurate := by
    cases hmm : s.mode with
    | accurate => rfl
    | noisy => have := hr.modeOK hmm; rw [hP] at this; cases this
  -- a restart changes `nAtRestart`
  have hR : ∀ t t' : Alg O, t.all = s.all → restart P env t = .ok t' →
      t'.nAtRestart = s.all.pos.length := by
    intro t t' he hre
    obtain ⟨tb, calls, m, M, i, ho⟩ := restart_spec hre
    rw [ho.nAt, he]
  cases pass_inv h with
  | skip h1 h2 h3 => rw [h2]; exact Or.inl ⟨rfl, rfl, rfl⟩
  | linFail s1 o hk h1 h2 h3 hl =>
    have b := buildModel_data h3
    have b1 : s'.nAtRestart = s1.nAtRestart := congrArg Data.nAtRestart b
    rcases restartIfNeeded_cases h1 with ⟨_, h4⟩ | ⟨_, rfl⟩
    · have := hR { s with passes := s.passes + 1 } s1 rfl h4
      omega
    · exact Or.inl ⟨congrArg Data.log b, congrArg Data.all b, congrArg Data.cur b⟩
  | cont s1 s2 o hk h1 h2 h3 h4 hl =>
    have b := buildModel_data h3
    obtain ⟨hst, s3, h5, h6⟩ := dispatch_skip h4
    have := restorationSearch_none h5
    subst this
    rcases restartIfNeeded_cases h1 with ⟨_, h7⟩ | ⟨_, rfl⟩
    · -- restarted at the beginning: `nAtRestart` never decreases
      have e1 := hR { s with passes := s.passes + 1 } s1 rfl h7
      have b1 : s2.nAtRestart = s1.nAtRestart := congrArg Data.nAtRestart b
      have b2 : s2.all = s1.all := congrArg Data.all b
      rcases h6 with ⟨_, _, rfl⟩ | h6
      · simp only [advanceStep] at hn
        omega
      · obtain ⟨tb, calls, m, M, i, ho⟩ := restart_spec h6
        obtain ⟨tb', calls', m', M', i', ho'⟩ := restart_spec h7
        have := ho.nAt
        dsimp only at this
        rw [b2, ho'.all] at this
        simp only [Table.append, List.length_append] at this
        omega
    · rcases h6 with ⟨_, _, rfl⟩ | h6
      · exact Or.inl ⟨congrArg Data.log b, congrArg Data.all b, congrArg Data.cur b⟩
      · have b2 : s2.all = s.all := congrArg Data.all b
        have := hR { s2 with opq := env.restOpq s2 } s' b2 h6
        omega
  | iter s1 s2 s3 s4 o next ref hp =>
    have w0 : WF env { s with passes := s.passes + 1 } := w.of_data rfl
    have b := buildModel_data hp.build
    obtain ⟨-, -, -, -, e3, -⟩ := dispatch_go_counts hp.disp
    obtain ⟨-, -, -, -, -, -, -, -, -, -, -, -, -, -, -, -, -, f, -⟩ := endPass_ctl hp.fin
    have hfin : s'.log = s4.log ∧ s'.all = s4.all ∧ s'.cur = s4.cur := by
      have := hp.fin
      unfold endPass at this
      dsimp only at this
      split at this
      · cases this
      · cases this
        unfold phaseUpdate
        rw [if_neg (by rw [hP]; simp)]
        have e := stallingUpdate_data P { s4 with itercount := s4.itercount + 1 }
        exact ⟨congrArg Data.log e, congrArg Data.all e, congrArg Data.cur e⟩
    -- `dispatch` changes no data in a single-phase run
    have hdisp : s3.data = s2.data := by
      have hdp := hp.disp
      unfold dispatch at hdp
      split at hdp
      · split at hdp
        · cases hdp
        · cases hdp; rfl
      · split at hdp
        · split at hdp
          · cases hdp
          · split at hdp
            · cases hdp
            · split at hdp <;> cases hdp
          · rename_i hrs
            unfold restorationSearch at hrs
            rw [restorationLoop_none hd'] at hrs
            cases hrs
        · split at hdp
          · split at hdp
            · cases hdp
            · unfold localDispatch at hdp
              rw [if_neg (by rw [hP]; simp)] at hdp
              cases hdp
              unfold eraseErr
              rw [if_neg (by rw [hP]; simp)]
              rfl
          · split at hdp
            · split at hdp
              · cases hdp
              · cases hdp; rfl
            · split at hdp
              · cases hdp
              · cases hdp; rfl
    rcases restartIfNeeded_cases hp.restart with ⟨_, h7⟩ | ⟨_, rfl⟩
    · exfalso
      have e1 := hR { s with passes := s.passes + 1 } s1 rfl h7
      have b1 : s2.nAtRestart = s1.nAtRestart := congrArg Data.nAtRestart b
      have w1 : WF env s1 := w0.restart h7
      have w2 : WF env s2 := WF.of_data (s := { s1 with opq := o }) (w1.of_data rfl) b
      have w3 := w2.dispatch hp.disp
      have e4 : s4.nAtRestart = s3.nAtRestart := by
        rcases processPoint_cases hp.proc with ⟨rfl, -⟩ |
          ⟨p0, d, r, t1, gap, t2, hne, hd, hlt, hev, hadd, hgap, haft, rfl, -⟩
        · rfl
        · have e4 : t2.nAtRestart = (updateLog t1 r.val gap).nAtRestart :=
            congrArg Data.nAtRestart (afterAdd_data haft)
          obtain ⟨g, st, e⟩ := updateLog_frame t1 r.val gap
          rw [e] at e4
          obtain ⟨calls, ho⟩ := evaluateNext_spec hev w3.allA
          obtain ⟨er, hadd', _, _⟩ := addResult_spec hadd
          obtain ⟨-, -, q3, -⟩ := ho.data_eqs
          obtain ⟨-, -, -, -, a5, -⟩ := hadd'.rest
          dsimp only at e4 ⊢
          rw [e4, a5, q3]
      omega
    · have hb2 : s3.log = s.log ∧ s3.all = s.all ∧ s3.cur = s.cur ∧ s3.nAtRestart = s.nAtRestart ∧
          s3.mode = s.mode := by
        have := hdisp.trans b
        exact ⟨congrArg Data.log this, congrArg Data.all this, congrArg Data.cur this,
          congrArg Data.nAtRestart this, congrArg Data.mode this⟩
      obtain ⟨g1, g2, g3, g4, g5⟩ := hb2
      obtain ⟨f1, f2, f3⟩ := hfin
      rcases processPoint_cases hp.proc with ⟨rfl, -⟩ |
          ⟨p0, d, r, t1, gap, t2, hne, hdist, hlt, hev, hadd, hgap, haft, rfl, -⟩
      · left
        exact ⟨f1.trans g1, f2.trans g2, f3.trans g3⟩
      · right
        have hA := afterAdd_data haft
        obtain ⟨g, st, e⟩ := updateLog_frame t1 r.val gap
        rw [e] at hA
        have a1 : t2.log = t1.log := congrArg Data.log hA
        have a2 : t2.all = t1.all := congrArg Data.all hA
        have a3 : t2.cur = t1.cur := congrArg Data.cur hA
        have w3 : WF env s3 := by
          refine WF.of_data (s := s) w ?_
          exact hdisp.trans b
        obtain ⟨er, hadd', he, _⟩ := addResult_spec hadd
        set p := clipPt p0 P.lLower P.lUpper with hpdef
        have hold : ∀ j q, OldRecord s j q ↔ OldRecord s3 j q := by
          intro j q; unfold OldRecord; rw [g2, g4]
        have hev' := hev
        unfold evaluateNext at hev'
        rw [if_pos (g5.trans hmode)] at hev'
        have hsingle : ∀ b ∈ s.all.noisy, b = false := by
          intro b hb
          have h3 := (hr.inv' (I := SingleOK)
            (by simp [SingleOK, Alg.init, hP, Table.All]) (fun _ _ w hs hm => hs.micro hP w hm)).2.2
          obtain ⟨k, hk⟩ := List.mem_iff_getElem?.mp hb
          have hlen := (List.getElem?_eq_some_iff.mp hk).1
          have hA := w.allA
          obtain ⟨x1, x2, x3⟩ := hA
          exact (h3 k _ _ b _ (List.getElem?_eq_getElem (by omega))
            (List.getElem?_eq_getElem (by omega)) hk (List.getElem?_eq_getElem (by omega))).1
        have key : ∀ v, r.val = v → r.isNoisy = false → r.s.cur = s3.cur → r.s.all = s3.all →
            s'.cur = s.cur.append { pos := [p], val := [v], noisy := [false], err := [(0, 0)] } ∧
            s'.all = s.all.append
              { pos := [env.toOrig p], val := [v], noisy := [false], err := [(0, 0)] } ∧
            s'.log = r.s.log := by
          intro v hv hb hc ha
          have h1 := hadd'.cur
          have h2 := hadd'.all
          have h3 := hadd'.rest.1
          rw [hv, hb, he hb, hc, g3] at h1
          rw [hv, hb, he hb, ha, g2] at h2
          exact ⟨f3.trans (a3.trans h1), f2.trans (a2.trans h2), f1.trans (a1.trans h3)⟩
        cases hri : reuseIndex P env s3 (env.toOrig p) with
        | none =>
          have hra : reuseAcc P env s3 (env.toOrig p) = none := by unfold reuseAcc; rw [hri]
          rw [hra] at hev'
          cases hev'
          obtain ⟨k1, k2, k3⟩ := key _ rfl rfl rfl rfl
          refine ⟨p, _, ?_, k1, k2, Or.inl ⟨?_, ?_⟩⟩
          · rw [← g3]; exact getMinDistance_gt hdist hlt
          · rw [k3, ← g1]
          · intro j q hq
            exact reuseIndex_none hri j q ((hold j q).mp hq)
        | some i =>
          obtain ⟨q, hq⟩ := reuseIndex_nearest hri
          obtain ⟨v, b', e', hv, hb', he'⟩ := w3.allA.has hq.1.2
          have : b' = false := hsingle b' (by rw [← g2]; exact List.mem_of_getElem? hb')
          subst this
          have hra : reuseAcc P env s3 (env.toOrig p) = some v := by
            unfold reuseAcc; rw [hri]; simp only; rw [hb', hv]
          rw [hra] at hev'
          cases hev'
          obtain ⟨k1, k2, k3⟩ := key _ rfl rfl rfl rfl
          refine ⟨p, v, ?_, k1, k2, Or.inr ⟨k3.trans g1, i, q, (hold i q).mpr hq.1, hq.2.1, ?_⟩⟩
          · rw [← g3]; exact getMinDistance_gt hdist hlt
          · rw [← g2]; exact hv

end Rbfopt
