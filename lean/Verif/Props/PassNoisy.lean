import Verif.Props.Pass
import Verif.Props.ParallelPhase
import Verif.Spec.PassNoisy

/-!
# What one pass of the main loop does to the records and to the black box (any black box)
-/

namespace Rbfopt

variable {O : Type} {P : Params} {env : Env O} {o : O} {c : Ctl} {s : Alg O}

theorem mayImprove_iff {a : Alg O} {x : ℚ} : requireAccurate P a x = true ↔ MayImprove P a.fmin x := by
  rw [requireAccurate_iff, MayImprove, or_comm]

theorem updateLog_eqs (a : Alg O) (v : ℚ) (g : EVal) : (updateLog a v g).log = a.log ∧
    (updateLog a v g).all = a.all ∧ (updateLog a v g).cur = a.cur ∧
    (updateLog a v g).nAtRestart = a.nAtRestart := by
  obtain ⟨g', st, e⟩ := updateLog_frame a v g
  rw [e]; exact ⟨rfl, rfl, rfl, rfl⟩

/-- What the dispatch does to the nodes and records. -/
theorem dispatch_taken {s' : Alg O} {next : Option Pt} {ref : Option RefProposal}
    (hd : ∀ p, env.dist p p ≤ P.minDist) (h : dispatch P env s = .ok (.go s' next ref)) :
    s'.log = s.log ∧ s'.mode = s.mode ∧ s'.nAtRestart = s.nAtRestart ∧ s'.fmin = s.fmin ∧
    ∃ q, TakenOut P s s'.all s'.cur.pos q ∧ (q ≠ none → next = q) := by
  have keep : ∀ t : Alg O, t.data = s.data → t.log = s.log ∧ t.mode = s.mode ∧
      t.nAtRestart = s.nAtRestart ∧ t.fmin = s.fmin ∧
      ∃ q, TakenOut P s t.all t.cur.pos q ∧ (q ≠ none → next = q) := by
    intro t e
    refine ⟨congrArg Data.log e, congrArg Data.mode e, congrArg Data.nAtRestart e, congrArg Data.fmin e,
      none, ?_, fun h => absurd rfl h⟩
    rw [show t.all = s.all from congrArg Data.all e, show t.cur = s.cur from congrArg Data.cur e]
    exact .nothing
  unfold dispatch at h
  split at h
  · split at h
    · cases h
    · cases h; exact keep _ rfl
  · split at h
    · split at h
      · cases h
      · split at h
        · cases h
        · split at h <;> cases h
      · rename_i hrs
        unfold restorationSearch at hrs
        rw [restorationLoop_none hd] at hrs
        cases hrs
    · split at h
      · rename_i hst
        split at h
        · cases h
        · rename_i lp o' _
          unfold localDispatch at h
          have epos : (eraseErr P { s with opq := o' } lp.erased).cur.pos = s.cur.pos := by
            unfold eraseErr; split <;> rfl
          have eall : (eraseErr P { s with opq := o' } lp.erased).all = s.all := by
            unfold eraseErr; split <;> rfl
          have elog : (eraseErr P { s with opq := o' } lp.erased).log = s.log := by
            unfold eraseErr; split <;> rfl
          have emode : (eraseErr P { s with opq := o' } lp.erased).mode = s.mode := by
            unfold eraseErr; split <;> rfl
          have enat : (eraseErr P { s with opq := o' } lp.erased).nAtRestart = s.nAtRestart := by
            unfold eraseErr; split <;> rfl
          have efmin : (eraseErr P { s with opq := o' } lp.erased).fmin = s.fmin := by
            unfold eraseErr; split <;> rfl
          have keep' : ∀ nx, (∃ q, TakenOut P s (eraseErr P { s with opq := o' } lp.erased).all
              (eraseErr P { s with opq := o' } lp.erased).cur.pos q ∧ (q ≠ none → nx = q)) := by
            intro nx
            refine ⟨none, ?_, fun h => absurd rfl h⟩
            rw [epos, eall]; exact .nothing
          split at h
          · rename_i hph
            split at h
            · split at h
              · cases h
              · split at h
                · rename_i b q hb hq
                  split at h
                  · split at h
                    · cases h
                    · rename_i s1 hrm
                      cases h
                      obtain ⟨r1, r2, r3⟩ := removeNode_spec hrm
                      subst r3
                      refine ⟨elog, emode, enat, efmin, some q, ?_, fun _ => rfl⟩
                      rw [emode] at hph
                      rw [epos] at hq
                      show TakenOut P s (Table.eraseIdx _ _) ((eraseErr P _ _).cur.pos.eraseIdx _) _
                      rw [epos, eall, enat]
                      exact .node hph.1 hph.2 hst hq
                  · cases h; exact ⟨elog, emode, enat, efmin, keep' _⟩
                · cases h
            · cases h; exact ⟨elog, emode, enat, efmin, keep' _⟩
          · cases h; exact ⟨elog, emode, enat, efmin, keep' _⟩
      · split at h
        · split at h
          · cases h
          · cases h; exact keep _ rfl
        · split at h
          · cases h
          · cases h; exact keep _ rfl

/-- The records made before the last restart are still there. -/
theorem TakenOut.old {A : Table} {N : List Pt} {q : Option Pt} (h : TakenOut P s A N q) {j : ℕ}
    (hj : j < s.nAtRestart) : A.pos[j]? = s.all.pos[j]? ∧ A.val[j]? = s.all.val[j]? ∧
      A.noisy[j]? = s.all.noisy[j]? := by
  cases h with
  | nothing => exact ⟨rfl, rfl, rfl⟩
  | @node k _ _ _ _ _ =>
    have hlt : j < s.nAtRestart + k := by omega
    exact ⟨List.getElem?_eraseIdx_of_lt hlt, List.getElem?_eraseIdx_of_lt hlt,
      List.getElem?_eraseIdx_of_lt hlt⟩

/-- How `evaluateNext` obtains a value. -/
theorem evaluateNext_obtained {loc : Loc} {x : Pt} {r : EvalRes O} {s1 : Alg O} {p : Pt}
    (ha : s.all.Aligned) (h : evaluateNext P env s loc x = .ok r) (hadd : addResult r.s p x r = .ok s1) :
    ∃ e calls, Obtained P env s x r.val r.isNoisy e calls ∧ r.s.log = s.log ++ calls ∧
      r.s.all = s.all ∧ r.s.cur = s.cur ∧ r.s.nAtRestart = s.nAtRestart ∧
      AddOut r.s s1 p x r.val r.isNoisy e := by
  obtain ⟨e, hA, he0, he1⟩ := addResult_spec hadd
  unfold evaluateNext at h
  split at h
  · rename_i hm
    split at h
    · rename_i v hr
      cases h
      unfold reuseAcc at hr
      split at hr
      · cases hr
      · rename_i i hi
        obtain ⟨q, hq⟩ := reuseIndex_nearest hi
        split at hr
        · rename_i v' hb hv
          cases hr
          exact ⟨e, [], .reused hq hv hb (fun _ => rfl) (fun _ => he0 rfl) (by simp), by simp, rfl, rfl,
            rfl, hA⟩
        · cases hr
    · rename_i hr
      cases h
      have e0 := he0 rfl
      subst e0
      refine ⟨_, _, .accurate hm ?_, rfl, rfl, rfl, rfl, hA⟩
      unfold reuseAcc at hr
      split at hr
      · rename_i hi
        exact Or.inl (reuseIndex_none hi)
      · rename_i i hi
        obtain ⟨q, hq⟩ := reuseIndex_nearest hi
        obtain ⟨v, b, e', hv, hb, -⟩ := ha.has hq.1.2
        cases b with
        | true => exact Or.inr ⟨i, q, hq, hb⟩
        | false => rw [hb, hv] at hr; cases hr
  · rename_i hm
    have hm' : s.mode = .noisy := by
      cases h' : s.mode with
      | noisy => rfl
      | accurate => exact absurd h' hm
    dsimp only at h
    unfold noisyFirst at h
    cases hrn : reuseNoisy P env s x with
    | some bv =>
      obtain ⟨b, v⟩ := bv
      rw [hrn] at h
      dsimp only at h
      unfold reuseNoisy at hrn
      split at hrn
      · cases hrn
      · rename_i i hi
        obtain ⟨q, hq⟩ := reuseIndex_nearest hi
        split at hrn
        · rename_i b' v' hb hv
          cases hrn
          split at h
          · rename_i hbt
            subst hbt
            split at h
            · cases h
            · rename_i e1 hl
              split at h
              · rename_i hreq
                cases h
                have e0 := he0 rfl
                subst e0
                refine ⟨_, [_], .oldThenAccurate (e := e1) hm' hq hv hb (mayImprove_iff.mp hreq), ?_, ?_,
                  ?_, ?_, hA⟩
                all_goals simp [objfun, updateLog_eqs]
              · rename_i hreq
                cases h
                have e2 := he1 rfl
                rw [hl] at e2
                cases e2
                exact ⟨_, [], .reused hq hv hb (fun h => absurd h hm) (by simp)
                  (fun _ h => hreq (mayImprove_iff.mpr h)), by simp, rfl, rfl, rfl, hA⟩
          · rename_i hbf
            simp only [Bool.not_eq_true] at hbf
            subst hbf
            cases h
            exact ⟨e, [], .reused hq hv hb (fun _ => rfl) (fun _ => he0 rfl) (by simp), by simp, rfl, rfl,
              rfl, hA⟩
        · cases hrn
    | none =>
      rw [hrn] at h
      dsimp only at h
      have hfar : ∀ j q, OldRecord s j q → P.epsZero ≤ env.dist x q := by
        unfold reuseNoisy at hrn
        split at hrn
        · rename_i hi; exact reuseIndex_none hi
        · rename_i i hi
          obtain ⟨q, hq⟩ := reuseIndex_nearest hi
          obtain ⟨v, b, e', hv, hb, -⟩ := ha.has hq.1.2
          rw [hb, hv] at hrn; cases hrn
      rw [if_pos rfl] at h
      split at h
      · rename_i hreq
        have hmi := mayImprove_iff.mp hreq
        cases h
        have e0 := he0 rfl
        subst e0
        refine ⟨_, [_, _], .both hm' hfar (w := (env.evalNoisy s.log (env.decode x)).1)
          (e := (env.evalNoisy s.log (env.decode x)).2) hmi, ?_, ?_, ?_, ?_, hA⟩
        all_goals simp [objfun, objfunNoisy, updateLog_eqs]
      · rename_i hreq
        cases h
        have e2 := he1 rfl
        cases e2
        exact ⟨_, [_], .noisy hm' hfar (e := (env.evalNoisy s.log (env.decode x)).2)
          (fun h => hreq (mayImprove_iff.mpr h)), rfl, rfl, rfl, rfl, hA⟩

/-- What happens to the point chosen by an iteration. -/
theorem processPoint_obtained {loc loc' : Loc} {next : Option Pt} {ref : Option RefProposal} {s' : Alg O}
    (ha : s.all.Aligned) (h : processPoint P env s loc next ref = .ok (s', loc')) :
    (s'.log = s.log ∧ s'.all = s.all ∧ s'.cur = s.cur ∧ s'.nAtRestart = s.nAtRestart ∧
      (∀ p, next = some p → ∃ x ∈ s.cur.pos, env.dist (clipPt p P.lLower P.lUpper) x ≤ P.minDist)) ∨
    ∃ p0 p v b e calls, next = some p0 ∧ p = clipPt p0 P.lLower P.lUpper ∧
      (∀ x ∈ s.cur.pos, P.minDist < env.dist p x) ∧ Obtained P env s (env.toOrig p) v b e calls ∧
      s'.log = s.log ++ calls ∧ s'.nAtRestart = s.nAtRestart ∧
      s'.all = s.all.append { pos := [env.toOrig p], val := [v], noisy := [b], err := [e] } ∧
      s'.cur = s.cur.append { pos := [p], val := [v], noisy := [b], err := [e] } := by
  unfold processPoint at h
  split at h
  · cases h
    exact Or.inl ⟨rfl, rfl, rfl, rfl, fun _ h => by cases h⟩
  · rename_i p0
    dsimp only at h
    split at h
    · cases h
    · rename_i d hd
      split at h
      · rename_i hle
        cases h
        refine Or.inl ⟨rfl, rfl, rfl, rfl, ?_⟩
        intro p hp
        cases hp
        obtain ⟨⟨x, hx, e⟩, -⟩ := getMinDistance_some hd
        exact ⟨x, hx, by rw [e]; exact hle⟩
      · rename_i hgt
        split at h
        · cases h
        · rename_i r hev
          split at h
          · cases h
          · rename_i s1 hadd
            split at h
            · cases h
            · rename_i gap _
              split at h
              · cases h
              · rename_i t haft
                cases h
                obtain ⟨e, calls, hO, e1, e2, e3, e4, hA⟩ := evaluateNext_obtained ha hev hadd
                have hdat := afterAdd_data haft
                obtain ⟨u1, u2, u3, u4⟩ := updateLog_eqs s1 r.val gap
                refine Or.inr ⟨p0, _, r.val, r.isNoisy, e, calls, rfl, rfl,
                  getMinDistance_gt hd (not_le.mp hgt), hO, ?_, ?_, ?_, ?_⟩
                · exact ((congrArg Data.log hdat).trans u1).trans (hA.rest.1.trans e1)
                · exact ((congrArg Data.nAtRestart hdat).trans u4).trans
                    (hA.rest.2.2.2.2.1.trans e4)
                · exact ((congrArg Data.all hdat).trans u2).trans (by rw [hA.all, e2])
                · exact ((congrArg Data.cur hdat).trans u3).trans (by rw [hA.cur, e3])

theorem endPass_eqs {t : Alg O} (h : endPass P s = .ok t) : t.log = s.log ∧ t.all = s.all ∧
    t.cur = s.cur ∧ t.nAtRestart = s.nAtRestart := by
  unfold endPass at h
  dsimp only at h
  split at h
  · cases h
  · cases h
    have e := stallingUpdate_data P { s with itercount := s.itercount + 1 }
    have e1 := congrArg Data.log e
    have e2 := congrArg Data.all e
    have e3 := congrArg Data.cur e
    have e4 := congrArg Data.nAtRestart e
    unfold phaseUpdate
    split <;> exact ⟨e1, e2, e3, e4⟩

/-- An iteration after the restart, if any, until its end. -/
theorem PassIter.obtained {loc loc' : Loc} {s' s1 s2 s3 s4 : Alg O} {o : O} {next : Option Pt}
    {ref : Option RefProposal} (hd : ∀ p, env.dist p p ≤ P.minDist) (w : WF env s1)
    (hp : PassIter P env s loc s' loc' s1 s2 s3 s4 o next ref) : s'.nAtRestart = s1.nAtRestart ∧
    ∃ A N q, TakenOut P s1 A N q ∧
      ((s'.log = s1.log ∧ s'.all = A ∧ s'.cur.pos = N ∧
        ∀ x, q = some x → ∃ y ∈ N, env.dist (clipPt x P.lLower P.lUpper) y ≤ P.minDist) ∨
      ∃ p v b e calls, (∀ x, q = some x → p = clipPt x P.lLower P.lUpper) ∧
        (∀ y ∈ N, P.minDist < env.dist p y) ∧ Obtained P env s1 (env.toOrig p) v b e calls ∧
        s'.log = s1.log ++ calls ∧
        s'.all = A.append { pos := [env.toOrig p], val := [v], noisy := [b], err := [e] } ∧
        s'.cur.pos = N ++ [p]) := by
  have b := buildModel_data hp.build
  have w2 : WF env s2 := WF.of_data (s := { s1 with opq := o }) (w.of_data rfl) b
  have b1 : s2.log = s1.log := congrArg Data.log b
  have b2 : s2.all = s1.all := congrArg Data.all b
  have b3 : s2.cur = s1.cur := congrArg Data.cur b
  have b4 : s2.nAtRestart = s1.nAtRestart := congrArg Data.nAtRestart b
  have b5 : s2.mode = s1.mode := congrArg Data.mode b
  have b6 : s2.fmin = s1.fmin := congrArg Data.fmin b
  have w3 : WF env s3 := w2.dispatch hp.disp
  obtain ⟨d1, d2, d3, d4, q, hq, hnx⟩ := dispatch_taken hd hp.disp
  obtain ⟨-, -, -, -, -, -, -, -, -, hstep⟩ := buildModel_ctl hp.build
  have hq1 : TakenOut P s1 s3.all s3.cur.pos q := by
    generalize s3.all = A at hq
    generalize s3.cur.pos = N at hq
    cases hq with
    | nothing => rw [b2, b3]; exact .nothing
    | @node k x h2 hm hs hk =>
      rw [b2, b3, b4]
      refine .node h2 (b5 ▸ hm) ?_ (b3 ▸ hk)
      rcases hstep with h | ⟨-, h⟩
      · exact h.symm.trans hs
      · rw [h] at hs
        simp [Params.restorationStep, Params.localStep] at hs
  obtain ⟨f1, f2, f3, f4⟩ := endPass_eqs hp.fin
  have hO : ∀ x v b e calls, Obtained P env s3 x v b e calls → Obtained P env s1 x v b e calls := by
    intro x v b e calls h
    have hold : ∀ j q, OldRecord s1 j q ↔ OldRecord s3 j q := by
      intro j q
      unfold OldRecord
      rw [d3, b4]
      exact and_congr_right (fun hj => by rw [(hq1.old hj).1])
    have hnear : ∀ j q, NearestWithin env P.epsZero s3 x j q → NearestWithin env P.epsZero s1 x j q := by
      rintro j q ⟨h1, h2, h3⟩
      exact ⟨(hold j q).mpr h1, h2, fun j' q' h4 => h3 j' q' ((hold j' q').mp h4)⟩
    have hlt : ∀ {j q}, NearestWithin env P.epsZero s3 x j q → j < s1.nAtRestart := by
      rintro j q ⟨h1, -⟩
      exact ((hold j q).mpr h1).1
    have hmode : s3.mode = s1.mode := d2.trans b5
    have hfm : s3.fmin = s1.fmin := d4.trans b6
    cases h with
    | accurate hm ho =>
      refine .accurate (hmode ▸ hm) ?_
      rcases ho with ho | ⟨j, q, h1, h2⟩
      · exact Or.inl (fun j q h => ho j q ((hold j q).mp h))
      · exact Or.inr ⟨j, q, hnear _ _ h1, by rw [← (hq1.old (hlt h1)).2.2]; exact h2⟩
    | reused h1 hv hb hm he hi =>
      exact .reused (hnear _ _ h1) (by rw [← (hq1.old (hlt h1)).2.1]; exact hv)
        (by rw [← (hq1.old (hlt h1)).2.2]; exact hb) (fun h => hm (hmode.trans h)) he (hfm ▸ hi)
    | noisy hm ho hi =>
      exact .noisy (hmode ▸ hm) (fun j q h => ho j q ((hold j q).mp h)) (hfm ▸ hi)
    | both hm ho hi =>
      exact .both (hmode ▸ hm) (fun j q h => ho j q ((hold j q).mp h)) (hfm ▸ hi)
    | oldThenAccurate hm h1 hv hb hi =>
      exact .oldThenAccurate (hmode ▸ hm) (hnear _ _ h1) (by rw [← (hq1.old (hlt h1)).2.1]; exact hv)
        (by rw [← (hq1.old (hlt h1)).2.2]; exact hb) (hfm ▸ hi)
  rcases processPoint_obtained w3.allA hp.proc with ⟨p1, p2, p3, p4, p5⟩ |
    ⟨p0, p, v, bb, e, calls, p1, p2, p3, p4, p5, p6, p7, p8⟩
  · refine ⟨f4.trans (p4.trans (d3.trans b4)), s3.all, s3.cur.pos, q, hq1, Or.inl ⟨?_, f2.trans p2, ?_, ?_⟩⟩
    · exact f1.trans (p1.trans (d1.trans b1))
    · rw [f3, p3]
    · intro x hx
      exact p5 x (by rw [hnx (by rw [hx]; simp), hx])
  · refine ⟨f4.trans (p6.trans (d3.trans b4)), s3.all, s3.cur.pos, q, hq1,
      Or.inr ⟨p, v, bb, e, calls, ?_, p3, hO _ _ _ _ _ p4, ?_, f2.trans p7, ?_⟩⟩
    · intro x hx
      have h1 := hnx (by rw [hx]; simp)
      rw [p1, hx] at h1
      cases h1
      exact p2
    · rw [f1, p5, d1, b1]
    · rw [f3, p8]; rfl

/-- While a call is running there is at least one current node (any black box). -/
theorem Reach.cur_ne' {start pause : ℕ} {loc : Loc}
    (hd : ∀ p, env.dist p p ≤ P.minDist) (h : Reach P env o (.running start pause loc) s) :
    s.cur.pos ≠ [] := by
  have hrestart : ∀ {t t' : Alg O}, restart P env t = .ok t' → t'.cur.pos ≠ [] := by
    intro t t' hre
    obtain ⟨tb, calls, m, M, i, ho⟩ := restart_spec hre
    have := ho.two_le
    rw [ho.cur]
    rintro h0
    simp only [List.map_eq_nil_iff] at h0
    rw [h0] at this
    simp at this
  have := h.inv_pass (I := fun c s => match c with
    | .idle => s.itercount ≠ 0 → s.cur.pos ≠ []
    | .running _ _ _ => s.cur.pos ≠ []) (by simp [Alg.init]) ?_ ?_ ?_ ?_
  · exact this
  · intro s s' loc pause hr h0 hs
    obtain ⟨-, -, ⟨_, hre⟩ | ⟨h1, rfl⟩⟩ := serialStart_cases hs
    · exact hrestart hre
    · exact h0 h1
  · intro s s' start pause loc loc' hr h0 _ hp
    have h0 : s.cur.pos ≠ [] := h0
    show s'.cur.pos ≠ []
    have hs1 : ∀ s1, restartIfNeeded P env { s with passes := s.passes + 1 } = .ok s1 →
        s1.cur.pos ≠ [] ∧ WF env s1 := by
      intro s1 h1
      rcases restartIfNeeded_cases h1 with ⟨_, h7⟩ | ⟨_, rfl⟩
      · exact ⟨hrestart h7, (hr.wf.of_data (t := { s with passes := s.passes + 1 }) rfl).restart h7⟩
      · exact ⟨h0, hr.wf.of_data rfl⟩
    cases pass_inv hp with
    | skip h1 h2 h3 => rw [h2]; exact h0
    | linFail s1 o hk h1 h2 h3 hl =>
      have b : s'.cur = s1.cur := congrArg Data.cur (buildModel_data h3)
      rw [b]; exact (hs1 _ h1).1
    | cont s1 s2 o hk h1 h2 h3 h4 hl =>
      have b : s2.cur = s1.cur := congrArg Data.cur (buildModel_data h3)
      obtain ⟨hst, s3, h5, h6⟩ := dispatch_skip h4
      have := restorationSearch_none h5
      subst this
      rcases h6 with ⟨_, _, rfl⟩ | h6
      · show s2.cur.pos ≠ []
        rw [b]; exact (hs1 _ h1).1
      · exact hrestart h6
    | iter s1 s2 s3 s4 o next ref hp =>
      obtain ⟨g1, g2⟩ := hs1 _ hp.restart
      obtain ⟨-, A, N, q, hq, ⟨-, -, h3, h4⟩ | ⟨p, v, b, e, calls, -, -, -, -, -, h5⟩⟩ :=
        hp.obtained hd g2
      · rw [h3]
        cases hq with
        | nothing => exact g1
        | node _ _ _ _ =>
          obtain ⟨y, hy, -⟩ := h4 _ rfl
          exact List.ne_nil_of_mem hy
      · rw [h5]; simp
  · intro s start pause loc _ h0 _ _; exact h0
  · intro s start pause loc _ h0 _; exact h0

/-- **C98** What an iteration without restart does to the nodes, the records and the black box, for any
black box.  At most one node is taken out, together with its record, to be evaluated again; this happens
only in two-phase optimization, in the local step and in accurate mode.  Then either nothing is evaluated
and recorded, and if a node was taken out it is within `min_dist` of another node; or exactly one point
(the one taken out, if any) is recorded, farther than `min_dist` from all remaining nodes, and its value is
obtained in one of the ways listed in `Obtained`: at most one call of `evaluate_noisy()` and one of
`evaluate()`, both at this point. -/
theorem C98_iteration (hd : ∀ p, env.dist p p = 0) (hm : 0 ≤ P.minDist)
    {start pause : ℕ} {loc loc' : Loc} {s' : Alg O}
    (hr : Reach P env o (.running start pause loc) s)
    (h : pass P env s loc = .ok (s', loc')) (hn : s'.nAtRestart = s.nAtRestart) :
    ∃ A N q, TakenOut P s A N q ∧
      ((s'.log = s.log ∧ s'.all = A ∧ s'.cur.pos = N ∧
        ∀ x, q = some x → ∃ y ∈ N, env.dist (clipPt x P.lLower P.lUpper) y ≤ P.minDist) ∨
      ∃ p v b e calls, (∀ x, q = some x → p = clipPt x P.lLower P.lUpper) ∧
        (∀ y ∈ N, P.minDist < env.dist p y) ∧ Obtained P env s (env.toOrig p) v b e calls ∧
        s'.log = s.log ++ calls ∧
        s'.all = A.append { pos := [env.toOrig p], val := [v], noisy := [b], err := [e] } ∧
        s'.cur.pos = N ++ [p]) := by
  have hd' : ∀ p, env.dist p p ≤ P.minDist := fun p => by rw [hd]; exact hm
  have w := hr.wf
  have hlt : s.nAtRestart < s.all.pos.length := by
    have h1 := w.pos.length_eq
    simp only [List.length_drop] at h1
    have : 0 < s.cur.pos.length := List.length_pos_iff.mpr (hr.cur_ne' hd')
    omega
  have hR : ∀ t t' : Alg O, t.all = s.all → restart P env t = .ok t' →
      t'.nAtRestart = s.all.pos.length := by
    intro t t' he hre
    obtain ⟨tb, calls, m, M, i, ho⟩ := restart_spec hre
    rw [ho.nAt, he]
  have same : ∀ t : Alg O, t.data = s.data → ∃ A N q, TakenOut P s A N q ∧
      ((t.log = s.log ∧ t.all = A ∧ t.cur.pos = N ∧
        ∀ x, q = some x → ∃ y ∈ N, env.dist (clipPt x P.lLower P.lUpper) y ≤ P.minDist) ∨
      ∃ p v b e calls, (∀ x, q = some x → p = clipPt x P.lLower P.lUpper) ∧
        (∀ y ∈ N, P.minDist < env.dist p y) ∧ Obtained P env s (env.toOrig p) v b e calls ∧
        t.log = s.log ++ calls ∧
        t.all = A.append { pos := [env.toOrig p], val := [v], noisy := [b], err := [e] } ∧
        t.cur.pos = N ++ [p]) := by
    intro t e
    refine ⟨_, _, _, .nothing, Or.inl ⟨congrArg Data.log e, congrArg Data.all e, ?_, by simp⟩⟩
    rw [show t.cur = s.cur from congrArg Data.cur e]
  cases pass_inv h with
  | skip h1 h2 h3 => rw [h2]; exact same _ rfl
  | linFail s1 o hk h1 h2 h3 hl =>
    have b := buildModel_data h3
    have b1 : s'.nAtRestart = s1.nAtRestart := congrArg Data.nAtRestart b
    rcases restartIfNeeded_cases h1 with ⟨_, h4⟩ | ⟨_, rfl⟩
    · have := hR { s with passes := s.passes + 1 } s1 rfl h4
      omega
    · exact same _ b
  | cont s1 s2 o hk h1 h2 h3 h4 hl =>
    have b := buildModel_data h3
    obtain ⟨hst, s3, h5, h6⟩ := dispatch_skip h4
    have := restorationSearch_none h5
    subst this
    rcases restartIfNeeded_cases h1 with ⟨_, h7⟩ | ⟨_, rfl⟩
    · have e1 := hR { s with passes := s.passes + 1 } s1 rfl h7
      have b1 : s2.nAtRestart = s1.nAtRestart := congrArg Data.nAtRestart b
      have b2 : s2.all = s1.all := congrArg Data.all b
      rcases h6 with ⟨_, _, rfl⟩ | h6
      · simp only [advanceStep] at hn
        omega
      · obtain ⟨tb, calls, m, M, i, ho⟩ := restart_spec h6
        obtain ⟨tb', calls', m', M', i', ho'⟩ := restart_spec h7
        have := ho.nAt
        dsimp only at this
        rw [b2, ho'.all] at this
        simp only [Table.append, List.length_append] at this
        omega
    · rcases h6 with ⟨_, _, rfl⟩ | h6
      · exact same _ b
      · have b2 : s2.all = s.all := congrArg Data.all b
        have := hR { s2 with opq := env.restOpq s2 } s' b2 h6
        omega
  | iter s1 s2 s3 s4 o next ref hp =>
    rcases restartIfNeeded_cases hp.restart with ⟨_, h7⟩ | ⟨_, rfl⟩
    · have e1 := hR { s with passes := s.passes + 1 } s1 rfl h7
      have w1 : WF env s1 := (w.of_data (t := { s with passes := s.passes + 1 }) rfl).restart h7
      have := (hp.obtained hd' w1).1
      omega
    · obtain ⟨-, A, N, q, hq, hrest⟩ := hp.obtained hd' (w.of_data (t := { s with passes := s.passes + 1 }) rfl)
      have hq' : TakenOut P s A N q := by
        cases hq with
        | nothing => exact .nothing
        | node h2 hm hs hk => exact .node h2 hm hs hk
      refine ⟨A, N, q, hq', ?_⟩
      rcases hrest with h1 | ⟨p, v, b, e, calls, h1, h2, h3, h4⟩
      · exact Or.inl h1
      · refine Or.inr ⟨p, v, b, e, calls, h1, h2, ?_, h4⟩
        cases h3 with
        | accurate hm ho => exact .accurate hm ho
        | reused h1 hv hb hm he hi => exact .reused h1 hv hb hm he hi
        | noisy hm ho hi => exact .noisy hm ho hi
        | both hm ho hi => exact .both hm ho hi
        | oldThenAccurate hm h1 hv hb hi => exact .oldThenAccurate hm h1 hv hb hi

end Rbfopt
