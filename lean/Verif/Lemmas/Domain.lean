import Verif.Lemmas.More
import Verif.Spec.Domain

/-! # Every evaluated point comes from a proposal, a sample or the user -/

namespace Rbfopt

variable {O : Type}

theorem evaluateNext_log {P : Params} {env : Env O} {s : Alg O} {loc : Loc} {orig : Pt}
    {r : EvalRes O} (hev : evaluateNext P env s loc orig = .ok r) :
    ∀ c ∈ r.s.log, c ∈ s.log ∨ c.point = env.decode orig := by
  intro c hc
  unfold evaluateNext at hev
  split at hev
  · split at hev
    · cases hev; exact Or.inl hc
    · cases hev
      simp only [objfun, List.mem_append, List.mem_singleton] at hc
      exact hc.imp id (fun h => by rw [h]; rfl)
  · have hn : ∀ c ∈ (noisyFirst P env s loc orig).s.log,
        c ∈ s.log ∨ c.point = env.decode orig := by
      intro c hc
      unfold noisyFirst at hc
      split at hc
      · exact Or.inl hc
      · simp only [objfunNoisy, List.mem_append, List.mem_singleton] at hc
        exact hc.imp id (fun h => by rw [h]; rfl)
    dsimp only at hev
    split at hev
    · split at hev
      · cases hev
      · split at hev
        · cases hev
          obtain ⟨g, st, hl⟩ := updateLog_frame
            (noisyFirst P env s loc orig).s (noisyFirst P env s loc orig).val loc.gap
          simp only [objfun, hl, List.mem_append, List.mem_singleton] at hc
          rcases hc with hc | hc
          · exact hn c hc
          · right; rw [hc]; rfl
        · cases hev; exact hn c hc
    · cases hev; exact hn c hc

/-- Current nodes satisfy `K`, recorded points `Q`, and calls are made at decoded `Q`-points. -/
def DomK (K Q : Pt → Prop) (env : Env O) (s : Alg O) : Prop :=
  (∀ p ∈ s.cur.pos, K p) ∧ DomOK Q env s

/-- Assumptions on the sources of points. -/
structure Sources (P : Params) (env : Env O) (K Q : Pt → Prop) : Prop where
  init : SamplesIn env Q
  user : ∀ p ∈ P.initPos, Q p
  toInt : ∀ p, Q p → K (env.toInternal p)
  clip : ∀ p, K p → K (clipPt p P.lLower P.lUpper) ∧
    Q (env.toOrig (clipPt p P.lLower P.lUpper))
  prop : ProposalsFrom env K

variable {P : Params} {env : Env O} {K Q : Pt → Prop}

theorem DomK.of_eq {s t : Alg O} (h : DomK K Q env s) (e1 : t.all = s.all) (e2 : t.cur = s.cur)
    (e3 : t.log = s.log) : DomK K Q env t := by
  unfold DomK DomOK
  rw [e1, e2, e3]; exact h

theorem DomK.of_data {s t : Alg O} (h : DomK K Q env s) (e : t.data = s.data) : DomK K Q env t := by
  have e1 : t.all = s.all := congrArg Data.all e
  have e2 : t.cur = s.cur := congrArg Data.cur e
  have e3 : t.log = s.log := congrArg Data.log e
  unfold DomK DomOK
  rw [e1, e2, e3]; exact h

theorem DomK.restart {s t : Alg O} (H : Sources P env K Q) (h : DomK K Q env s)
    (hr : restart P env s = .ok t) : DomK K Q env t := by
  obtain ⟨h0, h1, h2⟩ := h
  obtain ⟨pts, c1, c2, tb, ho⟩ := restart_calls hr
  obtain ⟨tb', calls, m, M, i, ho'⟩ := restart_spec hr
  have htb : tb'.pos = tb.pos := by
    have := ho'.all.symm.trans ho.all
    have := congrArg Table.pos this
    simpa [Table.append] using this
  have hpts : ∀ p ∈ pts, Q p := by
    rcases ho.sample with h | ⟨o, s0, _, _, h⟩
    · rw [h]; simp
    · exact H.init _ _ _ h
  have hnew : ∀ p ∈ tb.pos, Q p := by
    intro p hp
    rcases ho.posOrigin p hp with hp | hp | hp
    · exact hpts p hp
    · exact h1 p hp
    · exact H.user p hp
  refine ⟨?_, ?_, ?_⟩
  · rw [ho'.cur]
    intro p hp
    obtain ⟨q, hq, rfl⟩ := List.mem_map.mp hp
    exact H.toInt q (hnew q (htb ▸ hq))
  · rw [ho.all]
    intro p hp
    rcases List.mem_append.mp hp with hp | hp
    · exact h1 p hp
    · exact hnew p hp
  · rw [ho.log]
    intro c hc
    rcases List.mem_append.mp hc with hc | hc
    · exact h2 c hc
    · rcases List.mem_append.mp hc with hc | hc
      · obtain ⟨p, hp, e⟩ := ho.samplePts c hc
        exact ⟨p, hpts p hp, e⟩
      · obtain ⟨p, hp, e⟩ := ho.userPts c hc
        exact ⟨p, H.user p hp, e⟩

theorem DomK.removeNode {s t : Alg O} {i k : ℕ} (h : DomK K Q env s)
    (hr : removeNode s i k = .ok t) : DomK K Q env t := by
  obtain ⟨h0, h1, h2⟩ := h
  obtain ⟨_, _, rfl⟩ := removeNode_spec hr
  exact ⟨fun p hp => h0 p (List.mem_of_mem_eraseIdx hp),
    fun p hp => h1 p (List.mem_of_mem_eraseIdx hp), h2⟩

theorem DomK.processPoint {s t : Alg O} {loc loc' : Loc} {next : Option Pt}
    {ref : Option RefProposal} (H : Sources P env K Q) (w : WF env s) (h : DomK K Q env s)
    (hn : ∀ p, next = some p → K p)
    (hp : processPoint P env s loc next ref = .ok (t, loc')) : DomK K Q env t := by
  rcases processPoint_cases hp with ⟨rfl, rfl⟩ |
    ⟨p0, d, r, s1, gap, s2, rfl, hd, hlt, hev, hadd, hgap, haft, rfl, rfl⟩
  · exact h.of_data (discardPoint_data P s)
  · obtain ⟨g, st, e⟩ := updateLog_frame s1 r.val gap
    have haft' := afterAdd_data haft
    rw [e] at haft'
    refine DomK.of_eq (s := s1) ?_ (congrArg Data.all haft') (congrArg Data.cur haft')
      (congrArg Data.log haft')
    · obtain ⟨h0, h1, h2⟩ := h
      obtain ⟨calls, ho⟩ := evaluateNext_spec hev w.allA
      obtain ⟨e, ha, _, _⟩ := addResult_spec hadd
      obtain ⟨r1, -⟩ := ha.rest
      obtain ⟨q0, q0', -⟩ := ho.data_eqs
      obtain ⟨k1, k2⟩ := H.clip p0 (hn p0 rfl)
      refine ⟨?_, ?_, ?_⟩
      · rw [ha.cur, q0]
        intro p hp
        rcases List.mem_append.mp hp with hp | hp
        · exact h0 p hp
        · rw [List.mem_singleton.mp hp]; exact k1
      · rw [ha.all, q0']
        intro p hp
        rcases List.mem_append.mp hp with hp | hp
        · exact h1 p hp
        · rw [List.mem_singleton.mp hp]; exact k2
      · rw [r1]
        intro c hc
        rcases evaluateNext_log hev c hc with hc | hc
        · exact h2 c hc
        · exact ⟨_, k2, hc⟩

theorem restorationLoop_source {s : Alg O} {fuel k i : ℕ} {p : Pt}
    (h : restorationLoop P env s fuel k = some (i, p)) : ∃ j, p = env.restCand s j := by
  induction fuel generalizing k with
  | zero => cases h
  | succ fuel ih =>
    simp only [restorationLoop] at h
    split at h
    · split at h
      · cases h
      · split at h
        · cases h; exact ⟨_, rfl⟩
        · exact ih h
    · cases h

theorem DomK.localDispatch {s t : Alg O} {lp : LocalProposal} {next : Option Pt}
    {ref : Option RefProposal} (h : DomK K Q env s) (hn : ∀ p, lp.next = some p → K p)
    (hd : localDispatch P env s lp = .ok (.go t next ref)) :
    DomK K Q env t ∧ ∀ p, next = some p → K p := by
  unfold Rbfopt.localDispatch at hd
  split at hd
  · split at hd
    · rename_i bump p0 hb hp0
      split at hd
      · cases hd
      · split at hd
        · rename_i b q hb' hq
          split at hd
          · split at hd
            · cases hd
            · rename_i s1 hr
              cases hd
              refine ⟨h.removeNode hr, ?_⟩
              intro p e; cases e
              exact h.1 _ (List.mem_of_getElem? hq)
          · cases hd
            exact ⟨h, fun p e => by cases e; exact hn _ hp0⟩
        · cases hd
    · cases hd; exact ⟨h, hn⟩
  · cases hd; exact ⟨h, hn⟩

theorem DomK.dispatch {s : Alg O} {d : Dispatch O} (H : Sources P env K Q) (h : DomK K Q env s)
    (hd : dispatch P env s = .ok d) :
    match d with
    | .skip t => DomK K Q env t
    | .go t next _ => DomK K Q env t ∧ ∀ p, next = some p → K p := by
  unfold Rbfopt.dispatch at hd
  split at hd
  · split at hd
    · cases hd
    · rename_i p o hs
      cases hd
      exact ⟨h.of_data rfl, fun q e => H.prop.search _ h.1 _ _ (e ▸ hs)⟩
  · split at hd
    · split at hd
      · cases hd
      · rename_i s1 hr
        have h1 : DomK K Q env s1 := h.of_data (restorationSearch_none_data hr)
        split at hd
        · cases hd; exact h1.of_data rfl
        · split at hd
          · cases hd
          · rename_i s2 hr2; cases hd; exact h1.restart H hr2
      · rename_i p s1 hr
        cases hd
        unfold restorationSearch at hr
        split at hr
        · cases hr
        · rename_i i p' hl
          split at hr
          · cases hr
          · rename_i s2 hrm
            cases hr
            refine ⟨DomK.removeNode (s := { s with opq := env.restOpq s }) (h.of_data rfl) hrm, ?_⟩
            intro q e; cases e
            obtain ⟨j, rfl⟩ := restorationLoop_source hl
            exact H.prop.rest _ h.1 _
    · split at hd
      · split at hd
        · cases hd
        · rename_i lp o hl
          cases d with
          | skip t => exact absurd hd localDispatch_not_skip
          | go t next ref =>
            have he : DomK K Q env (eraseErr P { s with opq := o } lp.erased) := by
              obtain ⟨e, he⟩ := eraseErr_frame P { s with opq := o } lp.erased
              rw [he]; exact ⟨h.1, h.2⟩
            exact DomK.localDispatch he
              (fun p e => H.prop.loc _ h.1 _ _ _ hl e) hd
      · split at hd
        · split at hd
          · cases hd
          · rename_i rp o hr
            cases hd
            exact ⟨h.of_data rfl, fun p e => H.prop.ref _ h.1 _ _ _ hr e⟩
        · split at hd
          · cases hd
          · rename_i p o hs
            cases hd
            exact ⟨h.of_data rfl, fun q e => H.prop.search _ h.1 _ _ (e ▸ hs)⟩

theorem DomK.pass {s t : Alg O} {loc loc' : Loc} (H : Sources P env K Q) (w : WF env s)
    (h : DomK K Q env s) (hp : pass P env s loc = .ok (t, loc')) : DomK K Q env t := by
  unfold Rbfopt.pass at hp
  dsimp only at hp
  have w0 : WF env { s with passes := s.passes + 1 } := w.of_data rfl
  have h0 : DomK K Q env { s with passes := s.passes + 1 } := h.of_data rfl
  split at hp
  · cases hp; exact h0.of_data (advanceStep_data P _)
  · split at hp
    · cases hp
    · rename_i s1 hr
      have w1 : WF env s1 :=
        Micros.inv (I := WF env) (fun _ _ hs hm => hs.micro hm) w0 (restartIfNeeded_micros hr)
      have h1 : DomK K Q env s1 := by
        unfold restartIfNeeded at hr
        split at hr
        · exact h0.restart H hr
        · cases hr; exact h0
      split at hp
      · cases hp
      · rename_i o hprep
        split at hp
        · cases hp
        · rename_i s2 hb
          cases hp
          exact DomK.of_data (s := { s1 with opq := o }) (h1.of_data rfl) (buildModel_data hb)
        · rename_i s2 hb
          have w2 : WF env s2 := by
            have : WF env { s1 with opq := o } := w1.of_data rfl
            exact this.of_data (buildModel_data hb)
          have h2 : DomK K Q env s2 :=
            DomK.of_data (s := { s1 with opq := o }) (h1.of_data rfl) (buildModel_data hb)
          split at hp
          · cases hp
          · rename_i s3 hd
            cases hp
            exact h2.dispatch H hd
          · rename_i s3 next ref hd
            obtain ⟨h3, hn⟩ := h2.dispatch H hd
            have w3 : WF env s3 := w2.dispatch hd
            split at hp
            · cases hp
            · rename_i s4 loc4 hpp
              have h4 := h3.processPoint H w3 hn hpp
              split at hp
              · cases hp
              · rename_i s5 he
                cases hp
                unfold endPass at he
                dsimp only at he
                split at he
                · cases he
                · cases he
                  have e1 := stallingUpdate_data P { s4 with itercount := s4.itercount + 1 }
                  have h5 : DomK K Q env
                      (stallingUpdate P { s4 with itercount := s4.itercount + 1 }) :=
                    DomK.of_data (s := { s4 with itercount := s4.itercount + 1 })
                      (h4.of_data rfl) e1
                  unfold phaseUpdate
                  split
                  · exact h5.of_eq rfl rfl rfl
                  · exact h5

theorem Reach.domK {o : O} {c : Ctl} {s : Alg O} (H : Sources P env K Q)
    (h : Reach P env o c s) : DomK K Q env s := by
  induction h with
  | init => exact ⟨by simp [Alg.init], by simp [Alg.init], by simp [Alg.init]⟩
  | @call s s' loc pause hr hs ih =>
    unfold serialStart firstRestart at hs
    split at hs
    · cases hs
    · rename_i s1 h1
      have : DomK K Q env s1 := by
        split at h1
        · exact ih.restart H h1
        · cases h1; exact ih
      split at hs
      · cases hs
      · cases hs; exact this
  | pass hr _ hp ih => exact ih.pass H hr.wf hp
  | ret _ _ ih => exact ih.of_data rfl
  | load _ ih => exact ih

end Rbfopt
