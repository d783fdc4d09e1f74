import Verif.Lemmas.Refine
import Verif.Spec.Restart

/-! # Stalling, restart reasons, reuse on restart -/

namespace Rbfopt

variable {O : Type}

theorem shouldRestart_iff {P : Params} {s : Alg O} : shouldRestart P s = true ↔ RestartDue P s := by
  simp [shouldRestart, RestartDue, Params.cycleLength]

theorem endPass_stall {P : Params} {s s' : Alg O} (h : endPass P s = .ok s') :
    (Improves P s.fmin s.fminStall ∧ s'.numStalled = 0 ∧ s'.fminStall = s.fmin) ∨
    (¬ Improves P s.fmin s.fminStall ∧ s'.numStalled = s.numStalled + 1 ∧
      s'.fminStall = s.fminStall) := by
  unfold endPass at h
  dsimp only at h
  split at h
  · cases h
  · cases h
    have hph : ∀ a : Alg O, (phaseUpdate P a).numStalled = a.numStalled ∧
        (phaseUpdate P a).fminStall = a.fminStall := by
      intro a; unfold phaseUpdate; split <;> simp
    rw [(hph _).1, (hph _).2]
    unfold stallingUpdate
    dsimp only
    split
    · rename_i h0
      refine Or.inr ⟨?_, rfl, rfl⟩
      rintro ⟨r, hr, _⟩
      rw [h0] at hr; exact absurd hr (by exact WithTop.top_ne_coe)
    · rename_i r h0
      split
      · rename_i hle
        exact Or.inl ⟨⟨r, h0, hle⟩, rfl, rfl⟩
      · rename_i hle
        refine Or.inr ⟨?_, rfl, rfl⟩
        rintro ⟨r', hr', hle'⟩
        rw [h0] at hr'
        have := WithTop.coe_injective hr'
        subst this
        exact hle hle'

/-- The stalling counter along a pass that counts an iteration. -/
theorem pass_stall {P : Params} {env : Env O} {s s' : Alg O} {loc loc' : Loc} (w : WF env s)
    (h : pass P env s loc = .ok (s', loc')) (hit : s'.itercount = s.itercount + 1) :
    (¬ RestartDue P s →
      ((Improves P s'.fmin s.fminStall ∧ s'.numStalled = 0 ∧ s'.fminStall = s'.fmin) ∨
       (¬ Improves P s'.fmin s.fminStall ∧ s'.numStalled = s.numStalled + 1 ∧
        s'.fminStall = s.fminStall))) ∧
    (RestartDue P s → s'.numStalled ≤ 1) := by
  have w0 : WF env { s with passes := s.passes + 1 } := w.of_data rfl
  cases pass_inv h with
  | skip h1 h2 h3 => rw [h2] at hit; simp [advanceStep] at hit
  | linFail s1 o hk h1 h2 h3 hl =>
    exfalso
    obtain ⟨_, s2, o', h4, rfl⟩ := buildModel_true h3
    have e : s1.itercount = s.itercount := by
      rcases restartIfNeeded_cases h1 with ⟨_, hr⟩ | ⟨_, rfl⟩
      · obtain ⟨t, calls, m, M, i, ho⟩ := restart_spec hr; exact ho.itercount
      · rfl
    rcases initRefIfNeeded_cases h4 with ⟨_, _, set, rad, o'', _, rfl⟩ | ⟨_, rfl⟩ <;>
      (dsimp only at hit; omega)
  | cont s1 s2 o hk h1 h2 h3 h4 hl =>
    exfalso
    have e : s1.itercount = s.itercount := by
      rcases restartIfNeeded_cases h1 with ⟨_, hr⟩ | ⟨_, rfl⟩
      · obtain ⟨t, calls, m, M, i, ho⟩ := restart_spec hr; exact ho.itercount
      · rfl
    obtain ⟨b1, -⟩ := buildModel_ctl h3
    obtain ⟨hst, s3, h5, h6⟩ := dispatch_skip h4
    have := restorationSearch_none h5
    subst this
    dsimp only at b1
    rcases h6 with ⟨_, _, rfl⟩ | h6
    · simp only [advanceStep] at hit; omega
    · obtain ⟨t, calls, m, M, i, ho⟩ := restart_spec h6
      rw [ho.itercount] at hit
      dsimp only at hit
      omega
  | iter s1 s2 s3 s4 o next ref hp =>
    have w1 : WF env s1 := by
      rcases restartIfNeeded_cases hp.restart with ⟨_, hr⟩ | ⟨_, rfl⟩
      · exact w0.restart hr
      · exact w0
    have w2 : WF env s2 := WF.of_data (s := { s1 with opq := o }) (w1.of_data rfl)
      (buildModel_data hp.build)
    have w3 : WF env s3 := w2.dispatch hp.disp
    obtain ⟨b1, b2, b3, b4, -⟩ := buildModel_ctl hp.build
    obtain ⟨d1, _⟩ := dispatch_go hp.disp
    obtain ⟨p1, p2, p3, p4, -⟩ := processPoint_ctl w3.allA hp.proc
    have e3 : s4.numStalled = s1.numStalled := by rw [p3, d1.numStalled, b3]
    have e4 : s4.fminStall = s1.fminStall := by rw [p4, d1.fminStall, b4]
    have hfm : s'.fmin = s4.fmin := by
      obtain ⟨-, -, -, -, -, -, -, -, -, -, -, -, -, -, f, -⟩ := endPass_ctl hp.fin
      exact f
    have hend := endPass_stall hp.fin
    rw [e3, e4, ← hfm] at hend
    constructor
    · intro hnd
      rcases restartIfNeeded_cases hp.restart with ⟨h1, hr⟩ | ⟨h1, rfl⟩
      · exact absurd (shouldRestart_iff.mp h1) hnd
      · exact hend
    · intro hdue
      rcases restartIfNeeded_cases hp.restart with ⟨h1, hr⟩ | ⟨h1, rfl⟩
      · obtain ⟨t, calls, m, M, i, ho⟩ := restart_spec hr
        rw [ho.numStalled] at hend
        omega
      · have : shouldRestart P { s with passes := s.passes + 1 } = true :=
          shouldRestart_iff.mpr hdue
        rw [h1] at this; cases this

/-- A pass restarts only if a restart is due or the RBF model could not be built and restoration
failed. -/
theorem pass_restart_reason {P : Params} {env : Env O} {s s' : Alg O} {loc loc' : Loc}
    (w : WF env s) (hst0 : StepOK P s) (h : pass P env s loc = .ok (s', loc')) (hnd : ¬ RestartDue P s)
    (hch : s'.nAtRestart ≠ s.nAtRestart) :
    s.step ≤ P.localStep ∧ (∃ a : Alg O, (env.modelFails a).1 = true ∧ a.cur = s.cur) ∧
    (s.cur.pos.length < P.n + 1 ∨ s.solveUnder = true) ∧ s'.itercount = s.itercount := by
  have hR : ∀ s1, restartIfNeeded P env { s with passes := s.passes + 1 } = .ok s1 →
      s1 = { s with passes := s.passes + 1 } := by
    intro s1 h1
    rcases restartIfNeeded_cases h1 with ⟨h2, _⟩ | ⟨_, h2⟩
    · exact absurd (shouldRestart_iff.mp h2) hnd
    · exact h2
  cases pass_inv h with
  | skip h1 h2 h3 => rw [h2] at hch; exact absurd rfl hch
  | linFail s1 o hk h1 h2 h3 hl =>
    obtain ⟨_, s2, o', h4, rfl⟩ := buildModel_true h3
    have := hR s1 h1; subst this
    rcases initRefIfNeeded_cases h4 with ⟨_, _, set, rad, o'', _, rfl⟩ | ⟨_, rfl⟩ <;>
      exact absurd rfl hch
  | cont s1 s2 o hk h1 h2 h3 h4 hl =>
    have := hR s1 h1; subst this
    obtain ⟨hst, s3, h5, h6⟩ := dispatch_skip h4
    have := restorationSearch_none h5
    subst this
    have hb := h3
    unfold buildModel at hb
    split at hb
    · rename_i hle
      dsimp only at hb hle
      refine ⟨hle, ?_⟩
      cases hb
      have hf : (env.modelFails { s with passes := s.passes + 1, opq := o }).1 = true := by
        by_contra hne
        dsimp only at hst
        rw [if_neg hne] at hst
        rw [hst] at hle
        simp only [Params.restorationStep, Params.localStep] at hle
        omega
      refine ⟨⟨_, hf, rfl⟩, ?_⟩
      rcases h6 with ⟨_, _, rfl⟩ | h6
      · exact absurd rfl hch
      · obtain ⟨t, calls, m, M, i, ho⟩ := restart_spec h6
        refine ⟨?_, ho.itercount⟩
        -- the skip branch was not taken
        by_contra hcon
        simp only [not_or, not_lt, Bool.not_eq_true] at hcon
        unfold dispatch at h4
        rw [if_neg (by rw [hst]; simp [Params.restorationStep, Params.infStep]), if_pos hst,
          h5] at h4
        dsimp only at h4
        rw [if_pos ⟨hcon.1, hcon.2⟩] at h4
        cases h4
        exact absurd rfl hch
    · rename_i hnle
      split at hb
      · rename_i hr
        split at hb
        · cases hb
        · rename_i s4 h7
          dsimp only at hb
          split at hb
          · cases hb
          · cases hb
            exfalso
            dsimp only at hst hr
            rcases initRefIfNeeded_cases h7 with ⟨_, _, set, rad, o'', _, rfl⟩ | ⟨_, rfl⟩ <;>
              (dsimp only at hst; rw [hr] at hst
               simp only [Params.refinementStep, Params.restorationStep] at hst; omega)
      · rename_i hr
        exfalso
        unfold StepOK at hst0
        dsimp only at hnle hr
        simp only [Params.localStep, Params.refinementStep] at hst0 hnle hr
        omega
  | iter s1 s2 s3 s4 o next ref hp =>
    exfalso
    have := hR s1 hp.restart; subst this
    apply hch
    have w0 : WF env { s with passes := s.passes + 1 } := w.of_data rfl
    have w2 : WF env s2 := WF.of_data (s := { s with passes := s.passes + 1, opq := o })
      (w0.of_data rfl) (buildModel_data hp.build)
    have w3 := w2.dispatch hp.disp
    obtain ⟨-, -, -, -, -, -, -, -, -, -, -, -, -, -, -, -, -, f, -⟩ := endPass_ctl hp.fin
    have e2 : s2.nAtRestart = s.nAtRestart := congrArg Data.nAtRestart (buildModel_data hp.build)
    obtain ⟨-, -, -, -, e3, -⟩ := dispatch_go_counts hp.disp
    rw [f, ← e2, ← e3]
    rcases processPoint_cases hp.proc with ⟨rfl, -⟩ |
      ⟨p0, d, r, t1, gap, t2, hne, hd, hlt, hev, hadd, hgap, haft, rfl, -⟩
    · rfl
    · have e4 : t2.nAtRestart = (updateLog t1 r.val gap).nAtRestart :=
        congrArg Data.nAtRestart (afterAdd_data haft)
      obtain ⟨g, st, e⟩ := updateLog_frame t1 r.val gap
      rw [e] at e4
      obtain ⟨calls, ho⟩ := evaluateNext_spec hev w3.allA
      obtain ⟨er, hadd', _, _⟩ := addResult_spec hadd
      obtain ⟨-, -, q3, -⟩ := ho.data_eqs
      obtain ⟨-, -, -, -, a5, -⟩ := hadd'.rest
      dsimp only at e4 ⊢
      rw [e4, a5, q3]

/-! ## `remove_existing_nodes` -/

theorem filter_true_zipIdx {α : Type} (l : List α) (n : ℕ) (p : α × ℕ → Bool)
    (h : ∀ a i, n ≤ i → p (a, i) = true) : (l.zipIdx n).filter p = l.zipIdx n := by
  rw [List.filter_eq_self]
  rintro ⟨a, i⟩ hx
  exact h a i (List.mem_zipIdx_iff_le_and_getElem?_sub.mp hx).1

theorem map_fst_zipIdx {α : Type} (l : List α) (n : ℕ) : (l.zipIdx n).map Prod.fst = l := by
  induction l generalizing n with
  | nil => rfl
  | cons a l ih => simp [ih]

/-- Deleting a position larger than all positions deleted afterwards. -/
theorem dropPositions_cons {α : Type} (l : List α) (i : ℕ) (rem : List ℕ)
    (h : ∀ j ∈ rem, j < i) : dropPositions l (i :: rem) = dropPositions (l.eraseIdx i) rem := by
  unfold dropPositions
  by_cases hi : i < l.length
  · have e1 : l = l.take i ++ l[i] :: l.drop (i + 1) := by
      rw [List.getElem_cons_drop, List.take_append_drop]
    have hlen : (l.take i).length = i := by simp; omega
    rw [List.eraseIdx_eq_take_drop_succ]
    conv_lhs => rw [e1]
    rw [List.zipIdx_append, List.zipIdx_append, List.zipIdx_cons, List.filter_append,
      List.filter_append, List.map_append, List.map_append, hlen]
    congr 1
    · congr 1
      apply List.filter_congr
      rintro ⟨a, k⟩ hx
      have := (List.mem_zipIdx_iff_getElem?.mp hx)
      have hk : k < i := by
        have := (List.getElem?_eq_some_iff.mp this).1
        omega
      have hne : k ≠ i := by omega
      simp [hne]
    · rw [List.filter_cons_of_neg (by simp)]
      rw [filter_true_zipIdx _ _ _ (by
        intro a k hk
        have h1 : k ≠ i := by omega
        have h2 : k ∉ rem := fun hm => by have := h k hm; omega
        simp [h1, h2])]
      rw [filter_true_zipIdx _ _ _ (by
        intro a k hk
        have h2 : k ∉ rem := fun hm => by have := h k hm; omega
        simp [h2])]
      rw [map_fst_zipIdx, map_fst_zipIdx]
  · rw [List.eraseIdx_of_length_le (by omega)]
    congr 1
    apply List.filter_congr
    rintro ⟨a, k⟩ hx
    have := (List.mem_zipIdx_iff_getElem?.mp hx)
    have hk := (List.getElem?_eq_some_iff.mp this).1
    have hne : k ≠ i := by dsimp only at hk; omega
    simp [hne]

theorem dropPositions_nil {α : Type} (l : List α) : dropPositions l [] = l := by
  unfold dropPositions
  rw [List.filter_eq_self.mpr (by simp), map_fst_zipIdx]

/-- One removed sample point `i`, replaced by the old record `j`. -/
structure Replaced (P : Params) (env : Env O) (s : Alg O) (pts : List Pt) (i j : ℕ)
    (q : Pt) (v : ℚ) (b : Bool) (e : ℚ × ℚ) : Prop where
  old : OldRecord s j q
  val : s.all.val[j]? = some v
  flag : s.all.noisy[j]? = some b
  err : s.all.err[j]? = some e
  usable : s.mode = .noisy ∨ b = false
  near : ∃ p, pts[i]? = some p ∧ ∀ j' q', OldRecord s j' q' → env.dist p q ≤ env.dist p q'

theorem removeExistingLoop_positions {P : Params} {env : Env O} {s : Alg O} {pts : List Pt}
    {is : List ℕ}
    {r r' : Removal} (h : removeExistingLoop env s is r = some r')
    (hdec : is.Pairwise (· > ·)) (hpos : ∀ i ∈ is, r.pos[i]? = pts[i]?) :
    ∃ rem src : List ℕ, ∃ t : Table, rem.Sublist is ∧ src.length = rem.length ∧
      t.pos.length = rem.length ∧ t.Aligned ∧
      r'.pos = dropPositions r.pos rem ∧ r'.prev = r.prev.append t ∧
      (∀ (k i j : ℕ) (q : Pt) (v : ℚ) (b : Bool) (e : ℚ × ℚ), rem[k]? = some i → src[k]? = some j →
        t.pos[k]? = some q → t.val[k]? = some v → t.noisy[k]? = some b → t.err[k]? = some e →
        Replaced P env s pts i j q v b e) ∧
      (∀ i ∈ is, i ∉ rem → ∃ j q p, OldRecord s j q ∧ pts[i]? = some p ∧
        (∀ j' q', OldRecord s j' q' → env.dist p q ≤ env.dist p q') ∧
        s.mode = .accurate ∧ s.all.noisy[j]? = some true) := by
  induction is generalizing r with
  | nil =>
    simp only [removeExistingLoop, Option.some.injEq] at h; subst h
    exact ⟨[], [], {}, List.Sublist.refl _, rfl, rfl, Table.aligned_nil,
      by rw [dropPositions_nil], by simp [Table.append], by simp, by simp⟩
  | cons i is ih =>
    have hlt : ∀ j ∈ is, j < i := (List.pairwise_cons.mp hdec).1
    have hdec' := (List.pairwise_cons.mp hdec).2
    simp only [removeExistingLoop] at h
    split at h
    · cases h
    · rename_i p hpi
      split at h
      · cases h
      · rename_i d j hj
        obtain ⟨q0, hq0, hdq, hall⟩ := getMinDistanceAndIndex_some hj
        have hjlt : j < s.nAtRestart := by
          have := (List.getElem?_eq_some_iff.mp hq0).1
          simp at this; omega
        have hq0' : s.all.pos[j]? = some q0 := by
          rw [List.getElem?_take] at hq0
          simpa [hjlt] using hq0
        have hnear : ∀ j' q', OldRecord s j' q' → env.dist p q0 ≤ env.dist p q' := by
          rintro j' q' ⟨h1, h2⟩
          have : q' ∈ s.all.pos.take s.nAtRestart :=
            List.mem_of_getElem? (i := j') (by rw [List.getElem?_take]; simp [h1, h2])
          have := hall q' this
          rw [hdq]; exact this
        have hpts : pts[i]? = some p := by rw [← hpos i (by simp)]; exact hpi
        split at h
        · rename_i q v b e hq hv hb he
          rw [hq0'] at hq
          cases hq
          split at h
          · rename_i hc
            obtain ⟨rem, src, t, a1, a2, a3, a3', a4, a5, a6, a7⟩ := ih h hdec' (by
              intro i' hi'
              rw [List.getElem?_eraseIdx, if_pos (hlt i' hi')]
              exact hpos i' (by simp [hi']))
            refine ⟨i :: rem, j :: src,
              (Table.mk [q0] [v] [b] [e]).append t, a1.cons_cons i, by simp [a2], ?_, ?_, ?_, ?_,
              ?_, ?_⟩
            · simp [Table.append, a3]
            · exact Table.Aligned.append (by simp [Table.Aligned]) a3'
            · rw [a4, dropPositions_cons _ _ _ (fun j hj => hlt j (a1.subset hj))]
            · rw [a5]; simp [Table.append]
            · intro k i' j' q' v' b' e' h1 h2 h3 h4 h5 h6
              cases k with
              | zero =>
                simp [Table.append] at h1 h2 h3 h4 h5 h6
                subst h1 h2 h3 h4 h5 h6
                exact ⟨⟨hjlt, hq0'⟩, hv, hb, he, hc, ⟨p, hpts, hnear⟩⟩
              | succ k =>
                simp [Table.append] at h1 h2 h3 h4 h5 h6
                exact a6 k i' j' q' v' b' e' h1 h2 h3 h4 h5 h6
            · intro i' hi' hni
              simp only [List.mem_cons, not_or] at hi' hni
              rcases hi' with rfl | hi'
              · exact absurd rfl hni.1
              · exact a7 i' hi' hni.2
          · rename_i hc
            obtain ⟨rem, src, t, a1, a2, a3, a3', a4, a5, a6, a7⟩ := ih h hdec'
              (fun i' hi' => hpos i' (by simp [hi']))
            refine ⟨rem, src, t, a1.cons i, a2, a3, a3', a4, a5, a6, ?_⟩
            intro i' hi' hni
            simp only [List.mem_cons] at hi'
            rcases hi' with rfl | hi'
            · simp only [not_or, Bool.not_eq_false] at hc
              refine ⟨j, q0, p, ⟨hjlt, hq0'⟩, hpts, hnear, ?_, by rw [hb, hc.2]⟩
              cases hm : s.mode with
              | accurate => rfl
              | noisy => exact absurd hm hc.1
            · exact a7 i' hi' hni
        · cases h

theorem existingIndices_dec {P : Params} {env : Env O} {s : Alg O} {pts : List Pt} :
    (existingIndices P env s pts).Pairwise (· > ·) := by
  unfold existingIndices
  rw [List.pairwise_reverse]
  exact List.Pairwise.filter _ (List.pairwise_lt_range)

theorem existingIndices_mem {P : Params} {env : Env O} {s : Alg O} {pts : List Pt} {i : ℕ}
    {p : Pt} (hi : pts[i]? = some p) :
    i ∈ existingIndices P env s pts ↔ ∃ j q, OldRecord s j q ∧ env.dist p q ≤ P.epsZero := by
  have hlt := (List.getElem?_eq_some_iff.mp hi).1
  unfold existingIndices
  simp only [List.mem_reverse, List.mem_filter, List.mem_range, hlt, true_and, hi]
  constructor
  · intro h
    split at h
    · cases h
    · rename_i d hd
      obtain ⟨j, q, h1, h2, h3⟩ : ∃ (j : ℕ) (q : Pt),
          (s.all.pos.take s.nAtRestart)[j]? = some q ∧ env.dist p q = d ∧ True := by
        obtain ⟨⟨q, hq, h2⟩, _⟩ := getMinDistance_some hd
        obtain ⟨j, hj⟩ := List.getElem?_of_mem hq
        exact ⟨j, q, hj, h2, trivial⟩
      rw [List.getElem?_take] at h1
      split at h1
      · rename_i hj
        exact ⟨j, q, ⟨hj, h1⟩, by rw [h2]; simpa using h⟩
      · cases h1
  · rintro ⟨j, q, ⟨h1, h2⟩, h3⟩
    have hmem : q ∈ s.all.pos.take s.nAtRestart :=
      List.mem_of_getElem? (i := j) (by rw [List.getElem?_take]; simp [h1, h2])
    split
    · rename_i hd
      rw [getMinDistance_none] at hd
      rw [hd] at hmem; cases hmem
    · rename_i d hd
      obtain ⟨_, h4⟩ := getMinDistance_some hd
      simp only [decide_eq_true_eq]
      exact (h4 q hmem).trans h3

theorem removeExistingLoop_some {env : Env O} {s : Alg O} {is : List ℕ} {r : Removal}
    (hdec : is.Pairwise (· > ·)) (hlen : ∀ i ∈ is, i < r.pos.length) (ha : s.all.Aligned)
    (hn : 0 < s.nAtRestart) (hle : s.nAtRestart ≤ s.all.pos.length) :
    ∃ r', removeExistingLoop env s is r = some r' := by
  induction is generalizing r with
  | nil => exact ⟨r, rfl⟩
  | cons i is ih =>
    have hlt : ∀ j ∈ is, j < i := (List.pairwise_cons.mp hdec).1
    have hdec' := (List.pairwise_cons.mp hdec).2
    have hi : i < r.pos.length := hlen i (by simp)
    simp only [removeExistingLoop]
    rw [List.getElem?_eq_getElem hi]
    dsimp only
    obtain ⟨d, j, hj⟩ := argminVal_exists
      (l := (s.all.pos.take s.nAtRestart).map (env.dist r.pos[i])) (by
        intro h0
        rw [List.map_eq_nil_iff, List.take_eq_nil_iff] at h0
        rcases h0 with h0 | h0
        · omega
        · rw [h0] at hle; simp at hle; omega)
    have hj' : getMinDistanceAndIndex env.dist r.pos[i] (s.all.pos.take s.nAtRestart) =
      some (d, j) := hj
    rw [hj']
    dsimp only
    obtain ⟨q0, hq0, -, -⟩ := getMinDistanceAndIndex_some hj'
    have hjlt : j < s.all.pos.length := by
      have := (List.getElem?_eq_some_iff.mp hq0).1
      simp at this; omega
    obtain ⟨v, b, e, h1, h2, h3⟩ := ha.has (List.getElem?_eq_getElem hjlt)
    rw [List.getElem?_eq_getElem hjlt, h1, h2, h3]
    dsimp only
    split
    · apply ih hdec'
      intro i' hi'
      have := hlt i' hi'
      dsimp only
      rw [List.length_eraseIdx, if_pos hi]
      omega
    · exact ih hdec' (fun i' hi' => hlen i' (by simp [hi']))

end Rbfopt
