import Verif.Lemmas.More

/-!
# Tracking of the best value with a noisy oracle
-/

namespace Rbfopt

variable {O : Type}

/-- As long as the object is in noisy mode (so that no node was ever re-evaluated) the tracked values
are right. -/
theorem BestOK.micro_noisy {P : Params} {env : Env O} {s t : Alg O}
    (hd : ∀ p, env.dist p p ≤ P.minDist) (w : WF env s) (h : BestOK s ∨ s.mode = .accurate)
    (hm : Micro P env s t) : BestOK t ∨ t.mode = .accurate := by
  by_cases hmode : s.mode = .accurate
  · exact Or.inr (accurate_micro w ⟨hmode, rfl⟩ hm).1
  have h : BestOK s := h.resolve_right hmode
  cases hm with
  | ctrl e =>
    left
    have e1 : t.all = s.all := congrArg Data.all e
    have e2 : t.cur = s.cur := congrArg Data.cur e
    have e3 : t.fmin = s.fmin := congrArg Data.fmin e
    have e4 : t.fminIdx = s.fminIdx := congrArg Data.fminIdx e
    have e5 : t.fbest = s.fbest := congrArg Data.fbest e
    have e6 : t.fbestIdx = s.fbestIdx := congrArg Data.fbestIdx e
    have e7 : t.fmax = s.fmax := congrArg Data.fmax e
    have e8 : t.nAtRestart = s.nAtRestart := congrArg Data.nAtRestart e
    unfold BestOK; rw [e1, e2, e3, e4, e5, e6, e7, e8]; exact h
  | log obj gap =>
    left
    obtain ⟨g, st, e⟩ := updateLog_frame s obj gap
    rw [e]; exact h
  | restart hr => exact Or.inl (h.restart w.allA hr)
  | removeLocal i _ h2 hr => exact absurd h2 hmode
  | erase is _ h2 => exact absurd h2 hmode
  | removeRest i p t' hl hr => rw [restorationLoop_none hd] at hl; cases hl
  | add loc p0 d r hd' hlt hev hadd =>
    left
    obtain ⟨calls, ho⟩ := evaluateNext_spec hev w.allA
    obtain ⟨e, ha, he, _⟩ := addResult_spec hadd
    have hne : s.cur.pos ≠ [] := by
      intro h0
      rw [h0] at hd'
      simp [getMinDistance, argminVal] at hd'
    obtain ⟨q1, q2, q3, q4, q5, q6, q7, q8, q9, -⟩ := ho.data_eqs
    refine BestOK.add ha (by rw [q1]; exact w.curA) (by rw [q2]; exact w.allA)
      (by rw [q1]; exact hne) ?_
    unfold BestOK
    rw [q1, q2, q3, q5, q6, q7, q8, q9]
    exact h
  | phase _ _ => exact Or.inr rfl

theorem Reach.best_noisy {P : Params} {env : Env O} {o : O} {c : Ctl} {s : Alg O}
    (h : Reach P env o c s) (hd : ∀ p, env.dist p p ≤ P.minDist) :
    BestOK s ∨ s.mode = .accurate :=
  h.inv' (I := fun s => BestOK s ∨ s.mode = .accurate) (Or.inl (Or.inl (by simp [Alg.init])))
    (fun _ _ w hs hm => BestOK.micro_noisy hd w hs hm)

/-- The tracked values bound the records. -/
def BoundOK (s : Alg O) : Prop :=
  (∀ v ∈ s.all.val, s.fbest ≤ (v : EVal)) ∧
  ∀ v ∈ s.cur.val, s.fmin ≤ (v : EVal) ∧ (v : EVal) ≤ s.fmax

theorem BoundOK.erase {s : Alg O} {i k n : ℕ} (h : BoundOK s) :
    BoundOK { s with cur := s.cur.eraseIdx i, all := s.all.eraseIdx k, nInit := n } := by
  refine ⟨fun v hv => h.1 v ?_, fun v hv => h.2 v ?_⟩
  · exact List.mem_of_mem_eraseIdx hv
  · exact List.mem_of_mem_eraseIdx hv

theorem BoundOK.micro {P : Params} {env : Env O} {s t : Alg O} (w : WF env s) (h : BoundOK s)
    (hm : Micro P env s t) : BoundOK t := by
  cases hm with
  | ctrl e =>
    have e1 : t.all = s.all := congrArg Data.all e
    have e2 : t.cur = s.cur := congrArg Data.cur e
    have e3 : t.fmin = s.fmin := congrArg Data.fmin e
    have e5 : t.fbest = s.fbest := congrArg Data.fbest e
    have e7 : t.fmax = s.fmax := congrArg Data.fmax e
    unfold BoundOK; rw [e1, e2, e3, e5, e7]; exact h
  | log obj gap =>
    obtain ⟨g, st, e⟩ := updateLog_frame s obj gap
    rw [e]; exact h
  | restart hr =>
    obtain ⟨tb, calls, m, M, i, ho⟩ := restart_spec hr
    refine ⟨?_, ?_⟩
    · intro v hv
      rw [ho.all] at hv
      rw [ho.fbest]
      rcases List.mem_append.mp hv with hv | hv
      · exact min_le_of_left_le (h.1 v hv)
      · exact min_le_of_right_le (WithTop.coe_le_coe.mpr (ho.least.2 v hv))
    · intro v hv
      rw [ho.cur] at hv
      rw [ho.fmin, ho.fmax]
      exact ⟨WithTop.coe_le_coe.mpr (ho.least.2 v hv), WithTop.coe_le_coe.mpr (ho.greatest.2 v hv)⟩
  | removeLocal i _ _ hr =>
    obtain ⟨_, _, rfl⟩ := removeNode_spec hr
    exact h.erase
  | erase is _ _ => exact h
  | removeRest i p t' _ hr =>
    obtain ⟨_, _, rfl⟩ := removeNode_spec hr
    exact h.erase
  | add loc p0 d r hd' hlt hev hadd =>
    obtain ⟨calls, ho⟩ := evaluateNext_spec hev w.allA
    obtain ⟨e, ha, he, _⟩ := addResult_spec hadd
    obtain ⟨q1, q2, q3, q4, q5, q6, q7, q8, q9, -⟩ := ho.data_eqs
    refine ⟨?_, ?_⟩
    · intro v hv
      rw [ha.all, q2] at hv
      rw [ha.fbest, q8]
      rcases List.mem_append.mp hv with hv | hv
      · exact min_le_of_left_le (h.1 v hv)
      · rw [List.mem_singleton.mp hv]; exact min_le_right _ _
    · intro v hv
      rw [ha.cur, q1] at hv
      rw [ha.fmin, ha.fmax]
      rcases List.mem_append.mp hv with hv | hv
      · rw [q5, q7]
        exact ⟨min_le_of_left_le (h.2 v hv).1, le_max_of_le_left (h.2 v hv).2⟩
      · rw [List.mem_singleton.mp hv]; exact ⟨min_le_right _ _, le_max_right _ _⟩
  | phase _ _ => exact h

theorem Reach.bound {P : Params} {env : Env O} {o : O} {c : Ctl} {s : Alg O}
    (h : Reach P env o c s) : BoundOK s :=
  h.inv' (I := BoundOK) (by simp [BoundOK, Alg.init]) (fun _ _ w hs hm => hs.micro w hm)

/-! ## Noisy records of iterations are not promising -/

theorem evaluateNext_noisy {P : Params} {env : Env O} {s : Alg O} {loc : Loc} {orig : Pt}
    {r : EvalRes O} (h : evaluateNext P env s loc orig = .ok r) (hn : r.isNoisy = true) :
    ∃ e, r.err = some e ∧ P.target + P.epsOpt * |P.target| < r.val + e.1 := by
  unfold evaluateNext at h
  split at h
  · split at h
    · cases h; cases hn
    · cases h; cases hn
  · dsimp only at h
    split at h
    · split at h
      · cases h
      · rename_i e0 he0
        split at h
        · cases h; cases hn
        · rename_i hreq
          cases h
          simp only [requireAccurate, Bool.or_eq_true, decide_eq_true_eq, not_or] at hreq
          exact ⟨e0, he0, not_le.mp hreq.2⟩
    · rename_i hnb
      cases h
      exact absurd hn hnb

/-- No noisy node added by an iteration since the last restart has an optimistic value that reaches
the target. -/
def NoisyRecOK (P : Params) (s : Alg O) : Prop :=
  s.nInit ≤ s.cur.val.length ∧ ∀ (j : ℕ) (v : ℚ) (e : ℚ × ℚ), s.nInit ≤ j →
    s.cur.noisy[j]? = some true → s.cur.val[j]? = some v →
    (s.all.err.drop s.nAtRestart)[j]? = some e →
    P.target + P.epsOpt * |P.target| < v + e.1

theorem NoisyRecOK.remove {P : Params} {s s' : Alg O} {i : ℕ} (w : s.cur.Aligned) (h : NoisyRecOK P s)
    (hr : removeNode s i s.nAtRestart = .ok s') : NoisyRecOK P s' := by
  obtain ⟨h1, _, rfl⟩ := removeNode_spec hr
  obtain ⟨hl, hs⟩ := h
  have h1' : i < s.cur.val.length := by rw [w.1]; exact h1
  refine ⟨?_, ?_⟩
  · simp only [Table.eraseIdx, List.length_eraseIdx, if_pos h1']
    split <;> omega
  · intro j v e hj hn hv he
    simp only [Table.eraseIdx, drop_eraseIdx_add, List.getElem?_eraseIdx] at hn hv he hj
    split at hj <;> split at hn <;> simp_all only [if_true, if_false]
    · exact hs j v e (by omega) hn hv he
    · exact hs (j + 1) v e (by omega) hn hv he
    · exact hs j v e (by omega) hn hv he
    · exact hs (j + 1) v e (by omega) hn hv he

theorem NoisyRecOK.micro {P : Params} {env : Env O} {s t : Alg O} (w : WF env s) (h : NoisyRecOK P s)
    (hm : Micro P env s t) : NoisyRecOK P t := by
  cases hm with
  | ctrl e =>
    have e2 : t.cur = s.cur := congrArg Data.cur e
    have e3 : t.nInit = s.nInit := congrArg Data.nInit e
    have e4 : t.all = s.all := congrArg Data.all e
    have e5 : t.nAtRestart = s.nAtRestart := congrArg Data.nAtRestart e
    unfold NoisyRecOK; rw [e2, e3, e4, e5]; exact h
  | log obj gap =>
    obtain ⟨g, st, e⟩ := updateLog_frame s obj gap
    rw [e]; exact h
  | restart hr =>
    obtain ⟨tb, calls, m, M, i, ho⟩ := restart_spec hr
    unfold NoisyRecOK
    rw [ho.cur, ho.nInit]
    dsimp only
    have hl := ho.aligned.1
    refine ⟨by omega, ?_⟩
    intro j v e hj _ hv _
    have := (List.getElem?_eq_some_iff.mp hv).1
    omega
  | removeLocal i _ _ hr => exact h.remove w.curA hr
  | erase is _ _ => exact h
  | removeRest i p t' _ hr => exact h.remove w.curA hr
  | add loc p0 d r hd hlt hev hadd =>
    obtain ⟨calls, ho⟩ := evaluateNext_spec hev w.allA
    obtain ⟨e, ha, _, he⟩ := addResult_spec hadd
    obtain ⟨q1, q3, q4, -, -, -, -, -, -, -, -, -, -, -, q2⟩ := ho.data_eqs
    obtain ⟨hl, hs⟩ := h
    obtain ⟨w1, w2, w3⟩ := w.curA
    obtain ⟨-, -, x3⟩ := w.allA
    have hle := w.le
    have hlen := w.pos.length_eq
    simp only [List.length_drop] at hlen
    unfold NoisyRecOK
    rw [ha.cur, ha.all, ha.rest.2.2.2.2.1, ha.rest.2.2.2.2.2.2.2, q1, q2, q3, q4]
    simp only [Table.append, List.length_append, List.length_singleton]
    rw [List.drop_append_of_le_length (by omega)]
    refine ⟨by omega, ?_⟩
    intro j v e' hj hn hv he'
    by_cases hjl : j < s.cur.pos.length
    · rw [List.getElem?_append_left (by omega)] at hn hv
      rw [List.getElem?_append_left (by rw [List.length_drop]; omega)] at he'
      exact hs j v e' hj hn hv he'
    · have hj' := (List.getElem?_eq_some_iff.mp hv).1
      simp only [List.length_append, List.length_singleton] at hj'
      have hz : j = s.cur.pos.length := by omega
      subst hz
      rw [List.getElem?_append_right (by omega), w2] at hn
      rw [List.getElem?_append_right (by omega), w1] at hv
      rw [List.getElem?_append_right (by rw [List.length_drop]; omega), List.length_drop,
        show s.cur.pos.length - (s.all.err.length - s.nAtRestart) = 0 by omega] at he'
      simp only [Nat.sub_self, List.getElem?_cons_zero, Option.some.injEq] at hn hv he'
      obtain ⟨e2, g1, g2⟩ := evaluateNext_noisy hev hn
      rw [he hn] at g1
      cases g1
      rw [← hv, ← he']
      exact g2
  | phase _ _ => exact h

theorem Reach.noisyRecs {P : Params} {env : Env O} {o : O} {c : Ctl} {s : Alg O}
    (h : Reach P env o c s) : NoisyRecOK P s :=
  h.inv' (I := NoisyRecOK P) (by simp [NoisyRecOK, Alg.init]) (fun _ _ w hs hm => hs.micro w hm)

end Rbfopt
