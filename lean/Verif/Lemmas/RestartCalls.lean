import Verif.Lemmas.Restart

/-! # The black box calls made by a restart -/

namespace Rbfopt

variable {O : Type}

/-- The point a call was made at. -/
def Call.point : Call → Pt
  | .acc x _ => x
  | .noisy x _ _ _ => x

/-- The value a call returned. -/
def Call.value : Call → ℚ
  | .acc _ v => v
  | .noisy _ v _ _ => v

theorem evalList_log (env : Env O) (ps : List Pt) (s : Alg O) :
    (evalList env s ps).2.log =
      s.log ++ List.zipWith (fun p v => Call.acc (env.decode p) v) ps (evalList env s ps).1 := by
  induction ps generalizing s with
  | nil => simp [evalList]
  | cons p ps ih =>
    simp only [evalList]
    rw [ih]
    simp [objfun]

theorem evalNoisyList_log (env : Env O) (ps : List Pt) (s : Alg O) :
    (evalNoisyList env s ps).2.log =
      s.log ++ List.zipWith (fun p x => Call.noisy (env.decode p) x.1 x.2.1 x.2.2) ps
        (evalNoisyList env s ps).1 := by
  induction ps generalizing s with
  | nil => simp [evalNoisyList]
  | cons p ps ih =>
    simp only [evalNoisyList]
    rw [ih]
    simp [objfunNoisy]

/-- Every call in `calls` is recorded in table `t`: same value, at the call's point. -/
def Covered (env : Env O) (calls : List Call) (t : Table) : Prop :=
  ∀ c ∈ calls, ∃ (i : ℕ) (p : Pt), t.pos[i]? = some p ∧ t.val[i]? = some c.value ∧
    env.decode p = c.point

theorem Covered.append {env : Env O} {c1 c2 : List Call} {a b : Table} (al : a.Aligned)
    (h1 : Covered env c1 a) (h2 : Covered env c2 b) : Covered env (c1 ++ c2) (a.append b) := by
  intro c hc
  rcases List.mem_append.mp hc with hc | hc
  · obtain ⟨i, p, g1, g2, g3⟩ := h1 c hc
    refine ⟨i, p, ?_, ?_, g3⟩
    · simp only [Table.append]
      rw [List.getElem?_append_left (List.getElem?_eq_some_iff.mp g1).1]; exact g1
    · simp only [Table.append]
      rw [List.getElem?_append_left (List.getElem?_eq_some_iff.mp g2).1]; exact g2
  · obtain ⟨i, p, g1, g2, g3⟩ := h2 c hc
    refine ⟨a.pos.length + i, p, ?_, ?_, g3⟩
    · simp only [Table.append]
      rw [List.getElem?_append_right (by omega)]
      simpa using g1
    · simp only [Table.append]
      rw [List.getElem?_append_right (by have := al.1; omega), al.1]
      simpa using g2

theorem Covered.nil {env : Env O} {t : Table} : Covered env [] t := by intro c hc; cases hc

theorem covered_zip_acc {env : Env O} (ps : List Pt) (vs : List ℚ) (nb : List Bool)
    (er : List (ℚ × ℚ)) :
    Covered env (List.zipWith (fun p v => Call.acc (env.decode p) v) ps vs)
      { pos := ps, val := vs, noisy := nb, err := er } := by
  intro c hc
  obtain ⟨i, hi⟩ := List.mem_iff_getElem?.mp hc
  rw [List.getElem?_zipWith] at hi
  split at hi
  · rename_i p v hp hv
    cases hi
    exact ⟨i, p, hp, hv, rfl⟩
  · cases hi

theorem covered_zip_noisy {env : Env O} (ps : List Pt) (xs : List (ℚ × ℚ × ℚ)) (nb : List Bool)
    (er : List (ℚ × ℚ)) :
    Covered env (List.zipWith (fun p x => Call.noisy (env.decode p) x.1 x.2.1 x.2.2) ps xs)
      { pos := ps, val := xs.map (fun x => x.1), noisy := nb, err := er } := by
  intro c hc
  obtain ⟨i, hi⟩ := List.mem_iff_getElem?.mp hc
  rw [List.getElem?_zipWith] at hi
  split at hi
  · rename_i p v hp hv
    cases hi
    exact ⟨i, p, hp, by simp [hv, Call.value], rfl⟩
  · cases hi

theorem mem_zipWith_left {α β γ : Type} {f : α → β → γ} {as : List α} {bs : List β} {c : γ}
    (h : c ∈ List.zipWith f as bs) : ∃ a ∈ as, ∃ b ∈ bs, c = f a b := by
  obtain ⟨i, hi⟩ := List.mem_iff_getElem?.mp h
  rw [List.getElem?_zipWith] at hi
  split at hi
  · rename_i p v hp hv
    cases hi
    exact ⟨p, List.mem_of_getElem? hp, v, List.mem_of_getElem? hv, rfl⟩
  · cases hi

/-- The calls of a restart. -/
structure RestartCalls (P : Params) (env : Env O) (s s' : Alg O) (pts : List Pt)
    (c1 c2 : List Call) (t : Table) : Prop where
  log : s'.log = s.log ++ (c1 ++ c2)
  sample : pts = [] ∨ ∃ o s0, s0.itercount = s.itercount ∧ s0.all = s.all ∧
    env.initNodes s0 = .ok (pts, o)
  samplePts : ∀ c ∈ c1, ∃ p ∈ pts, c.point = env.decode p
  sampleLen : c1.length ≤ pts.length
  sampleNoisy : countNoisy c1 ≠ 0 → s.mode = .noisy ∧
    s.numNoisyRestarts + 1 ≤ P.maxNoisyRestarts ∧ s.noisyEvalcount + P.n + 1 < P.maxNoisyEval
  userPts : ∀ c ∈ c2, ∃ p ∈ P.initPos, c.point = env.decode p
  userLen : c2.length ≤ P.initPos.length
  userAcc : countNoisy c2 = 0
  userFirst : s.itercount ≠ 0 → c2 = []
  userGiven : P.initPos.length ≤ P.initVal.length → c2 = []
  all : s'.all = s.all.append t
  cover : Covered env (c1 ++ c2) t
  posOrigin : ∀ p ∈ t.pos, p ∈ pts ∨ p ∈ s.all.pos ∨ p ∈ P.initPos

theorem restartSample_calls {P : Params} {env : Env O} {s s' : Alg O} {t : Table}
    (h : restartSample P env s = .ok (t, s')) :
    ∃ pts c1, s'.log = s.log ++ c1 ∧ s'.itercount = s.itercount ∧
      (pts = [] ∨ ∃ o, env.initNodes s = .ok (pts, o)) ∧
      (∀ c ∈ c1, ∃ p ∈ pts, c.point = env.decode p) ∧ c1.length ≤ pts.length ∧
      (countNoisy c1 ≠ 0 → s.mode = .noisy ∧ s.numNoisyRestarts ≤ P.maxNoisyRestarts ∧
        s.noisyEvalcount + P.n + 1 < P.maxNoisyEval) ∧ Covered env c1 t ∧
      (∀ p ∈ t.pos, p ∈ pts ∨ p ∈ s.all.pos) := by
  unfold restartSample at h
  split at h
  · split at h
    · cases h
    · rename_i nodePos o hin
      dsimp only at h
      split at h
      · cases h
      · rename_i r hr
        obtain ⟨ra, rall, rsub, rlen⟩ := removeExistingIf_spec hr
        have hprev : ∀ p ∈ r.prev.pos, p ∈ s.all.pos := by
          intro p hp
          obtain ⟨i, hi⟩ := List.mem_iff_getElem?.mp hp
          have hlt := (List.getElem?_eq_some_iff.mp hi).1
          obtain ⟨r1, r2, r3⟩ := ra
          obtain ⟨⟨j, hj, _⟩, _⟩ := rall i p _ _ _ hi (List.getElem?_eq_getElem (by omega))
            (List.getElem?_eq_getElem (by omega)) (List.getElem?_eq_getElem (by omega))
          exact List.mem_of_getElem? hj
        split at h
        · obtain ⟨calls, e1, e2, e3, e4, e5⟩ := evalList_spec env r.pos { s with opq := o }
          have hlog := evalList_log env r.pos { s with opq := o }
          simp only [Except.ok.injEq, Prod.mk.injEq] at h
          obtain ⟨rfl, rfl⟩ := h
          refine ⟨nodePos, _, hlog, by rw [e1], Or.inr ⟨o, hin⟩, ?_, ?_, ?_, ?_, ?_⟩
          · intro c hc
            obtain ⟨p, hp, v, _, rfl⟩ := mem_zipWith_left hc
            exact ⟨p, rsub p hp, rfl⟩
          · simp only [List.length_zipWith]
            omega
          · intro hne
            rw [e1] at hlog
            have := List.append_cancel_left hlog
            rw [← this, e3] at hne
            exact absurd rfl hne
          · have := Covered.append (a := ⟨r.pos, (evalList env { s with opq := o } r.pos).1,
              ((evalList env { s with opq := o } r.pos).1.map (fun _ => decide (s.mode = .noisy))),
              ((evalList env { s with opq := o } r.pos).1.map (fun _ => ((0:ℚ), (0:ℚ))))⟩)
              (by simp [Table.Aligned, e4]) (covered_zip_acc (env := env) r.pos _ _ _)
              (Covered.nil (t := r.prev))
            simpa using this
          · intro p hp
            rcases List.mem_append.mp hp with hp | hp
            · exact Or.inl (rsub p hp)
            · exact Or.inr (hprev p hp)
        · rename_i hacc
          split at h
          · cases h
          · obtain ⟨calls, e1, e2, e3, e4, e5⟩ := evalNoisyList_spec env r.pos { s with opq := o }
            have hlog := evalNoisyList_log env r.pos { s with opq := o }
            simp only [Except.ok.injEq, Prod.mk.injEq] at h
            obtain ⟨rfl, rfl⟩ := h
            refine ⟨nodePos, _, hlog, by rw [e1], Or.inr ⟨o, hin⟩, ?_, ?_, ?_, ?_, ?_⟩
            · intro c hc
              obtain ⟨p, hp, v, _, rfl⟩ := mem_zipWith_left hc
              exact ⟨p, rsub p hp, rfl⟩
            · simp only [List.length_zipWith]
              omega
            · intro _
              simp only [restartAccurate, Bool.decide_or, Bool.or_eq_true, decide_eq_true_eq,
                not_or, not_lt, not_le] at hacc
              refine ⟨?_, hacc.2.1, hacc.2.2⟩
              cases hm : s.mode with
              | noisy => rfl
              | accurate => exact absurd hm hacc.1
            · have := Covered.append (a := ⟨r.pos,
                ((evalNoisyList env { s with opq := o } r.pos).1.map (fun x => x.1)),
                ((evalNoisyList env { s with opq := o } r.pos).1.map
                  (fun _ => decide (s.mode = .noisy))),
                ((evalNoisyList env { s with opq := o } r.pos).1.map
                  (fun x => (x.2.1, x.2.2)))⟩)
                (by simp [Table.Aligned, e4]) (covered_zip_noisy (env := env) r.pos _ _ _)
                (Covered.nil (t := r.prev))
              simpa using this
            · intro p hp
              rcases List.mem_append.mp hp with hp | hp
              · exact Or.inl (rsub p hp)
              · exact Or.inr (hprev p hp)
  · cases h
    exact ⟨[], [], by simp, rfl, Or.inl rfl, by simp, by simp, by simp, Covered.nil, by simp⟩

theorem restartUser_calls {P : Params} {env : Env O} {s s' : Alg O} {t t' : Table}
    (h : restartUser P env t s = .ok (t', s')) :
    ∃ c2 u, t' = t.append u ∧ s'.log = s.log ++ c2 ∧
      (∀ c ∈ c2, ∃ p ∈ P.initPos, c.point = env.decode p) ∧ c2.length ≤ P.initPos.length ∧
      countNoisy c2 = 0 ∧ (s.itercount ≠ 0 → c2 = []) ∧
      (P.initPos.length ≤ P.initVal.length → c2 = []) ∧ Covered env c2 u ∧
      (∀ p ∈ u.pos, p ∈ P.initPos) := by
  have hmem : ∀ p ∈ (selectUser P env t.pos).filterMap (fun i => P.initPos[i]?), p ∈ P.initPos := by
    intro p hp
    obtain ⟨i, _, hi⟩ := List.mem_filterMap.mp hp
    exact List.mem_of_getElem? hi
  have hlen : ((selectUser P env t.pos).filterMap (fun i => P.initPos[i]?)).length ≤
      P.initPos.length := by
    rw [filterMap_getElem?_length _ _ selectUser_lt]
    unfold selectUser
    exact (List.length_filter_le _ _).trans (by simp)
  unfold restartUser at h
  split at h
  · rename_i hc
    dsimp only at h
    split at h
    · rename_i hlt
      set pts := (selectUser P env t.pos).filterMap (fun i => P.initPos[i]?) with hpts
      obtain ⟨calls, e1, e2, e3, e4, e5⟩ := evalList_spec env pts s
      have hlog := evalList_log env pts s
      simp only [Except.ok.injEq, Prod.mk.injEq] at h
      obtain ⟨rfl, rfl⟩ := h
      refine ⟨_, _, rfl, hlog, ?_, ?_, ?_, ?_, ?_, covered_zip_acc pts _ _ _, hmem⟩
      · intro c hcm
        obtain ⟨p, hp, v, _, rfl⟩ := mem_zipWith_left hcm
        exact ⟨p, hmem p hp, rfl⟩
      · simp only [List.length_zipWith]; omega
      · rw [e1] at hlog
        rw [← List.append_cancel_left hlog]
        exact e3
      · intro h0; exact absurd hc.2 h0
      · intro h0; omega
    · cases h
      exact ⟨[], _, rfl, by simp, by simp, by simp, by simp, by simp, by simp, Covered.nil, hmem⟩
  · cases h
    exact ⟨[], {}, by simp [Table.append], by simp, by simp, by simp, by simp, by simp, by simp,
      Covered.nil, by simp⟩

theorem restart_calls {P : Params} {env : Env O} {s s' : Alg O} (h : restart P env s = .ok s') :
    ∃ pts c1 c2 t, RestartCalls P env s s' pts c1 c2 t := by
  have hm : s.mode = .noisy ∨ s.mode = .accurate := by cases s.mode <;> simp
  unfold restart at h
  dsimp only at h
  split at h
  · cases h
  · rename_i t1 s1 h1
    obtain ⟨al1, _, _, hs1, _⟩ := restartSample_spec h1
    obtain ⟨pts, c1, l1, i1, q1, q2, q3, q4, q5, q6⟩ := restartSample_calls h1
    split at h
    · cases h
    · rename_i t2 s2 h2
      obtain ⟨c2, u, hu, l2, u1, u2, u3, u4, u5, u6, u7⟩ := restartUser_calls h2
      obtain ⟨_, _, _, _, _, hs2, _⟩ := restartUser_spec h2 al1
      unfold restartInstall at h
      dsimp only at h
      split at h
      · cases h
      · split at h
        · split at h
          · cases h
          · split at h
            · cases h
            · split at h
              · cases h
              · simp only [Except.ok.injEq] at h
                have hlog : s'.log = s2.log ∧ s'.all = s2.all.append t2 := by
                  rw [← h, logInit_eq]
                  dsimp only
                  split <;> exact ⟨rfl, rfl⟩
                refine ⟨pts, c1, c2, t2, ⟨?_, ?_, q2, q3, ?_, u1, u2, u3, ?_, u5, ?_, ?_, ?_⟩⟩
                · rw [hlog.1, l2, l1]; simp
                · rcases q1 with q1 | ⟨o, q1⟩
                  · exact Or.inl q1
                  · refine Or.inr ⟨o, _, ?_, ?_, q1⟩ <;> rfl
                · intro hne
                  obtain ⟨g1, g2, g3⟩ := q4 hne
                  dsimp only at g1 g2 g3
                  rw [g1, if_pos rfl] at g2
                  exact ⟨g1, g2, g3⟩
                · intro h0; exact u4 (by rw [i1]; exact h0)
                · rw [hlog.2, hs2, hs1]
                · rw [hu]; exact Covered.append al1 q5 u6
                · rw [hu]
                  intro p hp
                  rcases List.mem_append.mp hp with hp | hp
                  · rcases q6 p hp with hp | hp
                    · exact Or.inl hp
                    · exact Or.inr (Or.inl hp)
                  · exact Or.inr (Or.inr (u7 p hp))
        · cases h

end Rbfopt
