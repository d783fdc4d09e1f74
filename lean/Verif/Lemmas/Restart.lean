import Verif.Lemmas.ListAux

/-! # What `restart` does -/

namespace Rbfopt

variable {O : Type}

theorem Table.All.append {R : Pt → ℚ → Bool → ℚ × ℚ → Prop} {a b : Table} (al : a.Aligned)
    (ha : a.All R) (hb : b.All R) : (a.append b).All R := by
  obtain ⟨a1, a2, a3⟩ := al
  intro i p v f e hp hv hf he
  simp only [Table.append] at hp hv hf he
  by_cases hi : i < a.pos.length
  · rw [List.getElem?_append_left hi] at hp
    rw [List.getElem?_append_left (by omega)] at hv hf he
    exact ha i p v f e hp hv hf he
  · rw [List.getElem?_append_right (by omega)] at hp hv hf he
    rw [a1] at hv; rw [a2] at hf; rw [a3] at he
    exact hb _ p v f e hp hv hf he

theorem Table.All.eraseIdx {R : Pt → ℚ → Bool → ℚ × ℚ → Prop} {a : Table}
    (ha : a.All R) (k : ℕ) : (a.eraseIdx k).All R := by
  intro i p v f e hp hv hf he
  simp only [Table.eraseIdx, List.getElem?_eraseIdx] at hp hv hf he
  split at hp
  · rename_i h
    simp only [h, if_true] at hv hf he
    exact ha _ p v f e hp hv hf he
  · rename_i h
    simp only [h, if_false] at hv hf he
    exact ha _ p v f e hp hv hf he

theorem Table.All.mono {R Q : Pt → ℚ → Bool → ℚ × ℚ → Prop} {a : Table} (ha : a.All R)
    (h : ∀ p v b e, R p v b e → Q p v b e) : a.All Q :=
  fun i p v f e hp hv hf he => h _ _ _ _ (ha i p v f e hp hv hf he)

theorem Table.all_nil {R : Pt → ℚ → Bool → ℚ × ℚ → Prop} : ({} : Table).All R := by
  intro i p v b e h; simp at h

theorem Table.all_has {t : Table} : t.All t.Has :=
  fun i _ _ _ _ hp hv hf he => ⟨i, hp, hv, hf, he⟩

theorem evalList_spec (env : Env O) (ps : List Pt) (s : Alg O) :
    ∃ calls, (evalList env s ps).2 = { s with log := s.log ++ calls } ∧
      countAcc calls = ps.length ∧ countNoisy calls = 0 ∧
      (evalList env s ps).1.length = ps.length ∧
      ∀ (i : ℕ) (p : Pt) (v : ℚ), ps[i]? = some p → (evalList env s ps).1[i]? = some v →
        Call.acc (env.decode p) v ∈ calls := by
  induction ps generalizing s with
  | nil => exact ⟨[], by simp [evalList]⟩
  | cons p ps ih =>
    obtain ⟨calls, h1, h2, h3, h4, h5⟩ := ih (objfun env s p).2
    refine ⟨.acc (env.decode p) (objfun env s p).1 :: calls, ?_, ?_, ?_, ?_, ?_⟩
    · simp only [evalList]
      rw [h1]
      simp [objfun]
    · rw [← List.singleton_append, countAcc_append, countAcc_acc, h2]; simp; omega
    · rw [← List.singleton_append, countNoisy_append, countNoisy_acc, h3]
    · simp [evalList, h4]
    · intro i q v hq hv
      cases i with
      | zero =>
        simp only [List.getElem?_cons_zero, Option.some.injEq, evalList] at hq hv
        subst hq; subst hv
        exact List.mem_cons_self
      | succ i =>
        simp only [List.getElem?_cons_succ, evalList] at hq hv
        exact List.mem_cons_of_mem _ (h5 i q v hq hv)

theorem evalNoisyList_spec (env : Env O) (ps : List Pt) (s : Alg O) :
    ∃ calls, (evalNoisyList env s ps).2 = { s with log := s.log ++ calls } ∧
      countAcc calls = 0 ∧ countNoisy calls = ps.length ∧
      (evalNoisyList env s ps).1.length = ps.length ∧
      ∀ (i : ℕ) (p : Pt) (x : ℚ × ℚ × ℚ), ps[i]? = some p →
        (evalNoisyList env s ps).1[i]? = some x →
        Call.noisy (env.decode p) x.1 x.2.1 x.2.2 ∈ calls := by
  induction ps generalizing s with
  | nil => exact ⟨[], by simp [evalNoisyList]⟩
  | cons p ps ih =>
    obtain ⟨calls, h1, h2, h3, h4, h5⟩ := ih (objfunNoisy env s p).2
    let r := (objfunNoisy env s p).1
    refine ⟨.noisy (env.decode p) r.1 r.2.1 r.2.2 :: calls, ?_, ?_, ?_, ?_, ?_⟩
    · simp only [evalNoisyList]
      rw [h1]
      simp [objfunNoisy, r]
    · rw [← List.singleton_append, countAcc_append, countAcc_noisy, h2]
    · rw [← List.singleton_append, countNoisy_append, countNoisy_noisy, h3]; simp; omega
    · simp [evalNoisyList, h4]
    · intro i q v hq hv
      cases i with
      | zero =>
        simp only [List.getElem?_cons_zero, Option.some.injEq, evalNoisyList] at hq hv
        subst hq; subst hv
        exact List.mem_cons_self
      | succ i =>
        simp only [List.getElem?_cons_succ, evalNoisyList] at hq hv
        exact List.mem_cons_of_mem _ (h5 i q v hq hv)

/-- Facts about the result of `remove_existing_nodes` needed by the restart lemmas. -/
theorem removeExistingLoop_spec {env : Env O} {s : Alg O} {is : List ℕ} {r r' : Removal}
    (h : removeExistingLoop env s is r = some r')
    (ha : r.prev.Aligned)
    (hp : r.prev.All (fun p v b e => s.all.Has p v b e ∧ (s.mode = .noisy ∨ b = false))) :
    r'.prev.Aligned ∧
    r'.prev.All (fun p v b e => s.all.Has p v b e ∧ (s.mode = .noisy ∨ b = false)) ∧
    (∀ q ∈ r'.pos, q ∈ r.pos) ∧
    r'.pos.length + r'.prev.pos.length = r.pos.length + r.prev.pos.length := by
  induction is generalizing r with
  | nil => simp only [removeExistingLoop, Option.some.injEq] at h; subst h; exact ⟨ha, hp, by simp, rfl⟩
  | cons i is ih =>
    simp only [removeExistingLoop] at h
    split at h
    · cases h
    · rename_i p hpi
      split at h
      · cases h
      · rename_i d j hj
        split at h
        · rename_i q v b e hq hv hb he
          have hlen : i < r.pos.length := (List.getElem?_eq_some_iff.mp hpi).1
          split at h
          · rename_i hc
            obtain ⟨h1, h2, h3, h4⟩ := ih h
              (ha.append (by simp [Table.Aligned]))
              (Table.All.append ha hp (by
                intro k p' v' b' e' h1 h2 h3 h4
                cases k with
                | succ k => simp at h1
                | zero =>
                  simp only [List.getElem?_cons_zero, Option.some.injEq] at h1 h2 h3 h4
                  subst h1 h2 h3 h4
                  exact ⟨⟨j, hq, hv, hb, he⟩, hc⟩))
            refine ⟨h1, h2, fun x hx => List.mem_of_mem_eraseIdx (h3 x hx), ?_⟩
            rw [h4]
            simp only [Table.append, List.length_eraseIdx, if_pos hlen, List.length_append,
              List.length_singleton]
            omega
          · exact ih h ha hp
        · cases h

theorem removeExistingIf_spec {P : Params} {env : Env O} {s : Alg O} {ps : List Pt} {r : Removal}
    (h : removeExistingIf P env s ps = some r) :
    r.prev.Aligned ∧
    r.prev.All (fun p v b e => s.all.Has p v b e ∧ (s.mode = .noisy ∨ b = false)) ∧
    (∀ q ∈ r.pos, q ∈ ps) ∧ r.pos.length + r.prev.pos.length = ps.length := by
  unfold removeExistingIf at h
  split at h
  · have := removeExistingLoop_spec h Table.aligned_nil Table.all_nil
    simpa using this
  · cases h; exact ⟨Table.aligned_nil, Table.all_nil, by simp, by simp⟩

/-- Where a record of the new table of a restart comes from. -/
def RestartRec (P : Params) (env : Env O) (s : Alg O) (calls : List Call) (p : Pt) (v : ℚ)
    (b : Bool) (e : ℚ × ℚ) : Prop :=
  (Call.acc (env.decode p) v ∈ calls ∧ b = decide (s.mode = .noisy) ∧ e = (0, 0)) ∨
  (Call.noisy (env.decode p) v e.1 e.2 ∈ calls ∧ s.mode = .noisy ∧ b = true) ∨
  (s.all.Has p v b e ∧ (s.mode = .noisy ∨ b = false)) ∨
  (∃ i : ℕ, P.initPos[i]? = some p ∧ b = false ∧ e = (0, 0) ∧
    (Call.acc (env.decode p) v ∈ calls ∨ P.initVal[i]? = some v))

theorem restartSample_spec {P : Params} {env : Env O} {s s' : Alg O} {t : Table}
    (h : restartSample P env s = .ok (t, s')) :
    t.Aligned ∧ ∃ calls o, s' = { s with opq := o, log := s.log ++ calls
                                         evalcount := s.evalcount + countAcc calls
                                         noisyEvalcount := s.noisyEvalcount + countNoisy calls } ∧
      (s.mode = .accurate → countNoisy calls = 0) ∧ t.All (RestartRec P env s calls) := by
  unfold restartSample at h
  split at h
  · split at h
    · cases h
    · rename_i nodePos o hin
      dsimp only at h
      split at h
      · cases h
      · rename_i r hr
        obtain ⟨ra, rall, rsub, rlen⟩ := removeExistingIf_spec hr
        dsimp only at ra rall
        split at h
        · obtain ⟨calls, e1, e2, e3, e4, e5⟩ := evalList_spec env r.pos { s with opq := o }
          simp only [Except.ok.injEq, Prod.mk.injEq] at h
          obtain ⟨rfl, rfl⟩ := h
          have al : (Table.mk r.pos (evalList env { s with opq := o } r.pos).1
              ((evalList env { s with opq := o } r.pos).1.map (fun _ => decide (s.mode = .noisy)))
              ((evalList env { s with opq := o } r.pos).1.map (fun _ => ((0:ℚ), (0:ℚ))))).Aligned := by
            simp [Table.Aligned, e4]
          refine ⟨al.append ra, calls, o, ?_, fun _ => e3, ?_⟩
          · rw [e1, e4, e2, e3]; simp
          · refine Table.All.append al ?_ (rall.mono (fun p v b e h => Or.inr (Or.inr (Or.inl h))))
            intro i p v b e hp hv hb he
            left
            simp only [List.getElem?_map, Option.map_eq_some_iff] at hb he
            obtain ⟨_, _, rfl⟩ := hb
            obtain ⟨_, _, rfl⟩ := he
            exact ⟨e5 i p v hp hv, rfl, rfl⟩
        · rename_i hacc
          split at h
          · cases h
          · obtain ⟨calls, e1, e2, e3, e4, e5⟩ := evalNoisyList_spec env r.pos { s with opq := o }
            simp only [Except.ok.injEq, Prod.mk.injEq] at h
            obtain ⟨rfl, rfl⟩ := h
            have hmode : s.mode = .noisy := by
              cases hm : s.mode with
              | noisy => rfl
              | accurate => exact absurd (by simp [restartAccurate, hm]) hacc
            have al : (Table.mk r.pos
                ((evalNoisyList env { s with opq := o } r.pos).1.map (fun x => x.1))
                ((evalNoisyList env { s with opq := o } r.pos).1.map
                  (fun _ => decide (s.mode = .noisy)))
                ((evalNoisyList env { s with opq := o } r.pos).1.map
                  (fun x => (x.2.1, x.2.2)))).Aligned := by
              simp [Table.Aligned, e4]
            refine ⟨al.append ra, calls, o, ?_, fun h => by simp [hmode] at h, ?_⟩
            · rw [e1, e4, e2, e3]; simp
            · refine Table.All.append al ?_ (rall.mono (fun p v b e h => Or.inr (Or.inr (Or.inl h))))
              intro i p v b e hp hv hb he
              right; left
              simp only [List.getElem?_map, Option.map_eq_some_iff] at hv hb he
              obtain ⟨x, hx, rfl⟩ := hv
              obtain ⟨_, _, rfl⟩ := hb
              obtain ⟨y, hy, rfl⟩ := he
              rw [hx] at hy; cases hy
              exact ⟨e5 i p x hp hx, hmode, by simp [hmode]⟩
  · cases h
    exact ⟨Table.aligned_nil, [], s.opq, by simp, by simp, Table.all_nil⟩

theorem filterMap_getElem?_length {α : Type} (l : List α) (sel : List ℕ)
    (h : ∀ i ∈ sel, i < l.length) : (sel.filterMap (fun i => l[i]?)).length = sel.length := by
  induction sel with
  | nil => rfl
  | cons i is ih =>
    have hi : i < l.length := h i (by simp)
    rw [List.filterMap_cons_some (b := l[i]) (by simp [hi])]
    simp [ih (fun j hj => h j (by simp [hj]))]

theorem filterMap_getElem?_get {α : Type} (l : List α) (sel : List ℕ)
    (h : ∀ i ∈ sel, i < l.length) (k : ℕ) :
    (sel.filterMap (fun i => l[i]?))[k]? = sel[k]?.bind (fun i => l[i]?) := by
  induction sel generalizing k with
  | nil => simp
  | cons i is ih =>
    have hi : i < l.length := h i (by simp)
    rw [List.filterMap_cons_some (b := l[i]) (by simp [hi])]
    cases k with
    | zero => simp [hi]
    | succ k => simp [ih (fun j hj => h j (by simp [hj]))]

theorem selectUser_lt {P : Params} {env : Env O} {l : List Pt} :
    ∀ i ∈ selectUser P env l, i < P.initPos.length := by
  intro i hi
  simp only [selectUser, List.mem_filter, List.mem_range] at hi
  exact hi.1

theorem restartUser_spec {P : Params} {env : Env O} {s s' : Alg O} {t t' : Table}
    (h : restartUser P env t s = .ok (t', s')) (al : t.Aligned) :
    t'.Aligned ∧ ∃ calls u, t' = t.append u ∧ u.Aligned ∧
      s' = { s with log := s.log ++ calls, evalcount := s.evalcount + countAcc calls } ∧
      countNoisy calls = 0 ∧
      u.All (fun p v b e => ∃ i : ℕ, P.initPos[i]? = some p ∧ b = false ∧ e = (0, 0) ∧
        (Call.acc (env.decode p) v ∈ calls ∨ P.initVal[i]? = some v)) := by
  unfold restartUser at h
  split at h
  · dsimp only at h
    split at h
    · set pts := (selectUser P env t.pos).filterMap (fun i => P.initPos[i]?) with hpts
      obtain ⟨calls, e1, e2, e3, e4, e5⟩ := evalList_spec env pts s
      simp only [Except.ok.injEq, Prod.mk.injEq] at h
      obtain ⟨rfl, rfl⟩ := h
      have al' : (Table.mk pts (evalList env s pts).1
          ((evalList env s pts).1.map (fun _ => false))
          ((evalList env s pts).1.map (fun _ => ((0:ℚ), (0:ℚ))))).Aligned := by
        simp [Table.Aligned, e4]
      refine ⟨al.append al', calls, _, rfl, al', ?_, e3, ?_⟩
      · rw [e1, e4, e2]
      · intro i p v b e hp hv hb he
        simp only [List.getElem?_map, Option.map_eq_some_iff] at hb he
        obtain ⟨_, _, rfl⟩ := hb
        obtain ⟨_, _, rfl⟩ := he
        simp only at hp hv
        have hp' := hp
        rw [hpts, filterMap_getElem?_get _ _ selectUser_lt, Option.bind_eq_some_iff] at hp'
        obtain ⟨j, _, hj⟩ := hp'
        exact ⟨j, hj, rfl, rfl, Or.inl (e5 i p v hp hv)⟩
    · rename_i hlen
      simp only [Except.ok.injEq, Prod.mk.injEq] at h
      obtain ⟨rfl, rfl⟩ := h
      have hlt : ∀ i ∈ selectUser P env t.pos, i < P.initVal.length := by
        intro i hi
        have := selectUser_lt i hi
        omega
      have al' : (Table.mk ((selectUser P env t.pos).filterMap (fun i => P.initPos[i]?))
          ((selectUser P env t.pos).filterMap (fun i => P.initVal[i]?))
          (((selectUser P env t.pos).filterMap (fun i => P.initVal[i]?)).map (fun _ => false))
          (((selectUser P env t.pos).filterMap (fun i => P.initVal[i]?)).map
            (fun _ => ((0:ℚ), (0:ℚ))))).Aligned := by
        simp [Table.Aligned, filterMap_getElem?_length _ _ hlt,
          filterMap_getElem?_length _ _ selectUser_lt]
      refine ⟨al.append al', [], _, rfl, al', by simp, by simp, ?_⟩
      intro i p v b e hp hv hb he
      simp only [List.getElem?_map, Option.map_eq_some_iff] at hb he
      obtain ⟨_, _, rfl⟩ := hb
      obtain ⟨_, _, rfl⟩ := he
      simp only at hp hv
      rw [filterMap_getElem?_get _ _ selectUser_lt, Option.bind_eq_some_iff] at hp
      rw [filterMap_getElem?_get _ _ hlt, Option.bind_eq_some_iff] at hv
      obtain ⟨j, hj, hpj⟩ := hp
      obtain ⟨k, hk, hvk⟩ := hv
      rw [hj] at hk; cases hk
      exact ⟨j, hpj, rfl, rfl, Or.inr hvk⟩
  · cases h
    exact ⟨al, [], {}, by simp [Table.append], Table.aligned_nil, by simp, by simp, Table.all_nil⟩

/-- `logInit` only touches the star fields. -/
theorem logInit_frame (gap : EVal) (vs : List ℚ) (s : Alg O) :
    ∃ g st, logInit s gap vs = { s with bestGapShown := g, stars := st } := by
  induction vs generalizing s with
  | nil => exact ⟨s.bestGapShown, s.stars, rfl⟩
  | cons v vs ih =>
    obtain ⟨g, st, h⟩ := ih (updateLog s v gap)
    refine ⟨g, st, ?_⟩
    simp only [logInit]
    rw [h]
    unfold updateLog
    split <;> rfl

theorem logInit_eq (s : Alg O) (gap : EVal) (vs : List ℚ) :
    logInit s gap vs = { s with bestGapShown := (logInit s gap vs).bestGapShown
                                stars := (logInit s gap vs).stars } := by
  obtain ⟨g, st, h⟩ := logInit_frame gap vs s
  rw [h]

/-- The observable effect of `restart` on the object `s`, with new table `t` and black box calls
`calls`; `m`, `i` are the minimum of the new values and its first position, `M` the maximum. -/
structure RestartOut (P : Params) (env : Env O) (s s' : Alg O) (t : Table) (calls : List Call)
    (m M : ℚ) (i : ℕ) : Prop where
  aligned : t.Aligned
  two_le : 2 ≤ t.pos.length
  recs : t.All (RestartRec P env s calls)
  all : s'.all = s.all.append t
  cur : s'.cur = { t with pos := t.pos.map env.toInternal }
  nAt : s'.nAtRestart = s.all.pos.length
  log : s'.log = s.log ++ calls
  ev : s'.evalcount = s.evalcount + countAcc calls
  nev : s'.noisyEvalcount = s.noisyEvalcount + countNoisy calls
  accMode : s.mode = .accurate → countNoisy calls = 0
  mode : s'.mode = s.mode
  itercount : s'.itercount = s.itercount
  least : IsLeastAt t.val i m
  greatest : IsGreatestOf t.val M
  fmin : s'.fmin = (m : EVal)
  fminIdx : s'.fminIdx = i
  fmax : s'.fmax = (M : EVal)
  fminStall : s'.fminStall = (m : EVal)
  fbest : s'.fbest = min s.fbest (m : EVal)
  fbestIdx : s'.fbestIdx = if (m : EVal) < s.fbest then i + s.all.pos.length else s.fbestIdx
  step : s'.step = P.firstStep
  cyc : s'.cyc = s.cyc + 1
  numStalled : s'.numStalled = 0
  discarded : s'.discarded = []
  numCons : s'.numCons = 0
  solveUnder : s'.solveUnder = false
  iterLastRefine : s'.iterLastRefine = s.itercount
  numNoisyRestarts :
    s'.numNoisyRestarts = s.numNoisyRestarts + (if s.mode = .noisy then 1 else 0)
  gapOk : ∃ gap, currentGap P s' = .ok gap
  passes : s'.passes = s.passes
  nInit : s'.nInit = t.pos.length
  elapsed : s'.elapsed = s.elapsed
  fminNoisy : t.noisy[i]? = some s'.isFminNoisy
  fbestNoisy : if (m : EVal) < s.fbest then s'.isFbestNoisy = s'.isFminNoisy
    else s'.isFbestNoisy = s.isFbestNoisy

theorem restart_spec {P : Params} {env : Env O} {s s' : Alg O} (h : restart P env s = .ok s') :
    ∃ t calls m M i, RestartOut P env s s' t calls m M i := by
  unfold restart at h
  dsimp only at h
  split at h
  · cases h
  · rename_i t1 s1 h1
    obtain ⟨al1, calls1, o, rfl, hn1, all1⟩ := restartSample_spec h1
    split at h
    · cases h
    · rename_i t2 s2 h2
      obtain ⟨al2, calls2, u, rfl, alu, rfl, hn2, allu⟩ := restartUser_spec h2 al1
      dsimp only at hn1 all1
      unfold restartInstall at h
      dsimp only at h
      split at h
      · cases h
      · rename_i hne
        split at h
        · rename_i m i M j hm hM
          split at h
          · cases h
          · rename_i b hb
            split at h
            · cases h
            · rename_i gap hgap
              split at h
              · cases h
              · rename_i hlen
                simp only [Except.ok.injEq] at h
                subst h
                obtain ⟨a1, a2, _⟩ := argminVal_some hm
                obtain ⟨b1, b2, _⟩ := argmaxVal_some hM
                refine ⟨t1.append u, calls1 ++ calls2, m, M, i, ?_⟩
                rw [logInit_eq]
                have hrec : (t1.append u).All (RestartRec P env s (calls1 ++ calls2)) := by
                  refine Table.All.append al1 (all1.mono ?_) (allu.mono ?_)
                  · rintro p v bb e (⟨h, h', h''⟩ | ⟨h, h'⟩ | ⟨h, h'⟩ | ⟨k, h, h', h'', h3⟩)
                    · exact Or.inl ⟨List.mem_append_left _ h, h', h''⟩
                    · exact Or.inr (Or.inl ⟨List.mem_append_left _ h, h'⟩)
                    · exact Or.inr (Or.inr (Or.inl ⟨h, h'⟩))
                    · refine Or.inr (Or.inr (Or.inr ⟨k, h, h', h'', ?_⟩))
                      exact h3.imp (List.mem_append_left _) id
                  · rintro p v bb e ⟨k, h, h', h'', h3⟩
                    refine Or.inr (Or.inr (Or.inr ⟨k, h, h', h'', ?_⟩))
                    exact h3.imp (List.mem_append_right _) id
                have h2l : 2 ≤ (t1.append u).pos.length := by
                  have : (t1.append u).pos.length ≠ 0 := by simpa using hne
                  omega
                by_cases hlt : (m : EVal) < s.fbest
                · simp only [hlt, if_true] at hgap ⊢
                  constructor <;>
                    first
                    | rfl
                    | assumption
                    | exact al2
                    | exact ⟨a1, a2⟩
                    | exact ⟨List.mem_of_getElem? b1, b2⟩
                    | (simp [hn2, hlt, hlt.le, min_eq_right hlt.le]; done)
                    | skip
                  · simp; omega
                  · intro hmd; simp [hn1 hmd, hn2]
                  · exact ⟨gap, hgap⟩
                · simp only [hlt, if_false] at hgap ⊢
                  constructor <;>
                    first
                    | rfl
                    | assumption
                    | exact al2
                    | exact ⟨a1, a2⟩
                    | exact ⟨List.mem_of_getElem? b1, b2⟩
                    | (simp [hn2, hlt, min_eq_left (not_lt.mp hlt)]; done)
                    | skip
                  · simp; omega
                  · intro hmd; simp [hn1 hmd, hn2]
                  · exact ⟨gap, hgap⟩
        · cases h

end Rbfopt
