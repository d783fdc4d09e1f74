import Verif.Lemmas.Decompose
import Verif.Lemmas.Restart
import Verif.Spec.Provenance

/-! # Invariants of the serial engine -/

namespace Rbfopt

variable {O : Type}

/-! ## Evaluation of one point -/

theorem updateLog_frame (s : Alg O) (obj : ℚ) (gap : EVal) :
    ∃ g st, updateLog s obj gap = { s with bestGapShown := g, stars := st } := by
  unfold updateLog
  split
  · exact ⟨_, _, rfl⟩
  · exact ⟨s.bestGapShown, s.stars, rfl⟩

theorem reuseIndex_spec {P : Params} {env : Env O} {s : Alg O} {orig : Pt} {i : ℕ}
    (h : reuseIndex P env s orig = some i) :
    ∃ q, s.all.pos[i]? = some q ∧ i < s.nAtRestart ∧ env.dist orig q < P.epsZero ∧
      ∀ q' ∈ s.all.pos.take s.nAtRestart, env.dist orig q ≤ env.dist orig q' := by
  unfold reuseIndex at h
  split at h
  · split at h
    · rename_i d j hj
      split at h
      · rename_i hd
        cases h
        obtain ⟨q, hq, hdq, hall⟩ := getMinDistanceAndIndex_some hj
        have hlt : i < s.nAtRestart := by
          have := (List.getElem?_eq_some_iff.mp hq).1
          simp at this; omega
        refine ⟨q, ?_, hlt, by rw [hdq]; exact hd, by rw [hdq]; exact hall⟩
        rw [List.getElem?_take] at hq
        simpa [hlt] using hq
      · cases h
    · cases h
  · cases h

theorem Table.Aligned.has {t : Table} (h : t.Aligned) {i : ℕ} {p : Pt} (hp : t.pos[i]? = some p) :
    ∃ v b e, t.val[i]? = some v ∧ t.noisy[i]? = some b ∧ t.err[i]? = some e := by
  have hi := (List.getElem?_eq_some_iff.mp hp).1
  obtain ⟨h1, h2, h3⟩ := h
  exact ⟨_, _, _, List.getElem?_eq_getElem (by omega), List.getElem?_eq_getElem (by omega),
    List.getElem?_eq_getElem (by omega)⟩

/-- Effect of evaluating (or reusing) one point. -/
structure EvalOut (P : Params) (env : Env O) (s : Alg O) (loc : Loc) (orig : Pt) (r : EvalRes O)
    (calls : List Call) : Prop where
  state : ∃ g st, r.s = { s with log := s.log ++ calls
                                 evalcount := s.evalcount + countAcc calls
                                 noisyEvalcount := s.noisyEvalcount + countNoisy calls
                                 bestGapShown := g, stars := st }
  acc : s.mode = .accurate → countNoisy calls = 0 ∧ r.isNoisy = false
  le_acc : countAcc calls ≤ 1
  le_noisy : countNoisy calls ≤ 1
  src : (r.isNoisy = false ∧ Call.acc (env.decode orig) r.val ∈ calls) ∨
    (r.isNoisy = true ∧ ∃ el eu, Call.noisy (env.decode orig) r.val el eu ∈ calls ∧
      r.err = some (el, eu)) ∨
    (calls = [] ∧ ∃ i q e, i < s.nAtRestart ∧ s.all.pos[i]? = some q ∧ s.all.val[i]? = some r.val ∧
      s.all.noisy[i]? = some r.isNoisy ∧ s.all.err[i]? = some e ∧
      env.dist orig q < P.epsZero ∧ r.err = loc.err)

theorem noisyFirst_spec {P : Params} {env : Env O} {s : Alg O} {loc : Loc} {orig : Pt}
    (ha : s.all.Aligned) :
    ∃ calls, (noisyFirst P env s loc orig).s =
      { s with log := s.log ++ calls, noisyEvalcount := s.noisyEvalcount + countNoisy calls } ∧
      countAcc calls = 0 ∧ countNoisy calls ≤ 1 ∧
      (((noisyFirst P env s loc orig).isNoisy = true ∧ ∃ el eu,
        Call.noisy (env.decode orig) (noisyFirst P env s loc orig).val el eu ∈ calls ∧
        (noisyFirst P env s loc orig).err = some (el, eu)) ∨
      (calls = [] ∧ ∃ i q e, i < s.nAtRestart ∧ s.all.pos[i]? = some q ∧
        s.all.val[i]? = some (noisyFirst P env s loc orig).val ∧
        s.all.noisy[i]? = some (noisyFirst P env s loc orig).isNoisy ∧ s.all.err[i]? = some e ∧
        env.dist orig q < P.epsZero ∧ (noisyFirst P env s loc orig).err = loc.err)) := by
  unfold noisyFirst
  split
  · rename_i b v hr
    unfold reuseNoisy at hr
    split at hr
    · cases hr
    · rename_i i hi
      obtain ⟨q, hq, hlt, hd, _⟩ := reuseIndex_spec hi
      split at hr
      · rename_i b' v' hb hv
        cases hr
        obtain ⟨_, _, e, _, _, he⟩ := ha.has hq
        exact ⟨[], by simp, by simp, by simp, Or.inr ⟨rfl, i, q, e, hlt, hq, hv, hb, he, hd, rfl⟩⟩
      · cases hr
  · refine ⟨[.noisy (env.decode orig) (env.evalNoisy s.log (env.decode orig)).1
      (env.evalNoisy s.log (env.decode orig)).2.1 (env.evalNoisy s.log (env.decode orig)).2.2],
      by simp [objfunNoisy], by simp, by simp, Or.inl ⟨rfl, _, _, ?_, rfl⟩⟩
    simp [objfunNoisy]

theorem evaluateNext_spec {P : Params} {env : Env O} {s : Alg O} {loc : Loc} {orig : Pt}
    {r : EvalRes O} (h : evaluateNext P env s loc orig = .ok r) (ha : s.all.Aligned) :
    ∃ calls, EvalOut P env s loc orig r calls := by
  unfold evaluateNext at h
  split at h
  · rename_i hm
    split at h
    · rename_i v hr
      cases h
      unfold reuseAcc at hr
      split at hr
      · cases hr
      · rename_i i hi
        obtain ⟨q, hq, hlt, hd, _⟩ := reuseIndex_spec hi
        split at hr
        · rename_i v' hb hv
          cases hr
          obtain ⟨_, _, e, _, _, he⟩ := ha.has hq
          exact ⟨[], ⟨⟨s.bestGapShown, s.stars, by simp⟩, by simp, by simp, by simp,
            Or.inr (Or.inr ⟨rfl, i, q, e, hlt, hq, hv, hb, he, hd, rfl⟩)⟩⟩
        · cases hr
    · cases h
      exact ⟨[.acc (env.decode orig) (env.evalAcc s.log (env.decode orig))],
        ⟨⟨s.bestGapShown, s.stars, by simp [objfun]⟩, by simp, by simp, by simp, Or.inl ⟨rfl, by simp [objfun]⟩⟩⟩
  · rename_i hm
    have hm' : s.mode ≠ .accurate := hm
    obtain ⟨calls, e1, e2, e3, e4⟩ := noisyFirst_spec (P := P) (env := env) (loc := loc)
      (orig := orig) ha
    dsimp only at h
    split at h
    · rename_i hn
      split at h
      · cases h
      · rename_i e he
        split at h
        · obtain ⟨g, st, hl⟩ := updateLog_frame (noisyFirst P env s loc orig).s
            (noisyFirst P env s loc orig).val loc.gap
          cases h
          refine ⟨calls ++ [.acc (env.decode orig) (env.evalAcc (s.log ++ calls) (env.decode orig))],
            ⟨⟨g, st, ?_⟩, fun h => absurd h hm', by simp [e2], by simp [e3], Or.inl ⟨rfl, ?_⟩⟩⟩
          · simp only [objfun, hl]; simp [e1, e2]
          · simp only [objfun, hl]; simp [e1]
        · cases h
          refine ⟨calls, ⟨⟨s.bestGapShown, s.stars, by rw [e1, e2]; simp⟩, fun h => absurd h hm',
            by omega, e3, Or.inr e4⟩⟩
    · rename_i hn
      cases h
      exact ⟨calls, ⟨⟨s.bestGapShown, s.stars, by rw [e1, e2]; simp⟩, fun h => absurd h hm',
        by omega, e3, Or.inr e4⟩⟩

/-! ## Adding a node -/

/-- Effect of `add_node` / `add_noisy_node`. -/
structure AddOut (s s' : Alg O) (p orig : Pt) (v : ℚ) (b : Bool) (e : ℚ × ℚ) : Prop where
  cur : s'.cur = s.cur.append { pos := [p], val := [v], noisy := [b], err := [e] }
  all : s'.all = s.all.append { pos := [orig], val := [v], noisy := [b], err := [e] }
  fmin : s'.fmin = min s.fmin (v : EVal)
  fminIdx : s'.fminIdx = if (v : EVal) < s.fmin then s.cur.pos.length else s.fminIdx
  fmax : s'.fmax = max s.fmax (v : EVal)
  fbest : s'.fbest = min s.fbest (v : EVal)
  fbestIdx : s'.fbestIdx = if (v : EVal) < s.fbest then s.all.pos.length else s.fbestIdx
  fminNoisy : s'.isFminNoisy = if (v : EVal) < s.fmin then b else s.isFminNoisy
  fbestNoisy : s'.isFbestNoisy = if (v : EVal) < s.fbest then b else s.isFbestNoisy
  rest : s'.log = s.log ∧ s'.evalcount = s.evalcount ∧ s'.noisyEvalcount = s.noisyEvalcount ∧
    s'.mode = s.mode ∧ s'.nAtRestart = s.nAtRestart ∧ s'.bestGapShown = s.bestGapShown ∧
    s'.stars = s.stars ∧ s'.nInit = s.nInit
  ctl : s'.itercount = s.itercount ∧ s'.step = s.step ∧ s'.cyc = s.cyc ∧ s'.numCons = s.numCons ∧
    s'.numStalled = s.numStalled ∧ s'.fminStall = s.fminStall ∧ s'.refSet = s.refSet ∧
    s'.refIter = s.refIter ∧ s'.passes = s.passes ∧ s'.discarded = s.discarded ∧
    s'.numNoisyRestarts = s.numNoisyRestarts ∧ s'.iterLastRefine = s.iterLastRefine

theorem addNode_spec (s : Alg O) (p orig : Pt) (v : ℚ) :
    AddOut s (addNode s p orig v) p orig v false (0, 0) := by
  unfold addNode
  dsimp only
  by_cases h1 : (v : EVal) < s.fmin <;> by_cases h2 : (v : EVal) < s.fbest <;>
    simp only [h1, h2, if_true, if_false] <;> constructor <;>
    simp [Table.append, h1, h2, le_of_lt, not_lt.mp, min_eq_left, min_eq_right]

theorem addNoisyNode_spec (s : Alg O) (p orig : Pt) (v el eu : ℚ) :
    AddOut s (addNoisyNode s p orig v el eu) p orig v true (el, eu) := by
  unfold addNoisyNode
  dsimp only
  by_cases h1 : (v : EVal) < s.fmin <;> by_cases h2 : (v : EVal) < s.fbest <;>
    simp only [h1, h2, if_true, if_false] <;> constructor <;>
    simp [Table.append, h1, h2, le_of_lt, not_lt.mp, min_eq_left, min_eq_right]

theorem addResult_spec {s s' : Alg O} {p orig : Pt} {r : EvalRes O}
    (h : addResult s p orig r = .ok s') :
    ∃ e, AddOut s s' p orig r.val r.isNoisy e ∧
      (r.isNoisy = false → e = (0, 0)) ∧ (r.isNoisy = true → r.err = some e) := by
  unfold addResult at h
  split at h
  · rename_i hn
    split at h
    · cases h
    · rename_i e he
      cases h
      refine ⟨e, ?_, by simp [hn], fun _ => he⟩
      rw [hn]
      exact addNoisyNode_spec s p orig r.val e.1 e.2
  · rename_i hn
    simp only [Bool.not_eq_true] at hn
    cases h
    refine ⟨(0, 0), ?_, fun _ => rfl, by simp [hn]⟩
    rw [hn]
    exact addNode_spec s p orig r.val

theorem removeNode_spec {s s' : Alg O} {i k : ℕ} (h : removeNode s i k = .ok s') :
    i < s.cur.pos.length ∧ k + i < s.all.pos.length ∧
    s' = { s with cur := s.cur.eraseIdx i, all := s.all.eraseIdx (k + i)
                  nInit := if i < s.nInit then s.nInit - 1 else s.nInit } := by
  unfold removeNode at h
  split at h
  · rename_i hc
    cases h
    exact ⟨hc.1, hc.2, rfl⟩
  · cases h

/-! ## Alignment -/

/-- Alignment of the tables, and current nodes = records since the last restart. -/
structure WF (env : Env O) (s : Alg O) : Prop where
  curA : s.cur.Aligned
  allA : s.all.Aligned
  le : s.nAtRestart ≤ s.all.pos.length
  val : s.cur.val = s.all.val.drop s.nAtRestart
  noisy : s.cur.noisy = s.all.noisy.drop s.nAtRestart
  err : List.Forall₂ (fun e e' => e = e' ∨ e = (0, 0)) s.cur.err (s.all.err.drop s.nAtRestart)
  pos : List.Forall₂ (fun q o => q = env.toInternal o ∨ o = env.toOrig q) s.cur.pos
    (s.all.pos.drop s.nAtRestart)

theorem WF.of_data {env : Env O} {s t : Alg O} (h : WF env s) (e : t.data = s.data) : WF env t := by
  have e1 : t.cur = s.cur := congrArg Data.cur e
  have e2 : t.all = s.all := congrArg Data.all e
  have e3 : t.nAtRestart = s.nAtRestart := congrArg Data.nAtRestart e
  constructor <;> simp only [e1, e2, e3]
  exacts [h.curA, h.allA, h.le, h.val, h.noisy, h.err, h.pos]

theorem WF.init {P : Params} {env : Env O} (o : O) : WF env (Alg.init P o) := by
  constructor <;> simp [Alg.init, Table.Aligned]

theorem WF.add {env : Env O} {s s' : Alg O} {p : Pt} {v : ℚ} {b : Bool} {e : ℚ × ℚ}
    (h : WF env s) (ha : AddOut s s' p (env.toOrig p) v b e) : WF env s' := by
  obtain ⟨c1, c2, c3⟩ := h.curA
  obtain ⟨a1, a2, a3⟩ := h.allA
  have hle := h.le
  constructor
  · rw [ha.cur]; exact h.curA.append (by simp [Table.Aligned])
  · rw [ha.all]; exact h.allA.append (by simp [Table.Aligned])
  · rw [ha.all, ha.rest.2.2.2.2.1]; simp [Table.append]; omega
  · rw [ha.all, ha.cur, ha.rest.2.2.2.2.1]
    simp only [Table.append]
    rw [List.drop_append_of_le_length (by omega), h.val]
  · rw [ha.all, ha.cur, ha.rest.2.2.2.2.1]
    simp only [Table.append]
    rw [List.drop_append_of_le_length (by omega), h.noisy]
  · rw [ha.all, ha.cur, ha.rest.2.2.2.2.1]
    simp only [Table.append]
    rw [List.drop_append_of_le_length (by omega)]
    exact List.rel_append h.err (by simp)
  · rw [ha.all, ha.cur, ha.rest.2.2.2.2.1]
    simp only [Table.append]
    rw [List.drop_append_of_le_length (by omega)]
    exact List.rel_append h.pos (by simp)

theorem WF.remove {env : Env O} {s s' : Alg O} {i : ℕ} (h : WF env s)
    (hr : removeNode s i s.nAtRestart = .ok s') : WF env s' := by
  obtain ⟨h1, h2, rfl⟩ := removeNode_spec hr
  have hle := h.le
  constructor
  · exact h.curA.eraseIdx i
  · exact h.allA.eraseIdx _
  · simp only [Table.eraseIdx, List.length_eraseIdx, if_pos h2]; omega
  · simp only [Table.eraseIdx, drop_eraseIdx_add, h.val]
  · simp only [Table.eraseIdx, drop_eraseIdx_add, h.noisy]
  · simp only [Table.eraseIdx, drop_eraseIdx_add]
    exact forall₂_eraseIdx i h.err
  · simp only [Table.eraseIdx, drop_eraseIdx_add]
    exact forall₂_eraseIdx i h.pos

theorem forall₂_map_self {α β : Type} {R : β → α → Prop} {f : α → β} (l : List α)
    (h : ∀ a ∈ l, R (f a) a) : List.Forall₂ R (l.map f) l := by
  induction l with
  | nil => exact .nil
  | cons a l ih =>
    exact .cons (h a (by simp)) (ih (fun b hb => h b (by simp [hb])))

theorem WF.restart {P : Params} {env : Env O} {s s' : Alg O} (h : WF env s)
    (hr : restart P env s = .ok s') : WF env s' := by
  obtain ⟨t, calls, m, M, i, ho⟩ := restart_spec hr
  obtain ⟨a1, a2, a3⟩ := h.allA
  constructor
  · rw [ho.cur]
    obtain ⟨t1, t2, t3⟩ := ho.aligned
    simp [Table.Aligned, t1, t2, t3]
  · rw [ho.all]; exact h.allA.append ho.aligned
  · rw [ho.all, ho.nAt]; simp [Table.append]
  · rw [ho.all, ho.nAt, ho.cur]; simp [Table.append, ← a1]
  · rw [ho.all, ho.nAt, ho.cur]; simp [Table.append, ← a2]
  · rw [ho.all, ho.nAt, ho.cur]
    simp only [Table.append, ← a3, List.drop_left]
    exact List.forall₂_same.mpr (fun e _ => Or.inl rfl)
  · rw [ho.all, ho.nAt, ho.cur]
    simp only [Table.append, List.drop_left]
    exact forall₂_map_self _ (fun a _ => Or.inl rfl)

theorem EvalOut.data_eqs {P : Params} {env : Env O} {s : Alg O} {loc : Loc} {orig : Pt}
    {r : EvalRes O} {calls : List Call} (h : EvalOut P env s loc orig r calls) :
    r.s.cur = s.cur ∧ r.s.all = s.all ∧ r.s.nAtRestart = s.nAtRestart ∧ r.s.mode = s.mode ∧
    r.s.fmin = s.fmin ∧ r.s.fminIdx = s.fminIdx ∧ r.s.fmax = s.fmax ∧ r.s.fbest = s.fbest ∧
    r.s.fbestIdx = s.fbestIdx ∧ r.s.log = s.log ++ calls ∧
    r.s.evalcount = s.evalcount + countAcc calls ∧
    r.s.noisyEvalcount = s.noisyEvalcount + countNoisy calls ∧
    r.s.isFminNoisy = s.isFminNoisy ∧ r.s.isFbestNoisy = s.isFbestNoisy ∧ r.s.nInit = s.nInit := by
  obtain ⟨g, st, e⟩ := h.state
  rw [e]
  simp

theorem forall₂_mapIdx {α β : Type} {R : α → β → Prop} {l : List α} {l' : List β} (f : ℕ → α → α)
    (hf : ∀ i a b, R a b → R (f i a) b) (h : List.Forall₂ R l l') :
    List.Forall₂ R (l.mapIdx f) l' := by
  induction h generalizing f with
  | nil => simp
  | cons hab _ ih =>
    rw [List.mapIdx_cons]
    exact .cons (hf 0 _ _ hab) (ih (fun i => f (i + 1)) (fun i a b => hf (i + 1) a b))

theorem forall₂_erase {l l' : List (ℚ × ℚ)} (is : List ℕ)
    (h : List.Forall₂ (fun e e' => e = e' ∨ e = (0, 0)) l l') :
    List.Forall₂ (fun e e' => e = e' ∨ e = (0, 0))
      (l.mapIdx (fun i e => if i ∈ is then (0, 0) else e)) l' := by
  refine forall₂_mapIdx _ (fun i a b hab => ?_) h
  split
  · exact Or.inr rfl
  · exact hab

/-- The error intervals of the current nodes are those of their records. -/
def ErrEq (s : Alg O) : Prop := s.cur.err = s.all.err.drop s.nAtRestart

theorem ErrEq.of_data {s t : Alg O} (h : ErrEq s) (e : t.data = s.data) : ErrEq t := by
  have e1 : t.cur = s.cur := congrArg Data.cur e
  have e2 : t.all = s.all := congrArg Data.all e
  have e3 : t.nAtRestart = s.nAtRestart := congrArg Data.nAtRestart e
  unfold ErrEq
  rw [e1, e2, e3]; exact h

theorem ErrEq.add {s s' : Alg O} {p q : Pt} {v : ℚ} {b : Bool} {e : ℚ × ℚ}
    (ha0 : s.all.Aligned) (hle : s.nAtRestart ≤ s.all.pos.length) (h : ErrEq s)
    (ha : AddOut s s' p q v b e) : ErrEq s' := by
  obtain ⟨-, -, a3⟩ := ha0
  unfold ErrEq
  rw [ha.all, ha.cur, ha.rest.2.2.2.2.1]
  simp only [Table.append]
  rw [List.drop_append_of_le_length (by omega), h]

theorem ErrEq.remove {s s' : Alg O} {i : ℕ} (h : ErrEq s)
    (hr : removeNode s i s.nAtRestart = .ok s') : ErrEq s' := by
  obtain ⟨h1, h2, rfl⟩ := removeNode_spec hr
  unfold ErrEq
  simp only [Table.eraseIdx, drop_eraseIdx_add]
  rw [h]

theorem ErrEq.restart {P : Params} {env : Env O} {s s' : Alg O} (ha : s.all.Aligned)
    (hr : restart P env s = .ok s') : ErrEq s' := by
  obtain ⟨t, calls, m, M, i, ho⟩ := restart_spec hr
  obtain ⟨-, -, a3⟩ := ha
  unfold ErrEq
  rw [ho.all, ho.nAt, ho.cur]
  simp only [Table.append, ← a3, List.drop_left]

theorem WF.micro {P : Params} {env : Env O} {s t : Alg O} (h : WF env s) (hm : Micro P env s t) :
    WF env t := by
  cases hm with
  | ctrl e => exact h.of_data e
  | log obj gap =>
    obtain ⟨g, st, e⟩ := updateLog_frame s obj gap
    rw [e]
    exact ⟨h.curA, h.allA, h.le, h.val, h.noisy, h.err, h.pos⟩
  | restart hr => exact h.restart hr
  | removeLocal i _ _ hr => exact h.remove hr
  | erase is _ _ =>
    obtain ⟨c1, c2, c3⟩ := h.curA
    exact ⟨⟨c1, c2, by simpa using c3⟩, h.allA, h.le, h.val, h.noisy, forall₂_erase is h.err, h.pos⟩
  | removeRest i p t' _ hr => exact h.remove hr
  | add loc p0 d r hd hlt hev hadd =>
    obtain ⟨calls, ho⟩ := evaluateNext_spec hev h.allA
    obtain ⟨e, ha, _, _⟩ := addResult_spec hadd
    obtain ⟨g, st, es⟩ := ho.state
    refine WF.add (s := r.s) ?_ ha
    rw [es]
    exact ⟨h.curA, h.allA, h.le, h.val, h.noisy, h.err, h.pos⟩
  | phase _ _ => exact ⟨h.curA, h.allA, h.le, h.val, h.noisy, h.err, h.pos⟩

theorem Reach.wf {P : Params} {env : Env O} {o : O} {c : Ctl} {s : Alg O}
    (h : Reach P env o c s) : WF env s :=
  h.inv (WF.init o) (fun _ _ hs hm => hs.micro hm)

/-- Reachability induction with alignment available. -/
theorem Reach.inv' {P : Params} {env : Env O} {o : O} {I : Alg O → Prop} {c : Ctl} {s : Alg O}
    (h : Reach P env o c s) (h0 : I (Alg.init P o))
    (hm : ∀ s t, WF env s → I s → Micro P env s t → I t) : I s :=
  (h.inv (I := fun s => WF env s ∧ I s) ⟨WF.init o, h0⟩
    (fun s t hs hm' => ⟨hs.1.micro hm', hm s t hs.1 hs.2 hm'⟩)).2

/-! ## Counters -/

/-- Unless two-phase optimization is in accurate mode, the error intervals of the current nodes are those
of their records. -/
def ErrOK (P : Params) (s : Alg O) : Prop := P.twoPhase = false ∨ s.mode = .noisy → ErrEq s

theorem ErrOK.micro {P : Params} {env : Env O} {s t : Alg O} (w : WF env s) (h : ErrOK P s)
    (hm : Micro P env s t) : ErrOK P t := by
  cases hm with
  | ctrl e =>
    intro hc
    have e1 : t.mode = s.mode := congrArg Data.mode e
    rw [e1] at hc
    exact (h hc).of_data e
  | log obj gap =>
    obtain ⟨g, st, e⟩ := updateLog_frame s obj gap
    rw [e]; exact h
  | restart hr => exact fun _ => ErrEq.restart w.allA hr
  | removeLocal i _ _ hr =>
    intro hc
    refine ErrEq.remove (h ?_) hr
    obtain ⟨_, _, rfl⟩ := removeNode_spec hr
    exact hc
  | erase is h1 h2 =>
    rintro (hc | hc)
    · rw [h1] at hc; cases hc
    · dsimp only at hc; rw [h2] at hc; cases hc
  | removeRest i p t' _ hr =>
    intro hc
    refine ErrEq.remove (h ?_) hr
    obtain ⟨_, _, rfl⟩ := removeNode_spec hr
    exact hc
  | add loc p0 d r hd hlt hev hadd =>
    intro hc
    obtain ⟨calls, ho⟩ := evaluateNext_spec hev w.allA
    obtain ⟨e, ha, _⟩ := addResult_spec hadd
    obtain ⟨q1, q2, q3, q4, -⟩ := ho.data_eqs
    rw [ha.rest.2.2.2.1, q4] at hc
    refine ErrEq.add ?_ ?_ ?_ ha
    · rw [q2]; exact w.allA
    · rw [q2, q3]; exact w.le
    · unfold ErrEq; rw [q1, q2, q3]; exact h hc
  | phase h1 h2 => exact fun _ => h (Or.inr h2)

/-- The counters equal the number of calls in the log. -/
def CountsOK (s : Alg O) : Prop :=
  s.evalcount = countAcc s.log ∧ s.noisyEvalcount = countNoisy s.log

theorem CountsOK.micro {P : Params} {env : Env O} {s t : Alg O} (w : WF env s) (h : CountsOK s)
    (hm : Micro P env s t) : CountsOK t := by
  obtain ⟨h1, h2⟩ := h
  cases hm with
  | ctrl e =>
    have e1 : t.evalcount = s.evalcount := congrArg Data.evalcount e
    have e2 : t.noisyEvalcount = s.noisyEvalcount := congrArg Data.noisyEvalcount e
    have e3 : t.log = s.log := congrArg Data.log e
    exact ⟨by rw [e1, e3, h1], by rw [e2, e3, h2]⟩
  | log obj gap =>
    obtain ⟨g, st, e⟩ := updateLog_frame s obj gap
    rw [e]
    exact ⟨h1, h2⟩
  | restart hr =>
    obtain ⟨tb, calls, m, M, i, ho⟩ := restart_spec hr
    exact ⟨by rw [ho.ev, ho.log, h1]; simp, by rw [ho.nev, ho.log, h2]; simp⟩
  | removeLocal i _ _ hr =>
    obtain ⟨_, _, rfl⟩ := removeNode_spec hr
    exact ⟨h1, h2⟩
  | erase is _ _ => exact ⟨h1, h2⟩
  | removeRest i p t' _ hr =>
    obtain ⟨_, _, rfl⟩ := removeNode_spec hr
    exact ⟨h1, h2⟩
  | add loc p0 d r hd hlt hev hadd =>
    obtain ⟨calls, ho⟩ := evaluateNext_spec hev w.allA
    obtain ⟨e, ha, _, _⟩ := addResult_spec hadd
    obtain ⟨r1, r2, r3, -⟩ := ha.rest
    obtain ⟨-, -, -, -, -, -, -, -, -, q1, q2, q3, -⟩ := ho.data_eqs
    exact ⟨by rw [r2, r1, q1, q2, h1]; simp, by rw [r3, r1, q1, q3, h2]; simp⟩
  | phase _ _ => exact ⟨h1, h2⟩

/-! ## Provenance -/

theorem Prov.mono {P : Params} {env : Env O} {l l' : List Call} {p : Pt} {v : ℚ} {b : Bool}
    (hsub : ∀ c ∈ l, c ∈ l') (h : Prov P env l p v b) : Prov P env l' p v b := by
  induction h with
  | acc h => exact .acc (hsub _ h)
  | noisy h => exact .noisy (hsub _ h)
  | user i h1 h2 => exact .user i h1 h2
  | near _ hd ih => exact .near ih hd

/-- All records have a genuine source. -/
def ProvOK (P : Params) (env : Env O) (s : Alg O) : Prop :=
  s.all.All (fun p v b _ => Prov P env s.log p v b)

theorem Table.All.has {R : Pt → ℚ → Bool → ℚ × ℚ → Prop} {t : Table} (h : t.All R) {p v b e}
    (hh : t.Has p v b e) : R p v b e := by
  obtain ⟨i, h1, h2, h3, h4⟩ := hh
  exact h i p v b e h1 h2 h3 h4

theorem ProvOK.micro {P : Params} {env : Env O} {s t : Alg O} (w : WF env s) (h : ProvOK P env s)
    (hm : Micro P env s t) : ProvOK P env t := by
  cases hm with
  | ctrl e =>
    have e1 : t.all = s.all := congrArg Data.all e
    have e3 : t.log = s.log := congrArg Data.log e
    unfold ProvOK; rw [e1, e3]; exact h
  | log obj gap =>
    obtain ⟨g, st, e⟩ := updateLog_frame s obj gap
    rw [e]; exact h
  | restart hr =>
    obtain ⟨tb, calls, m, M, i, ho⟩ := restart_spec hr
    unfold ProvOK
    rw [ho.all, ho.log]
    refine Table.All.append w.allA
      (h.mono (fun p v b e hp => hp.mono (fun c hc => List.mem_append_left _ hc)))
      (ho.recs.mono ?_)
    rintro p v b e (⟨h1, h2, _⟩ | ⟨h1, h2, h3⟩ | ⟨h1, _⟩ | ⟨k, h1, h2, h3, h4 | h4⟩)
    · exact .acc (List.mem_append_right _ h1)
    · rw [h3]; exact .noisy (List.mem_append_right _ h1)
    · exact (h.has h1).mono (fun c hc => List.mem_append_left _ hc)
    · exact .acc (List.mem_append_right _ h4)
    · rw [h2]; exact .user k h1 h4
  | removeLocal i _ _ hr =>
    obtain ⟨_, _, rfl⟩ := removeNode_spec hr
    exact Table.All.eraseIdx h _
  | erase is _ _ => exact h
  | removeRest i p t' _ hr =>
    obtain ⟨_, _, rfl⟩ := removeNode_spec hr
    exact Table.All.eraseIdx h _
  | add loc p0 d r hd hlt hev hadd =>
    obtain ⟨calls, ho⟩ := evaluateNext_spec hev w.allA
    obtain ⟨e, ha, _, _⟩ := addResult_spec hadd
    obtain ⟨r1, r2, r3, -⟩ := ha.rest
    obtain ⟨q0, q0', -, -, -, -, -, -, -, q1, q2, q3, -⟩ := ho.data_eqs
    unfold ProvOK
    rw [ha.all, r1, q1, q0']
    refine Table.All.append w.allA
      (h.mono (fun p v b e hp => hp.mono (fun c hc => List.mem_append_left _ hc))) ?_
    intro k p' v' b' e' h1 h2 h3 h4
    cases k with
    | succ k => simp at h1
    | zero =>
      simp only [List.getElem?_cons_zero, Option.some.injEq] at h1 h2 h3 h4
      subst h1 h2 h3 h4
      rcases ho.src with ⟨_, hc⟩ | ⟨hn, el, eu, hc, _⟩ | ⟨rfl, i, q, e', _, g1, g2, g3, g4, g5, _⟩
      · exact .acc (List.mem_append_right _ hc)
      · rw [hn]; exact .noisy (List.mem_append_right _ hc)
      · exact .near ((h i q _ _ e' g1 g2 g3 g4).mono (fun c hc => List.mem_append_left _ hc)) g5
  | phase _ _ => exact h

/-! ## Single-phase runs -/

/-- Without `evaluate_noisy`, the mode is accurate, no noisy call is ever made, no record is
noisy. -/
def SingleOK (s : Alg O) : Prop :=
  s.mode = .accurate ∧ countNoisy s.log = 0 ∧ s.all.All (fun _ _ b e => b = false ∧ e = (0, 0))

theorem SingleOK.micro {P : Params} {env : Env O} {s t : Alg O} (hP : P.twoPhase = false)
    (w : WF env s) (h : SingleOK s) (hm : Micro P env s t) : SingleOK t := by
  obtain ⟨h1, h2, h3⟩ := h
  cases hm with
  | ctrl e =>
    have e1 : t.all = s.all := congrArg Data.all e
    have e2 : t.mode = s.mode := congrArg Data.mode e
    have e3 : t.log = s.log := congrArg Data.log e
    unfold SingleOK; rw [e1, e2, e3]; exact ⟨h1, h2, h3⟩
  | log obj gap =>
    obtain ⟨g, st, e⟩ := updateLog_frame s obj gap
    rw [e]; exact ⟨h1, h2, h3⟩
  | restart hr =>
    obtain ⟨tb, calls, m, M, i, ho⟩ := restart_spec hr
    refine ⟨by rw [ho.mode, h1], by rw [ho.log]; simp [h2, ho.accMode h1], ?_⟩
    rw [ho.all]
    refine Table.All.append w.allA h3 (ho.recs.mono ?_)
    rintro p v b e (⟨_, g2, g3⟩ | ⟨_, g2, g3⟩ | ⟨g1, _⟩ | ⟨k, _, g2, g3, _⟩)
    · exact ⟨by rw [g2, h1]; rfl, g3⟩
    · rw [h1] at g2; cases g2
    · exact h3.has g1
    · exact ⟨g2, g3⟩
  | removeLocal i _ _ hr =>
    obtain ⟨_, _, rfl⟩ := removeNode_spec hr
    exact ⟨h1, h2, Table.All.eraseIdx h3 _⟩
  | erase is _ _ => exact ⟨h1, h2, h3⟩
  | removeRest i p t' _ hr =>
    obtain ⟨_, _, rfl⟩ := removeNode_spec hr
    exact ⟨h1, h2, Table.All.eraseIdx h3 _⟩
  | add loc p0 d r hd hlt hev hadd =>
    obtain ⟨calls, ho⟩ := evaluateNext_spec hev w.allA
    obtain ⟨e, ha, he, _⟩ := addResult_spec hadd
    obtain ⟨r1, r2, r3, r4, -⟩ := ha.rest
    obtain ⟨q0, q0', -, q4, -, -, -, -, -, q1, q2, q3, -⟩ := ho.data_eqs
    obtain ⟨hc, hn⟩ := ho.acc h1
    refine ⟨by rw [r4, q4, h1], by rw [r1, q1]; simp [h2, hc], ?_⟩
    rw [ha.all, q0']
    refine Table.All.append w.allA h3 ?_
    intro k p' v' b' e' g1 g2 g3 g4
    cases k with
    | succ k => simp at g1
    | zero =>
      simp only [List.getElem?_cons_zero, Option.some.injEq] at g1 g2 g3 g4
      exact ⟨by rw [← g3, hn], by rw [← g4, he hn]⟩
  | phase h _ => simp [hP] at h

theorem Reach.single {P : Params} {env : Env O} {o : O} {c : Ctl} {s : Alg O}
    (h : Reach P env o c s) (hP : P.twoPhase = false) : SingleOK s :=
  h.inv' (by simp [SingleOK, Alg.init, hP, Table.All]) (fun _ _ w hs hm => hs.micro hP w hm)

/-! ## Restoration never succeeds -/

theorem restorationLoop_none {P : Params} {env : Env O} (hd : ∀ p, env.dist p p ≤ P.minDist)
    (s : Alg O) (fuel k : ℕ) : restorationLoop P env s fuel k = none := by
  induction fuel generalizing k with
  | zero => rfl
  | succ fuel ih =>
    simp only [restorationLoop]
    split
    · split
      · rfl
      · rename_i d hdist
        have hle : d ≤ env.dist (env.restCand s k) (env.restCand s k) :=
          (getMinDistance_some hdist).2 _ (by simp)
        have := hd (env.restCand s k)
        rw [if_neg (by rintro ⟨h, _⟩; linarith)]
        exact ih _
    · rfl

/-! ## Best value tracking (single-phase) -/

/-- Tracked minimum, maximum and best value are correct (before the first restart nothing is
tracked). -/
def BestOK (s : Alg O) : Prop :=
  (s.all = {} ∧ s.cur = {} ∧ s.fbest = ⊤ ∧ s.nAtRestart = 0) ∨
  ∃ f b M : ℚ, s.fmin = (f : EVal) ∧ s.fbest = (b : EVal) ∧ s.fmax = (M : EVal) ∧
    IsLeastAt s.cur.val s.fminIdx f ∧ IsLeastAt s.all.val s.fbestIdx b ∧ IsGreatestOf s.cur.val M

theorem IsLeastAt.append_right {l : List ℚ} {i : ℕ} {v : ℚ} (h : IsLeastAt l i v) {m : List ℚ}
    (hm : ∀ w ∈ m, v ≤ w) : IsLeastAt (l ++ m) i v := by
  refine ⟨?_, ?_⟩
  · rw [List.getElem?_append_left (List.getElem?_eq_some_iff.mp h.1).1]; exact h.1
  · intro w hw
    rcases List.mem_append.mp hw with hw | hw
    · exact h.2 w hw
    · exact hm w hw

theorem IsLeastAt.append_left {l m : List ℚ} {i : ℕ} {v : ℚ} (h : IsLeastAt m i v)
    (hl : ∀ w ∈ l, v ≤ w) : IsLeastAt (l ++ m) (i + l.length) v := by
  refine ⟨?_, ?_⟩
  · rw [List.getElem?_append_right (by omega)]
    simpa using h.1
  · intro w hw
    rcases List.mem_append.mp hw with hw | hw
    · exact hl w hw
    · exact h.2 w hw

theorem BestOK.add {s s' : Alg O} {p orig : Pt} {v : ℚ} {b : Bool} {e : ℚ × ℚ}
    (ha : AddOut s s' p orig v b e) (hc : s.cur.Aligned) (hall : s.all.Aligned)
    (hne : s.cur.pos ≠ []) (h : BestOK s) : BestOK s' := by
  rcases h with ⟨h1, h2, h3, h4⟩ | ⟨f, bb, M, h1, h2, h3, h4, h5, h6⟩
  · rw [h2] at hne; simp at hne
  · right
    obtain ⟨c1, c2, c3⟩ := hc
    obtain ⟨a1, a2, a3⟩ := hall
    refine ⟨min f v, min bb v, max M v, ?_, ?_, ?_, ?_, ?_, ?_⟩
    · rw [ha.fmin, h1]; rfl
    · rw [ha.fbest, h2]; rfl
    · rw [ha.fmax, h3]; rfl
    · rw [ha.cur, ha.fminIdx, h1]
      simp only [Table.append, WithTop.coe_lt_coe]
      split
      · rename_i hlt
        rw [min_eq_right hlt.le]
        have : IsLeastAt [v] 0 v := ⟨rfl, by simp⟩
        have := this.append_left (l := s.cur.val) (fun w hw => hlt.le.trans (h4.2 w hw))
        rwa [Nat.zero_add, c1] at this
      · rename_i hlt
        rw [min_eq_left (not_lt.mp hlt)]
        exact h4.append_right (by simpa using not_lt.mp hlt)
    · rw [ha.all, ha.fbestIdx, h2]
      simp only [Table.append, WithTop.coe_lt_coe]
      split
      · rename_i hlt
        rw [min_eq_right hlt.le]
        have : IsLeastAt [v] 0 v := ⟨rfl, by simp⟩
        have := this.append_left (l := s.all.val) (fun w hw => hlt.le.trans (h5.2 w hw))
        rwa [Nat.zero_add, a1] at this
      · rename_i hlt
        rw [min_eq_left (not_lt.mp hlt)]
        exact h5.append_right (by simpa using not_lt.mp hlt)
    · rw [ha.cur]
      simp only [Table.append]
      constructor
      · rcases le_total M v with hle | hle
        · rw [max_eq_right hle]; simp
        · rw [max_eq_left hle]; simp [h6.1]
      · intro w hw
        rcases List.mem_append.mp hw with hw | hw
        · exact le_max_of_le_left (h6.2 w hw)
        · simp at hw; subst hw; exact le_max_right _ _

theorem BestOK.restart {P : Params} {env : Env O} {s s' : Alg O} (h : BestOK s)
    (hall : s.all.Aligned) (hr : restart P env s = .ok s') : BestOK s' := by
  obtain ⟨tb, calls, m, M, i, ho⟩ := restart_spec hr
  right
  have hcv : s'.cur.val = tb.val := by rw [ho.cur]
  rcases h with ⟨h1, h2, h3, h4⟩ | ⟨f, b, M', h1, h2, h3, h4, h5, h6⟩
  · refine ⟨m, m, M, ho.fmin, by rw [ho.fbest, h3]; simp, ho.fmax, ?_, ?_, ?_⟩
    · rw [hcv, ho.fminIdx]; exact ho.least
    · rw [ho.all, ho.fbestIdx, h1, h3]
      simp only [Table.append, WithTop.coe_lt_top, if_true, List.nil_append, List.length_nil,
        Nat.add_zero]
      exact ho.least
    · rw [hcv]; exact ho.greatest
  · refine ⟨m, min b m, M, ho.fmin, by rw [ho.fbest, h2]; rfl, ho.fmax, ?_, ?_, ?_⟩
    · rw [hcv, ho.fminIdx]; exact ho.least
    · rw [ho.all, ho.fbestIdx, h2]
      simp only [Table.append, WithTop.coe_lt_coe]
      split
      · rename_i hlt
        rw [min_eq_right hlt.le, ← hall.1]
        exact ho.least.append_left (fun w hw => hlt.le.trans (h5.2 w hw))
      · rename_i hlt
        rw [min_eq_left (not_lt.mp hlt)]
        exact h5.append_right (fun w hw => (not_lt.mp hlt).trans (ho.least.2 w hw))
    · rw [hcv]; exact ho.greatest

theorem BestOK.micro {P : Params} {env : Env O} {s t : Alg O} (hP : P.twoPhase = false)
    (hd : ∀ p, env.dist p p ≤ P.minDist) (w : WF env s) (h : BestOK s) (hm : Micro P env s t) :
    BestOK t := by
  cases hm with
  | ctrl e =>
    have e1 : t.all = s.all := congrArg Data.all e
    have e2 : t.cur = s.cur := congrArg Data.cur e
    have e3 : t.fmin = s.fmin := congrArg Data.fmin e
    have e4 : t.fminIdx = s.fminIdx := congrArg Data.fminIdx e
    have e5 : t.fbest = s.fbest := congrArg Data.fbest e
    have e6 : t.fbestIdx = s.fbestIdx := congrArg Data.fbestIdx e
    have e7 : t.fmax = s.fmax := congrArg Data.fmax e
    have e8 : t.nAtRestart = s.nAtRestart := congrArg Data.nAtRestart e
    unfold BestOK; rw [e1, e2, e3, e4, e5, e6, e7, e8]; exact h
  | log obj gap =>
    obtain ⟨g, st, e⟩ := updateLog_frame s obj gap
    rw [e]; exact h
  | restart hr => exact h.restart w.allA hr
  | removeLocal i h1 _ hr => simp [hP] at h1
  | erase is h1 _ => simp [hP] at h1
  | removeRest i p t' hl hr => rw [restorationLoop_none hd] at hl; cases hl
  | add loc p0 d r hd' hlt hev hadd =>
    obtain ⟨calls, ho⟩ := evaluateNext_spec hev w.allA
    obtain ⟨e, ha, he, _⟩ := addResult_spec hadd
    have hne : s.cur.pos ≠ [] := by
      intro h0
      rw [h0] at hd'
      simp [getMinDistance, argminVal] at hd'
    obtain ⟨q1, q2, q3, q4, q5, q6, q7, q8, q9, -⟩ := ho.data_eqs
    refine BestOK.add ha (by rw [q1]; exact w.curA) (by rw [q2]; exact w.allA) (by rw [q1]; exact hne) ?_
    unfold BestOK
    rw [q1, q2, q3, q5, q6, q7, q8, q9]
    exact h
  | phase h1 _ => simp [hP] at h1

theorem Reach.best {P : Params} {env : Env O} {o : O} {c : Ctl} {s : Alg O}
    (h : Reach P env o c s) (hP : P.twoPhase = false) (hd : ∀ p, env.dist p p ≤ P.minDist) :
    BestOK s :=
  h.inv' (Or.inl (by simp [Alg.init])) (fun _ _ w hs hm => hs.micro hP hd w hm)

/-! ## Spacing -/

/-- Nodes added after the last restart are farther than `min_dist` from every earlier node. -/
def SpacedOK (P : Params) (env : Env O) (s : Alg O) : Prop :=
  s.nInit ≤ s.cur.pos.length ∧
  ∀ (i j : ℕ) (p q : Pt), i < j → s.nInit ≤ j → s.cur.pos[i]? = some q → s.cur.pos[j]? = some p →
    P.minDist < env.dist p q

theorem SpacedOK.remove {P : Params} {env : Env O} {s s' : Alg O} {i k : ℕ} (h : SpacedOK P env s)
    (hr : removeNode s i k = .ok s') : SpacedOK P env s' := by
  obtain ⟨h1, _, rfl⟩ := removeNode_spec hr
  obtain ⟨hl, hs⟩ := h
  refine ⟨?_, ?_⟩
  · simp only [Table.eraseIdx, List.length_eraseIdx, if_pos h1]
    split <;> omega
  · intro a b p q hab hb hq hp
    simp only [Table.eraseIdx, List.getElem?_eraseIdx] at hq hp hb
    by_cases h3 : i < s.nInit <;> simp only [h3, if_true, if_false] at hb
    all_goals
      split at hq <;> split at hp
      · exact hs a b p q hab (by omega) hq hp
      · exact hs a (b + 1) p q (by omega) (by omega) hq hp
      · omega
      · exact hs (a + 1) (b + 1) p q (by omega) (by omega) hq hp

theorem SpacedOK.micro {P : Params} {env : Env O} {s t : Alg O} (w : WF env s)
    (h : SpacedOK P env s) (hm : Micro P env s t) : SpacedOK P env t := by
  cases hm with
  | ctrl e =>
    have e2 : t.cur = s.cur := congrArg Data.cur e
    have e3 : t.nInit = s.nInit := congrArg Data.nInit e
    unfold SpacedOK; rw [e2, e3]; exact h
  | log obj gap =>
    obtain ⟨g, st, e⟩ := updateLog_frame s obj gap
    rw [e]; exact h
  | restart hr =>
    obtain ⟨tb, calls, m, M, i, ho⟩ := restart_spec hr
    unfold SpacedOK
    rw [ho.cur, ho.nInit]
    refine ⟨by simp, ?_⟩
    intro a b p q hab hb hq hp
    have := (List.getElem?_eq_some_iff.mp hp).1
    simp at this; omega
  | removeLocal i _ _ hr => exact h.remove hr
  | erase is _ _ => exact h
  | removeRest i p t' _ hr => exact h.remove hr
  | add loc p0 d r hd hlt hev hadd =>
    obtain ⟨calls, ho⟩ := evaluateNext_spec hev w.allA
    obtain ⟨e, ha, he, _⟩ := addResult_spec hadd
    obtain ⟨q1, -, -, -, -, -, -, -, -, -, -, -, -, -, q2⟩ := ho.data_eqs
    obtain ⟨hl, hs⟩ := h
    unfold SpacedOK
    rw [ha.cur, ha.rest.2.2.2.2.2.2.2, q1, q2]
    simp only [Table.append, List.length_append, List.length_singleton]
    refine ⟨by omega, ?_⟩
    intro a b p q hab hb hq hp
    by_cases hbl : b < s.cur.pos.length
    · rw [List.getElem?_append_left hbl] at hp
      rw [List.getElem?_append_left (by omega)] at hq
      exact hs a b p q hab hb hq hp
    · have hb' := (List.getElem?_eq_some_iff.mp hp).1
      simp only [List.length_append, List.length_singleton] at hb'
      rw [List.getElem?_append_left (by omega)] at hq
      rw [List.getElem?_append_right (by omega), show b - s.cur.pos.length = 0 by omega] at hp
      simp only [List.getElem?_cons_zero, Option.some.injEq] at hp
      subst hp
      exact getMinDistance_gt hd hlt q (List.mem_of_getElem? hq)
  | phase _ _ => exact h

/-! ## Log stars -/

/-- Starred gaps strictly decrease, the last one is the stored best gap, each starred line showed
the best value of its time. -/
def StarsOK (s : Alg O) : Prop :=
  (s.stars.map (fun x => x.1)).Pairwise (· > ·) ∧
  (∀ x ∈ s.stars, s.bestGapShown ≤ x.1) ∧ (∀ x ∈ s.stars, (x.2.1 : EVal) = x.2.2)

theorem StarsOK.updateLog {s : Alg O} (h : StarsOK s) (obj : ℚ) (gap : EVal) :
    StarsOK (updateLog s obj gap) := by
  unfold Rbfopt.updateLog
  split
  · rename_i hc
    obtain ⟨h1, h2, h3⟩ := h
    refine ⟨?_, ?_, ?_⟩
    · simp only [List.map_append, List.map_cons, List.map_nil, List.pairwise_append, h1, true_and,
        List.pairwise_singleton, List.mem_map, List.mem_singleton, forall_eq]
      rintro _ ⟨x, hx, rfl⟩
      exact lt_of_lt_of_le hc.1 (h2 x hx)
    · intro x hx
      rcases List.mem_append.mp hx with hx | hx
      · exact hc.1.le.trans (h2 x hx)
      · simp at hx; subst hx; exact le_refl _
    · intro x hx
      rcases List.mem_append.mp hx with hx | hx
      · exact h3 x hx
      · simp at hx; subst hx; exact hc.2
  · exact h

theorem StarsOK.logInit {s : Alg O} (h : StarsOK s) (gap : EVal) (vs : List ℚ) :
    StarsOK (logInit s gap vs) := by
  induction vs generalizing s with
  | nil => exact h
  | cons v vs ih => exact ih (h.updateLog v gap)

theorem StarsOK.congr {s t : Alg O} (h : StarsOK s) (h1 : t.stars = s.stars)
    (h2 : t.bestGapShown = s.bestGapShown) : StarsOK t := by
  unfold StarsOK; rw [h1, h2]; exact h

theorem StarsOK.restart {P : Params} {env : Env O} {s s' : Alg O} (h : StarsOK s)
    (hr : restart P env s = .ok s') : StarsOK s' := by
  unfold Rbfopt.restart at hr
  dsimp only at hr
  split at hr
  · cases hr
  · rename_i t1 s1 h1
    obtain ⟨al1, calls1, o, rfl, -, -⟩ := restartSample_spec h1
    split at hr
    · cases hr
    · rename_i t2 s2 h2
      obtain ⟨al2, calls2, u, rfl, alu, rfl, -, -⟩ := restartUser_spec h2 al1
      unfold restartInstall at hr
      dsimp only at hr
      split at hr
      · cases hr
      · split at hr
        · split at hr
          · cases hr
          · split at hr
            · cases hr
            · split at hr
              · cases hr
              · cases hr
                apply StarsOK.logInit
                refine h.congr ?_ ?_ <;> (dsimp only; split <;> rfl)
        · cases hr

theorem StarsOK.evaluateNext {P : Params} {env : Env O} {s : Alg O} {loc : Loc} {orig : Pt}
    {r : EvalRes O} (h : StarsOK s) (hev : evaluateNext P env s loc orig = .ok r) :
    StarsOK r.s := by
  unfold Rbfopt.evaluateNext at hev
  split at hev
  · split at hev
    · cases hev; exact h
    · cases hev; exact h.congr rfl rfl
  · have hn : StarsOK (noisyFirst P env s loc orig).s := by
      unfold noisyFirst
      split
      · exact h
      · exact h.congr rfl rfl
    dsimp only at hev
    split at hev
    · split at hev
      · cases hev
      · split at hev
        · cases hev
          exact (hn.updateLog _ _).congr rfl rfl
        · cases hev; exact hn
    · cases hev; exact hn

theorem StarsOK.micro {P : Params} {env : Env O} {s t : Alg O}
    (h : StarsOK s) (hm : Micro P env s t) : StarsOK t := by
  cases hm with
  | ctrl e => exact h.congr (congrArg Data.stars e) (congrArg Data.bestGapShown e)
  | log obj gap => exact h.updateLog obj gap
  | restart hr => exact h.restart hr
  | removeLocal i _ _ hr =>
    obtain ⟨_, _, rfl⟩ := removeNode_spec hr
    exact h
  | erase is _ _ => exact h
  | removeRest i p t' _ hr =>
    obtain ⟨_, _, rfl⟩ := removeNode_spec hr
    exact h
  | add loc p0 d r hd hlt hev hadd =>
    obtain ⟨e, ha, he, _⟩ := addResult_spec hadd
    obtain ⟨-, -, -, -, -, r1, r2, -⟩ := ha.rest
    exact (h.evaluateNext hev).congr r2 r1
  | phase _ _ => exact h

end Rbfopt
