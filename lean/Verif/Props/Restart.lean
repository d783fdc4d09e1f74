import Verif.Lemmas.RestartMore
import Verif.Lemmas.Flags
import Verif.Lemmas.TwoPhase
import Verif.Examples.Demo

/-!
# Reuse of records, restarts, stalling, two-phase evaluation, user points
-/

namespace Rbfopt

variable {O : Type} {P : Params} {env : Env O} {o : O} {c : Ctl} {s : Alg O}

/-! ## C18 -/

theorem reuseIndex_nearest {orig : Pt} {i : ℕ} (h : reuseIndex P env s orig = some i) :
    ∃ q, NearestWithin env P.epsZero s orig i q := by
  obtain ⟨q, h1, h2, h3, h4⟩ := reuseIndex_spec h
  refine ⟨q, ⟨h2, h1⟩, h3, ?_⟩
  rintro j' q' ⟨a1, a2⟩
  exact h4 q' (List.mem_of_getElem? (i := j') (by rw [List.getElem?_take]; simp [a1, a2]))

theorem reuseIndex_none {orig : Pt} (h : reuseIndex P env s orig = none) (j : ℕ) (q : Pt)
    (hq : OldRecord s j q) : P.epsZero ≤ env.dist orig q := by
  have hmem : q ∈ s.all.pos.take s.nAtRestart :=
    List.mem_of_getElem? (i := j) (by rw [List.getElem?_take]; simp [hq.1, hq.2])
  unfold reuseIndex at h
  rw [if_pos (by have := hq.1; omega)] at h
  split at h
  · rename_i d i hdi
    split at h
    · cases h
    · rename_i hnlt
      obtain ⟨_, _, _, hall⟩ := getMinDistanceAndIndex_some hdi
      exact (not_lt.mp hnlt).trans (hall q hmem)
  · rename_i hdi
    rw [getMinDistanceAndIndex, argminVal_none, List.map_eq_nil_iff] at hdi
    rw [hdi] at hmem; cases hmem

/-- **C18** In accurate mode, the value of a new point is obtained in exactly one of two ways: it is
the value of a nearest old record, accurate and closer than `eps_zero`, and the black box is not
called at all; or `evaluate()` is called exactly once at the new point and its value used, and then
no old record is closer than `eps_zero`, or a nearest one is noisy. -/
theorem C18_reused_or_evaluated (hr : Reach P env o c s) {loc : Loc} {orig : Pt}
    (hm : s.mode = .accurate) :
    ∃ r, evaluateNext P env s loc orig = .ok r ∧ r.isNoisy = false ∧
      ((r.s = s ∧ ∃ j q, NearestWithin env P.epsZero s orig j q ∧
          s.all.noisy[j]? = some false ∧ s.all.val[j]? = some r.val) ∨
       (r.s.log = s.log ++ [Call.acc (env.decode orig) r.val] ∧
          r.s.evalcount = s.evalcount + 1 ∧
          ((∀ j q, OldRecord s j q → P.epsZero ≤ env.dist orig q) ∨
           ∃ j q, NearestWithin env P.epsZero s orig j q ∧ s.all.noisy[j]? = some true))) := by
  have ha := hr.wf.allA
  unfold evaluateNext
  rw [if_pos hm]
  cases hi : reuseIndex P env s orig with
  | none =>
    have : reuseAcc P env s orig = none := by unfold reuseAcc; rw [hi]
    rw [this]
    refine ⟨_, rfl, rfl, Or.inr ⟨rfl, rfl, Or.inl (reuseIndex_none hi)⟩⟩
  | some i =>
    obtain ⟨q, hq⟩ := reuseIndex_nearest hi
    obtain ⟨v, b, e, hv, hb, he⟩ := ha.has hq.1.2
    cases b with
    | false =>
      have : reuseAcc P env s orig = some v := by
        unfold reuseAcc; rw [hi]; simp only; rw [hb, hv]
      rw [this]
      exact ⟨_, rfl, rfl, Or.inl ⟨rfl, i, q, hq, hb, hv⟩⟩
    | true =>
      have : reuseAcc P env s orig = none := by
        unfold reuseAcc; rw [hi]; simp only; rw [hb]
      rw [this]
      exact ⟨_, rfl, rfl, Or.inr ⟨rfl, rfl, Or.inr ⟨i, q, hq, hb⟩⟩⟩

/-- **C18** Consequence: a point within `eps_zero` of an old record is never evaluated again when all
old records are accurate. -/
theorem C18_not_evaluated_again (hr : Reach P env o c s) {loc : Loc} {orig : Pt}
    (hm : s.mode = .accurate) (hacc : ∀ b ∈ s.all.noisy, b = false) {j : ℕ} {q : Pt}
    (hq : OldRecord s j q) (hd : env.dist orig q < P.epsZero) :
    ∃ r, evaluateNext P env s loc orig = .ok r ∧ r.s.log = s.log ∧ r.val ∈ s.all.val := by
  obtain ⟨r, h1, -, ⟨h2, j', q', -, -, h3⟩ | ⟨-, -, h3 | ⟨j', q', -, h3⟩⟩⟩ :=
    C18_reused_or_evaluated hr (loc := loc) (orig := orig) hm
  · exact ⟨r, h1, by rw [h2], List.mem_of_getElem? h3⟩
  · exact absurd hd (not_lt.mpr (h3 j q hq))
  · have := hacc _ (List.mem_of_getElem? h3); cases this

/-! ## C23 -/

/-- **C23** A pass that counts an iteration and is not preceded by a restart resets the stalling
counter if the best current value improved on the reference value by `eps_impr` (which then becomes
the reference), and otherwise adds one; after a restart the counter starts from 0 again. -/
theorem C23_stalling_counter {s' : Alg O} {start pause : ℕ} {loc loc' : Loc}
    (hr : Reach P env o (.running start pause loc) s)
    (h : pass P env s loc = .ok (s', loc')) (hit : s'.itercount = s.itercount + 1) :
    (¬ RestartDue P s →
      ((Improves P s'.fmin s.fminStall ∧ s'.numStalled = 0 ∧ s'.fminStall = s'.fmin) ∨
       (¬ Improves P s'.fmin s.fminStall ∧ s'.numStalled = s.numStalled + 1 ∧
        s'.fminStall = s.fminStall))) ∧
    (RestartDue P s → s'.numStalled ≤ 1) :=
  pass_stall hr.wf h hit

/-- **C23** Over any number of iterations without improvement and without restart, the counter
counts these iterations. -/
theorem C23_counts_iterations (f : ℕ → Alg O × Loc) (k : ℕ) {start pause : ℕ}
    (h0 : Reach P env o (.running start pause (f 0).2) (f 0).1)
    (hc : ∀ i < k, loopCond P env start pause (f i).1 (f i).2 = true)
    (hp : ∀ i < k, pass P env (f i).1 (f i).2 = .ok (f (i + 1)))
    (hit : ∀ i < k, (f (i + 1)).1.itercount = (f i).1.itercount + 1)
    (hnd : ∀ i < k, ¬ RestartDue P (f i).1)
    (hni : ∀ i < k, ¬ Improves P (f (i + 1)).1.fmin (f 0).1.fminStall) :
    (f k).1.numStalled = (f 0).1.numStalled + k ∧ (f k).1.fminStall = (f 0).1.fminStall := by
  have key : ∀ j ≤ k, Reach P env o (.running start pause (f j).2) (f j).1 ∧
      (f j).1.numStalled = (f 0).1.numStalled + j ∧ (f j).1.fminStall = (f 0).1.fminStall := by
    intro j
    induction j with
    | zero => intro _; exact ⟨h0, rfl, rfl⟩
    | succ j ih =>
      intro hj
      obtain ⟨r, e1, e2⟩ := ih (by omega)
      have hpj : pass P env (f j).1 (f j).2 = .ok ((f (j + 1)).1, (f (j + 1)).2) := hp j (by omega)
      refine ⟨r.pass (hc j (by omega)) hpj, ?_⟩
      rcases (C23_stalling_counter r hpj (hit j (by omega))).1 (hnd j (by omega)) with
        ⟨h1, -⟩ | ⟨-, h2, h3⟩
      · rw [e2] at h1
        exact absurd h1 (hni j (by omega))
      · exact ⟨by omega, by rw [h3, e2]⟩
  exact (key k (le_refl _)).2

/-- **C23** A pass restarts only when a restart is due, or when the RBF model could not be built and
there are too few nodes or the system was already under-determined. -/
theorem C23_restart_reasons {s' : Alg O} {start pause : ℕ} {loc loc' : Loc}
    (hr : Reach P env o (.running start pause loc) s)
    (h : pass P env s loc = .ok (s', loc')) (hch : s'.nAtRestart ≠ s.nAtRestart) :
    RestartDue P s ∨
    (s.step ≤ P.numGlobal + 1 ∧ (∃ a : Alg O, (env.modelFails a).1 = true ∧ a.cur = s.cur) ∧
     (s.cur.pos.length < P.n + 1 ∨ s.solveUnder = true) ∧ s'.itercount = s.itercount) := by
  by_cases hd : RestartDue P s
  · exact Or.inl hd
  · exact Or.inr (pass_restart_reason hr.wf hr.step h hd hch)

/-! ## C24 -/

/-- **C24** (the part that holds: points proposed by the iterations) In noisy mode, a point recorded
with a noisy value `v` and error interval `(el, eu)` is not promising: `v + el` neither improves on
the best current value by `eps_impr`, nor reaches `target + eps_opt * |target|`.  Promising points are
thus recorded with the value of an accurate evaluation.  Missing: points of initial samples, see
`Demo.C24_violated_noisy_sample`. -/
theorem C24_noisy_record_not_promising {s' : Alg O} {loc loc' : Loc} {next : Option Pt}
    {ref : Option RefProposal} (ha : s.all.Aligned)
    (h : processPoint P env s loc next ref = .ok (s', loc')) :
    s'.all = s.all ∨
    ∃ p v b e, s'.all = s.all.append { pos := [p], val := [v], noisy := [b], err := [e] } ∧
      (b = true → P.target + P.epsOpt * |P.target| < v + e.1 ∧
        ¬ Improves P ((v + e.1 : ℚ) : EVal) s.fmin) := by
  rcases processPoint_cases h with ⟨rfl, rfl⟩ |
    ⟨p0, d, r, s1, gap, s2, rfl, hd, hlt, hev, hadd, hgap, haft, rfl, rfl⟩
  · left; exact congrArg Data.all (discardPoint_data P s)
  · right
    obtain ⟨calls, ho⟩ := evaluateNext_spec hev ha
    obtain ⟨e, hadd', _, he⟩ := addResult_spec hadd
    obtain ⟨-, q1, -⟩ := ho.data_eqs
    refine ⟨env.toOrig (clipPt p0 P.lLower P.lUpper), r.val, r.isNoisy, e, ?_, ?_⟩
    · have e1 : s2.all = (updateLog s1 r.val gap).all := congrArg Data.all (afterAdd_data haft)
      obtain ⟨g, st, e'⟩ := updateLog_frame s1 r.val gap
      rw [e'] at e1
      dsimp only at e1 ⊢
      rw [e1, hadd'.all, q1]
    · intro hb
      have her := he hb
      unfold evaluateNext at hev
      split at hev
      · split at hev
        · cases hev; cases hb
        · cases hev; cases hb
      · dsimp only at hev
        have hfm : ∀ orig, (noisyFirst P env s loc orig).s.fmin = s.fmin := by
          intro orig
          unfold noisyFirst
          split
          · rfl
          · simp [objfunNoisy]
        split at hev
        · split at hev
          · cases hev
          · rename_i e0 he0
            split at hev
            · cases hev; cases hb
            · rename_i hreq
              cases hev
              rw [he0] at her
              cases her
              simp only [requireAccurate, Bool.or_eq_true, decide_eq_true_eq, not_or] at hreq
              refine ⟨not_le.mp hreq.2, ?_⟩
              rintro ⟨f, hf, hle⟩
              apply hreq.1
              rw [hfm, hf]
              simp only [decide_eq_true_eq]
              exact WithTop.coe_le_coe.mp hle
        · rename_i hnb
          cases hev
          exact absurd hb hnb

/-- **C24** At every moment, no noisy value found in an iteration since the last restart (the first
`nInit` current nodes are those of the restart sample) reaches `target + eps_opt * |target|`, even when
corrected by the lower error bound in its record (the record of the `j`-th current node is the one at
position `nAtRestart + j`; the interval kept with the node itself may have been erased, see C55). -/
theorem C24_no_noisy_node_reaches_target (h : Reach P env o c s) (j : ℕ) (v : ℚ) (e : ℚ × ℚ)
    (hj : s.nInit ≤ j) (hn : s.cur.noisy[j]? = some true) (hv : s.cur.val[j]? = some v)
    (he : s.all.err[s.nAtRestart + j]? = some e) : P.target + P.epsOpt * |P.target| < v + e.1 :=
  h.noisyRecs.2 j v e hj hn hv (by rw [List.getElem?_drop]; exact he)

/-- **C24** If `|target_objval| ≥ eps_zero` and the error interval is ordered, a noisy record made in
an iteration that becomes the best one does not make the gap small enough to stop.  (False if
`|target_objval| < eps_zero`, see `Demo.C24_violated_zero_target`.) -/
theorem C24_no_stop_on_noisy_iterate {s' : Alg O} {loc loc' : Loc} {next : Option Pt}
    {ref : Option RefProposal} (ha : s.all.Aligned) (hz : 0 < P.epsZero)
    (ht : P.epsZero ≤ |P.target|)
    (h : processPoint P env s loc next ref = .ok (s', loc'))
    (hnew : s'.all.pos.length = s.all.pos.length + 1)
    (hbest : s'.fbestIdx = s.all.pos.length) (hold : s.fbestIdx < s.all.pos.length)
    (hno : s'.all.noisy[s.all.pos.length]? = some true)
    (hord : ∀ e, s'.all.err[s.all.pos.length]? = some e → e.1 ≤ e.2) :
    ((P.epsOpt : ℚ) : EVal) < loc'.gap := by
  have key := C24_noisy_record_not_promising ha h
  rcases processPoint_cases h with ⟨rfl, rfl⟩ |
    ⟨p0, d, r, s1, gap, s2, rfl, hd, hlt, hev, hadd, hgap, haft, rfl, rfl⟩
  · have : (discardPoint P s).all = s.all := congrArg Data.all (discardPoint_data P s)
    rw [this] at hnew; omega
  · obtain ⟨a1, a2, a3⟩ := ha
    obtain ⟨calls, ho⟩ := evaluateNext_spec hev ⟨a1, a2, a3⟩
    obtain ⟨e, hadd', _, he⟩ := addResult_spec hadd
    obtain ⟨-, q1, -, -, -, -, -, q8, q9, -⟩ := ho.data_eqs
    have e1 := afterAdd_data haft
    obtain ⟨g, st, e'⟩ := updateLog_frame s1 r.val gap
    have eall : s2.all = s1.all := by
      have := congrArg Data.all e1; rw [e'] at this; exact this
    have eidx : s2.fbestIdx = s1.fbestIdx := by
      have := congrArg Data.fbestIdx e1; rw [e'] at this; exact this
    dsimp only at hbest hno hord hnew key ⊢
    rcases key with key | ⟨p, v, b, e2, k1, k2⟩
    · rw [key] at hnew; omega
    · rw [eall] at k1 hno hord
      rw [eidx, hadd'.fbestIdx, q1, q8, q9] at hbest
      have hlt : (r.val : EVal) < s.fbest := by
        by_contra hn; rw [if_neg hn] at hbest; omega
      rw [hadd'.all, q1] at k1
      simp only [Table.append, Table.mk.injEq, List.append_cancel_left_eq, List.cons.injEq,
        and_true] at k1
      obtain ⟨-, rfl, rfl, rfl⟩ := k1
      rw [hadd'.all, q1] at hno hord
      simp only [Table.append] at hno hord
      rw [List.getElem?_append_right (by omega), a2] at hno
      rw [List.getElem?_append_right (by omega), a3] at hord
      simp only [Nat.sub_self, List.getElem?_cons_zero, Option.some.injEq] at hno hord
      have k2 := (k2 hno).1
      have hord := hord e rfl
      -- the gap
      unfold currentGap at hgap
      rw [hadd'.fbestIdx, q1, q8, if_pos hlt, hadd'.all, q1] at hgap
      simp only [Table.append] at hgap
      rw [List.getElem?_append_right (by omega), a3] at hgap
      simp only [Nat.sub_self, List.getElem?_cons_zero, Except.ok.injEq] at hgap
      rw [← hgap, hadd'.fbest, q8, min_eq_right hlt.le]
      have : ((r.val : ℚ) : EVal) + ((e.2 : ℚ) : EVal) = ((r.val + e.2 : ℚ) : EVal) := rfl
      rw [this]
      simp only [computeGap, WithTop.map_coe]
      rw [WithTop.coe_lt_coe]
      have hT : 0 < |P.target| := lt_of_lt_of_le hz ht
      have hg : computeGapQ P (r.val + e.2) = (r.val + e.2 - P.target) / |P.target| := by
        unfold computeGapQ
        dsimp only
        rw [if_pos ht]
      rw [hg, lt_div_iff₀ hT]
      linarith

/-! ## C25 -/

/-- **C25** On a restart the new sample is split: the positions `rem` are removed from it, each being
replaced by one old record (`src`), the others are kept in order.  A removed point has an old record
within `eps_zero` and is replaced by a nearest old record, which in accurate mode is accurate; a kept
point has no old record within `eps_zero`, or (accurate mode only) a nearest one is noisy. -/
theorem C25_reuse_partition {pts : List Pt} {r : Removal}
    (h : removeExisting P env s pts = some r) :
    ∃ rem src : List ℕ, rem.Pairwise (· > ·) ∧ (∀ i ∈ rem, i < pts.length) ∧
      src.length = rem.length ∧ r.prev.pos.length = rem.length ∧ r.prev.Aligned ∧
      r.pos = dropPositions pts rem ∧
      (∀ (k i j : ℕ) (q : Pt) (v : ℚ) (b : Bool) (e : ℚ × ℚ), rem[k]? = some i → src[k]? = some j →
        r.prev.pos[k]? = some q → r.prev.val[k]? = some v → r.prev.noisy[k]? = some b →
        r.prev.err[k]? = some e →
        OldRecord s j q ∧ s.all.val[j]? = some v ∧ s.all.noisy[j]? = some b ∧
        s.all.err[j]? = some e ∧ (s.mode = .noisy ∨ b = false) ∧
        ∃ p, pts[i]? = some p ∧ env.dist p q ≤ P.epsZero ∧
          ∀ j' q', OldRecord s j' q' → env.dist p q ≤ env.dist p q') ∧
      (∀ i p, pts[i]? = some p → i ∉ rem →
        (∀ j q, OldRecord s j q → P.epsZero < env.dist p q) ∨
        (s.mode = .accurate ∧ ∃ j q, OldRecord s j q ∧ s.all.noisy[j]? = some true ∧
          ∀ j' q', OldRecord s j' q' → env.dist p q ≤ env.dist p q')) := by
  unfold removeExisting at h
  obtain ⟨rem, src, t, a1, a2, a3, a3', a4, a5, a6, a7⟩ :=
    removeExistingLoop_positions (P := P) (pts := pts) h existingIndices_dec (fun _ _ => rfl)
  have hmemlt : ∀ i ∈ existingIndices P env s pts, i < pts.length := by
    intro i hi
    unfold existingIndices at hi
    simp only [List.mem_reverse, List.mem_filter, List.mem_range] at hi
    exact hi.1
  have e5 : r.prev = t := by rw [a5]; simp [Table.append]
  rw [e5]
  refine ⟨rem, src, List.Pairwise.sublist a1 existingIndices_dec,
    fun i hi => hmemlt i (a1.subset hi), a2, a3, a3', a4, ?_, ?_⟩
  · intro k i j q v b e h1 h2 h3 h4 h5 h6
    have hrep := a6 k i j q v b e h1 h2 h3 h4 h5 h6
    obtain ⟨p, hp, hn⟩ := hrep.near
    refine ⟨hrep.old, hrep.val, hrep.flag, hrep.err, hrep.usable, p, hp, ?_, hn⟩
    obtain ⟨j', q', h7, h8⟩ :=
      (existingIndices_mem hp).mp (a1.subset (List.mem_of_getElem? h1))
    exact (hn j' q' h7).trans h8
  · intro i p hp hni
    by_cases hi : i ∈ existingIndices P env s pts
    · right
      obtain ⟨j, q, p', h1, h2, h3, h4, h5⟩ := a7 i hi hni
      rw [hp] at h2; cases h2
      exact ⟨h4, j, q, h1, h5, h3⟩
    · left
      intro j q hq
      by_contra hle
      exact hi ((existingIndices_mem hp).mpr ⟨j, q, hq, not_lt.mp hle⟩)

/-- **C25** The search for reusable records never fails on a reachable state with old records. -/
theorem C25_never_fails (hr : Reach P env o c s) (hn : 0 < s.nAtRestart) (pts : List Pt) :
    ∃ r, removeExisting P env s pts = some r := by
  unfold removeExisting
  apply removeExistingLoop_some existingIndices_dec _ hr.wf.allA hn hr.wf.le
  intro i hi
  unfold existingIndices at hi
  simp only [List.mem_reverse, List.mem_filter, List.mem_range] at hi
  exact hi.1

/-! ## C26 -/

/-- **C26** At the first initialization the user's points are appended to the sample `t`: the kept
positions `sel`, in increasing order, are exactly those farther than `min_dist` from every earlier
user point and from every sampled point; each kept point is recorded as accurate with the value the
user gave for it, or, if not enough values were given, with the value `evaluate()` returned for it. -/
theorem C26_user_points {t t' : Table} {s' : Alg O} (h0 : s.itercount = 0) (hne : P.initPos ≠ [])
    (h : restartUser P env t s = .ok (t', s')) :
    ∃ sel : List ℕ, ∃ u : Table, sel.Pairwise (· < ·) ∧ t' = t.append u ∧ u.Aligned ∧
      u.pos.length = sel.length ∧
      (∀ i, i ∈ sel ↔ ∃ p, P.initPos[i]? = some p ∧
        (∀ (j : ℕ) (q : Pt), j < i → P.initPos[j]? = some q → P.minDist < env.dist p q) ∧
        ∀ q ∈ t.pos, P.minDist < env.dist p q) ∧
      (∀ (k i : ℕ), sel[k]? = some i → u.pos[k]? = P.initPos[i]? ∧ u.noisy[k]? = some false ∧
        u.err[k]? = some (0, 0) ∧
        (P.initPos.length ≤ P.initVal.length → u.val[k]? = P.initVal[i]? ∧ s' = s) ∧
        (P.initVal.length < P.initPos.length → ∃ p v, P.initPos[i]? = some p ∧
          u.val[k]? = some v ∧ Call.acc (env.decode p) v ∈ s'.log)) := by
  have hsel : ∀ i, i ∈ selectUser P env t.pos ↔ ∃ p, P.initPos[i]? = some p ∧
      (∀ (j : ℕ) (q : Pt), j < i → P.initPos[j]? = some q → P.minDist < env.dist p q) ∧
      ∀ q ∈ t.pos, P.minDist < env.dist p q := by
    intro i
    have hfar : ∀ (p : Pt) (l : List Pt), (match getMinDistance env.dist p l with
        | none => true
        | some d => decide (d > P.minDist)) = true ↔ ∀ q ∈ l, P.minDist < env.dist p q := by
      intro p l
      split
      · rename_i hd
        rw [getMinDistance_none] at hd
        subst hd; simp
      · rename_i d hd
        obtain ⟨⟨q, hq, e⟩, h2⟩ := getMinDistance_some hd
        simp only [gt_iff_lt, decide_eq_true_eq]
        constructor
        · intro h q hq; exact lt_of_lt_of_le h (h2 q hq)
        · intro h; rw [← e]; exact h q hq
    simp only [selectUser, List.mem_filter, List.mem_range]
    constructor
    · rintro ⟨hlt, h1⟩
      rw [List.getElem?_eq_getElem hlt] at h1 ⊢
      dsimp only at h1
      simp only [Bool.and_eq_true] at h1
      refine ⟨_, rfl, ?_, (hfar _ _).mp h1.2⟩
      intro j q hj hq
      exact (hfar _ _).mp h1.1 q (List.mem_of_getElem? (i := j) (by rw [List.getElem?_take]; simp [hj, hq]))
    · rintro ⟨p, hp, h1, h2⟩
      refine ⟨(List.getElem?_eq_some_iff.mp hp).1, ?_⟩
      rw [hp]
      dsimp only
      simp only [Bool.and_eq_true]
      refine ⟨(hfar _ _).mpr ?_, (hfar _ _).mpr h2⟩
      intro q hq
      obtain ⟨j, hj⟩ := List.getElem?_of_mem hq
      rw [List.getElem?_take] at hj
      split at hj
      · rename_i hlt; exact h1 j q hlt hj
      · cases hj
  have hsort : (selectUser P env t.pos).Pairwise (· < ·) :=
    List.Pairwise.filter _ List.pairwise_lt_range
  have hlt := selectUser_lt (P := P) (env := env) (l := t.pos)
  unfold restartUser at h
  rw [if_pos ⟨hne, h0⟩] at h
  dsimp only at h
  split at h
  · rename_i hval
    simp only [Except.ok.injEq, Prod.mk.injEq] at h
    obtain ⟨rfl, rfl⟩ := h
    obtain ⟨calls, e1, e2, e3, e4, e5⟩ := evalList_spec env
      ((selectUser P env t.pos).filterMap (fun i => P.initPos[i]?)) s
    refine ⟨selectUser P env t.pos, _, hsort, rfl, ?_, ?_, hsel, ?_⟩
    · simp [Table.Aligned, e4]
    · exact filterMap_getElem?_length _ _ hlt
    · intro k i hk
      have hlk : k < (selectUser P env t.pos).length := (List.getElem?_eq_some_iff.mp hk).1
      have hi : i < P.initPos.length := hlt i (List.mem_of_getElem? hk)
      have hpk : ((selectUser P env t.pos).filterMap (fun i => P.initPos[i]?))[k]? =
          P.initPos[i]? := by
        rw [filterMap_getElem?_get _ _ hlt, hk]; rfl
      have hvl : k < (evalList env s
          ((selectUser P env t.pos).filterMap (fun i => P.initPos[i]?))).1.length := by
        rw [e4, filterMap_getElem?_length _ _ hlt]; exact hlk
      refine ⟨hpk, ?_, ?_, fun h => by omega, fun _ => ?_⟩
      · simp only [List.getElem?_map, List.getElem?_eq_getElem hvl]; rfl
      · simp only [List.getElem?_map, List.getElem?_eq_getElem hvl]; rfl
      · refine ⟨P.initPos[i], _, List.getElem?_eq_getElem hi, List.getElem?_eq_getElem hvl, ?_⟩
        dsimp only
        rw [e1]
        dsimp only
        exact List.mem_append_right _ (e5 k _ _ (by rw [hpk]; exact List.getElem?_eq_getElem hi)
          (List.getElem?_eq_getElem hvl))
  · rename_i hval
    simp only [Except.ok.injEq, Prod.mk.injEq] at h
    obtain ⟨rfl, rfl⟩ := h
    have hlt' : ∀ i ∈ selectUser P env t.pos, i < P.initVal.length :=
      fun i hi => by have := hlt i hi; omega
    refine ⟨selectUser P env t.pos, _, hsort, rfl, ?_, ?_, hsel, ?_⟩
    · simp [Table.Aligned, filterMap_getElem?_length _ _ hlt,
        filterMap_getElem?_length _ _ hlt']
    · exact filterMap_getElem?_length _ _ hlt
    · intro k i hk
      have hlk : k < (selectUser P env t.pos).length := (List.getElem?_eq_some_iff.mp hk).1
      have hvl : k < ((selectUser P env t.pos).filterMap (fun i => P.initVal[i]?)).length := by
        rw [filterMap_getElem?_length _ _ hlt']; exact hlk
      refine ⟨?_, ?_, ?_, fun _ => ⟨?_, rfl⟩, fun h => absurd h hval⟩
      · dsimp only; rw [filterMap_getElem?_get _ _ hlt, hk]; rfl
      · simp only [List.getElem?_map, List.getElem?_eq_getElem hvl]; rfl
      · simp only [List.getElem?_map, List.getElem?_eq_getElem hvl]; rfl
      · dsimp only; rw [filterMap_getElem?_get _ _ hlt', hk]; rfl

theorem restartSample_fresh {s' : Alg O} {t : Table} (hn : s.nAtRestart = 0) (hdo : P.doInit = true)
    (h : restartSample P env s = .ok (t, s')) : ∃ o', env.initNodes s = .ok (t.pos, o') := by
  unfold restartSample at h
  rw [if_pos (Or.inr hdo)] at h
  split at h
  · cases h
  · rename_i pts o' hin
    dsimp only at h
    rw [show ∀ a : Alg O, a.nAtRestart = 0 → removeExistingIf P env a pts = some ⟨pts, {}⟩ from
      fun a ha => if_neg (by omega)] at h
    swap
    · exact hn
    dsimp only at h
    have hp : t.pos = pts := by
      split at h
      · cases h; simp [Table.append]
      · split at h
        · cases h
        · cases h; simp [Table.append]
    rw [hp]
    exact ⟨o', hin⟩

/-- **C26** The same as an observable effect of the first call of `optimize()` on a new object: the
first records are the points of the initial sample (none if `do_init_strategy` is off), followed by the
kept points of the user. -/
theorem C26_first_call {s' : Alg O} {loc : Loc} (hne : P.initPos ≠ [])
    (h : serialStart P env (Alg.init P o) = .ok (s', loc)) :
    ∃ t : Table, (P.doInit = false → t = {}) ∧
      (P.doInit = true → ∃ a o', env.initNodes a = .ok (t.pos, o')) ∧
      ∃ sel : List ℕ, ∃ u : Table, sel.Pairwise (· < ·) ∧ s'.all = t.append u ∧ u.Aligned ∧
      u.pos.length = sel.length ∧
      (∀ i, i ∈ sel ↔ ∃ p, P.initPos[i]? = some p ∧
        (∀ (j : ℕ) (q : Pt), j < i → P.initPos[j]? = some q → P.minDist < env.dist p q) ∧
        ∀ q ∈ t.pos, P.minDist < env.dist p q) ∧
      (∀ (k i : ℕ), sel[k]? = some i → u.pos[k]? = P.initPos[i]? ∧ u.noisy[k]? = some false ∧
        u.err[k]? = some (0, 0) ∧
        (P.initPos.length ≤ P.initVal.length → u.val[k]? = P.initVal[i]?) ∧
        (P.initVal.length < P.initPos.length → ∃ p v, P.initPos[i]? = some p ∧
          u.val[k]? = some v ∧ Call.acc (env.decode p) v ∈ s'.log)) := by
  unfold serialStart at h
  split at h
  · cases h
  · rename_i s1 h1
    split at h
    · cases h
    · cases h
      unfold firstRestart at h1
      rw [if_pos (show (Alg.init P o).itercount = 0 from rfl)] at h1
      unfold restart at h1
      dsimp only at h1
      split at h1
      · cases h1
      · rename_i t s2 hs
        split at h1
        · cases h1
        · rename_i t2 s3 hu
          have hi2 : s2.itercount = 0 ∧ s2.all = {} := by
            obtain ⟨_, calls, o', e, _⟩ := restartSample_spec hs
            rw [e]
            exact ⟨rfl, rfl⟩
          obtain ⟨sel, u, a1, rfl, a3, a4, a5, a6⟩ := C26_user_points hi2.1 hne hu
          have hinst : s'.all = t.append u ∧ s'.log = s3.log := by
            have hs3 : s3.all = {} := by
              obtain ⟨al, _⟩ := restartSample_spec hs
              obtain ⟨_, calls, u', _, _, e, _⟩ := restartUser_spec hu al
              rw [e]; exact hi2.2
            unfold restartInstall at h1
            dsimp only at h1
            split at h1
            · cases h1
            · split at h1
              · split at h1
                · cases h1
                · split at h1
                  · cases h1
                  · split at h1
                    · cases h1
                    · simp only [Except.ok.injEq] at h1
                      subst h1
                      rw [logInit_eq]
                      dsimp only
                      split <;> exact ⟨by rw [hs3]; simp [Table.append], rfl⟩
              · cases h1
          refine ⟨t, ?_, ?_, sel, u, a1, hinst.1, a3, a4, a5, ?_⟩
          · intro hdo
            unfold restartSample at hs
            rw [if_neg (by simp [Alg.init, hdo])] at hs
            cases hs; rfl
          · intro hdo
            obtain ⟨o', ho⟩ := restartSample_fresh rfl hdo hs
            exact ⟨_, o', ho⟩
          · intro k i hk
            obtain ⟨b1, b2, b3, b4, b5⟩ := a6 k i hk
            refine ⟨b1, b2, b3, fun hh => (b4 hh).1, fun hh => ?_⟩
            rw [hinst.2]
            exact b5 hh

end Rbfopt
