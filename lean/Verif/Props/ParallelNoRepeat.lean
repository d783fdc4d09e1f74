import Verif.Props.NoRepeat
import Verif.Props.ParallelDomain
import Verif.Props.ParallelReuse
import Verif.Lemmas.ParallelBest

/-!
# C77 for the parallel engine: no point is submitted twice
-/

namespace Rbfopt

variable {O : Type} {P : Params} {env : Env O} {pe : PEnv O} {o : O} {c : PCtl} {s : PState O}

/-- The points of a sample are far from one another: a point is farther than `min_dist` from every
point within `eps_zero` of another sample point. -/
def WellSpread (P : Params) (env : Env O) (pts : List Pt) : Prop :=
  ∀ (i j : ℕ) (p p' q : Pt), i ≠ j → pts[i]? = some p → pts[j]? = some p' →
    env.dist p' q ≤ P.epsZero → P.minDist < env.dist p q

/-- It suffices that the sample points are farther than `min_dist + eps_zero` from one another. -/
theorem wellSpread_of_pairwise {pts : List Pt}
    (htri : ∀ p q r : Pt, env.dist p r ≤ env.dist p q + env.dist q r)
    (hsym : ∀ p q, env.dist p q = env.dist q p)
    (h : ∀ (i j : ℕ) (p p' : Pt), i ≠ j → pts[i]? = some p → pts[j]? = some p' →
      P.minDist + P.epsZero < env.dist p p') : WellSpread P env pts := by
  intro i j p p' q hij hi hj hd
  have h1 := h i j p p' hij hi hj
  have h2 := htri p q p'
  rw [hsym q p'] at h2
  linarith

theorem removeExistingIf_spread {a : Alg O} {pts : List Pt} {r : Removal} (hs : a.mode = .accurate)
    (hacc : ∀ b ∈ a.all.noisy, b = false) (hn : a.nAtRestart = a.all.pos.length)
    (hd : ∀ p, env.dist p p = 0) (he : 0 ≤ P.epsZero) (hsp : WellSpread P env pts)
    (h : removeExistingIf P env a pts = some r) :
    (∀ (i j : ℕ) (p p' : Pt), i ≠ j → r.pos[i]? = some p → r.pos[j]? = some p' →
      P.minDist < env.dist p p') ∧
    (∀ p ∈ r.pos, ∀ q ∈ a.all.pos, P.epsZero < env.dist p q) ∧
    (∀ p ∈ r.pos, ∀ q ∈ r.prev.pos, P.minDist < env.dist p q) ∧ (∀ p ∈ r.pos, p ∈ pts) := by
  have hself : ∀ (i j : ℕ) (p p' : Pt), i ≠ j → pts[i]? = some p → pts[j]? = some p' →
      P.minDist < env.dist p p' := fun i j p p' hij hi hj =>
    hsp i j p p' p' hij hi hj (by rw [hd]; exact he)
  unfold removeExistingIf at h
  split at h
  · obtain ⟨rem, src, -, h1, h2, h3, hal, h4, h5, h6⟩ := C25_reuse_partition h
    have hsub : r.pos.Sublist pts := h4 ▸ dropPositions_sublist _ _
    refine ⟨?_, ?_, ?_, fun p hp => hsub.subset hp⟩
    · obtain ⟨f, hf⟩ := List.sublist_iff_exists_orderEmbedding_getElem?_eq.mp hsub
      intro i j p p' hij hi hj
      exact hself (f i) (f j) p p' (fun e => hij (f.injective e)) (hf i ▸ hi) (hf j ▸ hj)
    · intro p hp q hq
      rw [h4] at hp
      obtain ⟨i, hi, hni⟩ := mem_dropPositions hp
      obtain ⟨j, hj⟩ := List.mem_iff_getElem?.mp hq
      have hlt := (List.getElem?_eq_some_iff.mp hj).1
      rcases h6 i p hi hni with h6 | ⟨-, j', q', -, h7, -⟩
      · exact h6 j q ⟨by omega, hj⟩
      · have := hacc _ (List.mem_of_getElem? h7)
        cases this
    · intro p hp q hq
      rw [h4] at hp
      obtain ⟨i, hi, hni⟩ := mem_dropPositions hp
      obtain ⟨k, hk⟩ := List.mem_iff_getElem?.mp hq
      have hkl := (List.getElem?_eq_some_iff.mp hk).1
      obtain ⟨v, b, e, hv, hb, he'⟩ := hal.has hk
      have hk1 : k < rem.length := by omega
      have hk2 : k < src.length := by omega
      obtain ⟨-, -, -, -, -, p', hp', hd', -⟩ := h5 k rem[k] src[k] q v b e
        (List.getElem?_eq_getElem hk1) (List.getElem?_eq_getElem hk2) hk hv hb he'
      refine hsp i rem[k] p p' q ?_ hi hp' hd'
      rintro rfl
      exact hni (List.getElem_mem hk1)
  · rename_i h0
    cases h
    have : a.all.pos = [] := List.eq_nil_of_length_eq_zero (by omega)
    exact ⟨hself, by rw [this]; simp, by simp, fun p hp => hp⟩

/-- Invariant of single-phase runs without domain scaling. -/
structure ParFresh (P : Params) (env : Env O) (s : PState O) : Prop where
  /-- a submitted point is recorded, being evaluated, or its evaluation was lost in a crash -/
  where_ : ∀ (i : ℕ) x, s.subs[i]? = some x → x.1 ∈ s.alg.all.pos ∨
    (∃ job ∈ s.evals, job.id = i ∧ job.pt = x.1) ∨ (i, Fate.lost) ∈ s.hist
  /-- points being evaluated are far from one another -/
  apart : ∀ x ∈ s.evals, ∀ y ∈ s.evals, x.id ≠ y.id → P.minDist < env.dist x.pt y.pt
  /-- and from all nodes -/
  away : s.pc.Active → ∀ x ∈ s.evals, ∀ q ∈ s.alg.cur.pos, P.minDist < env.dist x.pt q
  /-- no point was submitted twice, unless the earlier evaluation was lost -/
  once : ∀ (i j : ℕ) x y, i < j → s.subs[i]? = some x → s.subs[j]? = some y → x.1 = y.1 →
    (i, Fate.lost) ∈ s.hist
  log : s.alg.log = []
  /-- the records since the last restart, even if it was interrupted, are nodes -/
  tail : ∀ q ∈ s.alg.all.pos.drop s.alg.nAtRestart, q ∈ s.alg.cur.pos

theorem PReach.done_evals (h : PReach P env pe o c s) : s.pc = .done → s.evals = [] := by
  suffices key : (s.pc = .done → s.evals = []) ∧ ∀ todo, s.pc = .closing todo → s.evals = todo from
    key.1
  refine ⟨?_, fun todo => h.closing_evals⟩
  induction h with
  | init => simp
  | @call s0 s1 pause h0 hs ih =>
    have hw : ∀ q : PState O, (withGap P q).pc ≠ .done := by
      intro q; unfold withGap; split <;> simp
    cases hs with
    | zeroFrequency _ => simp
    | firstFails _ _ _ => simp
    | first _ _ hr => exact fun hp => absurd hp (hw _)
    | resumed _ _ => exact fun hp => absurd hp (hw _)
  | @step s0 s1 st pa h0 hs ih =>
    intro hd
    cases hs.kind with
    | ctrl hc => rw [hc.evals]; exact h0.closing_evals (hc.done hd)
    | collect _ _ e => subst e; cases hd
    | harvest _ _ _ _ e => subst e; cases hd
    | restart _ _ _ _ hp e => subst e; rcases hp with rfl | rfl <;> cases hd
    | submit _ _ _ _ _ _ e => subst e; cases hd
    | close _ _ e => subst e; cases hd
  | ret h0 hp ih => exact ih
  | load h0 hp ih => simp [PState.lose, PState.fresh]
  | raises h0 hp ih => simp [PState.lose, PState.fresh]
  | firstRaises h0 _ _ hp ih => simp [PState.lose, PState.fresh]

theorem PReach.idle_evals (h : PReach P env pe o .idle s) : s.evals = [] := by
  cases h with
  | init => rfl
  | ret h0 hp => exact h0.done_evals hp
  | load h0 hp => rfl
  | raises h0 hp => rfl
  | firstRaises h0 _ _ hp => rfl

/-- What is assumed about distances and coordinates: domain scaling has no effect (it is off, or there
are integer or categorical variables), samples are well spread and far from the user's points, whose
values are given. -/
structure Unscaled (P : Params) (env : Env O) : Prop where
  toOrig : ∀ p, env.toOrig p = p
  toInternal : ∀ p, env.toInternal p = p
  refl : ∀ p, env.dist p p = 0
  symm : ∀ p q, env.dist p q = env.dist q p
  minDist : 0 ≤ P.minDist
  epsZero : 0 < P.epsZero
  spread : ∀ a pts o, env.initNodes a = .ok (pts, o) → WellSpread P env pts
  user : ∀ a pts o, env.initNodes a = .ok (pts, o) → ∀ p ∈ pts, ∀ u ∈ P.initPos,
    P.minDist < env.dist p u
  values : P.initPos.length ≤ P.initVal.length

variable {s' : PState O}

theorem mem_initJobs {noisy : Bool} {k i : ℕ} {ps : List Pt} {p : Pt} (h : ps[i]? = some p) :
    (⟨k + i, p, noisy, .init⟩ : EvalJob) ∈ initJobs noisy k ps := by
  induction ps generalizing k i with
  | nil => simp at h
  | cons q ps ih =>
    cases i with
    | zero => simp only [List.getElem?_cons_zero, Option.some.injEq] at h; simp [initJobs, h]
    | succ i =>
      rw [List.getElem?_cons_succ] at h
      have := ih (k := k + 1) h
      rw [show k + 1 + i = k + (i + 1) by omega] at this
      exact List.mem_cons_of_mem _ this

theorem ParFresh.congr (h : ParFresh P env s) (e1 : s'.subs = s.subs) (e2 : s'.evals = s.evals)
    (e3 : s'.hist = s.hist) (e4 : s'.alg.all = s.alg.all) (e5 : s'.alg.cur = s.alg.cur)
    (e6 : s'.alg.log = s.alg.log) (e7 : s'.pc.Active → s.pc.Active)
    (e8 : s'.alg.nAtRestart = s.alg.nAtRestart) : ParFresh P env s' := by
  constructor
  · rw [e1, e2, e3, e4]; exact h.where_
  · rw [e2]; exact h.apart
  · intro ha; rw [e2, e5]; exact h.away (e7 ha)
  · rw [e1, e3]; exact h.once
  · rw [e6]; exact h.log
  · rw [e4, e5, e8]; exact h.tail

theorem ParFresh.restart (hu : Unscaled P env) {s0 s1 : PState O} (hm : s0.alg.mode = .accurate)
    (hacc : ∀ b ∈ s0.alg.all.noisy, b = false) (h : ParFresh P env s0) (he : s0.evals = [])
    (hc : RestartPar P env pe s0 (.ok s1)) (pc : PC) (gap : EVal) :
    ParFresh P env { s1 with pc := pc, gap := gap } := by
  obtain ⟨pts, noisy, o, done, rest, prev, u, calls, a, m, M, i, hp⟩ := restartPar_ok hc
  have hcalls := hp.callsVal hu.values
  subst hcalls
  have hn : noisy = false := by
    by_contra hb
    have := hp.noisyMode (by simpa using hb)
    rw [hm] at this; cases this
  subst hn
  -- the submitted points
  have hfacts : (∀ (i j : ℕ) (p p' : Pt), i ≠ j → pts[i]? = some p → pts[j]? = some p' →
      P.minDist < env.dist p p') ∧
      (∀ p ∈ pts, ∀ q ∈ s0.alg.all.pos, P.epsZero < env.dist p q) ∧
      (∀ p ∈ pts, ∀ q ∈ prev.pos, P.minDist < env.dist p q) ∧
      (∀ p ∈ pts, ∀ q ∈ P.initPos, P.minDist < env.dist p q) := by
    rcases hp.removed with rfl | ⟨nodePos, a0, a1, r, h1, h2, h3, h4, h5, rfl, rfl⟩
    · simp
    · obtain ⟨g1, g2, g3, g4⟩ := removeExistingIf_spread (h2.trans hm) (by rw [h3]; exact hacc)
        (by rw [h4, h3]) hu.refl hu.epsZero.le (hu.spread _ _ _ h1) h5
      rw [h3] at g2
      exact ⟨g1, g2, g3, fun p hp q hq => hu.user _ _ _ h1 p (g4 p hp) q hq⟩
  obtain ⟨f1, f2, f3, f4⟩ := hfacts
  have hjob : ∀ x ∈ done ++ rest, s0.subs.length ≤ x.id ∧ pts[x.id - s0.subs.length]? = some x.pt := by
    intro x hx
    obtain ⟨g1, g2, -, -⟩ := initJobs_get (hp.perm.subset hx)
    exact ⟨g1, g2⟩
  have hapart : ∀ x ∈ done ++ rest, ∀ y ∈ done ++ rest, x.id ≠ y.id →
      P.minDist < env.dist x.pt y.pt := by
    intro x hx y hy hne
    obtain ⟨g1, g2⟩ := hjob x hx
    obtain ⟨g3, g4⟩ := hjob y hy
    exact f1 _ _ _ _ (by omega) g2 g4
  have hall : a.all = s0.alg.all.append (((initTable pe (decide (s0.alg.mode = .noisy)) done).append
      prev).append u) := hp.install.all
  have hids : (done ++ rest).Pairwise (fun x y => x.id ≠ y.id) := by
    have h1 : ((done ++ rest).map (fun x => x.id)).Nodup := by
      rw [(hp.perm.map _).nodup_iff, initJobs_ids]
      exact List.nodup_range'
    exact List.pairwise_map.mp h1
  have hdr : ∀ x ∈ done, ∀ y ∈ rest, x.id ≠ y.id := (List.pairwise_append.mp hids).2.2
  -- earlier submissions
  have hold : ∀ (i : ℕ) x, s0.subs[i]? = some x → x.1 ∈ s0.alg.all.pos ∨ (i, Fate.lost) ∈ s0.hist := by
    intro i x hx
    rcases h.where_ i x hx with g | ⟨job, g, -⟩ | g
    · exact Or.inl g
    · rw [he] at g; cases g
    · exact Or.inr g
  have hnot : ∀ p ∈ pts, p ∉ s0.alg.all.pos := by
    intro p hp' hq
    have := f2 p hp' p hq
    rw [hu.refl] at this
    linarith [hu.epsZero]
  rw [hp.eq]
  constructor
  · intro i x hx
    simp only [PState.fates] at hx ⊢
    rcases Nat.lt_or_ge i s0.subs.length with hi | hi
    · rw [List.getElem?_append_left hi] at hx
      rcases hold i x hx with g | g
      · left; rw [hall]; exact List.mem_append_left _ g
      · right; right; exact List.mem_append_left _ g
    · rw [List.getElem?_append_right hi, List.getElem?_map, Option.map_eq_some_iff] at hx
      obtain ⟨p, hp', rfl⟩ := hx
      have := mem_initJobs (noisy := false) (k := s0.subs.length) hp'
      rw [← hp.perm.mem_iff, List.mem_append] at this
      rw [show s0.subs.length + (i - s0.subs.length) = i by omega] at this
      rcases this with g | g
      · left
        rw [hall]
        refine List.mem_append_right _ (List.mem_append_left _ (List.mem_append_left _ ?_))
        exact List.mem_map.mpr ⟨_, g, rfl⟩
      · right; left
        exact ⟨_, g, rfl, rfl⟩
  · intro x hx y hy hne
    exact hapart x (List.mem_append_right _ hx) y (List.mem_append_right _ hy) hne
  · intro _ x hx q hq
    have hx' : x ∈ done ++ rest := List.mem_append_right _ hx
    have hxp : x.pt ∈ pts := List.mem_of_getElem? (hjob x hx').2
    have hcur : a.cur.pos = (((initTable pe (decide (s0.alg.mode = .noisy)) done).append
        prev).append u).pos.map env.toInternal := by rw [hp.install.cur]
    simp only [PState.fates, hcur, List.mem_map] at hq
    obtain ⟨q', hq', rfl⟩ := hq
    rw [hu.toInternal]
    simp only [Table.append, initTable, List.mem_append, List.mem_map] at hq'
    rcases hq' with (⟨y, hy, rfl⟩ | hq') | hq'
    · exact hapart x hx' y (List.mem_append_left _ hy) (fun e => hdr y hy x hx e.symm)
    · exact f3 _ hxp _ hq'
    · obtain ⟨k, hk⟩ := List.getElem?_of_mem hq'
      obtain ⟨v, b, e, h3, h4, h5⟩ := hp.uA.has hk
      obtain ⟨k', h6, _⟩ := hp.uAll k q' v b e hk h3 h4 h5
      exact f4 _ hxp _ (List.mem_of_getElem? h6)
  · intro i j x y hij hx hy hxy
    simp only [PState.fates] at hx hy ⊢
    refine List.mem_append_left _ ?_
    rcases Nat.lt_or_ge j s0.subs.length with hj | hj
    · rw [List.getElem?_append_left hj] at hy
      rw [List.getElem?_append_left (by omega)] at hx
      exact h.once i j x y hij hx hy hxy
    · rw [List.getElem?_append_right hj, List.getElem?_map, Option.map_eq_some_iff] at hy
      obtain ⟨p, hp', rfl⟩ := hy
      rcases Nat.lt_or_ge i s0.subs.length with hi | hi
      · rw [List.getElem?_append_left hi] at hx
        rcases hold i x hx with g | g
        · rw [hxy] at g
          exact absurd g (hnot p (List.mem_of_getElem? hp'))
        · exact g
      · rw [List.getElem?_append_right hi, List.getElem?_map, Option.map_eq_some_iff] at hx
        obtain ⟨p', hp'', rfl⟩ := hx
        have := f1 _ _ _ _ (by omega : i - s0.subs.length ≠ j - s0.subs.length) hp'' hp'
        simp only at hxy
        rw [hxy, hu.refl] at this
        exact absurd hu.minDist (not_le.mpr this)
  · have : a.log = s0.alg.log ++ [] := hp.install.log
    show a.log = []
    rw [this, h.log]; rfl
  · have h1 : a.nAtRestart = s0.alg.all.pos.length := hp.install.nAt
    have hcur : a.cur.pos = (((initTable pe (decide (s0.alg.mode = .noisy)) done).append
        prev).append u).pos.map env.toInternal := by rw [hp.install.cur]
    intro q hq
    have hq' : q ∈ a.all.pos.drop a.nAtRestart := hq
    rw [h1, hall] at hq'
    show q ∈ a.cur.pos
    rw [hcur]
    simp only [Table.append, List.drop_left] at hq' ⊢
    exact List.mem_map.mpr ⟨q, hq', hu.toInternal q⟩

theorem minDist_lt_of {dist : Pt → Pt → ℚ} {p q : Pt} {l : List Pt} {m : ℚ}
    (h : ∀ d, getMinDistance dist p l = some d → m < d) (hq : q ∈ l) : m < dist p q := by
  obtain ⟨d, hd⟩ : ∃ d, getMinDistance dist p l = some d := by
    have hne : l.map (dist p) ≠ [] := by
      intro h0
      rw [List.map_eq_nil_iff] at h0
      rw [h0] at hq; cases hq
    obtain ⟨v, i, hv⟩ := argminVal_exists hne
    exact ⟨v, by unfold getMinDistance; rw [hv]; rfl⟩
  exact lt_of_lt_of_le (h d hd) ((getMinDistance_some hd).2 q hq)

theorem PBook.id_ne (hb : PBook env pe s) {j : ℕ} {job x : EvalJob} (hj : s.evals[j]? = some job)
    (hx : x ∈ s.evals.eraseIdx j) : x.id ≠ job.id := by
  have h1 : (s.evals.map (fun x => x.id)).Nodup := by
    have := hb.ids.nodup_iff.mpr List.nodup_range
    exact (List.nodup_append.mp this).1
  have h2 := (perm_take hj).map (fun x : EvalJob => x.id)
  rw [← h2.nodup_iff, List.map_cons, List.nodup_cons] at h1
  intro e
  exact h1.1 (e ▸ List.mem_map_of_mem hx)

theorem mem_eraseIdx_or {α : Type} {l : List α} {j : ℕ} {x y : α} (hj : l[j]? = some x) (hy : y ∈ l) :
    y = x ∨ y ∈ l.eraseIdx j := by
  obtain ⟨h1, rfl⟩ := List.getElem?_eq_some_iff.mp hj
  have := (List.getElem_cons_eraseIdx_perm h1).mem_iff.mpr hy
  simpa using this

theorem PSingle.noisy_false (hb : PBook env pe s) (hs : PSingle s) :
    ∀ b ∈ s.alg.all.noisy, b = false := by
  intro b hm
  obtain ⟨k, hk⟩ := List.mem_iff_getElem?.mp hm
  have hlen := (List.getElem?_eq_some_iff.mp hk).1
  obtain ⟨x1, x2, x3⟩ := hb.wf.allA
  exact (hs.all k _ _ b _ (List.getElem?_eq_getElem (by omega))
    (List.getElem?_eq_getElem (by omega)) hk (List.getElem?_eq_getElem (by omega))).1

theorem drop_add_mem {a a' : Alg O} {p p' q : Pt} {v : ℚ} {b : Bool} {e : ℚ × ℚ}
    (ha : AddOut a a' p p' v b e) (hpp : p' = p) (hle : a.nAtRestart ≤ a.all.pos.length)
    (h : ∀ q ∈ a.all.pos.drop a.nAtRestart, q ∈ a.cur.pos)
    (hq : q ∈ a'.all.pos.drop a'.nAtRestart) : q ∈ a'.cur.pos := by
  rw [ha.all, ha.rest.2.2.2.2.1] at hq
  rw [ha.cur]
  simp only [Table.append] at hq ⊢
  rw [List.drop_append_of_le_length hle, List.mem_append] at hq
  rcases hq with hq | hq
  · exact List.mem_append_left _ (h q hq)
  · rw [hpp] at hq; exact List.mem_append_right _ hq

theorem Unscaled.cur_pos (hu : Unscaled P env) {a : Alg O} (w : WF env a) :
    a.cur.pos = a.all.pos.drop a.nAtRestart := by
  have := w.pos
  simp only [hu.toInternal, hu.toOrig] at this
  have h2 : List.Forall₂ (fun a b : Pt => a = b) a.cur.pos (a.all.pos.drop a.nAtRestart) :=
    this.imp (fun x y h => h.elim id Eq.symm)
  rwa [List.forall₂_eq_eq_eq] at h2

theorem StepKind.parFresh (hu : Unscaled P env) (hP : P.twoPhase = false) (hb : PBook env pe s)
    (hs : PSingle s) (hcl : ∀ todo, s.pc = .closing todo → s.evals = todo) (h : ParFresh P env s)
    (hk : StepKind P env pe s s') : ParFresh P env s' := by
  cases hk with
  | ctrl hc =>
    exact h.congr hc.subs hc.evals hc.hist (congrArg Data.all hc.data) (congrArg Data.cur hc.data)
      (congrArg Data.log hc.data) hc.active (congrArg Data.nAtRestart hc.data)
  | @collect b j s1 hpc hc e =>
    subst e
    obtain ⟨job, d, hj, hd, ⟨hsk, tb, rfl⟩ | ⟨_, hn, _, a, ha, rfl⟩ |
      ⟨_, gap, a, a', rc, rb, _, hda, _, _, _, ha, _, _, rfl⟩⟩ := collectJob_cases hc
    · exfalso
      have hmem := List.mem_of_getElem? hj
      rcases hsk with hsk | ⟨hsk, -⟩
      · obtain ⟨⟨q, hq, hqd⟩, -⟩ := getMinDistance_some hd
        have := h.away (by rw [hpc]; trivial) job hmem q hq
        linarith
      · rw [hs.job hb hmem] at hsk; cases hsk
    · exfalso
      rw [hs.job hb (List.mem_of_getElem? hj)] at hn; cases hn
    · have hmem := List.mem_of_getElem? hj
      obtain ⟨-, -, -, -, -, -, -, c0, c1, c2, -⟩ := endPass_ctl ha
      obtain ⟨g, st, hl⟩ := updateLog_frame (addJob pe env s.alg job) (jobResult pe job).1 gap
      rw [hl] at hda
      have hadd := addJob_spec (pe := pe) (env := env) s.alg job
      have d0 : a'.cur = _ := c0.trans ((congrArg Data.cur hda).trans hadd.cur)
      have d1 : a'.all = _ := c1.trans ((congrArg Data.all hda).trans hadd.all)
      have d2 : a'.log = _ := c2.trans ((congrArg Data.log hda).trans hadd.rest.1)
      constructor
      · intro i x hx
        show x.1 ∈ a'.all.pos ∨ (∃ job' ∈ s.evals.eraseIdx j, _) ∨ (i, Fate.lost) ∈ s.hist ++ _
        rw [d1]
        rcases h.where_ i x hx with g | ⟨y, hy, g1, g2⟩ | g
        · exact Or.inl (List.mem_append_left _ g)
        · rcases mem_eraseIdx_or hj hy with rfl | hy
          · left
            refine List.mem_append_right _ ?_
            rw [hu.toOrig, List.mem_singleton, g2]
          · exact Or.inr (Or.inl ⟨y, hy, g1, g2⟩)
        · exact Or.inr (Or.inr (List.mem_append_left _ g))
      · intro x hx y hy
        exact h.apart x (List.mem_of_mem_eraseIdx hx) y (List.mem_of_mem_eraseIdx hy)
      · intro _ x hx q hq
        have hx' : x ∈ s.evals.eraseIdx j := hx
        have hq' : q ∈ a'.cur.pos := hq
        rw [d0] at hq'
        rcases List.mem_append.mp hq' with hq' | hq'
        · exact h.away (by rw [hpc]; trivial) x (List.mem_of_mem_eraseIdx hx') q hq'
        · rw [List.mem_singleton] at hq'
          subst hq'
          exact h.apart x (List.mem_of_mem_eraseIdx hx') job hmem (hb.id_ne hj hx')
      · intro i k x y hik hx hy hxy
        exact List.mem_append_left _ (h.once i k x y hik hx hy hxy)
      · exact d2.trans h.log
      · intro q hq
        have hq' : q ∈ a'.all.pos.drop a'.nAtRestart := hq
        show q ∈ a'.cur.pos
        obtain ⟨-, -, -, -, -, -, -, -, -, -, -, -, -, -, -, -, -, c3, -⟩ := endPass_ctl ha
        rw [c1, show a.all = (addJob pe env s.alg job).all from congrArg Data.all hda, c3,
          show a.nAtRestart = (addJob pe env s.alg job).nAtRestart from
            congrArg Data.nAtRestart hda] at hq'
        rw [c0, show a.cur = (addJob pe env s.alg job).cur from congrArg Data.cur hda]
        exact drop_add_mem hadd (hu.toOrig _) hb.wf.le h.tail hq'
  | @harvest j res s1 hpc hi hpr hc e =>
    subst e
    have hact : s.pc.Active := by rw [hpc]; trivial
    obtain ⟨job, rd, a, tb, hj, ha, hcase⟩ := harvestJob_cases hc
    have ha' : a = s.alg := by
      rcases ha with ha | ⟨i, p, hne, -⟩
      · exact ha
      · exact absurd (hi (Or.inl hP)) hne
    subst ha'
    rcases hcase with rfl | ⟨p0, hp0, hus, ⟨b, v, hr, hre⟩ | ⟨hr, rfl⟩⟩
    · obtain ⟨nc, rc, rb, _, _, e⟩ := harvestDiscard_eq (P := P) (takeSearch s j rd s.alg tb) job.tag
      rw [e]
      exact h.congr rfl rfl rfl rfl rfl rfl (fun _ => hact) rfl
    · obtain ⟨a1, e, gap, a2, hadd, hz, _, hg, he, rfl⟩ := harvestReuse_cases hre
      obtain ⟨-, -, -, -, -, -, -, c0, c1, c2, -⟩ := endPass_ctl he
      obtain ⟨g, st, hl⟩ := updateLog_frame a1 v gap
      rw [hl] at c0 c1 c2
      have d0 : a2.cur = _ := c0.trans hadd.cur
      have d1 : a2.all = _ := c1.trans hadd.all
      have d2 : a2.log = s.alg.log := c2.trans hadd.rest.1
      obtain ⟨-, hfar⟩ := harvestUsable_true hus
      constructor
      · intro i x hx
        show x.1 ∈ a2.all.pos ∨ _
        rw [d1]
        rcases h.where_ i x hx with g | g
        · exact Or.inl (List.mem_append_left _ g)
        · exact Or.inr g
      · exact h.apart
      · intro _ x hx q hq
        have hq' : q ∈ a2.cur.pos := hq
        rw [d0] at hq'
        rcases List.mem_append.mp hq' with hq' | hq'
        · exact h.away hact x hx q hq'
        · rw [List.mem_singleton] at hq'
          subst hq'
          have hx' : x ∈ s.evals := hx
          have hmemt : x.pt ∈ s.tPos := by rw [hb.tpos hact]; exact List.mem_map_of_mem hx'
          rw [hu.symm]
          exact minDist_lt_of hfar hmemt
      · exact h.once
      · exact d2.trans h.log
      · intro q hq
        have hq' : q ∈ a2.all.pos.drop a2.nAtRestart := hq
        show q ∈ a2.cur.pos
        obtain ⟨-, -, -, -, -, -, -, -, -, -, -, -, -, -, -, -, -, c3, -⟩ := endPass_ctl he
        rw [hl] at c3
        rw [c1, c3] at hq'
        rw [c0]
        exact drop_add_mem (a := s.alg) (a' := a1) hadd (hu.toOrig _) hb.wf.le h.tail hq'
    · obtain ⟨⟨d, hd, hdl⟩, hfar⟩ := harvestUsable_true hus
      have hjn : job.noisy = false := hs.searches job (List.mem_of_getElem? hj)
      rw [hjn] at hr
      rw [hu.toOrig] at hr ⊢
      generalize clipPt p0 P.lLower P.lUpper = p at *
      have hcurfar : ∀ q ∈ s.alg.cur.pos, P.minDist < env.dist p q := fun q hq =>
        hdl.trans_le ((getMinDistance_some hd).2 q hq)
      have htfar : ∀ x ∈ s.evals, P.minDist < env.dist p x.pt := by
        intro x hx
        refine minDist_lt_of hfar ?_
        have : s.tPos = _ := hb.tpos hact
        show x.pt ∈ s.tPos
        rw [this]; exact List.mem_map_of_mem hx
      have hnew : p ∉ s.alg.all.pos := by
        intro hm
        rw [← List.take_append_drop s.alg.nAtRestart s.alg.all.pos, List.mem_append] at hm
        rcases hm with hm | hm
        · rcases reusePar_single (P := P) (env := env) hb.wf.allA hs.all (orig := p) with
            ⟨-, g⟩ | ⟨i, q, v, g, -⟩
          · have := g p hm
            rw [hu.refl] at this
            linarith [hu.epsZero]
          · rw [hr] at g; cases g
        · have := hcurfar p (h.tail p hm)
          rw [hu.refl] at this
          linarith [hu.minDist]
      have hnot : ∀ x ∈ s.evals, x.pt ≠ p := by
        intro x hx e
        have := htfar x hx
        rw [e, hu.refl] at this
        linarith [hu.minDist]
      have hlt : ∀ x ∈ s.evals, x.id < s.subs.length := by
        intro x hx
        obtain ⟨_, g, -⟩ := hb.jobs x hx
        exact (List.getElem?_eq_some_iff.mp g).1
      have hself : ∀ (i : ℕ) x, s.subs[i]? = some x → x.1 = p → (i, Fate.lost) ∈ s.hist := by
        intro i x hx hxp
        rcases h.where_ i x hx with g | ⟨y, hy, -, g2⟩ | g
        · rw [hxp] at g; exact absurd g hnew
        · exact absurd (g2.trans hxp) (hnot y hy)
        · exact g
      constructor
      · intro i x hx
        have hx' : (s.subs ++ [(p, job.noisy, harvestTag job.tag res)])[i]? = some x := hx
        show x.1 ∈ s.alg.all.pos ∨ (∃ job' ∈ s.evals ++ [_], _) ∨ (i, Fate.lost) ∈ s.hist
        rcases Nat.lt_or_ge i s.subs.length with hi' | hi'
        · rw [List.getElem?_append_left hi'] at hx'
          rcases h.where_ i x hx' with g | ⟨y, hy, g⟩ | g
          · exact Or.inl g
          · exact Or.inr (Or.inl ⟨y, List.mem_append_left _ hy, g⟩)
          · exact Or.inr (Or.inr g)
        · rw [List.getElem?_append_right hi', List.getElem?_singleton] at hx'
          split at hx'
          · cases hx'
            refine Or.inr (Or.inl ⟨_, List.mem_append_right _ (List.mem_singleton.mpr rfl), ?_, rfl⟩)
            show s.subs.length = i
            omega
          · cases hx'
      · intro x hx y hy hne
        have hx' : x ∈ s.evals ++ [_] := hx
        have hy' : y ∈ s.evals ++ [_] := hy
        rw [List.mem_append, List.mem_singleton] at hx' hy'
        rcases hx' with hx' | rfl <;> rcases hy' with hy' | rfl
        · exact h.apart x hx' y hy' hne
        · rw [hu.symm]; exact htfar x hx'
        · exact htfar y hy'
        · exact absurd rfl hne
      · intro _ x hx q hq
        have hx' : x ∈ s.evals ++ [_] := hx
        rw [List.mem_append, List.mem_singleton] at hx'
        rcases hx' with hx' | rfl
        · exact h.away hact x hx' q hq
        · exact hcurfar q hq
      · intro i k x y hik hx hy hxy
        have hx' : (s.subs ++ [(p, job.noisy, harvestTag job.tag res)])[i]? = some x := hx
        have hy' : (s.subs ++ [(p, job.noisy, harvestTag job.tag res)])[k]? = some y := hy
        show (i, Fate.lost) ∈ s.hist
        rcases Nat.lt_or_ge k s.subs.length with hk | hk
        · rw [List.getElem?_append_left hk] at hy'
          rw [List.getElem?_append_left (by omega)] at hx'
          exact h.once i k x y hik hx' hy' hxy
        · rw [List.getElem?_append_right hk, List.getElem?_singleton] at hy'
          split at hy'
          · cases hy'
            rw [List.getElem?_append_left (by omega)] at hx'
            exact hself i x hx' hxy
          · cases hy'
      · exact h.log
      · exact h.tail
  | @restart s0 s1 pc hc h1 _ hr _ e =>
    subst e
    have h0 : ParFresh P env s0 := h.congr hc.subs hc.evals hc.hist (congrArg Data.all hc.data)
      (congrArg Data.cur hc.data) (congrArg Data.log hc.data) hc.active
      (congrArg Data.nAtRestart hc.data)
    refine h0.restart hu ?_ ?_ (hc.evals.trans h1) hr pc s1.gap
    · exact (congrArg Data.mode hc.data).trans hs.mode
    · rw [show s0.alg.all = s.alg.all from congrArg Data.all hc.data]
      exact hs.noisy_false hb
  | @submit a _ _ _ _ hpm hd _ _ _ _ e =>
    subst e
    exact h.congr rfl rfl rfl (congrArg Data.all hd) (congrArg Data.cur hd) (congrArg Data.log hd)
      (fun _ => by rw [hpm]; trivial) (congrArg Data.nAtRestart hd)
  | @close job todo s1 hp hc e =>
    subst e
    have he := hcl _ hp
    obtain ⟨hn, hne, a, gap, g, st, ha, _, rfl⟩ := closeJob_cases hc
    constructor
    · intro i x hx
      show x.1 ∈ a.all.pos ∨ (∃ job' ∈ s.evals.tail, _) ∨ (i, Fate.lost) ∈ s.hist ++ _
      rw [ha.all]
      rcases h.where_ i x hx with g | ⟨y, hy, g1, g2⟩ | g
      · exact Or.inl (List.mem_append_left _ g)
      · rw [he, List.mem_cons] at hy
        rcases hy with rfl | hy
        · left
          refine List.mem_append_right _ ?_
          rw [hu.toOrig, List.mem_singleton, g2]
        · right; left
          rw [he]
          exact ⟨y, hy, g1, g2⟩
      · exact Or.inr (Or.inr (List.mem_append_left _ g))
    · intro x hx y hy
      exact h.apart x (List.mem_of_mem_tail hx) y (List.mem_of_mem_tail hy)
    · intro hact; exact absurd hact (by simp [PC.Active])
    · intro i k x y hik hx hy hxy
      exact List.mem_append_left _ (h.once i k x y hik hx hy hxy)
    · exact ha.rest.1.trans h.log
    · intro q hq
      have hq' : q ∈ a.all.pos.drop a.nAtRestart := hq
      exact drop_add_mem (a' := a) ha (hu.toOrig _) hb.wf.le h.tail hq'

/-- Between calls nothing is outstanding. -/
theorem ParFresh.idle (h : ParFresh P env s) (he : s.evals = []) (e1 : s'.subs = s.subs)
    (e2 : s'.evals = []) (e3 : s'.hist = s.hist) (e4 : s'.alg.all = s.alg.all)
    (e6 : s'.alg.log = s.alg.log) (e7 : s'.alg.cur = s.alg.cur)
    (e8 : s'.alg.nAtRestart = s.alg.nAtRestart) : ParFresh P env s' := by
  constructor
  · rw [e1, e2, e3, e4, ← he]; exact h.where_
  · rw [e2]; simp
  · rw [e2]; simp
  · rw [e1, e3]; exact h.once
  · rw [e6]; exact h.log
  · rw [e4, e7, e8]; exact h.tail

theorem ParFresh.lose (h : ParFresh P env s) : ParFresh P env s.lose := by
  constructor
  · intro i x hx
    rcases h.where_ i x hx with g | ⟨y, hy, g1, -⟩ | g
    · exact Or.inl g
    · exact Or.inr (Or.inr (List.mem_append_right _ (List.mem_map.mpr ⟨y, hy, by rw [g1]⟩)))
    · exact Or.inr (Or.inr (List.mem_append_left _ g))
  · simp [PState.lose, PState.fresh]
  · simp [PState.lose, PState.fresh]
  · intro i k x y hik hx hy hxy
    exact List.mem_append_left _ (h.once i k x y hik hx hy hxy)
  · exact h.log
  · exact h.tail

/-- The sample of an interrupted restart: new points, all of them lost. -/
theorem ParFresh.cut (hu : Unscaled P env) {s0 t : PState O} (hm : s0.alg.mode = .accurate)
    (hacc : ∀ b ∈ s0.alg.all.noisy, b = false) (h : ParFresh P env s0) (he : s0.evals = [])
    (hc : RestartParCut P env pe s0 t) : ParFresh P env t.lose := by
  have hrem := hc.removed
  obtain ⟨pts, noisy, o, rfl, -, -⟩ := hc.frame
  simp only [initJobs_map_pt] at hrem
  have hnot : ∀ p ∈ pts, p ∉ s0.alg.all.pos := by
    intro p hp hq
    rcases hrem with rfl | ⟨nodePos, a0, a1, r, h1, h2, h3, h4, h5, rfl⟩
    · simp at hp
    · obtain ⟨-, g2, -⟩ := removeExistingIf_spread (h2.trans hm) (by rw [h3]; exact hacc)
        (by rw [h4, h3]) hu.refl hu.epsZero.le (hu.spread _ _ _ h1) h5
      have := g2 p hp p (by rw [h3]; exact hq)
      rw [hu.refl] at this
      linarith [hu.epsZero]
  have hold : ∀ (i : ℕ) x, s0.subs[i]? = some x → x.1 ∈ s0.alg.all.pos ∨ (i, Fate.lost) ∈ s0.hist := by
    intro i x hx
    rcases h.where_ i x hx with g | ⟨job, g, -⟩ | g
    · exact Or.inl g
    · rw [he] at g; cases g
    · exact Or.inr g
  have hlost : ∀ (i : ℕ) (p : Pt), s0.subs.length ≤ i → pts[i - s0.subs.length]? = some p →
      (i, Fate.lost) ∈ s0.hist ++ (initJobs noisy s0.subs.length pts).map
        (fun x => (x.id, Fate.lost)) := by
    intro i p hi hp
    have := mem_initJobs (noisy := noisy) (k := s0.subs.length) hp
    refine List.mem_append_right _ (List.mem_map.mpr ⟨_, this, ?_⟩)
    rw [show s0.subs.length + (i - s0.subs.length) = i by omega]
  constructor
  · intro i x hx
    have hx' : (s0.subs ++ pts.map (fun p => (p, noisy, Tag.init)))[i]? = some x := hx
    rcases Nat.lt_or_ge i s0.subs.length with hi | hi
    · rw [List.getElem?_append_left hi] at hx'
      rcases hold i x hx' with g | g
      · exact Or.inl g
      · exact Or.inr (Or.inr (List.mem_append_left _ g))
    · rw [List.getElem?_append_right hi, List.getElem?_map, Option.map_eq_some_iff] at hx'
      obtain ⟨p, hp', rfl⟩ := hx'
      exact Or.inr (Or.inr (hlost i p hi hp'))
  · simp [PState.lose, PState.fresh]
  · simp [PState.lose, PState.fresh]
  · intro i j x y hij hx hy hxy
    have hx' : (s0.subs ++ pts.map (fun p => (p, noisy, Tag.init)))[i]? = some x := hx
    have hy' : (s0.subs ++ pts.map (fun p => (p, noisy, Tag.init)))[j]? = some y := hy
    rcases Nat.lt_or_ge i s0.subs.length with hi | hi
    · rw [List.getElem?_append_left hi] at hx'
      refine List.mem_append_left _ ?_
      rcases Nat.lt_or_ge j s0.subs.length with hj | hj
      · rw [List.getElem?_append_left hj] at hy'
        exact h.once i j x y hij hx' hy' hxy
      · rw [List.getElem?_append_right hj, List.getElem?_map, Option.map_eq_some_iff] at hy'
        obtain ⟨p, hp', rfl⟩ := hy'
        rcases hold i x hx' with g | g
        · rw [hxy] at g
          exact absurd g (hnot p (List.mem_of_getElem? hp'))
        · exact g
    · rw [List.getElem?_append_right hi, List.getElem?_map, Option.map_eq_some_iff] at hx'
      obtain ⟨p, hp', rfl⟩ := hx'
      exact hlost i p hi hp'
  · exact h.log
  · intro q hq
    have hq' : q ∈ s0.alg.all.pos.drop s0.alg.all.pos.length := hq
    simp at hq'

theorem PReach.parFresh (hu : Unscaled P env) (hP : P.twoPhase = false)
    (h : PReach P env pe o c s) : ParFresh P env s := by
  have hw : ∀ q : PState O, (∀ pc gap, ParFresh P env { q with pc := pc, gap := gap }) →
      ParFresh P env (withGap P q) := by
    intro q h1; unfold withGap; split
    · exact h1 _ q.gap
    · exact h1 _ _
  induction h with
  | init => exact ⟨by simp, by simp, by simp, by simp, by simp [Alg.init], by simp [Alg.init]⟩
  | @call s0 _ pause h0 hs ih =>
    have he := h0.idle_evals
    have hf : ∀ (pc : PC) (gap : EVal) (rc : ℚ),
        ParFresh P env { s0.fresh with pc := pc, gap := gap, refCount := rc } := fun pc gap rc =>
      ih.idle he rfl rfl rfl rfl rfl rfl rfl
    cases hs with
    | zeroFrequency _ => exact hf _ _ _
    | firstFails _ _ _ => exact hf _ _ _
    | @first s1 _ _ hr =>
      apply hw
      intro pc gap
      have hacc : ∀ b ∈ s0.alg.all.noisy, b = false := (h0.single hP).noisy_false h0.book
      exact ParFresh.restart (s0 := s0.fresh) hu (h0.single hP).mode hacc
        (ih.idle he rfl rfl rfl rfl rfl rfl rfl) rfl hr pc gap
    | resumed _ _ =>
      apply hw
      intro pc gap
      exact hf pc gap _
  | @step s s' start pause h0 hs ih =>
    exact hs.kind.parFresh hu hP h0.book (h0.single hP) (fun todo => h0.closing_evals) ih
  | ret h0 hp ih => exact ih.idle (h0.done_evals hp) rfl (h0.done_evals hp) rfl rfl rfl rfl rfl
  | load h0 hp ih => exact ih.lose
  | raises h0 hc ih =>
    have hs := h0.single hP
    obtain ⟨-, rfl | ⟨s1, hp, h1, -, hr, -⟩⟩ := hc.cases
    · exact ih.lose
    · refine ParFresh.cut hu ((congrArg Data.mode hp.data).trans hs.mode) ?_ ?_ h1 hr
      · rw [show s1.alg.all = _ from congrArg Data.all hp.data]
        exact hs.noisy_false h0.book
      · exact ih.congr hp.subs hp.evals hp.hist (congrArg Data.all hp.data)
          (congrArg Data.cur hp.data) (congrArg Data.log hp.data) hp.active
          (congrArg Data.nAtRestart hp.data)
  | @firstRaises s0 _ h0 _ _ hr ih =>
    have hs := h0.single hP
    have hacc : ∀ b ∈ s0.alg.all.noisy, b = false := hs.noisy_false h0.book
    exact ParFresh.cut (s0 := s0.fresh) hu hs.mode hacc
      (ih.idle h0.idle_evals rfl rfl rfl rfl rfl rfl rfl) rfl hr

/-- **C77** (parallel) In a run without `evaluate_noisy` two evaluations are submitted at the same
point only if the earlier one was lost, that is, the process was killed while it was running and the
object was loaded again, or the call was ended by an exception of a worker.  Every interleaving of
workers, any number of calls, restarts, exceptions and crashes. -/
theorem C77_parallel_once (hu : Unscaled P env) (hP : P.twoPhase = false)
    (h : PReach P env pe o c s) {i j : ℕ} {x y : Pt × Bool × Tag} (hij : i < j)
    (hi : s.subs[i]? = some x) (hj : s.subs[j]? = some y) (hxy : x.1 = y.1) :
    (i, Fate.lost) ∈ s.hist := (h.parFresh hu hP).once i j x y hij hi hj hxy

/-- **C77** (parallel) Neither does the main process evaluate anything. -/
theorem C77_parallel_main (hu : Unscaled P env) (hP : P.twoPhase = false)
    (h : PReach P env pe o c s) : s.alg.log = [] := (h.parFresh hu hP).log

variable {eps : ℚ} {vars : List Var}

theorem RunsOn.psources {sc : Scaling} (hw : WellFormed vars) (hrun : RunsOn P env eps vars sc)
    (hsc : sc = .off ∨ (construct eps vars).intVars = []) (htwo : P.twoPhase = true → sc = .off)
    (hprop : ∀ p, pe.proposes p → Proposable (construct eps vars) p)
    (hinit : SamplesIn env (FeasibleInternal (construct eps vars)))
    (huser : ∀ p ∈ P.initPos, FeasibleInternal (construct eps vars) p) :
    PSources (FeasibleInternal (construct eps vars)) P env pe := by
  have hce := construct_eq (eps := eps) hw
  obtain ⟨r1, r2, r3, r4, r5⟩ := hrun
  rw [hce] at hsc hinit huser r1 r2 ⊢
  simp only [hce] at r3 r4 r5 hprop
  refine ⟨hinit, huser, fun p hp => (clip_toOrig_feasible hw r1 r2 r4 hsc (hprop p hp)).2, ?_⟩
  intro h2 p hp
  rw [r4, htwo h2]
  simpa [transformDomain] using hp

/-- **C77** (parallel) The same in the user's coordinates. -/
theorem C77_parallel_coordinates (hw : WellFormed vars) (hrun : RunsOn P env eps vars .off)
    (hprop : ∀ p, pe.proposes p → Proposable (construct eps vars) p)
    (hinit : SamplesIn env (FeasibleInternal (construct eps vars)))
    (huser : ∀ p ∈ P.initPos, FeasibleInternal (construct eps vars) p)
    (hu : Unscaled P env) (hP : P.twoPhase = false) (h : PReach P env pe o c s) {i j : ℕ}
    {x y : Pt × Bool × Tag} (hij : i < j) (hi : s.subs[i]? = some x) (hj : s.subs[j]? = some y)
    (hxy : env.decode x.1 = env.decode y.1) : (i, Fate.lost) ∈ s.hist := by
  have hq := h.dom (hrun.psources hw (Or.inl rfl) (fun _ => rfl) hprop hinit huser)
  refine C77_parallel_once hu hP h hij hi hj ?_
  have hx := hq.subs _ (List.mem_of_getElem? hi)
  have hy := hq.subs _ (List.mem_of_getElem? hj)
  rw [hrun.decode, hrun.decode] at hxy
  rw [← ((C30_bijection hw).2 _ hx).2, ← ((C30_bijection hw).2 _ hy).2, hxy]

/-- **C77** (parallel) If no evaluation was lost, all evaluated points are different. -/
theorem C77_parallel_never_twice (hw : WellFormed vars) (hrun : RunsOn P env eps vars .off)
    (hprop : ∀ p, pe.proposes p → Proposable (construct eps vars) p)
    (hinit : SamplesIn env (FeasibleInternal (construct eps vars)))
    (huser : ∀ p ∈ P.initPos, FeasibleInternal (construct eps vars) p)
    (hu : Unscaled P env) (hP : P.twoPhase = false) (h : PReach P env pe o c s)
    (hlost : ∀ i, (i, Fate.lost) ∉ s.hist) : (s.subs.map (fun x => env.decode x.1)).Nodup := by
  rw [List.nodup_iff_getElem?_ne_getElem?]
  intro i j hij hj heq
  rw [List.length_map] at hj
  rw [List.getElem?_map, List.getElem?_map, List.getElem?_eq_getElem (by omega),
    List.getElem?_eq_getElem hj] at heq
  simp only [Option.map_some, Option.some.injEq] at heq
  exact hlost i (C77_parallel_coordinates hw hrun hprop hinit huser hu hP h hij
    (List.getElem?_eq_getElem (by omega)) (List.getElem?_eq_getElem hj) heq)

/-- **C77** (parallel) On a problem whose variables are all integer or categorical, the number of
evaluations is at most the number of feasible points, plus the number of evaluations lost in
crashes. -/
theorem C77_parallel_finite (hw : WellFormed vars) (hrun : RunsOn P env eps vars .off)
    (hprop : ∀ p, pe.proposes p → Proposable (construct eps vars) p)
    (hinit : SamplesIn env (FeasibleInternal (construct eps vars)))
    (huser : ∀ p ∈ P.initPos, FeasibleInternal (construct eps vars) p)
    (hu : Unscaled P env) (hP : P.twoPhase = false) (hint : ∀ v ∈ vars, v.type ≠ .R)
    (h : PReach P env pe o c s) : s.subs.length ≤ (vars.map (Var.count eps)).prod +
      s.hist.countP (fun x => decide (x.2 = Fate.lost)) := by
  obtain ⟨L, hL, hmem⟩ := feasible_list (eps := eps) hw hint
  have hfeas := (C17_parallel_feasible hw hrun (Or.inl rfl) (fun _ => rfl) hprop hinit huser h).1
  classical
  set lost : Finset ℕ := ((s.hist.filter (fun x => decide (x.2 = Fate.lost))).map Prod.fst).toFinset
    with hlost
  have hml : ∀ i, i ∈ lost ↔ (i, Fate.lost) ∈ s.hist := by
    intro i
    simp only [hlost, List.mem_toFinset, List.mem_map, List.mem_filter, decide_eq_true_eq]
    constructor
    · rintro ⟨⟨a, b⟩, ⟨h1, h2⟩, rfl⟩
      simp only at h2; subst h2; exact h1
    · intro hi; exact ⟨_, ⟨hi, rfl⟩, rfl⟩
  have h1 : lost.card ≤ s.hist.countP (fun x => decide (x.2 = Fate.lost)) := by
    rw [hlost]
    refine (List.toFinset_card_le _).trans ?_
    rw [List.length_map, List.countP_eq_length_filter]
  have h2 : ((Finset.range s.subs.length) \ lost).card ≤ L.toFinset.card := by
    refine Finset.card_le_card_of_injOn (fun i => env.decode (s.subs[i]?.getD ([], false, .init)).1)
      ?_ ?_
    · intro i hi
      simp only [Finset.coe_sdiff, Set.mem_sdiff, Finset.mem_coe, Finset.mem_range] at hi
      simp only [Finset.mem_coe, List.mem_toFinset, List.getElem?_eq_getElem hi.1, Option.getD_some]
      exact hmem _ (hfeas _ (List.getElem_mem hi.1))
    · intro i hi j hj e
      simp only [Finset.coe_sdiff, Set.mem_sdiff, Finset.mem_coe, Finset.mem_range] at hi hj
      simp only [List.getElem?_eq_getElem hi.1, List.getElem?_eq_getElem hj.1,
        Option.getD_some] at e
      rcases Nat.lt_trichotomy i j with g | g | g
      · exact absurd ((hml i).mpr (C77_parallel_coordinates hw hrun hprop hinit huser hu hP h g
          (List.getElem?_eq_getElem hi.1) (List.getElem?_eq_getElem hj.1) e)) hi.2
      · exact g
      · exact absurd ((hml j).mpr (C77_parallel_coordinates hw hrun hprop hinit huser hu hP h g
          (List.getElem?_eq_getElem hj.1) (List.getElem?_eq_getElem hi.1) e.symm)) hj.2
  have h3 := L.toFinset_card_le
  have h4 := Finset.le_card_sdiff lost (Finset.range s.subs.length)
  rw [Finset.card_range] at h4
  omega

end Rbfopt
