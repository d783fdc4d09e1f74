import Verif.Props.Domain
import Verif.Props.Restart
import Verif.Lemmas.More

/-!
# C77: the black box is never evaluated twice at the same point
-/

namespace Rbfopt

variable {O : Type} {P : Params} {env : Env O} {o : O} {c : Ctl} {s : Alg O}

theorem dropPositions_sublist {α : Type} (l : List α) (rem : List ℕ) :
    (dropPositions l rem).Sublist l := by
  unfold dropPositions
  have h : ((l.zipIdx.filter (fun x => decide (x.2 ∉ rem))).map Prod.fst).Sublist
      (l.zipIdx.map Prod.fst) := List.filter_sublist.map _
  rwa [map_fst_zipIdx] at h

theorem mem_dropPositions {α : Type} {l : List α} {rem : List ℕ} {a : α}
    (h : a ∈ dropPositions l rem) : ∃ i, l[i]? = some a ∧ i ∉ rem := by
  unfold dropPositions at h
  obtain ⟨⟨b, i⟩, h1, rfl⟩ := List.mem_map.mp h
  obtain ⟨h2, h3⟩ := List.mem_filter.mp h1
  exact ⟨i, List.mem_zipIdx_iff_getElem?.mp h2, by simpa using h3⟩

/-- The points of a new sample that are evaluated: not repeated, and none of them was recorded
before. -/
theorem removeExistingIf_fresh {pts : List Pt} {r : Removal} (hs : s.mode = .accurate)
    (hacc : ∀ b ∈ s.all.noisy, b = false) (hn : s.nAtRestart = s.all.pos.length)
    (hd : ∀ p, env.dist p p = 0) (he : 0 ≤ P.epsZero) (hnd : pts.Nodup)
    (h : removeExistingIf P env s pts = some r) :
    r.pos.Nodup ∧ ∀ p ∈ r.pos, p ∉ s.all.pos := by
  unfold removeExistingIf at h
  split at h
  · obtain ⟨rem, src, -, -, -, -, -, h4, -, h5⟩ := C25_reuse_partition h
    rw [h4]
    refine ⟨hnd.sublist (dropPositions_sublist _ _), ?_⟩
    intro p hp hmem
    obtain ⟨i, hi, hni⟩ := mem_dropPositions hp
    obtain ⟨j, hj⟩ := List.mem_iff_getElem?.mp hmem
    have hlt := (List.getElem?_eq_some_iff.mp hj).1
    rcases h5 i p hi hni with h6 | ⟨-, j', q', -, h7, -⟩
    · have := h6 j p ⟨by omega, hj⟩
      rw [hd] at this
      exact absurd this (not_lt.mpr he)
    · have := hacc _ (List.mem_of_getElem? h7)
      cases this
  · rename_i h0
    cases h
    refine ⟨hnd, ?_⟩
    have : s.all.pos = [] := List.eq_nil_of_length_eq_zero (by omega)
    rw [this]; simp

theorem restartSample_new {s1 : Alg O} {t1 : Table} (h1 : restartSample P env s = .ok (t1, s1))
    (hs : s.mode = .accurate) (hacc : ∀ b ∈ s.all.noisy, b = false)
    (hn : s.nAtRestart = s.all.pos.length) (hd : ∀ p, env.dist p p = 0) (he : 0 ≤ P.epsZero)
    (hnd : ∀ t pts o, env.initNodes t = .ok (pts, o) → pts.Nodup) :
    ∃ (ps : List Pt) (c1 : List Call), s1.log = s.log ++ c1 ∧
      c1.map Call.point = ps.map env.decode ∧ ps.Nodup ∧ (∀ p ∈ ps, p ∉ s.all.pos) ∧
      (∀ p ∈ ps, p ∈ t1.pos) := by
  unfold restartSample at h1
  split at h1
  · split at h1
    · cases h1
    · rename_i pts o' hin
      dsimp only at h1
      split at h1
      · cases h1
      · rename_i r hr
        have hf := removeExistingIf_fresh (P := P) (env := env) (pts := pts) (r := r)
          (by exact hs) (by exact hacc) (by exact hn) hd he (hnd _ _ _ hin) hr
        split at h1
        · have hlog := evalList_log env r.pos { s with opq := o' }
          obtain ⟨calls, e1, e2, e3, e4, e5⟩ := evalList_spec env r.pos { s with opq := o' }
          simp only [Except.ok.injEq, Prod.mk.injEq] at h1
          obtain ⟨rfl, rfl⟩ := h1
          refine ⟨r.pos, _, hlog, ?_, hf.1, hf.2, fun p hp => List.mem_append_left _ hp⟩
          rw [List.map_zipWith]
          apply List.ext_getElem
          · simp [e4]
          · intro i h1 h2
            simp [Call.point]
        · rename_i hc
          simp [restartAccurate, hs] at hc
  · cases h1
    exact ⟨[], [], by simp, rfl, List.nodup_nil, by simp, by simp⟩

/-- The calls of a restart without `evaluate_noisy`. -/
theorem restart_fresh {s' : Alg O} (h : restart P env s = .ok s') (hs : s.mode = .accurate)
    (hacc : ∀ b ∈ s.all.noisy, b = false) (hd : ∀ p, env.dist p p = 0) (he : 0 ≤ P.epsZero)
    (hnd : ∀ t pts o, env.initNodes t = .ok (pts, o) → pts.Nodup) :
    ∃ (ps : List Pt) (c1 c2 : List Call), s'.log = s.log ++ (c1 ++ c2) ∧ c1.map Call.point = ps.map env.decode ∧
      ps.Nodup ∧ (∀ p ∈ ps, p ∉ s.all.pos) ∧ (∀ p ∈ ps, p ∈ s'.all.pos) ∧
      (∀ c ∈ c2, ∃ p ∈ P.initPos, c.point = env.decode p) ∧
      (P.initPos.length ≤ P.initVal.length → c2 = []) := by
  unfold restart at h
  dsimp only at h
  split at h
  · cases h
  · rename_i t1 s1 h1
    obtain ⟨ps, c1, a1, a2, a3, a4, a5⟩ := restartSample_new h1 hs hacc rfl hd he hnd
    split at h
    · cases h
    · rename_i t2 s2 h2
      obtain ⟨c2, u, hu, l2, u1, u2, u3, u4, u5, u6, u7⟩ := restartUser_calls h2
      unfold restartInstall at h
      dsimp only at h
      split at h
      · cases h
      · split at h
        · split at h
          · cases h
          · split at h
            · cases h
            · split at h
              · cases h
              · simp only [Except.ok.injEq] at h
                have hlog : s'.log = s2.log ∧ s'.all = s2.all.append t2 := by
                  rw [← h, logInit_eq]
                  dsimp only
                  split <;> exact ⟨rfl, rfl⟩
                refine ⟨ps, c1, c2, ?_, a2, a3, a4, ?_, u1, u5⟩
                · rw [hlog.1, l2, a1]; simp
                · intro p hp
                  rw [hlog.2, hu]
                  exact List.mem_append_right _ (List.mem_append_left _ (a5 p hp))
        · cases h

/-- The evaluated points that are not in `ex`. -/
def callsOutside (ex : List Pt) (log : List Call) : List Pt :=
  (log.map Call.point).filter (fun x => decide (x ∉ ex))

theorem callsOutside_append (ex : List Pt) (a b : List Call) :
    callsOutside ex (a ++ b) = callsOutside ex a ++ callsOutside ex b := by
  simp [callsOutside]

/-- Invariant: if all recorded points are in `Q`, no point outside `ex` was evaluated twice, and the
current nodes are the transformed records made since the last restart. -/
def NoRepeat (Q : Pt → Prop) (ex : List Pt) (env : Env O) (s : Alg O) : Prop :=
  DomOK Q env s → (callsOutside ex s.log).Nodup ∧
    List.Forall₂ (fun q o => q = env.toInternal o) s.cur.pos (s.all.pos.drop s.nAtRestart)

theorem NoRepeat.micro {Q : Pt → Prop} {ex : List Pt} {t : Alg O} (hP : P.twoPhase = false)
    (hd : ∀ p, env.dist p p = 0) (hm : 0 ≤ P.minDist) (he : 0 < P.epsZero)
    (hnd : ∀ t pts o, env.initNodes t = .ok (pts, o) → pts.Nodup)
    (hex : P.initPos.length ≤ P.initVal.length ∨ ∀ p ∈ P.initPos, env.decode p ∈ ex)
    (hinj : ∀ p q, Q p → Q q → env.decode p = env.decode q → p = q)
    (hrt : ∀ p, Q (env.toOrig (clipPt p P.lLower P.lUpper)) →
      env.toInternal (env.toOrig (clipPt p P.lLower P.lUpper)) = clipPt p P.lLower P.lUpper)
    (w : WF env s) (hs : SingleOK s) (hcov : CoverOK env s) (h : NoRepeat Q ex env s)
    (hmi : Micro P env s t) : NoRepeat Q ex env t := by
  have hd' : ∀ p, env.dist p p ≤ P.minDist := fun p => by rw [hd]; exact hm
  have hsingle : ∀ b ∈ s.all.noisy, b = false := by
    intro b hb
    obtain ⟨k, hk⟩ := List.mem_iff_getElem?.mp hb
    have hlen := (List.getElem?_eq_some_iff.mp hk).1
    obtain ⟨x1, x2, x3⟩ := w.allA
    exact (hs.2.2 k _ _ b _ (List.getElem?_eq_getElem (by omega))
      (List.getElem?_eq_getElem (by omega)) hk (List.getElem?_eq_getElem (by omega))).1
  -- a new list of calls at fresh points
  have step : ∀ (ps : List Pt) (cs : List Call), DomOK Q env s →
      cs.map Call.point = ps.map env.decode → ps.Nodup → (∀ p ∈ ps, p ∉ s.all.pos) →
      (∀ p ∈ ps, Q p) → (callsOutside ex (s.log ++ cs)).Nodup := by
    intro ps cs hD e1 e2 e3 e4
    rw [callsOutside_append, List.nodup_append]
    refine ⟨(h hD).1, ?_, ?_⟩
    · unfold callsOutside
      rw [e1]
      exact ((List.nodup_map_iff_inj_on e2).mpr
        (fun p hp q hq e => hinj p q (e4 p hp) (e4 q hq) e)).filter _
    · intro x hx y hy exy
      subst exy
      unfold callsOutside at hx hy
      obtain ⟨h1, -⟩ := List.mem_filter.mp hx
      obtain ⟨h2, -⟩ := List.mem_filter.mp hy
      rw [e1] at h2
      obtain ⟨p, hp, hpx⟩ := List.mem_map.mp h2
      obtain ⟨cl, hcl, hcx⟩ := List.mem_map.mp h1
      obtain ⟨i, q, hq, -, hqc⟩ := hcov cl hcl
      have hqm := List.mem_of_getElem? hq
      have : p = q := hinj p q (e4 p hp) (hD.1 q hqm) (by rw [hpx, hqc, hcx])
      exact e3 p hp (this ▸ hqm)
  cases hmi with
  | ctrl e =>
    have e1 : t.all = s.all := congrArg Data.all e
    have e3 : t.log = s.log := congrArg Data.log e
    have e4 : t.cur = s.cur := congrArg Data.cur e
    have e5 : t.nAtRestart = s.nAtRestart := congrArg Data.nAtRestart e
    unfold NoRepeat DomOK; rw [e1, e3, e4, e5]; exact h
  | log obj gap =>
    obtain ⟨g, st, e⟩ := updateLog_frame s obj gap
    rw [e]; exact h
  | restart hr =>
    intro hD
    obtain ⟨ps, c1, c2, b1, b2, b3, b4, b5, b6, b7⟩ :=
      restart_fresh hr hs.1 hsingle hd he.le hnd
    obtain ⟨tb, calls, m, M, i, ho⟩ := restart_spec hr
    have hDs : DomOK Q env s := by
      refine ⟨fun p hp => hD.1 p ?_, fun cl hcl => hD.2 cl ?_⟩
      · rw [ho.all]; exact List.mem_append_left _ hp
      · rw [b1]; exact List.mem_append_left _ hcl
    have hst := step ps c1 hDs b2 b3 b4 (fun p hp => hD.1 p (b5 p hp))
    have hc2 : callsOutside ex c2 = [] := by
      unfold callsOutside
      rw [List.filter_eq_nil_iff]
      intro x hx
      obtain ⟨cl, hcl, rfl⟩ := List.mem_map.mp hx
      rcases hex with hex | hex
      · rw [b7 hex] at hcl; cases hcl
      · obtain ⟨p, hp, e⟩ := b6 cl hcl
        simp only [decide_eq_true_eq, not_not]
        rw [e]; exact hex p hp
    refine ⟨?_, ?_⟩
    · rw [b1, ← List.append_assoc, callsOutside_append, hc2, List.append_nil]
      exact hst
    · rw [ho.cur, ho.all, ho.nAt]
      simp only [Table.append, List.drop_left]
      rw [List.forall₂_map_left_iff, List.forall₂_same]
      exact fun _ _ => rfl
  | removeLocal i h1 _ hr => simp [hP] at h1
  | erase is h1 _ => simp [hP] at h1
  | removeRest i p t' hl hr => rw [restorationLoop_none hd'] at hl; cases hl
  | phase h1 _ => simp [hP] at h1
  | add loc p0 d r hdist hlt hev hadd =>
    intro hD
    obtain ⟨e, ha, -, -⟩ := addResult_spec hadd
    obtain ⟨calls, ho⟩ := evaluateNext_spec hev w.allA
    obtain ⟨q0, q0', -⟩ := ho.data_eqs
    have hall := ha.all
    rw [q0'] at hall
    have hlog : t.log = r.s.log := ha.rest.1
    have hQ : Q (env.toOrig (clipPt p0 P.lLower P.lUpper)) := by
      apply hD.1
      rw [hall]
      exact List.mem_append_right _ (by simp)
    have hDs : DomOK Q env s := by
      refine ⟨fun p hp => hD.1 p ?_, fun cl hcl => hD.2 cl ?_⟩
      · rw [hall]; exact List.mem_append_left _ hp
      · rw [hlog, ho.data_eqs.2.2.2.2.2.2.2.2.2.1]; exact List.mem_append_left _ hcl
    have hpair : List.Forall₂ (fun q o => q = env.toInternal o) t.cur.pos
        (t.all.pos.drop t.nAtRestart) := by
      have hcur := ha.cur
      rw [q0] at hcur
      obtain ⟨g, st, hst⟩ := ho.state
      have hna : t.nAtRestart = s.nAtRestart := by rw [ha.rest.2.2.2.2.1, hst]
      rw [hcur, hall, hna]
      simp only [Table.append]
      rw [List.drop_append_of_le_length w.le]
      exact List.rel_append (h hDs).2 (.cons (hrt p0 hQ).symm .nil)
    refine ⟨?_, hpair⟩
    unfold evaluateNext at hev
    rw [if_pos hs.1] at hev
    cases hri : reuseIndex P env s (env.toOrig (clipPt p0 P.lLower P.lUpper)) with
    | some i =>
      obtain ⟨q, hq⟩ := reuseIndex_nearest hri
      obtain ⟨v, b', e', hv, hb', he'⟩ := w.allA.has hq.1.2
      have : b' = false := hsingle b' (List.mem_of_getElem? hb')
      subst this
      have hra : reuseAcc P env s (env.toOrig (clipPt p0 P.lLower P.lUpper)) = some v := by
        unfold reuseAcc; rw [hri]; simp only; rw [hb', hv]
      rw [hra] at hev
      cases hev
      rw [hlog]
      exact (h hDs).1
    | none =>
      have hra : reuseAcc P env s (env.toOrig (clipPt p0 P.lLower P.lUpper)) = none := by
        unfold reuseAcc; rw [hri]
      rw [hra] at hev
      cases hev
      have hl : t.log = s.log ++ [Call.acc (env.decode (env.toOrig (clipPt p0 P.lLower P.lUpper)))
        (env.evalAcc s.log (env.decode (env.toOrig (clipPt p0 P.lLower P.lUpper))))] := hlog
      rw [hl]
      refine step [env.toOrig (clipPt p0 P.lLower P.lUpper)] _ hDs rfl (by simp) ?_ (by simpa using hQ)
      simp only [List.mem_singleton, forall_eq]
      intro hmem
      obtain ⟨j, hj⟩ := List.mem_iff_getElem?.mp hmem
      rcases Nat.lt_or_ge j s.nAtRestart with hlt' | hge
      · have := reuseIndex_none hri j _ ⟨hlt', hj⟩
        rw [hd] at this
        linarith
      · have hdr : (s.all.pos.drop s.nAtRestart)[j - s.nAtRestart]? =
            some (env.toOrig (clipPt p0 P.lLower P.lUpper)) := by
          rw [List.getElem?_drop]
          rw [show s.nAtRestart + (j - s.nAtRestart) = j by omega]
          exact hj
        have hlen := (List.getElem?_eq_some_iff.mp hdr).1
        have hlen' : j - s.nAtRestart < s.cur.pos.length := by
          rw [w.pos.length_eq]; exact hlen
        have hrel := (forall₂_iff_get.mp (h hDs).2).2 _ _ _ (List.getElem?_eq_getElem hlen') hdr
        have heq : s.cur.pos[j - s.nAtRestart] = clipPt p0 P.lLower P.lUpper := by
          rw [hrel, hrt p0 hQ]
        have := getMinDistance_gt hdist hlt _ (List.getElem_mem hlen')
        rw [heq, hd] at this
        linarith

theorem Reach.noRepeat {Q : Pt → Prop} {ex : List Pt} (hP : P.twoPhase = false)
    (hd : ∀ p, env.dist p p = 0) (hm : 0 ≤ P.minDist) (he : 0 < P.epsZero)
    (hnd : ∀ t pts o, env.initNodes t = .ok (pts, o) → pts.Nodup)
    (hex : P.initPos.length ≤ P.initVal.length ∨ ∀ p ∈ P.initPos, env.decode p ∈ ex)
    (hinj : ∀ p q, Q p → Q q → env.decode p = env.decode q → p = q)
    (hrt : ∀ p, Q (env.toOrig (clipPt p P.lLower P.lUpper)) →
      env.toInternal (env.toOrig (clipPt p P.lLower P.lUpper)) = clipPt p P.lLower P.lUpper)
    (h : Reach P env o c s) : NoRepeat Q ex env s :=
  (h.inv' (I := fun s => SingleOK s ∧ CoverOK env s ∧ NoRepeat Q ex env s)
    ⟨by simp [SingleOK, Alg.init, hP, Table.All], by intro c hc; simp [Alg.init] at hc,
      fun _ => by simp [Alg.init, callsOutside]⟩
    (fun _ _ w hs hm' => ⟨hs.1.micro hP w hm',
      hs.2.1.micro hP (fun p => by rw [hd]; exact hm) w hs.1 hm',
      hs.2.2.micro hP hd hm he hnd hex hinj hrt w hs.1 hs.2.1 hm'⟩)).2.2

variable {eps : ℚ} {vars : List Var}

theorem layout_proper (hw : WellFormed vars) (he : 0 ≤ eps) :
    ProperBox (layout eps vars).lower (layout eps vars).upper := by
  have el : (layout eps vars).lower = (nonCats (simpVars eps vars)).map Var.lower ++
    List.replicate (numBin (simpVars eps vars)) 0 := rfl
  have eu : (layout eps vars).upper = (nonCats (simpVars eps vars)).map Var.upper ++
    List.replicate (numBin (simpVars eps vars)) 1 := rfl
  unfold ProperBox
  rw [el, eu]
  apply List.rel_append
  · rw [List.forall₂_map_left_iff, List.forall₂_map_right_iff, List.forall₂_same]
    intro v hv
    have hv' := (List.mem_filter.mp hv).1
    have h1 := (hw.simp (eps := eps) v hv').1
    unfold simpVars at hv'
    obtain ⟨v0, hv0, rfl⟩ := List.mem_map.mp hv'
    have h2 := (List.mem_filter.mp hv0).2
    rw [simplify_lower, simplify_upper] at h1 ⊢
    unfold Var.isFixed at h2
    rcases lt_or_eq_of_le h1 with h | h
    · exact h
    · simp [h, he] at h2
  · exact List.forall₂_iff_get.mpr ⟨by simp, by intro i h1 h2; simp⟩

theorem affine_fwd_rev_take {l u : Pt} (h : ProperBox l u) (q : Pt) :
    affineFwd l u (affineRev l u q) = q.take l.length := by
  induction h generalizing q with
  | nil => simp [affineFwd]
  | @cons a b l u hab _ ih =>
    cases q with
    | nil => simp [affineRev, affineFwd]
    | cons x q =>
      simp only [affineRev, affineFwd, List.length_cons, List.take_succ_cons, List.cons.injEq]
      have : b - a ≠ 0 := by intro h0; linarith
      refine ⟨?_, ih q⟩
      rw [if_neg this]
      field_simp
      ring

theorem clipPt_length_le (p l u : Pt) : (clipPt p l u).length ≤ l.length := by
  induction p generalizing l u with
  | nil => simp [clipPt]
  | cons x p ih =>
    cases l with
    | nil => simp [clipPt]
    | cons a l =>
      cases u with
      | nil => simp [clipPt]
      | cons b u => simp [clipPt, ih]

/-- Clipped points survive the transformation back and forth. -/
theorem RunsOn.roundTrip {sc : Scaling} (hw : WellFormed vars) (heps : 0 ≤ eps)
    (hrun : RunsOn P env eps vars sc) (p : Pt) :
    env.toInternal (env.toOrig (clipPt p P.lLower P.lUpper)) = clipPt p P.lLower P.lUpper := by
  rw [hrun.toInternal, hrun.toOrig]
  have hce := construct_eq (eps := eps) hw
  have hp := layout_proper hw heps
  unfold transformDomain
  by_cases hc : sc = .off ∨ (construct eps vars).intVars ≠ []
  · rw [if_pos hc, if_pos hc]
  · rw [if_neg hc, if_neg hc]
    simp only [Bool.false_eq_true, if_false, if_true]
    rw [hce, affine_fwd_rev_take hp, List.take_of_length_le]
    refine (clipPt_length_le _ _ _).trans ?_
    rw [hrun.lower, hce]
    cases sc with
    | off => simp at hc
    | affine => simp [transformBounds]

/-- **C77** A run without `evaluate_noisy` never evaluates the black box twice at the same point, in
the user's coordinates, over any sequence of calls of `optimize()` and any number of restarts, except
at the user's own initial points if their values are not given; the samples themselves must not have
repeated points.  Every setting, every behaviour of the searches; any mix of variable types. -/
theorem C77_only_user_points {sc : Scaling} (hw : WellFormed vars) (heps : 0 ≤ eps)
    (hrun : RunsOn P env eps vars sc)
    (hsc : sc = .off ∨ (construct eps vars).intVars = [])
    (hprop : ProposalsIn env (Proposable (construct eps vars)))
    (hinit : SamplesIn env (FeasibleInternal (construct eps vars)))
    (hnd : ∀ t pts o, env.initNodes t = .ok (pts, o) → pts.Nodup)
    (huser : ∀ p ∈ P.initPos, FeasibleInternal (construct eps vars) p)
    (hP : P.twoPhase = false) (hd : ∀ p, env.dist p p = 0) (hm : 0 ≤ P.minDist)
    (he : 0 < P.epsZero) (h : Reach P env o c s) {i j : ℕ} {a b : Call} (hij : i < j)
    (hi : s.log[i]? = some a) (hj : s.log[j]? = some b) (heq : a.point = b.point) :
    P.initVal.length < P.initPos.length ∧ ∃ p ∈ P.initPos, a.point = env.decode p := by
  have hD := (h.domK (hrun.sources hw hsc hprop hinit huser)).2
  have hinj : ∀ p q, FeasibleInternal (construct eps vars) p →
      FeasibleInternal (construct eps vars) q → env.decode p = env.decode q → p = q := by
    intro p q hp hq e
    rw [hrun.decode, hrun.decode] at e
    rw [← ((C30_bijection hw).2 p hp).2, ← ((C30_bijection hw).2 q hq).2, e]
  have hrt := fun p (_ : FeasibleInternal (construct eps vars)
    (env.toOrig (clipPt p P.lLower P.lUpper))) => hrun.roundTrip hw heps p
  -- two equal points in the log contradict any list of exceptions that does not contain them
  have key : ∀ ex : List Pt, (callsOutside ex s.log).Nodup → a.point ∈ ex := by
    intro ex hN
    by_contra hx
    obtain ⟨hil, hi'⟩ := List.getElem?_eq_some_iff.mp hi
    obtain ⟨hjl, hj'⟩ := List.getElem?_eq_some_iff.mp hj
    have hsub : [a, b].Sublist s.log := by
      refine List.Sublist.trans ?_ (List.drop_sublist i s.log)
      rw [List.drop_eq_getElem_cons hil, hi']
      refine List.Sublist.cons_cons a (List.singleton_sublist.mpr ?_)
      refine List.mem_of_getElem? (i := j - (i + 1)) ?_
      rw [List.getElem?_drop, show i + 1 + (j - (i + 1)) = j by omega, hj]
    have h2 : (callsOutside ex [a, b]).Sublist (callsOutside ex s.log) :=
      (hsub.map _).filter _
    have h3 := hN.sublist h2
    have hx' : b.point ∉ ex := heq ▸ hx
    simp [callsOutside, hx, hx', heq] at h3
  rcases Nat.lt_or_ge P.initVal.length P.initPos.length with hlt | hge
  · refine ⟨hlt, ?_⟩
    have := key (P.initPos.map env.decode) (h.noRepeat (Q := FeasibleInternal (construct eps vars))
      hP hd hm he hnd (Or.inr fun p hp => List.mem_map_of_mem hp) hinj hrt hD).1
    obtain ⟨p, hp, e⟩ := List.mem_map.mp this
    exact ⟨p, hp, e.symm⟩
  · have := key [] (h.noRepeat (Q := FeasibleInternal (construct eps vars))
      hP hd hm he hnd (Or.inl hge) hinj hrt hD).1
    cases this

/-- **C77** With the values of the initial points given (or no initial points), all evaluated points
are different. -/
theorem C77_never_twice {sc : Scaling} (hw : WellFormed vars) (heps : 0 ≤ eps)
    (hrun : RunsOn P env eps vars sc)
    (hsc : sc = .off ∨ (construct eps vars).intVars = [])
    (hprop : ProposalsIn env (Proposable (construct eps vars)))
    (hinit : SamplesIn env (FeasibleInternal (construct eps vars)))
    (hnd : ∀ t pts o, env.initNodes t = .ok (pts, o) → pts.Nodup)
    (huser : ∀ p ∈ P.initPos, FeasibleInternal (construct eps vars) p)
    (hval : P.initPos.length ≤ P.initVal.length)
    (hP : P.twoPhase = false) (hd : ∀ p, env.dist p p = 0) (hm : 0 ≤ P.minDist)
    (he : 0 < P.epsZero) (h : Reach P env o c s) : (s.log.map Call.point).Nodup := by
  rw [List.nodup_iff_getElem?_ne_getElem?]
  intro i j hij hj heq
  rw [List.length_map] at hj
  rw [List.getElem?_map, List.getElem?_map, List.getElem?_eq_getElem (by omega),
    List.getElem?_eq_getElem hj] at heq
  simp only [Option.map_some, Option.some.injEq] at heq
  have := (C77_only_user_points hw heps hrun hsc hprop hinit hnd huser hP hd hm he h hij
    (List.getElem?_eq_getElem (by omega)) (List.getElem?_eq_getElem hj) heq).1
  omega

/-- Number of feasible values of an integer or categorical variable. -/
def Var.count (eps : ℚ) (v : Var) : ℕ :=
  if |v.lower - v.upper| ≤ eps then 1 else (⌊v.upper - v.lower⌋ + 1).toNat

/-- The feasible points of a problem with integer and categorical variables can be listed. -/
theorem feasible_list (hw : WellFormed vars) (hint : ∀ v ∈ vars, v.type ≠ .R) :
    ∃ L : List Pt, L.length = (vars.map (Var.count eps)).prod ∧
      ∀ x, FeasibleUser eps vars x → x ∈ L := by
  induction vars with
  | nil =>
    refine ⟨[[]], rfl, fun x hx => ?_⟩
    cases hx; simp
  | cons v vs ih =>
    obtain ⟨L, hL, hm'⟩ := ih (fun u hu => hw u (List.mem_cons_of_mem _ hu))
      (fun u hu => hint u (List.mem_cons_of_mem _ hu))
    obtain ⟨V, hV, hvm⟩ : ∃ V : List ℚ, V.length = v.count eps ∧
        ∀ x, v.Feasible eps x → x ∈ V := by
      unfold Var.count Var.Feasible
      by_cases hf : |v.lower - v.upper| ≤ eps
      · rw [if_pos hf]
        refine ⟨[v.lower], rfl, fun x hx => ?_⟩
        rw [if_pos hf] at hx
        simp [hx]
      · rw [if_neg hf]
        refine ⟨(List.range (⌊v.upper - v.lower⌋ + 1).toNat).map (fun k : ℕ => v.lower + (k : ℚ)),
          by simp, fun x hx => ?_⟩
        rw [if_neg hf] at hx
        obtain ⟨x1, x2, x3⟩ := hx
        have hR := hint v (by simp)
        obtain ⟨k, hk⟩ := x3 hR
        obtain ⟨l, hl⟩ := ((hw v (by simp)).2 hR).1
        rw [List.mem_map]
        refine ⟨(k - l).toNat, ?_, ?_⟩
        · rw [List.mem_range]
          have : k - l ≤ ⌊v.upper - v.lower⌋ := by
            rw [Int.le_floor]
            push_cast
            rw [← hk, ← hl]; linarith
          have h0 : 0 ≤ k - l := by
            have : (l : ℚ) ≤ k := by rw [← hk, ← hl]; exact x1
            have : l ≤ k := by exact_mod_cast this
            omega
          omega
        · have h0 : l ≤ k := by
            have : (l : ℚ) ≤ k := by rw [← hk, ← hl]; exact x1
            exact_mod_cast this
          have : (((k - l).toNat : ℕ) : ℚ) = (k : ℚ) - l := by
            have e : (((k - l).toNat : ℕ) : ℤ) = k - l := Int.toNat_of_nonneg (by omega)
            have := congrArg (fun z : ℤ => (z : ℚ)) e
            push_cast at this
            simpa using this
          rw [this, hk, hl]; ring
    refine ⟨(V.map (fun x => L.map (fun y => x :: y))).flatten, ?_, ?_⟩
    · rw [List.length_flatten, List.map_map]
      have : (List.length ∘ fun x => L.map (fun y => x :: y)) = fun _ => L.length := by
        funext x; simp
      rw [this]
      simp [hL, hV]
    · intro x hx
      cases hx with
      | cons hx hxs =>
        rw [List.mem_flatten]
        exact ⟨_, List.mem_map.mpr ⟨_, hvm _ hx, rfl⟩, List.mem_map.mpr ⟨_, hm' _ hxs, rfl⟩⟩

/-- **C77** On a problem whose variables are all integer or categorical, the number of evaluations is
at most the number of feasible points. -/
theorem C77_finite {sc : Scaling} (hw : WellFormed vars) (heps : 0 ≤ eps)
    (hrun : RunsOn P env eps vars sc)
    (hsc : sc = .off ∨ (construct eps vars).intVars = [])
    (hprop : ProposalsIn env (Proposable (construct eps vars)))
    (hinit : SamplesIn env (FeasibleInternal (construct eps vars)))
    (hnd : ∀ t pts o, env.initNodes t = .ok (pts, o) → pts.Nodup)
    (huser : ∀ p ∈ P.initPos, FeasibleInternal (construct eps vars) p)
    (hval : P.initPos.length ≤ P.initVal.length)
    (hP : P.twoPhase = false) (hd : ∀ p, env.dist p p = 0) (hm : 0 ≤ P.minDist)
    (he : 0 < P.epsZero) (hint : ∀ v ∈ vars, v.type ≠ .R) (h : Reach P env o c s) :
    s.evalcount ≤ (vars.map (Var.count eps)).prod := by
  have h1 := C77_never_twice hw heps hrun hsc hprop hinit hnd huser hval hP hd hm he h
  have h2 := C17_feasible_evaluations hw hrun hsc hprop hinit huser h
  obtain ⟨L, hL, hmem⟩ := feasible_list (eps := eps) hw hint
  have hsub : (s.log.map Call.point) ⊆ L := by
    intro x hx
    obtain ⟨cl, hcl, rfl⟩ := List.mem_map.mp hx
    exact hmem _ (h2 cl hcl)
  have hlen := (h1.subperm hsub).length_le
  rw [List.length_map, hL] at hlen
  have hc : s.evalcount = countAcc s.log :=
    (h.inv' (I := CountsOK) (by simp [CountsOK, Alg.init]) (fun _ _ w hs hm => hs.micro w hm)).1
  rw [hc]
  have := length_eq_counts s.log
  omega

end Rbfopt
