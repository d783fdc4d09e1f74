import Verif.Model.Domain
import Verif.Lemmas.Domain
import Verif.Examples.Problem

/-!
# Domain scaling, and where the black box is evaluated
-/

namespace Rbfopt

variable {O : Type}

/-! ## C34 -/

theorem affineFwd_length {l u p : Pt} (h1 : l.length = u.length) (h2 : l.length = p.length) :
    (affineFwd l u p).length = p.length := by
  induction l generalizing u p with
  | nil => cases p <;> simp_all [affineFwd]
  | cons a l ih =>
    cases u with
    | nil => simp at h1
    | cons b u =>
      cases p with
      | nil => simp at h2
      | cons x p =>
        simp only [List.length_cons, Nat.add_right_cancel_iff] at h1 h2
        simp [affineFwd, ih h1 h2]

theorem affineRev_length {l u p : Pt} (h1 : l.length = u.length) (h2 : l.length = p.length) :
    (affineRev l u p).length = p.length := by
  induction l generalizing u p with
  | nil => cases p <;> simp_all [affineRev]
  | cons a l ih =>
    cases u with
    | nil => simp at h1
    | cons b u =>
      cases p with
      | nil => simp at h2
      | cons x p =>
        simp only [List.length_cons, Nat.add_right_cancel_iff] at h1 h2
        simp [affineRev, ih h1 h2]

theorem affine_fwd_box {l u p : Pt} (h : InBox l u p) :
    InBox (List.replicate l.length 0) (List.replicate u.length 1) (affineFwd l u p) ∧
    affineRev l u (affineFwd l u p) = p := by
  obtain ⟨h1, h2⟩ := h
  induction h1 generalizing u with
  | nil => cases h2; exact ⟨⟨.nil, .nil⟩, rfl⟩
  | @cons a x l p hax hlp ih =>
    cases h2 with
    | @cons _ b _ u hxb hpu =>
      obtain ⟨⟨g1, g2⟩, g3⟩ := ih hpu
      have key : 0 ≤ (x - a) / (if b - a = 0 then 1 else b - a) ∧
          (x - a) / (if b - a = 0 then 1 else b - a) ≤ 1 ∧
          (x - a) / (if b - a = 0 then 1 else b - a) * (b - a) + a = x := by
        split
        · rename_i h0
          have hx : x = a := by linarith
          subst hx; simp
        · rename_i h0
          have hpos : 0 < b - a := lt_of_le_of_ne (by linarith) (Ne.symm h0)
          refine ⟨div_nonneg (by linarith) hpos.le, (div_le_one hpos).mpr (by linarith), ?_⟩
          rw [div_mul_cancel₀ _ h0]; ring
      refine ⟨⟨?_, ?_⟩, ?_⟩
      · exact List.Forall₂.cons key.1 g1
      · exact List.Forall₂.cons key.2.1 g2
      · simp only [affineFwd, affineRev, List.cons.injEq]
        exact ⟨key.2.2, g3⟩

theorem affine_rev_box {l u q : Pt} (hlu : List.Forall₂ (· ≤ ·) l u)
    (h : InBox (List.replicate l.length 0) (List.replicate u.length 1) q) :
    InBox l u (affineRev l u q) ∧
    (ProperBox l u → affineFwd l u (affineRev l u q) = q) := by
  obtain ⟨h1, h2⟩ := h
  induction hlu generalizing q with
  | nil => cases h2; exact ⟨⟨.nil, .nil⟩, fun _ => rfl⟩
  | @cons a b l u hab hlu ih =>
    simp only [List.length_cons, List.replicate_succ] at h1 h2
    cases h1 with
    | @cons _ x _ q hx hq =>
      cases h2 with
      | cons hx' hq' =>
        obtain ⟨⟨g1, g2⟩, g3⟩ := ih hq hq'
        have hd : 0 ≤ b - a := by linarith
        refine ⟨⟨List.Forall₂.cons ?_ g1, List.Forall₂.cons ?_ g2⟩, ?_⟩
        · have := mul_nonneg hx hd; linarith
        · have := mul_le_mul_of_nonneg_right hx' hd; linarith
        · intro hp
          cases hp with
          | cons hlt hp =>
            have h0 : b - a ≠ 0 := by intro h; linarith
            simp only [affineRev, affineFwd, List.cons.injEq]
            refine ⟨?_, g3 hp⟩
            rw [if_neg h0]
            field_simp
            ring

/-- **C34** (proved part) Whenever points are scaled or nothing is scaled (that is, except for
explicit affine scaling in the presence of integer variables): points of the box are mapped into the
internal box and restored by the reverse transformation; points of the internal box are mapped into
the box, and restored by the forward transformation when no variable has equal bounds. -/
theorem C34_domain_scaling {sc : Scaling} {lower upper : Pt} {ints : List ℕ}
    (hsc : sc = .off ∨ ints = []) (hlu : List.Forall₂ (· ≤ ·) lower upper) :
    (∀ p, InBox lower upper p →
      InBox (transformBounds sc lower upper).1 (transformBounds sc lower upper).2
        (transformDomain sc lower upper ints false p) ∧
      transformDomain sc lower upper ints true (transformDomain sc lower upper ints false p) = p) ∧
    (∀ q, InBox (transformBounds sc lower upper).1 (transformBounds sc lower upper).2 q →
      InBox lower upper (transformDomain sc lower upper ints true q) ∧
      (ProperBox lower upper →
        transformDomain sc lower upper ints false (transformDomain sc lower upper ints true q)
          = q)) := by
  cases sc with
  | off =>
    simp only [transformDomain, transformBounds, true_or, if_true]
    exact ⟨fun p hp => ⟨hp, by trivial⟩, fun q hq => ⟨hq, fun _ => by trivial⟩⟩
  | affine =>
    have hi : ints = [] := by simpa using hsc
    subst hi
    have e : ∀ rev p, transformDomain .affine lower upper [] rev p =
        if rev then affineRev lower upper p else affineFwd lower upper p := by
      intro rev p; simp [transformDomain]
    simp only [e, transformBounds, if_true, Bool.false_eq_true, if_false]
    exact ⟨fun p hp => affine_fwd_box hp, fun q hq => affine_rev_box hlu hq⟩

/-- **C34** The bulk version does to every row what the single version does. -/
theorem C34_bulk (sc : Scaling) (lower upper : Pt) (ints : List ℕ) (rev : Bool) {ps : List Pt}
    (h : ps ≠ []) : bulkTransformDomain sc lower upper ints rev ps =
      some (ps.map (transformDomain sc lower upper ints rev)) := by
  unfold bulkTransformDomain
  rw [if_neg h]
  split
  · rename_i hc
    congr 1
    conv_lhs => rw [← List.map_id ps]
    apply List.map_congr_left
    intro p _; simp [transformDomain, hc]
  · rename_i hc
    split
    · rename_i hr
      congr 1
      apply List.map_congr_left
      intro p _; simp [transformDomain, hc, hr]
    · rename_i hr
      congr 1
      apply List.map_congr_left
      intro p _; simp [transformDomain, hc, hr]

/-- **C34** (violation) With explicit affine scaling and integer variables, points are not scaled
but the internal box is the unit box: every box with a bound above 1 has a point that is mapped
outside the internal box. -/
theorem C34_violated_affine_with_integers {lower upper : Pt} {ints : List ℕ} (hi : ints ≠ [])
    (hlu : List.Forall₂ (· ≤ ·) lower upper) {k : ℕ} {b : ℚ} (hk : upper[k]? = some b)
    (hb : 1 < b) : ∃ p, InBox lower upper p ∧
      ¬ InBox (transformBounds .affine lower upper).1 (transformBounds .affine lower upper).2
        (transformDomain .affine lower upper ints false p) := by
  refine ⟨upper, ⟨hlu, List.forall₂_same.mpr (fun _ _ => le_rfl)⟩, ?_⟩
  rintro ⟨-, h⟩
  have e : transformDomain .affine lower upper ints false upper = upper := by
    simp [transformDomain, hi]
  rw [e] at h
  have hlt := (List.getElem?_eq_some_iff.mp hk).1
  have := (forall₂_iff_get.mp h).2 k b 1 hk (by simp [transformBounds, hlt])
  linarith

/-! ## C17 -/

/-- The engine runs on the problem `vars` with domain scaling `sc`: the bounds, the scaling and the
decoding are those computed by the constructor (rbfopt_algorithm.py:393-394, 439-446). -/
structure RunsOn (P : Params) (env : Env O) (eps : ℚ) (vars : List Var) (sc : Scaling) : Prop where
  lower : P.lLower = (transformBounds sc (construct eps vars).lower (construct eps vars).upper).1
  upper : P.lUpper = (transformBounds sc (construct eps vars).lower (construct eps vars).upper).2
  toInternal : ∀ p, env.toInternal p = transformDomain sc (construct eps vars).lower
    (construct eps vars).upper (construct eps vars).intVars false p
  toOrig : ∀ p, env.toOrig p = transformDomain sc (construct eps vars).lower
    (construct eps vars).upper (construct eps vars).intVars true p
  decode : ∀ p, env.decode p = decodePt (construct eps vars) p

/-- What is required of a proposal: right dimension, integers for the integer variables, exactly one
category per categorical variable.  Nothing is required of the real coordinates, nor that the point
is in the box. -/
structure Proposable (I : Internal) (p : Pt) : Prop where
  length : p.length = I.dim
  integral : ∀ i ∈ I.intVars, IsInt (p.getD i 0)
  oneHot : ∀ e ∈ I.expansion, OneHotAt p e.2.2

theorem clipPt_get {p l u : Pt} {i : ℕ} {x a b : ℚ} (hx : p[i]? = some x) (ha : l[i]? = some a)
    (hb : u[i]? = some b) : (clipPt p l u)[i]? = some (clip1 x a b) := by
  induction p generalizing l u i with
  | nil => simp at hx
  | cons y p ih =>
    cases l with
    | nil => simp at ha
    | cons a' l =>
      cases u with
      | nil => simp at hb
      | cons b' u =>
        cases i with
        | zero => simp_all [clipPt]
        | succ i => simp only [List.getElem?_cons_succ] at *; simp only [clipPt]; exact ih hx ha hb

theorem clipPt_length {p l u : Pt} (h1 : l.length = p.length) (h2 : u.length = p.length) :
    (clipPt p l u).length = p.length := by
  induction p generalizing l u with
  | nil => cases l <;> simp_all [clipPt]
  | cons y p ih =>
    cases l with
    | nil => simp at h1
    | cons a' l =>
      cases u with
      | nil => simp at h2
      | cons b' u =>
        simp only [List.length_cons, Nat.add_right_cancel_iff] at h1 h2
        simp [clipPt, ih h1 h2]

theorem clip1_mem {x a b : ℚ} (h : a ≤ b) : a ≤ clip1 x a b ∧ clip1 x a b ≤ b :=
  ⟨le_min h (le_max_right _ _), min_le_left _ _⟩

theorem clip1_self {x a b : ℚ} (h1 : a ≤ x) (h2 : x ≤ b) : clip1 x a b = x := by
  unfold clip1; rw [max_eq_left h1, min_eq_right h2]

theorem clip1_int {x a b : ℚ} (hx : IsInt x) (ha : IsInt a) (hb : IsInt b) :
    IsInt (clip1 x a b) := by
  unfold clip1
  rcases min_choice b (max x a) with h | h <;> rw [h]
  · exact hb
  · rcases max_choice x a with h | h <;> rw [h]
    · exact hx
    · exact ha

theorem clipPt_inBox {p l u : Pt} (h : List.Forall₂ (· ≤ ·) l u) (hp : p.length = l.length) :
    InBox l u (clipPt p l u) := by
  have hlu := h.length_eq
  have hc := clipPt_length (p := p) (l := l) (u := u) hp.symm (by omega)
  constructor
  · rw [forall₂_iff_get]
    refine ⟨by rw [hc, hp], ?_⟩
    intro i a y ha hy
    have hi := (List.getElem?_eq_some_iff.mp ha).1
    have hb : u[i]? = some (u[i]'(by omega)) := List.getElem?_eq_getElem _
    have hx : p[i]? = some (p[i]'(by omega)) := List.getElem?_eq_getElem _
    rw [clipPt_get hx ha hb] at hy
    cases hy
    exact (clip1_mem ((forall₂_iff_get.mp h).2 i a _ ha hb)).1
  · rw [forall₂_iff_get]
    refine ⟨by rw [hc]; omega, ?_⟩
    intro i y b hy hb
    have hi := (List.getElem?_eq_some_iff.mp hb).1
    have ha : l[i]? = some (l[i]'(by omega)) := List.getElem?_eq_getElem _
    have hx : p[i]? = some (p[i]'(by omega)) := List.getElem?_eq_getElem _
    rw [clipPt_get hx ha hb] at hy
    cases hy
    exact (clip1_mem ((forall₂_iff_get.mp h).2 i _ b ha hb)).2

variable {eps : ℚ} {vars : List Var}

theorem expansionFrom_pos {vs : List Var} {cur : ℕ} {is : List ℕ} {e : ℕ × ℚ × List ℕ}
    (he : e ∈ expansionFrom vs cur is) : ∀ i ∈ e.2.2, cur ≤ i ∧
      i < cur + (is.map (fun i => (vs.getD i default).numCats)).sum := by
  induction is generalizing cur with
  | nil => simp [expansionFrom] at he
  | cons j is ih =>
    simp only [expansionFrom, List.mem_cons] at he
    rw [List.map_cons, List.sum_cons]
    rcases he with rfl | he
    · intro i hi
      have := List.mem_range'_1.mp hi
      omega
    · intro i hi
      have := ih he i hi
      omega

theorem replicate_le {a b : ℚ} (h : a ≤ b) (n : ℕ) :
    List.Forall₂ (· ≤ ·) (List.replicate n a) (List.replicate n b) := by
  induction n with
  | zero => exact .nil
  | succ n ih => exact .cons h ih

/-- Facts on the internal bounds. -/
theorem layout_bounds (hw : WellFormed vars) :
    List.Forall₂ (· ≤ ·) (layout eps vars).lower (layout eps vars).upper ∧
    (layout eps vars).lower.length = (layout eps vars).dim ∧
    (∀ i ∈ (layout eps vars).intVars, i < (layout eps vars).dim ∧
      IsInt ((layout eps vars).lower.getD i 0) ∧ IsInt ((layout eps vars).upper.getD i 0)) ∧
    (∀ e ∈ (layout eps vars).expansion, ∀ i ∈ e.2.2, (layout eps vars).lower[i]? = some 0 ∧
      (layout eps vars).upper[i]? = some 1) := by
  have hws := hw.simp (eps := eps)
  have el : (layout eps vars).lower = (nonCats (simpVars eps vars)).map Var.lower ++
    List.replicate (numBin (simpVars eps vars)) 0 := rfl
  have eu : (layout eps vars).upper = (nonCats (simpVars eps vars)).map Var.upper ++
    List.replicate (numBin (simpVars eps vars)) 1 := rfl
  have ed : (layout eps vars).dim =
    (nonCats (simpVars eps vars)).length + numBin (simpVars eps vars) := rfl
  have ei : (layout eps vars).intVars =
      whereFrom (fun v => decide (v.type = .I)) 0 (nonCats (simpVars eps vars)) ++
      List.range' (nonCats (simpVars eps vars)).length (numBin (simpVars eps vars)) := rfl
  have tail : ∀ k < numBin (simpVars eps vars), ∀ b : ℚ, ∀ f : Var → ℚ,
      ((nonCats (simpVars eps vars)).map f ++ List.replicate (numBin (simpVars eps vars)) b)[
        (nonCats (simpVars eps vars)).length + k]? = some b := by
    intro k hk b f
    rw [List.getElem?_append_right (by simp)]
    simp [hk]
  refine ⟨?_, ?_, ?_, ?_⟩
  · rw [el, eu]
    apply List.rel_append
    · rw [List.forall₂_map_left_iff, List.forall₂_map_right_iff, List.forall₂_same]
      intro v hv
      exact (hws v (List.mem_filter.mp hv).1).1
    · exact replicate_le zero_le_one _
  · rw [el, ed]; simp
  · intro i hi
    rw [ei] at hi
    rw [el, eu, ed]
    rcases List.mem_append.mp hi with hi | hi
    · have hlt := where_lt hi
      obtain ⟨v, hv, ht⟩ := mem_where.mp hi
      have hvI : v.type = .I := by simpa using ht
      have hwv := hws v (List.mem_filter.mp (List.mem_of_getElem? hv)).1
      have := hwv.2 (by rw [hvI]; simp)
      have e1 : ((nonCats (simpVars eps vars)).map Var.lower ++
          List.replicate (numBin (simpVars eps vars)) (0:ℚ)).getD i 0 = v.lower := by
        apply getD_of
        rw [List.getElem?_append_left (by simpa using hlt), List.getElem?_map, hv]; rfl
      have e2 : ((nonCats (simpVars eps vars)).map Var.upper ++
          List.replicate (numBin (simpVars eps vars)) (1:ℚ)).getD i 0 = v.upper := by
        apply getD_of
        rw [List.getElem?_append_left (by simpa using hlt), List.getElem?_map, hv]; rfl
      rw [e1, e2]
      exact ⟨by omega, this.1, this.2⟩
    · obtain ⟨h1, h2⟩ := List.mem_range'_1.mp hi
      obtain ⟨k, rfl⟩ := Nat.exists_eq_add_of_le h1
      have hk : k < numBin (simpVars eps vars) := by omega
      rw [getD_of (tail k hk 0 _), getD_of (tail k hk 1 _)]
      exact ⟨by omega, ⟨0, by simp⟩, ⟨1, by simp⟩⟩
  · intro e he i hi
    have hL := catLayout_layout eps vars
    rw [hL.exp] at he
    have := expansionFrom_pos he i hi
    rw [← length_nonCats] at this
    obtain ⟨k, rfl⟩ := Nat.exists_eq_add_of_le this.1
    have hk : k < numBin (simpVars eps vars) := by unfold numBin; omega
    rw [el, eu]
    exact ⟨tail k hk 0 _, tail k hk 1 _⟩

theorem oneHot_congr {p q : Pt} {pos : List ℕ} (h : ∀ i ∈ pos, p.getD i 0 = q.getD i 0)
    (hp : OneHotAt p pos) : OneHotAt q pos := by
  obtain ⟨j, hj, hh⟩ := hp
  refine ⟨j, hj, ?_⟩
  rw [← hh]
  apply List.map_congr_left
  intro i hi; exact (h i hi).symm

theorem oneHot_value {p : Pt} {pos : List ℕ} (hp : OneHotAt p pos) :
    ∀ i ∈ pos, p.getD i 0 = 0 ∨ p.getD i 0 = 1 := by
  obtain ⟨j, hj, hh⟩ := hp
  intro i hi
  have : p.getD i 0 ∈ (List.replicate pos.length (0:ℚ)).set j 1 := by
    rw [← hh]; exact List.mem_map_of_mem hi
  rcases List.mem_or_eq_of_mem_set this with h | h
  · left; exact List.eq_of_mem_replicate h
  · right; exact h

/-- Clipping a proposal to the bounds of the internal problem gives a feasible internal point. -/
theorem clip_feasible (hw : WellFormed vars) {p : Pt} (hp : Proposable (layout eps vars) p) :
    FeasibleInternal (layout eps vars)
      (clipPt p (layout eps vars).lower (layout eps vars).upper) := by
  obtain ⟨hb, hl, hi, he⟩ := layout_bounds (eps := eps) hw
  have hlen := hp.length
  have hu := hb.length_eq
  have hc := clipPt_length (p := p) (l := (layout eps vars).lower) (u := (layout eps vars).upper)
    (by omega) (by omega)
  have hbox := clipPt_inBox hb (p := p) (by omega)
  refine ⟨by omega, hbox.1, hbox.2, ?_, ?_⟩
  · intro i hmem
    obtain ⟨h1, h2, h3⟩ := hi i hmem
    have hx : p[i]? = some (p[i]'(by omega)) := List.getElem?_eq_getElem _
    have ha : (layout eps vars).lower[i]? = some ((layout eps vars).lower[i]'(by omega)) :=
      List.getElem?_eq_getElem _
    have hb' : (layout eps vars).upper[i]? = some ((layout eps vars).upper[i]'(by omega)) :=
      List.getElem?_eq_getElem _
    rw [getD_of ha] at h2
    rw [getD_of hb'] at h3
    have h4 := hp.integral i hmem
    rw [getD_of hx] at h4
    rw [getD_of (clipPt_get hx ha hb')]
    exact clip1_int h4 h2 h3
  · intro e hemem
    refine oneHot_congr ?_ (hp.oneHot e hemem)
    intro i hi'
    obtain ⟨ha, hb'⟩ := he e hemem i hi'
    have hlt : i < p.length := by
      have := (List.getElem?_eq_some_iff.mp ha).1; omega
    have hx : p[i]? = some p[i] := List.getElem?_eq_getElem hlt
    rw [getD_of (clipPt_get hx ha hb'), getD_of hx]
    have hv := oneHot_value (hp.oneHot e hemem) i hi'
    rw [getD_of hx] at hv
    rcases hv with h | h <;> rw [h] <;> rw [clip1_self] <;> norm_num

/-- Clipping a proposal and transforming it back gives a feasible internal point. -/
theorem clip_toOrig_feasible {P : Params} {env : Env O} {sc : Scaling} (hw : WellFormed vars)
    (r1 : P.lLower = (transformBounds sc (layout eps vars).lower (layout eps vars).upper).1)
    (r2 : P.lUpper = (transformBounds sc (layout eps vars).lower (layout eps vars).upper).2)
    (r4 : ∀ p, env.toOrig p = transformDomain sc (layout eps vars).lower
      (layout eps vars).upper (layout eps vars).intVars true p)
    (hsc : sc = .off ∨ (layout eps vars).intVars = []) {p : Pt}
    (hp : Proposable (layout eps vars) p) :
    Proposable (layout eps vars) (clipPt p P.lLower P.lUpper) ∧
    FeasibleInternal (layout eps vars) (env.toOrig (clipPt p P.lLower P.lUpper)) := by
  obtain ⟨hb, hl, hi, he⟩ := layout_bounds (eps := eps) hw
  rw [r1, r2, r4]
  cases sc with
  | off =>
    simp only [transformBounds, transformDomain, true_or, if_true]
    have := clip_feasible hw hp
    exact ⟨⟨this.length, this.integral, this.oneHot⟩, this⟩
  | affine =>
    have hnil : (layout eps vars).intVars = [] := by simpa using hsc
    have hexp : ∀ e ∈ (layout eps vars).expansion, False := by
      intro e he'
      have h0 := hp.oneHot e he'
      have : e.2.2 = [] := by
        rw [List.eq_nil_iff_forall_not_mem]
        intro i hi'
        rw [(catLayout_layout eps vars).exp] at he'
        have hpos := expansionFrom_pos he' i hi'
        rw [← length_nonCats] at hpos
        have : i ∈ (layout eps vars).intVars := by
          refine List.mem_append.mpr (Or.inr (List.mem_range'_1.mpr ⟨hpos.1, ?_⟩))
          exact hpos.2
        rw [hnil] at this; simp at this
      rw [this] at h0
      obtain ⟨j, hj, -⟩ := h0
      simp at hj
    simp only [transformBounds, transformDomain, hnil, if_true, if_false, ne_eq, not_true,
      or_false, reduceCtorEq]
    have hlu := hb.length_eq
    have hbox01 : List.Forall₂ (· ≤ ·) (List.replicate (layout eps vars).lower.length (0:ℚ))
        (List.replicate (layout eps vars).upper.length 1) := by
      rw [← hlu]; exact replicate_le zero_le_one _
    have hbox := clipPt_inBox hbox01 (p := p) (by rw [List.length_replicate, hl, hp.length])
    have hrev := (affine_rev_box hb hbox).1
    have hclen : (clipPt p (List.replicate (layout eps vars).lower.length 0)
        (List.replicate (layout eps vars).upper.length 1)).length = (layout eps vars).dim := by
      rw [clipPt_length (by rw [List.length_replicate, hl, hp.length])
        (by rw [List.length_replicate, ← hlu, hl, hp.length]), hp.length]
    refine ⟨⟨hclen, fun i hi' => by rw [hnil] at hi'; simp at hi',
      fun e he' => (hexp e he').elim⟩, ?_⟩
    refine ⟨?_, hrev.1, hrev.2, fun i hi' => by rw [hnil] at hi'; simp at hi',
      fun e he' => (hexp e he').elim⟩
    rw [← hrev.1.length_eq, hl]

/-- A run on the problem `vars` keeps all nodes proposable and all recorded points feasible. -/
theorem RunsOn.sources {P : Params} {env : Env O} {sc : Scaling} (hw : WellFormed vars)
    (hrun : RunsOn P env eps vars sc) (hsc : sc = .off ∨ (construct eps vars).intVars = [])
    (hprop : ProposalsIn env (Proposable (construct eps vars)))
    (hinit : SamplesIn env (FeasibleInternal (construct eps vars)))
    (huser : ∀ p ∈ P.initPos, FeasibleInternal (construct eps vars) p) :
    Sources P env (Proposable (construct eps vars)) (FeasibleInternal (construct eps vars)) := by
  have hce := construct_eq (eps := eps) hw
  obtain ⟨hb, hl, hi, he⟩ := layout_bounds (eps := eps) hw
  obtain ⟨r1, r2, r3, r4, r5⟩ := hrun
  rw [hce] at hsc hprop hinit huser r1 r2 ⊢
  simp only [hce] at r3 r4 r5
  refine ⟨hinit, huser, ?_, ?_, hprop.from⟩
  · intro p hp
    rw [r3]
    cases sc with
    | off =>
      simp only [transformDomain, true_or, if_true]
      exact ⟨hp.length, hp.integral, hp.oneHot⟩
    | affine =>
      have hnil : (layout eps vars).intVars = [] := by simpa using hsc
      have hexp : ∀ e ∈ (layout eps vars).expansion, e.2.2 = [] := by
        intro e he'
        rw [List.eq_nil_iff_forall_not_mem]
        intro i hi'
        rw [(catLayout_layout eps vars).exp] at he'
        have hpos := expansionFrom_pos he' i hi'
        rw [← length_nonCats] at hpos
        have : i ∈ (layout eps vars).intVars := by
          refine List.mem_append.mpr (Or.inr (List.mem_range'_1.mpr ⟨hpos.1, ?_⟩))
          exact hpos.2
        rw [hnil] at this; simp at this
      simp only [transformDomain, hnil, Bool.false_eq_true, if_false, ne_eq, not_true, or_false,
        reduceCtorEq]
      have hlen : (affineFwd (layout eps vars).lower (layout eps vars).upper p).length =
          (layout eps vars).dim := by
        rw [affineFwd_length hb.length_eq (by rw [hl, hp.length]), hp.length]
      refine ⟨hlen, fun i hi' => by rw [hnil] at hi'; simp at hi', ?_⟩
      intro e he'
      have h0 := hp.oneHot e he'
      rw [hexp e he'] at h0 ⊢
      obtain ⟨j, hj, -⟩ := h0
      simp at hj
  · exact fun p hp => clip_toOrig_feasible hw r1 r2 r4 hsc hp

/-- **C17** Every point the black box is ever evaluated at is a feasible point of the user's problem
(within the declared bounds, integral for integer and categorical variables, fixed variables at
their value), whatever the search steps propose: only the dimension and integral/one-hot values for
integer/categorical variables are required of proposals, and feasibility of the initial points.  For
problems without real-coordinate scaling, or with affine scaling and no integer variables; integer
and categorical variables have integral bounds. -/
theorem C17_feasible_evaluations {P : Params} {env : Env O} {o : O} {c : Ctl} {s : Alg O}
    {sc : Scaling} (hw : WellFormed vars) (hrun : RunsOn P env eps vars sc)
    (hsc : sc = .off ∨ (construct eps vars).intVars = [])
    (hprop : ProposalsIn env (Proposable (construct eps vars)))
    (hinit : SamplesIn env (FeasibleInternal (construct eps vars)))
    (huser : ∀ p ∈ P.initPos, FeasibleInternal (construct eps vars) p)
    (h : Reach P env o c s) : ∀ call ∈ s.log, FeasibleUser eps vars call.point := by
  have hsource := hrun.sources hw hsc hprop hinit huser
  intro call hcall
  obtain ⟨p, hp, hpt⟩ := (h.domK hsource).2.2 call hcall
  rw [hpt, hrun.decode]
  exact ((C30_bijection (eps := eps) hw).2 p hp).1

/-- **C17** (violation) An integer variable with fractional bounds: the internal problem contains
points that are decoded to values outside the declared bounds (here 0 and 4 for bounds 1/2 and
7/2). -/
theorem C17_violated_fractional_bounds : ∃ (vars : List Var) (q : Pt),
    FeasibleInternal (construct (1/1000000) vars) q ∧
    ∃ v x, vars = [v] ∧ decodePt (construct (1/1000000) vars) q = [x] ∧ v.upper < x := by
  refine ⟨[⟨1/2, 7/2, .I⟩], [4], ?_, ⟨1/2, 7/2, .I⟩, 4, rfl, by decide +kernel, by norm_num⟩
  have h : construct (1/1000000) [⟨1/2, 7/2, .I⟩] =
      { dim := 1, lower := [0], upper := [4], intVars := [0], categorical := [],
        notCategorical := [0], expansion := [], fixed := [] } := by decide +kernel
  rw [h]
  refine ⟨rfl, ?_, ?_, ?_, ?_⟩
  · exact List.Forall₂.cons (by norm_num) .nil
  · exact List.Forall₂.cons (by norm_num) .nil
  · intro i hi
    have : i = 0 := by simpa using hi
    subst this; exact ⟨4, by simp⟩
  · intro e he; simp at he

end Rbfopt
