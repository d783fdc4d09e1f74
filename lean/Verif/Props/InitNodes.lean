import Verif.Model.InitNodes
import Verif.Lemmas.ListAux
import Verif.Spec.Domain
import Verif.Props.Domain
import Mathlib.Data.List.Nodup
import Mathlib.Data.List.Perm.Basic
import Mathlib.Data.List.FinRange

/-!
# Properties of the initial samples (C35–C39)
-/

namespace Rbfopt

/-! ## Specification vocabulary -/

/-- `p` is a corner of the box: each coordinate is one of the two bounds. -/
def IsCorner (lower upper p : Pt) : Prop :=
  p.length = lower.length ∧ ∀ i < lower.length, p.getD i 0 = lower.getD i 0 ∨ p.getD i 0 = upper.getD i 0

/-- Valid random data for a Latin hypercube of `N` samples in dimension `n`: permutations of
`0, …, N-1` and numbers in `[0,1)`. -/
structure LhsDraw.Valid (d : LhsDraw) (n N : ℕ) : Prop where
  perm : ∀ j < n, ((List.range N).map (d.perm j)).Perm (List.range N)
  noise : ∀ i < N, ∀ j < n, 0 ≤ d.noise i j ∧ d.noise i j < 1

/-! ## C35 corners -/

theorem isCorner_cons {l u x : ℚ} {ls us xs : Pt} :
    IsCorner (l :: ls) (u :: us) (x :: xs) ↔ (x = l ∨ x = u) ∧ IsCorner ls us xs := by
  unfold IsCorner
  simp only [List.length_cons, add_left_inj]
  constructor
  · rintro ⟨h1, h2⟩
    refine ⟨by simpa using h2 0 (by omega), h1, fun i hi => ?_⟩
    simpa using h2 (i + 1) (by omega)
  · rintro ⟨h0, h1, h2⟩
    refine ⟨h1, fun i hi => ?_⟩
    cases i with
    | zero => simpa using h0
    | succ i => simpa using h2 i (by omega)

theorem mem_allCorners {lower upper p : Pt} (hl : lower.length = upper.length) :
    p ∈ allCorners lower upper ↔ IsCorner lower upper p := by
  induction lower generalizing upper p with
  | nil =>
    unfold allCorners
    simp only [List.mem_singleton, IsCorner, List.length_nil]
    constructor
    · rintro rfl; simp
    · rintro ⟨h, -⟩; exact List.length_eq_zero_iff.mp h
  | cons l ls ih =>
    cases upper with
    | nil => simp at hl
    | cons u us =>
      have hl' : ls.length = us.length := by simpa using hl
      simp only [allCorners, List.mem_append, List.mem_map]
      cases p with
      | nil => simp [IsCorner]
      | cons x xs =>
        rw [isCorner_cons, ← ih hl']
        simp only [List.cons.injEq]
        constructor
        · rintro (⟨a, ha, rfl, rfl⟩ | ⟨a, ha, rfl, rfl⟩)
          · exact ⟨.inl rfl, ha⟩
          · exact ⟨.inr rfl, ha⟩
        · rintro ⟨rfl | rfl, h⟩
          · exact .inl ⟨xs, h, rfl, rfl⟩
          · exact .inr ⟨xs, h, rfl, rfl⟩

theorem length_allCorners {lower upper : Pt} (hl : lower.length = upper.length) :
    (allCorners lower upper).length = 2 ^ lower.length := by
  induction lower generalizing upper with
  | nil => unfold allCorners; simp
  | cons l ls ih =>
    cases upper with
    | nil => simp at hl
    | cons u us =>
      have hl' : ls.length = us.length := by simpa using hl
      simp only [allCorners, List.length_append, List.length_map, ih hl', List.length_cons]
      rw [pow_succ]; ring

/-- **C35** `all_corners` yields exactly the `2^n` corners of the box, each once if the box is not
degenerate in any coordinate. -/
theorem C35_all_corners {lower upper : Pt} (hbox : ProperBox lower upper) :
    (allCorners lower upper).length = 2 ^ lower.length ∧ (allCorners lower upper).Nodup ∧
    ∀ p, p ∈ allCorners lower upper ↔ IsCorner lower upper p := by
  have hl : lower.length = upper.length := hbox.length_eq
  refine ⟨length_allCorners hl, ?_, fun p => mem_allCorners hl⟩
  unfold ProperBox at hbox
  clear hl
  induction hbox with
  | nil => unfold allCorners; simp
  | @cons l u ls us h hs ih =>
    simp only [allCorners]
    rw [List.nodup_append]
    refine ⟨ih.map (fun a b => by simp), ih.map (fun a b => by simp), ?_⟩
    intro a ha b hb e
    subst e
    obtain ⟨x, -, rfl⟩ := List.mem_map.mp ha
    obtain ⟨y, -, e⟩ := List.mem_map.mp hb
    simp only [List.cons.injEq] at e
    exact absurd e.1 (ne_of_gt h)

/-- **C35** `lower_corners` yields the lower corner followed by its `n` neighbours: the `i`-th
neighbour has coordinate `i` at its upper bound and the others at their lower bounds; all are
different if the box is not degenerate. -/
theorem C35_lower_corners {lower upper : Pt} (hbox : ProperBox lower upper) :
    (lowerCorners lower upper).length = lower.length + 1 ∧
    (lowerCorners lower upper)[0]? = some lower ∧
    (∀ i < lower.length, ∃ p, (lowerCorners lower upper)[i + 1]? = some p ∧
      p.length = lower.length ∧ ∀ j < lower.length,
        p.getD j 0 = if j = i then upper.getD j 0 else lower.getD j 0) ∧
    (lowerCorners lower upper).Nodup ∧ ∀ p ∈ lowerCorners lower upper, IsCorner lower upper p := by
  have hl : lower.length = upper.length := hbox.length_eq
  have hne : ∀ i < lower.length, lower.getD i 0 ≠ upper.getD i 0 := by
    intro i hi
    rw [List.getD_eq_getElem?_getD, List.getD_eq_getElem?_getD, List.getElem?_eq_getElem hi,
      List.getElem?_eq_getElem (by omega)]
    have := (List.forall₂_iff_get.mp hbox).2 i hi (by omega)
    exact ne_of_lt (by simpa using this)
  have hset : ∀ i < lower.length, ∀ j < lower.length, (lower.set i (upper.getD i 0)).getD j 0 =
      if j = i then upper.getD j 0 else lower.getD j 0 := by
    intro i hi j hj
    rw [List.getD_eq_getElem?_getD, List.getElem?_set]
    by_cases e : i = j
    · subst e; simp [hi]
    · rw [if_neg e, if_neg (fun h => e h.symm), ← List.getD_eq_getElem?_getD]
  refine ⟨by simp [lowerCorners], rfl, ?_, ?_, ?_⟩
  · intro i hi
    refine ⟨lower.set i (upper.getD i 0), ?_, by simp, hset i hi⟩
    unfold lowerCorners
    rw [List.getElem?_cons_succ, List.getElem?_map, List.getElem?_range hi]
    rfl
  · unfold lowerCorners
    rw [List.nodup_cons]
    constructor
    · rw [List.mem_map]
      rintro ⟨i, hi, e⟩
      rw [List.mem_range] at hi
      have := hset i hi i hi
      rw [e, if_pos rfl] at this
      exact hne i hi this
    · rw [List.nodup_map_iff_inj_on (List.nodup_range)]
      intro i hi j hj e
      rw [List.mem_range] at hi hj
      by_contra hij
      have h1 := hset i hi i hi
      have h2 := hset j hj i hi
      rw [e, h2, if_pos rfl, if_neg hij] at h1
      exact hne i hi h1
  · intro p hp
    unfold lowerCorners at hp
    rcases List.mem_cons.mp hp with rfl | hp
    · exact ⟨rfl, fun i _ => .inl rfl⟩
    · obtain ⟨i, hi, rfl⟩ := List.mem_map.mp hp
      rw [List.mem_range] at hi
      refine ⟨by simp, fun j hj => ?_⟩
      rw [hset i hi j hj]
      split
      · exact .inr rfl
      · exact .inl rfl

theorem cornerOf_isCorner {lower upper : Pt} {b : List Bool} (hl : lower.length = upper.length)
    (hb : b.length = lower.length) : IsCorner lower upper (cornerOf lower upper b) := by
  induction lower generalizing upper b with
  | nil => unfold cornerOf; simp [IsCorner]
  | cons l ls ih =>
    cases upper with
    | nil => simp at hl
    | cons u us =>
      cases b with
      | nil => simp at hb
      | cons c cs =>
        rw [cornerOf, isCorner_cons]
        refine ⟨by cases c <;> simp, ih (by simpa using hl) (by simpa using hb)⟩

theorem randomCornersLoop_spec {dist : Pt → Pt → ℚ} (hd : ∀ p, dist p p = 0) {lower upper : Pt}
    (hl : lower.length = upper.length) {draws : List (List Bool)}
    (hb : ∀ b ∈ draws, b.length = lower.length) {acc r : List Pt}
    (h1 : acc.length ≤ lower.length + 1) (h2 : acc.Nodup) (h3 : ∀ p ∈ acc, IsCorner lower upper p)
    (h : randomCornersLoop dist lower upper draws acc = some r) :
    r.length = lower.length + 1 ∧ r.Nodup ∧ ∀ p ∈ r, IsCorner lower upper p := by
  induction draws generalizing acc with
  | nil =>
    unfold randomCornersLoop at h
    split at h
    · cases h
    · cases h; exact ⟨by omega, h2, h3⟩
  | cons b bs ih =>
    unfold randomCornersLoop at h
    split at h
    · rename_i hlt
      dsimp only at h
      split at h
      · cases h
      · rename_i d hd'
        refine ih (fun b hb' => hb b (by simp [hb'])) ?_ ?_ ?_ h
        · split
          · simp; omega
          · omega
        · split
          · rename_i hpos
            rw [List.nodup_append]
            refine ⟨h2, by simp, ?_⟩
            intro a ha c hc e
            rw [List.mem_singleton] at hc
            rw [e, hc] at ha
            have := (getMinDistance_gt hd' hpos) _ ha
            rw [hd] at this
            exact lt_irrefl _ this
          · exact h2
        · intro p hp
          split at hp
          · rcases List.mem_append.mp hp with g | g
            · exact h3 p g
            · rw [List.mem_singleton.mp g]
              exact cornerOf_isCorner hl (hb b (by simp))
          · exact h3 p hp
    · cases h; exact ⟨by omega, h2, h3⟩

/-- **C35** Whatever the random draws, when `rand_corners` ends it yields `n+1` different corners
of the box. -/
theorem C35_random_corners {dist : Pt → Pt → ℚ} (hd : ∀ p, dist p p = 0) {lower upper : Pt}
    (hl : lower.length = upper.length) {draws : List (List Bool)}
    (hb : ∀ b ∈ draws, b.length = lower.length) {r : List Pt}
    (h : randomCorners dist lower upper draws = some r) :
    r.length = lower.length + 1 ∧ r.Nodup ∧ ∀ p ∈ r, IsCorner lower upper p := by
  cases draws with
  | nil => cases h
  | cons b bs =>
    refine randomCornersLoop_spec hd hl (fun b hb' => hb b (by simp [hb'])) ?_ ?_ ?_ h
    · simp
    · simp
    · intro p hp
      rw [List.mem_singleton.mp hp]
      exact cornerOf_isCorner hl (hb b (by simp))

theorem randomCornersLoop_ends {dist : Pt → Pt → ℚ} (hd : ∀ p q, p ≠ q → 0 < dist p q)
    {lower upper : Pt} {draws : List (List Bool)} {acc : List Pt} (hne : acc ≠ [])
    {S : List Pt} (hS : S.Nodup) (hlen : lower.length + 1 ≤ S.length)
    (hseen : ∀ p ∈ S, p ∈ acc ∨ ∃ b ∈ draws, cornerOf lower upper b = p) :
    ∃ r, randomCornersLoop dist lower upper draws acc = some r := by
  induction draws generalizing acc with
  | nil =>
    unfold randomCornersLoop
    rw [if_neg]
    · exact ⟨_, rfl⟩
    · have : S ⊆ acc := fun p hp => by
        rcases hseen p hp with h | ⟨b, hb, -⟩
        · exact h
        · simp at hb
      have := (List.subperm_of_subset hS this).length_le
      omega
  | cons b bs ih =>
    unfold randomCornersLoop
    split
    · dsimp only
      split
      · rename_i h
        rw [getMinDistance_none] at h
        exact absurd h hne
      · rename_i d hdist
        refine ih ?_ ?_
        · split
          · simp
          · exact hne
        · intro p hp
          rcases hseen p hp with h | ⟨c, hc, hcp⟩
          · left; split
            · exact List.mem_append_left _ h
            · exact h
          · rcases List.mem_cons.mp hc with rfl | hc
            · left
              split
              · rw [← hcp]; simp
              · rename_i hnp
                obtain ⟨q, hq, e⟩ := (getMinDistance_some hdist).1
                by_contra hpa
                have hqp : cornerOf lower upper c ≠ q := by
                  intro e'; rw [hcp] at e'; rw [e'] at hpa; exact hpa hq
                have := hd _ _ hqp
                rw [e] at this
                exact hnp this
            · exact .inr ⟨c, hc, hcp⟩
    · exact ⟨_, rfl⟩

theorem randomCorners_ends {dist : Pt → Pt → ℚ} (hd : ∀ p q, p ≠ q → 0 < dist p q)
    {lower upper : Pt} {draws : List (List Bool)} {S : List Pt} (hS : S.Nodup)
    (hlen : S.length = lower.length + 1)
    (hseen : ∀ p ∈ S, ∃ b ∈ draws, cornerOf lower upper b = p) :
    ∃ r, randomCorners dist lower upper draws = some r := by
  cases draws with
  | nil =>
    cases S with
    | nil => simp at hlen
    | cons p S => obtain ⟨b, hb, -⟩ := hseen p (by simp); simp at hb
  | cons b bs =>
    refine randomCornersLoop_ends hd (by simp) hS (by omega) ?_
    intro p hp
    obtain ⟨c, hc, e⟩ := hseen p hp
    rcases List.mem_cons.mp hc with rfl | hc
    · left; rw [← e]; simp
    · exact .inr ⟨c, hc, e⟩

/-- **C35** The bits drawn select, for each coordinate, the lower (1) or the upper bound (0). -/
theorem C35_drawn_corner {lower upper : Pt} {b : List Bool} (hl : lower.length = upper.length)
    (hb : b.length = lower.length) :
    (cornerOf lower upper b).length = lower.length ∧
    ∀ i < lower.length, (cornerOf lower upper b).getD i 0 =
      if b.getD i false = true then lower.getD i 0 else upper.getD i 0 := by
  induction lower generalizing upper b with
  | nil => unfold cornerOf; simp
  | cons l ls ih =>
    cases upper with
    | nil => simp at hl
    | cons u us =>
      cases b with
      | nil => simp at hb
      | cons b bs =>
        obtain ⟨h1, h2⟩ := ih (upper := us) (b := bs) (by simpa using hl) (by simpa using hb)
        unfold cornerOf
        refine ⟨by simp [h1], fun i hi => ?_⟩
        cases i with
        | zero => simp
        | succ i => simpa using h2 i (by simpa using hi)

/-- **C35** `rand_corners` ends as soon as `n+1` different combinations of bounds have been drawn. -/
theorem C35_random_corners_end {dist : Pt → Pt → ℚ} (hd : ∀ p q, p ≠ q → 0 < dist p q)
    {lower upper : Pt} (hl : lower.length = upper.length)
    (hlt : ∀ i < lower.length, lower.getD i 0 ≠ upper.getD i 0) {draws S : List (List Bool)}
    (hb : ∀ b ∈ draws, b.length = lower.length) (hS : S.Nodup) (hlen : S.length = lower.length + 1)
    (hseen : ∀ b ∈ S, b ∈ draws) :
    ∃ r, randomCorners dist lower upper draws = some r := by
  have hinj : ∀ b ∈ S, ∀ c ∈ S, cornerOf lower upper b = cornerOf lower upper c → b = c := by
    intro b hb1 c hc1 e
    have l1 := hb b (hseen b hb1)
    have l2 := hb c (hseen c hc1)
    refine List.ext_getElem (by omega) (fun i h1 h2 => ?_)
    have e1 := (C35_drawn_corner hl l1).2 i (by omega)
    have e2 := (C35_drawn_corner hl l2).2 i (by omega)
    rw [e, e2] at e1
    have hne := hlt i (by omega)
    have g1 : b.getD i false = b[i] := by simp [List.getD_eq_getElem?_getD, h1]
    have g2 : c.getD i false = c[i] := by simp [List.getD_eq_getElem?_getD, h2]
    rw [g1, g2] at e1
    cases hb' : b[i] <;> cases hc' : c[i] <;> simp only [hb', hc'] at e1 ⊢
    · simp only [Bool.false_eq_true, if_false, if_true] at e1; exact absurd e1 hne
    · simp only [Bool.false_eq_true, if_false, if_true] at e1; exact absurd e1.symm hne
  refine randomCorners_ends (S := S.map (cornerOf lower upper)) hd ?_ (by simp [hlen]) ?_
  · exact List.Nodup.map_on hinj hS
  · intro p hp
    obtain ⟨b, hb1, rfl⟩ := List.mem_map.mp hp
    exact ⟨b, hseen b hb1, rfl⟩

/-- In the plane the loop ends once three different corners have been drawn, here after four draws. -/
example : ∃ r, randomCorners (fun p q => if p = q then 0 else 1) [0, 0] [1, 1]
    [[true, true], [true, true], [false, true], [false, false]] = some r :=
  C35_random_corners_end (lower := [0, 0]) (upper := [1, 1])
    (draws := [[true, true], [true, true], [false, true], [false, false]])
    (S := [[true, true], [false, true], [false, false]])
    (fun p q h => by rw [if_neg h]; exact one_pos) rfl (fun i hi => by
      have : i = 0 ∨ i = 1 := by simp only [List.length_cons, List.length_nil] at hi; omega
      rcases this with rfl | rfl <;> decide +kernel)
    (by decide) (by decide) rfl (by decide)

/-! ## Rounding -/

theorem aroundEven_near (x : ℚ) : (aroundEven x : ℚ) ≤ x + 1/2 ∧ x - 1/2 ≤ aroundEven x := by
  have h1 := Int.floor_le x
  have h2 := Int.lt_floor_add_one x
  unfold aroundEven
  dsimp only
  split
  · constructor <;> linarith
  · split
    · push_cast; constructor <;> linarith
    · split
      · constructor <;> linarith
      · push_cast; constructor <;> linarith

/-- Rounding is exact on integers. -/
theorem aroundEven_int (z : ℤ) : aroundEven (z : ℚ) = z := by
  unfold aroundEven; simp

/-- A number closer than one half to an interval with integer ends is rounded into it. -/
theorem aroundEven_mem {x : ℚ} {a b : ℤ} (h1 : (a : ℚ) - 1/2 < x) (h2 : x < (b : ℚ) + 1/2) :
    a ≤ aroundEven x ∧ aroundEven x ≤ b := by
  obtain ⟨h3, h4⟩ := aroundEven_near x
  constructor
  · by_contra hc
    have : (aroundEven x : ℚ) ≤ a - 1 := by exact_mod_cast (by omega : aroundEven x ≤ a - 1)
    linarith
  · by_contra hc
    have : (b : ℚ) + 1 ≤ aroundEven x := by exact_mod_cast (by omega : b + 1 ≤ aroundEven x)
    linarith

theorem aroundEven_mono {x y : ℚ} (h : x ≤ y) : aroundEven x ≤ aroundEven y := by
  by_contra hc
  have hc : aroundEven y + 1 ≤ aroundEven x := by omega
  have hcq : (aroundEven y : ℚ) + 1 ≤ aroundEven x := by exact_mod_cast hc
  have a := aroundEven_near x
  have b := aroundEven_near y
  have e : x = y := by linarith
  subst e
  omega

/-! ## C36 Latin hypercubes -/

theorem uniformLhs_get (n N : ℕ) (d : LhsDraw) {i j : ℕ} (hi : i < N) (hj : j < n) :
    ((uniformLhs n N d).getD i []).getD j 0 = (d.noise i j + (d.perm j i : ℚ)) / N := by
  unfold uniformLhs
  simp [List.getD_eq_getElem?_getD, List.getElem?_range, hi, hj]

/-- **C36** In every coordinate, each of the `N` equal strata of `[0,1]` contains exactly one of the
`N` samples, whatever the random permutations and perturbations. -/
theorem C36_latin_hypercube {n N : ℕ} {d : LhsDraw} (hd : d.Valid n N) :
    (uniformLhs n N d).length = N ∧ (∀ p ∈ uniformLhs n N d, p.length = n) ∧
    ∀ j < n, ∀ k < N, ∃! i, i < N ∧ (k : ℚ) / N ≤ ((uniformLhs n N d).getD i []).getD j 0 ∧
      ((uniformLhs n N d).getD i []).getD j 0 < ((k : ℚ) + 1) / N := by
  refine ⟨by simp [uniformLhs], ?_, ?_⟩
  · intro p hp
    unfold uniformLhs at hp
    obtain ⟨i, -, rfl⟩ := List.mem_map.mp hp
    simp
  · intro j hj k hk
    have hN : (0 : ℚ) < N := by exact_mod_cast (by omega : 0 < N)
    have hperm := hd.perm j hj
    have hmem : k ∈ (List.range N).map (d.perm j) := hperm.mem_iff.mpr (List.mem_range.mpr hk)
    obtain ⟨i, hi, hik⟩ := List.mem_map.mp hmem
    rw [List.mem_range] at hi
    have hinj : ∀ a < N, ∀ b < N, d.perm j a = d.perm j b → a = b := by
      have hn : ((List.range N).map (d.perm j)).Nodup := hperm.nodup_iff.mpr List.nodup_range
      rw [List.nodup_map_iff_inj_on List.nodup_range] at hn
      intro a ha b hb e
      exact hn a (List.mem_range.mpr ha) b (List.mem_range.mpr hb) e
    have key : ∀ a < N, ((k : ℚ) / N ≤ ((uniformLhs n N d).getD a []).getD j 0 ∧
        ((uniformLhs n N d).getD a []).getD j 0 < ((k : ℚ) + 1) / N) ↔ d.perm j a = k := by
      intro a ha
      rw [uniformLhs_get n N d ha hj, div_le_div_iff_of_pos_right hN, div_lt_div_iff_of_pos_right hN]
      obtain ⟨g1, g2⟩ := hd.noise a ha j hj
      constructor
      · rintro ⟨f1, f2⟩
        have e1 : (k : ℚ) < (d.perm j a : ℚ) + 1 := by linarith
        have e2 : (d.perm j a : ℚ) < (k : ℚ) + 1 := by linarith
        have e1' : k < d.perm j a + 1 := by exact_mod_cast e1
        have e2' : d.perm j a < k + 1 := by exact_mod_cast e2
        omega
      · intro e
        rw [e]
        constructor <;> linarith
    refine ⟨i, ⟨hi, (key i hi).mpr hik⟩, ?_⟩
    rintro a ⟨ha, hb⟩
    exact hinj a ha i hi (((key a ha).mp hb).trans hik.symm)

theorem uniformLhs_unit {n N : ℕ} {d : LhsDraw} (hd : d.Valid n N) {p : Pt}
    (hp : p ∈ uniformLhs n N d) : p.length = n ∧ ∀ j < n, 0 ≤ p.getD j 0 ∧ p.getD j 0 < 1 := by
  unfold uniformLhs at hp
  obtain ⟨i, hi, rfl⟩ := List.mem_map.mp hp
  rw [List.mem_range] at hi
  have hN : (0 : ℚ) < N := by exact_mod_cast (by omega : 0 < N)
  refine ⟨by simp, fun j hj => ?_⟩
  have e : ((List.range n).map (fun j => (d.noise i j + (d.perm j i : ℚ)) / N)).getD j 0 =
      (d.noise i j + (d.perm j i : ℚ)) / N := by
    simp [List.getD_eq_getElem?_getD, List.getElem?_range, hj]
  rw [e]
  obtain ⟨g1, g2⟩ := hd.noise i hi j hj
  have hlt : d.perm j i < N := by
    have := (hd.perm j hj).mem_iff.mp (List.mem_map.mpr ⟨i, List.mem_range.mpr hi, rfl⟩)
    exact List.mem_range.mp this
  have hlt' : (d.perm j i : ℚ) + 1 ≤ N := by exact_mod_cast hlt
  refine ⟨div_nonneg (by positivity) hN.le, ?_⟩
  rw [div_lt_one hN]
  linarith

/-- **C36** `lhd_maximin` chooses, among the generated designs, one whose minimum distance between
samples is largest, the first such. -/
theorem C36_best_design {score : List Pt → ℚ} {lhs : List (List Pt)} {r : List Pt}
    (h : chooseMax score lhs = some r) :
    ∃ i : ℕ, lhs[i]? = some r ∧ (∀ r' ∈ lhs, score r' ≤ score r) ∧
      ∀ (k : ℕ), k < i → ∀ r', lhs[k]? = some r' → score r' < score r := by
  unfold chooseMax at h
  split at h
  · cases h
  · rename_i v i hv
    obtain ⟨h1, h2, h3⟩ := argmaxVal_some hv
    rw [List.getElem?_map, h] at h1
    have hs : score r = v := by simpa using h1
    refine ⟨i, h, fun r' hr' => ?_, fun k hk r' hr' => ?_⟩
    · rw [hs]; exact h2 _ (List.mem_map_of_mem hr')
    · rw [hs]; exact h3 k _ hk (by rw [List.getElem?_map, hr']; rfl)

/-- **C36** `lhd_corr` chooses, among the generated designs, one for which the absolute value of the largest
correlation between two coordinates is smallest, the first such. -/
theorem C36_corr_design {corr : List Pt → List ℚ} {lhs : List (List Pt)} {r : List Pt}
    (h : chooseMin (corrScore corr) lhs = some r) (hne : ∀ d ∈ lhs, corr d ≠ []) :
    ∃ i : ℕ, lhs[i]? = some r ∧ ∃ m ∈ corr r, (∀ c ∈ corr r, c ≤ m) ∧
      ∀ (k : ℕ) (r' : List Pt), lhs[k]? = some r' → ∃ m' ∈ corr r', (∀ c ∈ corr r', c ≤ m') ∧
        |m| ≤ |m'| ∧ (k < i → |m| < |m'|) := by
  have hsc : ∀ d ∈ lhs, ∃ m ∈ corr d, (∀ c ∈ corr d, c ≤ m) ∧ corrScore corr d = |m| := by
    intro d hd
    unfold corrScore
    split
    · rename_i h0
      exact absurd (argmaxVal_none.mp h0) (hne d hd)
    · rename_i v j hv
      obtain ⟨h1, h2, -⟩ := argmaxVal_some hv
      exact ⟨v, List.mem_of_getElem? h1, h2, rfl⟩
  unfold chooseMin at h
  split at h
  · cases h
  · rename_i v i hv
    obtain ⟨h1, h2, h3⟩ := argminVal_some hv
    rw [List.getElem?_map, h] at h1
    have hs : corrScore corr r = v := by simpa using h1
    obtain ⟨m, hm, hm1, hm2⟩ := hsc r (List.mem_of_getElem? h)
    refine ⟨i, h, m, hm, hm1, fun k r' hk => ?_⟩
    have hmem := List.mem_of_getElem? hk
    obtain ⟨m', hm', hm1', hm2'⟩ := hsc r' hmem
    refine ⟨m', hm', hm1', ?_, fun hki => ?_⟩
    · rw [← hm2, ← hm2', hs]; exact h2 _ (List.mem_map_of_mem hmem)
    · rw [← hm2, ← hm2', hs]; exact h3 k _ hki (by rw [List.getElem?_map, hk]; rfl)

/-- **C36** (violated part) `lhd_corr` is meant to choose the design with the smallest correlation
between coordinates.  It compares the absolute value of the *largest* correlation, so strong negative
correlations go unnoticed: of two designs with pairwise correlations (-9/10, 1/10, 0) and
(1/5, 1/5, 1/5) the first is chosen. -/
theorem C36_violated_min_correlation : ∃ (corr : List Pt → List ℚ) (d1 d2 : List Pt),
    chooseMin (corrScore corr) [d1, d2] = some d1 ∧
    (∃ c ∈ corr d1, 9/10 ≤ |c|) ∧ (∀ c ∈ corr d2, |c| ≤ 1/5) := by
  refine ⟨fun d => if d = [] then [-9/10, 1/10, 0] else [1/5, 1/5, 1/5], [], [[]], ?_, ?_, ?_⟩
  · decide +kernel
  · exact ⟨-9/10, by simp, by norm_num [abs_of_nonpos]⟩
  · intro c hc
    simp only [reduceCtorEq, if_false, List.mem_cons, List.not_mem_nil, or_false, or_self] at hc
    rw [hc]; norm_num [abs_of_nonneg]

/-! ### Feasibility of the sample -/

/-- Point of the right dimension, in the box, integral on the integer variables. -/
structure GoodPt (lower upper : Pt) (ints : List ℕ) (p : Pt) : Prop where
  length : p.length = lower.length
  box : ∀ i < lower.length, lower.getD i 0 ≤ p.getD i 0 ∧ p.getD i 0 ≤ upper.getD i 0
  int : ∀ i ∈ ints, IsInt (p.getD i 0)

/-- Bounds of the right form. -/
structure GoodBox (lower upper : Pt) (ints : List ℕ) : Prop where
  length : lower.length = upper.length
  le : ∀ i < lower.length, lower.getD i 0 ≤ upper.getD i 0
  int : ∀ i ∈ ints, i < lower.length ∧ IsInt (lower.getD i 0) ∧ IsInt (upper.getD i 0)

theorem roundInts_length (ints : List ℕ) (p : Pt) : (roundInts ints p).length = p.length := by
  simp [roundInts]

theorem roundInts_get (ints : List ℕ) (p : Pt) {i : ℕ} (hi : i < p.length) :
    (roundInts ints p).getD i 0 = if i ∈ ints then (aroundEven (p.getD i 0) : ℚ)
      else p.getD i 0 := by
  unfold roundInts
  rw [List.getD_eq_getElem?_getD, List.getElem?_mapIdx, List.getD_eq_getElem?_getD,
    List.getElem?_eq_getElem hi]
  rfl

/-- Rounding a point that is in the box, up to less than one half for integer variables, gives a
point in the box and integral. -/
theorem roundInts_good {lower upper : Pt} {ints : List ℕ} (hb : GoodBox lower upper ints) {p : Pt}
    (hl : p.length = lower.length)
    (h : ∀ i < lower.length, if i ∈ ints then
        lower.getD i 0 - 1/2 < p.getD i 0 ∧ p.getD i 0 < upper.getD i 0 + 1/2
      else lower.getD i 0 ≤ p.getD i 0 ∧ p.getD i 0 ≤ upper.getD i 0) :
    GoodPt lower upper ints (roundInts ints p) := by
  refine ⟨by rw [roundInts_length, hl], ?_, ?_⟩
  · intro i hi
    have := h i hi
    rw [roundInts_get _ _ (by omega)]
    split
    · rename_i hm
      rw [if_pos hm] at this
      obtain ⟨-, ⟨a, ha⟩, ⟨b, hb'⟩⟩ := hb.int i hm
      rw [ha, hb'] at this ⊢
      have := aroundEven_mem this.1 this.2
      exact ⟨by exact_mod_cast this.1, by exact_mod_cast this.2⟩
    · rename_i hm; rw [if_neg hm] at this; exact this
  · intro i hi
    have hlt := (hb.int i hi).1
    rw [roundInts_get _ _ (by omega), if_pos hi]
    exact ⟨_, rfl⟩

theorem round_box_good {lower upper : Pt} {ints : List ℕ} (hb : GoodBox lower upper ints) {p : Pt}
    (hl : p.length = lower.length)
    (h : ∀ i < lower.length, lower.getD i 0 ≤ p.getD i 0 ∧ p.getD i 0 ≤ upper.getD i 0) :
    GoodPt lower upper ints (roundInts ints p) := by
  refine roundInts_good hb hl fun i hi => ?_
  have := h i hi
  split
  · constructor <;> linarith
  · exact this

theorem scaleDesign_good {lower upper : Pt} {ints : List ℕ} (hb : GoodBox lower upper ints) {p : Pt}
    (hl : p.length = lower.length) (h : ∀ j < lower.length, 0 ≤ p.getD j 0 ∧ p.getD j 0 < 1) :
    GoodPt lower upper ints (roundInts ints (scaleDesign lower upper ints p)) := by
  refine roundInts_good hb (by simp [scaleDesign, hl]) fun i hi => ?_
  obtain ⟨h1, h2⟩ := h i hi
  have h3 := hb.le i hi
  have e : (scaleDesign lower upper ints p).getD i 0 =
      p.getD i 0 * (2 * (if i ∈ ints then 499/1000 else 0) + upper.getD i 0 - lower.getD i 0) +
        lower.getD i 0 - (if i ∈ ints then 499/1000 else 0) := by
    unfold scaleDesign
    rw [List.getD_eq_getElem?_getD, List.getElem?_mapIdx, List.getElem?_eq_getElem (by omega)]
    simp only [Option.map_some, Option.getD_some]
    rw [List.getD_eq_getElem?_getD (l := p), List.getElem?_eq_getElem (by omega)]
    rfl
  rw [e]
  generalize p.getD i 0 = x at *
  generalize lower.getD i 0 = l at *
  generalize upper.getD i 0 = u at *
  split
  · have h0 : 0 ≤ x * (u - l) := mul_nonneg h1 (by linarith)
    have h4 : x * (u - l) ≤ u - l := by nlinarith
    constructor <;> nlinarith
  · have h0 : 0 ≤ x * (u - l) := mul_nonneg h1 (by linarith)
    have h4 : x * (u - l) ≤ u - l := by nlinarith
    constructor <;> nlinarith

theorem midpoint_good {lower upper : Pt} {ints : List ℕ} (hb : GoodBox lower upper ints) :
    GoodPt lower upper ints (midpointOf lower upper ints) := by
  have hlen := hb.length
  refine round_box_good hb (by simp [hlen]) fun i hi => ?_
  have h := hb.le i hi
  have e : (List.zipWith (fun l u => (l + u) / 2) lower upper).getD i 0 =
      (lower.getD i 0 + upper.getD i 0) / 2 := by
    rw [List.getD_eq_getElem?_getD, List.getElem?_zipWith, List.getElem?_eq_getElem hi,
      List.getElem?_eq_getElem (by omega), List.getD_eq_getElem?_getD, List.getD_eq_getElem?_getD,
      List.getElem?_eq_getElem hi, List.getElem?_eq_getElem (by omega)]
    rfl
  rw [e]
  constructor <;> linarith

/-- Valid random data of one trial. -/
structure TrialDraw.Valid (d : TrialDraw) (n N : ℕ) : Prop where
  bits : ∀ b ∈ d.bits, b.length = n
  lhs : ∀ l ∈ d.lhs, l.Valid n N

theorem choose_mem {score : List Pt → ℚ} {lhs : List (List Pt)} {r : List Pt}
    (h : chooseMax score lhs = some r ∨ chooseMin score lhs = some r) : r ∈ lhs := by
  rcases h with h | h
  · unfold chooseMax at h
    split at h
    · cases h
    · exact List.mem_of_getElem? h
  · unfold chooseMin at h
    split at h
    · cases h
    · exact List.mem_of_getElem? h

theorem lhdPoints_good {lower upper : Pt} {ints : List ℕ} (hb : GoodBox lower upper ints) {N : ℕ}
    {choose : List (List Pt) → Option (List Pt)} (hc : ∀ l r, choose l = some r → r ∈ l)
    {draws : List LhsDraw} (hd : ∀ l ∈ draws, l.Valid lower.length N) {nodes : List Pt}
    (h : lhdPoints lower upper ints N choose draws = some nodes) :
    ∀ p ∈ nodes, GoodPt lower upper ints (roundInts ints p) := by
  unfold lhdPoints at h
  split at h
  · cases h
    intro p hp
    have hle := hb.le
    have hlen := hb.length
    simp only [List.mem_cons, List.not_mem_nil, or_false] at hp
    rcases hp with rfl | rfl
    · exact round_box_good hb rfl fun i hi => ⟨le_rfl, hle i hi⟩
    · exact round_box_good hb hlen.symm fun i hi => ⟨hle i hi, le_rfl⟩
  · split at h
    · cases h
    · rename_i lhd hl
      cases h
      intro p hp
      obtain ⟨q, hq, rfl⟩ := List.mem_map.mp hp
      obtain ⟨dr, hdr, rfl⟩ := List.mem_map.mp (hc _ _ hl)
      obtain ⟨h1, h2⟩ := uniformLhs_unit (hd dr hdr) hq
      exact scaleDesign_good hb h1 h2

theorem corner_good {lower upper : Pt} {ints : List ℕ} (hb : GoodBox lower upper ints) {p : Pt}
    (h : IsCorner lower upper p) : GoodPt lower upper ints (roundInts ints p) := by
  refine round_box_good hb h.1 fun i hi => ?_
  have := hb.le i hi
  rcases h.2 i hi with e | e <;> rw [e]
  · exact ⟨le_rfl, this⟩
  · exact ⟨this, le_rfl⟩

theorem lowerCorners_corner {lower upper : Pt} {p : Pt} (hp : p ∈ lowerCorners lower upper) :
    IsCorner lower upper p := by
  unfold lowerCorners at hp
  rcases List.mem_cons.mp hp with rfl | hp
  · exact ⟨rfl, fun i _ => .inl rfl⟩
  · obtain ⟨i, hi, rfl⟩ := List.mem_map.mp hp
    rw [List.mem_range] at hi
    refine ⟨by simp, fun j hj => ?_⟩
    rw [List.getD_eq_getElem?_getD, List.getElem?_set]
    by_cases e : i = j
    · subst e; right; simp [hi]
    · left; rw [if_neg e, ← List.getD_eq_getElem?_getD]

theorem strategyNodes_good {C : InitCfg} (hdist : ∀ p, C.dist p p = 0) {lower upper : Pt}
    {ints : List ℕ} (hb : GoodBox lower upper ints) {N : ℕ} {d : TrialDraw}
    (hd : d.Valid lower.length N) {nodes : List Pt}
    (h : strategyNodes C lower upper ints N d = some nodes) :
    ∀ p ∈ nodes, GoodPt lower upper ints (roundInts ints p) := by
  unfold strategyNodes at h
  split at h
  · cases h; intro p hp; exact corner_good hb ((mem_allCorners hb.length).mp hp)
  · cases h; intro p hp; exact corner_good hb (lowerCorners_corner hp)
  · intro p hp
    exact corner_good hb ((C35_random_corners hdist hb.length hd.bits h).2.2 p hp)
  · exact lhdPoints_good hb (fun _ _ g => choose_mem (.inl g)) hd.lhs h
  · exact lhdPoints_good hb (fun _ _ g => choose_mem (.inr g)) hd.lhs h

/-- What `initialize_nodes` uses as dimension of the sample: the number of unfixed variables in the
user's coordinates for Latin hypercubes with categorical variables, else the internal dimension. -/
def sampleDim (C : InitCfg) (I : Internal) : ℕ :=
  if I.expansion ≠ [] ∧ C.strategy.isLhd = true then (compressBounds I I.lower).length
  else I.lower.length

variable {eps : ℚ} {vars : List Var}

theorem goodBox_construct (hw : WellFormed vars) :
    GoodBox (construct eps vars).lower (construct eps vars).upper (construct eps vars).intVars := by
  obtain ⟨hb, hl, hi, -⟩ := layout_bounds (eps := eps) hw
  rw [construct_eq hw]
  refine ⟨hb.length_eq, fun i hi' => ?_, fun i hi' => ⟨?_, (hi i hi').2⟩⟩
  · have hlen := hb.length_eq
    rw [getD_of (List.getElem?_eq_getElem hi'),
      getD_of (List.getElem?_eq_getElem (by omega : i < (layout eps vars).upper.length))]
    exact (forall₂_iff_get.mp hb).2 i _ _ (List.getElem?_eq_getElem hi')
      (List.getElem?_eq_getElem (by omega))
  · have := (hi i hi').1; omega

theorem goodBox_compressed (hw : WellFormed vars) :
    let I := construct eps vars
    GoodBox (compressBounds I I.lower) (compressBounds I I.upper)
      (compressIntVars I I.intVars) := by
  dsimp only
  rw [(C27_bounds (eps := eps) hw).1, (C27_bounds (eps := eps) hw).2]
  have hmem := (C27_integer_vars (eps := eps) hw).2
  have hget : ∀ i v, (vars.filter (fun v => !v.isFixed eps))[i]? = some v →
      ((vars.filter (fun v => !v.isFixed eps)).map Var.lower).getD i 0 = v.lower ∧
      ((vars.filter (fun v => !v.isFixed eps)).map Var.upper).getD i 0 = v.upper ∧ v ∈ vars := by
    intro i v hv
    refine ⟨getD_of (by rw [List.getElem?_map, hv]; rfl), getD_of (by rw [List.getElem?_map, hv]; rfl),
      ?_⟩
    exact List.mem_of_mem_filter (List.mem_of_getElem? hv)
  refine ⟨by simp, fun i hi => ?_, fun i hi => ?_⟩
  · rw [List.length_map] at hi
    obtain ⟨h1, h2, h3⟩ := hget i _ (List.getElem?_eq_getElem hi)
    rw [h1, h2]
    exact (hw _ h3).1
  · obtain ⟨v, hv, ht⟩ := (hmem i).mp hi
    obtain ⟨h1, h2, h3⟩ := hget i _ hv
    rw [h1, h2]
    refine ⟨?_, (hw _ h3).2 ht⟩
    rw [List.length_map]
    exact (List.getElem?_eq_some_iff.mp hv).1

theorem good_expand (hw : WellFormed vars) {p : Pt}
    (hp : let I := construct eps vars
      GoodPt (compressBounds I I.lower) (compressBounds I I.upper) (compressIntVars I I.intVars) p) :
    FeasibleInternal (construct eps vars) (expandPt (construct eps vars) p) := by
  dsimp only at hp
  have hmem := (C27_integer_vars (eps := eps) hw).2
  obtain ⟨g1, g2, g3⟩ := hp
  rw [(C27_bounds (eps := eps) hw).1] at g1 g2
  rw [(C27_bounds (eps := eps) hw).2] at g2
  rw [construct_eq hw] at *
  refine expand_feasible hw (forall₂_simp.mpr ?_)
  rw [forall₂_iff_get]
  rw [List.length_map] at g1
  refine ⟨g1, fun i v x hv hx => ?_⟩
  have hi := (List.getElem?_eq_some_iff.mp hv).1
  have h1 : ((vars.filter (fun v => !v.isFixed eps)).map Var.lower).getD i 0 = v.lower :=
    getD_of (by rw [List.getElem?_map]; unfold unfixedSpec at hv; rw [hv]; rfl)
  have h2 : ((vars.filter (fun v => !v.isFixed eps)).map Var.upper).getD i 0 = v.upper :=
    getD_of (by rw [List.getElem?_map]; unfold unfixedSpec at hv; rw [hv]; rfl)
  have := g2 i (by rw [List.length_map]; exact hi)
  rw [h1, h2, getD_of hx] at this
  refine ⟨this.1, this.2, fun ht => ?_⟩
  have := g3 i ((hmem i).mpr ⟨v, hv, ht⟩)
  rwa [getD_of hx] at this

theorem good_plain (hw : WellFormed vars) {p : Pt} (h0 : (construct eps vars).expansion = [])
    (hp : GoodPt (construct eps vars).lower (construct eps vars).upper
      (construct eps vars).intVars p) : FeasibleInternal (construct eps vars) p := by
  have hb := goodBox_construct (eps := eps) hw
  have hdim : (construct eps vars).lower.length = (construct eps vars).dim := by
    rw [construct_eq hw]; exact (layout_bounds hw).2.1
  refine ⟨hp.length.trans hdim, ?_, ?_, hp.int, by rw [h0]; simp⟩
  · rw [forall₂_iff_get]
    refine ⟨hp.length, fun i a b ha hb' => ?_⟩
    have hi := (List.getElem?_eq_some_iff.mp ha).1
    have := (hp.box i hi).1
    rwa [getD_of ha, getD_of hb'] at this
  · rw [forall₂_iff_get]
    refine ⟨(hp.length.trans hb.length).symm, fun i a b ha hb' => ?_⟩
    have hi := (List.getElem?_eq_some_iff.mp ha).1
    have := (hp.box i (by rw [← hp.length]; exact hi)).2
    rwa [getD_of ha, getD_of hb'] at this

/-- **C36** The midpoint is appended to the samples exactly if this is requested and it is farther than
`min_dist` from every sample. -/
theorem C36_midpoint {C : InitCfg} {lower upper : Pt} {ints : List ℕ} {nodes : List Pt}
    (hne : nodes ≠ []) :
    (C.midpoint = true → (∀ q ∈ nodes, C.minDist < C.dist (midpointOf lower upper ints) q) →
      addMidpoint C lower upper ints nodes = nodes ++ [midpointOf lower upper ints]) ∧
    (¬ (C.midpoint = true ∧ ∀ q ∈ nodes, C.minDist < C.dist (midpointOf lower upper ints) q) →
      addMidpoint C lower upper ints nodes = nodes) := by
  unfold addMidpoint
  cases hd : getMinDistance C.dist (midpointOf lower upper ints) nodes with
  | none =>
    exfalso
    simp only [getMinDistance, getMinDistanceAndIndex, Option.map_eq_none_iff] at hd
    exact hne (List.map_eq_nil_iff.mp (argminVal_none.mp hd))
  | some d =>
    obtain ⟨i, hi⟩ : ∃ i, getMinDistanceAndIndex C.dist (midpointOf lower upper ints) nodes =
        some (d, i) := by
      unfold getMinDistance at hd
      rw [Option.map_eq_some_iff] at hd
      obtain ⟨⟨d', i⟩, h1, h2⟩ := hd
      cases h2
      exact ⟨i, h1⟩
    obtain ⟨q, hq, hqd, hle⟩ := getMinDistanceAndIndex_some hi
    have hiff : C.minDist < d ↔ ∀ q ∈ nodes, C.minDist < C.dist (midpointOf lower upper ints) q := by
      constructor
      · intro h q' hq'
        exact h.trans_le (hle q' hq')
      · intro h
        have := h q (List.mem_of_getElem? hq)
        rwa [hqd] at this
    dsimp only
    refine ⟨fun h1 h2 => ?_, fun h => ?_⟩
    · rw [if_pos h1, if_pos (hiff.mpr h2)]
    · by_cases hm : C.midpoint = true
      · rw [if_pos hm, if_neg (fun hg => h ⟨hm, hiff.mp hg⟩)]
      · rw [if_neg hm]


theorem addMidpoint_good {C : InitCfg} {lower upper : Pt} {ints : List ℕ}
    (hb : GoodBox lower upper ints) {nodes : List Pt}
    (h : ∀ p ∈ nodes, GoodPt lower upper ints p) :
    ∀ p ∈ addMidpoint C lower upper ints nodes, GoodPt lower upper ints p := by
  unfold addMidpoint
  intro p hp
  split at hp
  · split at hp
    · exact h p hp
    · split at hp
      · rcases List.mem_append.mp hp with g | g
        · exact h p g
        · rw [List.mem_singleton.mp g]; exact midpoint_good hb
      · exact h p hp
  · exact h p hp

theorem initTrial_feasible {C : InitCfg} (hw : WellFormed vars) (hdist : ∀ p, C.dist p p = 0)
    (hs : C.strategy.isLhd = true ∨ (construct eps vars).expansion = []) {d : TrialDraw}
    (hd : d.Valid (sampleDim C (construct eps vars))
      (numInitSamples C (construct eps vars).lower.length)) {nodes : List Pt} {b : Bool}
    (h : initTrial C (construct eps vars) d = some (nodes, b)) :
    ∀ p ∈ nodes, FeasibleInternal (construct eps vars) p := by
  unfold initTrial at h
  dsimp only at h
  by_cases hu : (construct eps vars).expansion ≠ [] ∧ C.strategy.isLhd = true
  · have hu' : (decide ((construct eps vars).expansion ≠ []) && C.strategy.isLhd) = true := by
      simp only [Bool.and_eq_true, decide_eq_true_eq]; exact hu
    rw [hu'] at h
    simp only [if_true] at h
    unfold sampleDim at hd
    rw [if_pos hu] at hd
    split at h
    · cases h
    · rename_i nds hn
      cases h
      have hb := goodBox_compressed (eps := eps) hw
      intro p hp
      obtain ⟨q, hq, rfl⟩ := List.mem_map.mp hp
      refine good_expand hw (addMidpoint_good hb ?_ q hq)
      intro r hr
      obtain ⟨r', hr', rfl⟩ := List.mem_map.mp hr
      exact strategyNodes_good hdist hb hd hn r' hr'
  · have hu' : (decide ((construct eps vars).expansion ≠ []) && C.strategy.isLhd) = false := by
      rw [← Bool.not_eq_true, Bool.and_eq_true, decide_eq_true_eq]; exact hu
    rw [hu'] at h
    simp only [Bool.false_eq_true, if_false] at h
    unfold sampleDim at hd
    rw [if_neg hu] at hd
    have h0 : (construct eps vars).expansion = [] := by
      rcases hs with hs | hs
      · by_contra hc; exact hu ⟨hc, hs⟩
      · exact hs
    split at h
    · cases h
    · rename_i nds hn
      cases h
      have hb := goodBox_construct (eps := eps) hw
      intro p hp
      refine good_plain hw h0 (addMidpoint_good hb ?_ p hp)
      intro r hr
      obtain ⟨r', hr', rfl⟩ := List.mem_map.mp hr
      exact strategyNodes_good hdist hb hd hn r' hr'

/-! ## C37 -/

theorem initLoop_spec (trial : ℕ → Option (List Pt × Bool)) (rem it : ℕ) {r : Option (List Pt)}
    {k : ℕ} (h : initLoop trial rem it = some (r, k)) :
    (∃ nodes, r = some nodes ∧ it < k ∧ k ≤ it + rem ∧ trial (k - 1) = some (nodes, true) ∧
      ∀ i, it ≤ i → i < k - 1 → ∃ nds, trial i = some (nds, false)) ∨
    (r = none ∧ k = it + rem ∧ ∀ i, it ≤ i → i < it + rem → ∃ nds, trial i = some (nds, false)) := by
  induction rem generalizing it with
  | zero => cases h; right; exact ⟨rfl, rfl, fun i h1 h2 => absurd h2 (by omega)⟩
  | succ rem ih =>
    rw [initLoop] at h
    split at h
    · cases h
    · rename_i nodes ht
      cases h
      left
      exact ⟨nodes, rfl, by omega, by omega, ht, fun i h1 h2 => absurd h2 (by omega)⟩
    · rename_i nds ht
      have hstep : ∀ i, it ≤ i → i = it ∨ it + 1 ≤ i := fun i hi => by omega
      rcases ih (it + 1) h with ⟨nodes, e1, e2, e3, e4, e5⟩ | ⟨e1, e2, e3⟩
      · left
        refine ⟨nodes, e1, by omega, by omega, e4, fun i h1 h2 => ?_⟩
        rcases hstep i h1 with rfl | h1
        · exact ⟨nds, ht⟩
        · exact e5 i h1 h2
      · right
        refine ⟨e1, by omega, fun i h1 h2 => ?_⟩
        rcases hstep i h1 with rfl | h1
        · exact ⟨nds, ht⟩
        · exact e3 i h1 (by omega)

theorem initLoop_exists (trial : ℕ → Option (List Pt × Bool)) (ht : ∀ i, (trial i).isSome = true)
    (rem it : ℕ) : ∃ r, initLoop trial rem it = some r := by
  induction rem generalizing it with
  | zero => exact ⟨_, rfl⟩
  | succ rem ih =>
    rw [initLoop]
    split
    · rename_i h; have := ht it; rw [h] at this; cases this
    · exact ⟨_, rfl⟩
    · exact ih _

/-- **C37** For every outcome of the random trials: the sample returned is that of the first good
trial, and it is returned exactly if that trial is not the last allowed one; otherwise
`RuntimeError` is raised.  (`trial i` is the sample of trial `i` and whether it is rich enough.) -/
theorem C37_first_good_trial (trial : ℕ → Option (List Pt × Bool))
    (ht : ∀ i, (trial i).isSome = true) (m : ℕ) :
    (∀ nodes, runTrials trial m = some (.ok nodes) ↔
      ∃ i, i + 1 < m ∧ trial i = some (nodes, true) ∧
        ∀ j < i, ∃ nds, trial j = some (nds, false)) ∧
    (runTrials trial m = some (.error .runtimeError) ↔
      ∀ i, i + 1 < m → ∃ nds, trial i = some (nds, false)) := by
  obtain ⟨⟨r, k⟩, hr⟩ := initLoop_exists trial ht m 0
  have huniq : ∀ i i' nodes nodes', trial i = some (nodes, true) →
      (∀ j < i, ∃ nds, trial j = some (nds, false)) → trial i' = some (nodes', true) →
      (∀ j < i', ∃ nds, trial j = some (nds, false)) → i = i' ∧ nodes = nodes' := by
    intro i i' n n' h1 h2 h3 h4
    have : i = i' := by
      rcases lt_trichotomy i i' with h | h | h
      · obtain ⟨_, e⟩ := h4 i h; rw [h1] at e; cases e
      · exact h
      · obtain ⟨_, e⟩ := h2 i' h; rw [h3] at e; cases e
    subst this
    rw [h1] at h3; cases h3
    exact ⟨rfl, rfl⟩
  unfold runTrials
  rw [hr]
  dsimp only
  rcases initLoop_spec trial m 0 hr with ⟨nodes, e1, e2, e3, e4, e5⟩ | ⟨e1, e2, e3⟩
  · subst e1
    have e5' : ∀ j < k - 1, ∃ nds, trial j = some (nds, false) := fun j hj => e5 j (by omega) hj
    by_cases hk : k = m
    · rw [if_pos hk]
      constructor
      · intro nds
        constructor
        · intro h; cases h
        · rintro ⟨i, h1, h2, h3⟩
          have := (huniq _ _ _ _ e4 e5' h2 h3).1
          omega
      · exact ⟨fun _ i hi => e5' i (by omega), fun _ => rfl⟩
    · rw [if_neg hk]
      constructor
      · intro nds
        constructor
        · intro h; cases h; exact ⟨k - 1, by omega, e4, e5'⟩
        · rintro ⟨i, h1, h2, h3⟩
          rw [(huniq _ _ _ _ e4 e5' h2 h3).2]
      · constructor
        · intro h; cases h
        · intro h
          obtain ⟨_, e⟩ := h (k - 1) (by omega)
          rw [e4] at e; cases e
  · subst e1
    have hk : k = m := by omega
    rw [if_pos hk]
    constructor
    · intro nds
      constructor
      · intro h; cases h
      · rintro ⟨i, h1, h2, h3⟩
        obtain ⟨_, e⟩ := e3 i (by omega) (by omega)
        rw [h2] at e; cases e
    · exact ⟨fun _ i hi => e3 i (by omega) (by omega), fun _ => rfl⟩

/-- **C37** (violated part) With a single allowed trial, initialization fails even when the trial is
good; in general success at the last allowed trial is reported as failure. -/
theorem C37_violated_last_trial (trial : ℕ → Option (List Pt × Bool)) (m : ℕ) {nodes : List Pt}
    (hm : 0 < m) (h1 : trial (m - 1) = some (nodes, true))
    (h2 : ∀ j < m - 1, ∃ nds, trial j = some (nds, false)) :
    runTrials trial m = some (.error .runtimeError) := by
  have : ∀ rem it, it + rem = m → initLoop trial rem it = some (some nodes, m) ∨ rem = 0 := by
    intro rem
    induction rem with
    | zero => intro it h; exact .inr rfl
    | succ rem ih =>
      intro it h
      left
      rw [initLoop]
      by_cases hr : rem = 0
      · have : it = m - 1 := by omega
        rw [this, h1]
        simp only [Option.some.injEq, Prod.mk.injEq, true_and]
        omega
      · obtain ⟨nds, e⟩ := h2 it (by omega)
        rw [e]
        rcases ih (it + 1) (by omega) with g | g
        · exact g
        · exact absurd g hr
  rcases this m 0 (by omega) with g | g
  · unfold runTrials
    rw [g]
    simp
  · omega

/-- **C37** `initialize_nodes` itself: if every trial ends, the sample returned is the one of the first trial
that is rich enough, computed from the random numbers drawn for *that* trial; it is returned exactly if the trial
is not the last allowed one, and otherwise `RuntimeError` is raised. -/
theorem C37_initialize_nodes (C : InitCfg) (I : Internal) (draws : ℕ → TrialDraw)
    (ht : ∀ i, (initTrial C I (draws i)).isSome = true) :
    (∀ nodes, initializeNodes C I draws = some (.ok nodes) ↔
      ∃ i, i + 1 < C.maxRandomInit ∧ initTrial C I (draws i) = some (nodes, true) ∧
        ∀ j < i, ∃ nds, initTrial C I (draws j) = some (nds, false)) ∧
    (initializeNodes C I draws = some (.error .runtimeError) ↔
      ∀ i, i + 1 < C.maxRandomInit → ∃ nds, initTrial C I (draws i) = some (nds, false)) :=
  C37_first_good_trial (fun i => initTrial C I (draws i)) ht C.maxRandomInit

/-- The random corners of the unit square; a sample is rich enough if it contains (1, 1).  The first trial draws
(0, 0), (1, 0) and (0, 1), the second one (1, 1), (1, 0) and (0, 1). -/
example :
    let C : InitCfg :=
      ⟨.randCorners, 1, 1, 0, false, 1/100, 3, fun p q => if p = q then 0 else 1, fun _ => 0,
        fun nds => decide ([1, 1] ∈ nds)⟩
    let I : Internal := ⟨2, [0, 0], [1, 1], [], [], [0, 1], [], []⟩
    let draws : ℕ → TrialDraw := fun i =>
      if i = 0 then ⟨[[true, true], [false, true], [true, false]], []⟩
      else ⟨[[false, false], [false, true], [true, false]], []⟩
    (initTrial C I (draws 0)).map (·.2) = some false ∧
      initializeNodes C I draws = some (.ok [[1, 1], [1, 0], [0, 1]]) ∧
      initializeNodes C I (fun _ => draws 0) = some (.error .runtimeError) := by
  decide +kernel

/-! ## C36: feasibility of the whole sample -/

/-- **C36** Whatever the random numbers drawn, every sample point returned by `initialize_nodes` is
feasible for the reformulated problem: in the box, integral on integer variables, one category per
categorical variable.  For Latin hypercube strategies on every problem; for corner strategies on
problems without (non-binary) categorical variables. -/
theorem C36_samples_feasible {C : InitCfg} (hw : WellFormed vars) (hdist : ∀ p, C.dist p p = 0)
    (hs : C.strategy.isLhd = true ∨ (construct eps vars).expansion = []) {draws : ℕ → TrialDraw}
    (hd : ∀ i, (draws i).Valid (sampleDim C (construct eps vars))
      (numInitSamples C (construct eps vars).lower.length)) {nodes : List Pt}
    (h : initializeNodes C (construct eps vars) draws = some (.ok nodes)) :
    ∀ p ∈ nodes, FeasibleInternal (construct eps vars) p := by
  unfold initializeNodes runTrials at h
  split at h
  · cases h
  · rename_i r it hl
    split at h
    · cases h
    · rcases initLoop_spec _ _ _ hl with ⟨nds, e1, -, -, e4, -⟩ | ⟨e1, -⟩
      · subst e1
        cases h
        exact initTrial_feasible hw hdist hs (hd _) e4
      · subst e1; cases h

end Rbfopt
