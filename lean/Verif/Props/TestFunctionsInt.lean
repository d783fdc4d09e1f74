import Verif.Props.TestFunctions

/-!
# C88: the declared optima of the test functions with integer variables
-/

namespace Rbfopt
namespace TestFns
open Real

/-- An integer coordinate of a feasible point. -/
theorem intCoord {n : ℕ} {T : BundledFn n} {x : Fin n → ℝ} (hx : T.Feasible x) (i : Fin n) (l u : ℤ)
    (hl : (T.vars i).lower = l) (hu : (T.vars i).upper = u) (ht : (T.vars i).type ≠ .R) :
    ∃ k : ℤ, x i = k ∧ l ≤ k ∧ k ≤ u := by
  obtain ⟨h1, h2, h3⟩ := hx i
  obtain ⟨k, hk⟩ := h3 ht
  rw [hl, hk] at h1
  rw [hu, hk] at h2
  exact ⟨k, hk, by exact_mod_cast h1, by exact_mod_cast h2⟩

theorem intLit_zero : ∃ k : ℤ, (0 : ℝ) = k := ⟨0, by simp⟩
theorem intLit_one : ∃ k : ℤ, (1 : ℝ) = k := ⟨1, by simp⟩
theorem intLit_ofNat (m : ℕ) [m.AtLeastTwo] : ∃ k : ℤ, (OfNat.ofNat m : ℝ) = k :=
  ⟨OfNat.ofNat m, by simp⟩
theorem intLit_neg (m : ℕ) [m.AtLeastTwo] : ∃ k : ℤ, -(OfNat.ofNat m : ℝ) = k :=
  ⟨-OfNat.ofNat m, by simp⟩

theorem pos_nonneg (v : ℝ) : 0 ≤ pos v := le_max_left _ _
theorem le_pos (v : ℝ) : v ≤ pos v := le_max_right _ _
theorem pos_of_nonpos {v : ℝ} (h : v ≤ 0) : pos v = 0 := max_eq_left h
theorem pos_of_nonneg {v : ℝ} (h : 0 ≤ v) : pos v = v := max_eq_right h

theorem C88_nvs03 : nvs03.OptimumIs 0 := by
  refine optimumIs_of (g := fun x => _) (fun x => rfl) ?_ ?_ rfl ?_
  · intro i; fin_cases i <;> norm_num [nvs03, intLit_ofNat]
  · norm_num [nvs03, pos]
  · intro x hx
    obtain ⟨a, ha, a0, -⟩ := intCoord hx 0 0 200 (by norm_num [nvs03]) (by norm_num [nvs03]) (by simp [nvs03])
    obtain ⟨b, hb, b0, -⟩ := intCoord hx 1 0 200 (by norm_num [nvs03]) (by norm_num [nvs03]) (by simp [nvs03])
    dsimp only [nvs03]
    rw [ha, hb]
    have p1 := le_pos (-(-0.1 * (a : ℝ) ^ 2 + b))
    have q1 := pos_nonneg (-(-0.1 * (a : ℝ) ^ 2 + b))
    generalize pos (-(-0.1 * (a : ℝ) ^ 2 + b)) = P1 at p1 q1 ⊢
    have p2 := le_pos (-(-0.333333333333333 * (a : ℝ) - b + 4.5))
    have q2 := pos_nonneg (-(-0.333333333333333 * (a : ℝ) - b + 4.5))
    generalize pos (-(-0.333333333333333 * (a : ℝ) - b + 4.5)) = P2 at p2 q2 ⊢
    have a0' : (0 : ℝ) ≤ a := by exact_mod_cast a0
    rcases lt_or_ge a 5 with h | h
    · have : (a : ℝ) ≤ 4 := by exact_mod_cast Int.lt_add_one_iff.mp h
      nlinarith [sq_nonneg ((b : ℝ) - 2)]
    · rcases eq_or_lt_of_le h with h | h
      · subst h
        push_cast at *
        rcases lt_or_ge b 3 with k | k
        · have : (b : ℝ) ≤ 2 := by exact_mod_cast Int.lt_add_one_iff.mp k
          nlinarith [sq_nonneg ((b : ℝ) - 2)]
        · have : (3 : ℝ) ≤ b := by exact_mod_cast k
          nlinarith [sq_nonneg ((b : ℝ) - 2)]
      · have : (6 : ℝ) ≤ a := by exact_mod_cast Int.add_one_le_iff.mpr h
        nlinarith [sq_nonneg ((b : ℝ) - 2), sq_nonneg ((a : ℝ) - 8)]

theorem C88_nvs04 : nvs04.OptimumIs 0 := by
  refine optimumIs_of (g := fun x => _) (fun x => rfl) ?_ ?_ rfl ?_
  · intro i; fin_cases i <;> norm_num [nvs04, intLit_ofNat, intLit_one]
  · norm_num [nvs04]
  · intro x hx
    obtain ⟨a, ha, a0, -⟩ := intCoord hx 0 0 200 (by norm_num [nvs04]) (by norm_num [nvs04]) (by simp [nvs04])
    obtain ⟨b, hb, b0, -⟩ := intCoord hx 1 0 200 (by norm_num [nvs04]) (by norm_num [nvs04]) (by simp [nvs04])
    dsimp only [nvs04]
    rw [ha, hb]
    have b0' : (0 : ℝ) ≤ b := by exact_mod_cast b0
    rcases lt_or_ge a 2 with h | h
    · interval_cases a
      · push_cast
        nlinarith
      · push_cast
        rcases lt_or_ge b 3 with k | k
        · have : (b : ℝ) ≤ 2 := by exact_mod_cast Int.lt_add_one_iff.mp k
          nlinarith
        · have : (3 : ℝ) ≤ b := by exact_mod_cast k
          nlinarith
    · have : (2 : ℝ) ≤ a := by exact_mod_cast h
      nlinarith [sq_nonneg (0.5 + (b : ℝ) - (0.6 + (a : ℝ)) ^ 2)]

theorem C88_nvs06 : nvs06.OptimumIs 0 := by
  refine optimumIs_of (g := fun x => _) (fun x => rfl) ?_ ?_ rfl ?_
  · intro i; fin_cases i <;> norm_num [nvs06, intLit_ofNat, intLit_one]
  · norm_num [nvs06]
  · intro x hx
    obtain ⟨a, ha, a0, -⟩ := intCoord hx 0 1 200 (by norm_num [nvs06]) (by norm_num [nvs06]) (by simp [nvs06])
    obtain ⟨b, hb, b0, -⟩ := intCoord hx 1 1 200 (by norm_num [nvs06]) (by norm_num [nvs06]) (by simp [nvs06])
    dsimp only [nvs06]
    rw [ha, hb]
    have b0' : (1 : ℝ) ≤ b := by exact_mod_cast b0
    have a0' : (1 : ℝ) ≤ a := by exact_mod_cast a0
    have n2 : (0 : ℝ) ≤ (100 + (a : ℝ) ^ 2 * (b : ℝ) ^ 2) / ((a : ℝ) * b) ^ 4 := by positivity
    have n1 : (0 : ℝ) ≤ (1 + (b : ℝ) ^ 2) / (a : ℝ) ^ 2 := by positivity
    rcases lt_or_ge a 3 with h | h
    · rcases lt_or_ge b 3 with k | k
      · interval_cases a <;> interval_cases b <;> norm_num
      · have : (3 : ℝ) ≤ b := by exact_mod_cast k
        interval_cases a
        · norm_num at n2 ⊢
          nlinarith
        · norm_num at n2 ⊢
          nlinarith
    · have : (3 : ℝ) ≤ a := by exact_mod_cast h
      nlinarith

theorem C88_nvs07 : nvs07.OptimumIs 0 := by
  refine optimumIs_of (g := fun x => _) (fun x => rfl) ?_ ?_ rfl ?_
  · intro i; fin_cases i <;> norm_num [nvs07, intLit_ofNat, intLit_zero]
  · simp [nvs07, pos]; norm_num
  · intro x hx
    obtain ⟨a, ha, a0, -⟩ := intCoord hx 0 0 200 (by norm_num [nvs07]) (by norm_num [nvs07]) (by simp [nvs07])
    obtain ⟨b, hb, b0, -⟩ := intCoord hx 1 0 200 (by norm_num [nvs07]) (by norm_num [nvs07]) (by simp [nvs07])
    obtain ⟨c, hc, c0, -⟩ := intCoord hx 2 0 200 (by norm_num [nvs07]) (by norm_num [nvs07]) (by simp [nvs07])
    dsimp only [nvs07]
    rw [ha, hb, hc]
    have p1 := le_pos (-((c : ℝ) ^ 2 * b + 5 * c + 3 * a - 10))
    have q1 := pos_nonneg (-((c : ℝ) ^ 2 * b + 5 * c + 3 * a - 10))
    generalize pos (-((c : ℝ) ^ 2 * b + 5 * c + 3 * a - 10)) = P1 at p1 q1 ⊢
    have p2 := le_pos (-((a : ℝ) - c - 2.66))
    have q2 := pos_nonneg (-((a : ℝ) - c - 2.66))
    generalize pos (-((a : ℝ) - c - 2.66)) = P2 at p2 q2 ⊢
    have a0' : (0 : ℝ) ≤ a := by exact_mod_cast a0
    have b0' : (0 : ℝ) ≤ b := by exact_mod_cast b0
    have c0' : (0 : ℝ) ≤ c := by exact_mod_cast c0
    have bb := sq_nonneg (b : ℝ)
    rcases lt_or_ge a 4 with h | h
    · rcases eq_or_lt_of_le c0 with k | k
      · subst k
        push_cast at *
        rcases lt_or_ge a 3 with l | l
        · have : (a : ℝ) ≤ 2 := by exact_mod_cast Int.lt_add_one_iff.mp l
          nlinarith
        · have : (a : ℝ) = 3 := by exact_mod_cast le_antisymm (Int.lt_add_one_iff.mp h) l
          nlinarith
      · have : (1 : ℝ) ≤ c := by exact_mod_cast Int.add_one_le_iff.mpr k
        nlinarith
    · have : (4 : ℝ) ≤ a := by exact_mod_cast h
      nlinarith

theorem C88_nvs15 : nvs15.OptimumIs 0 := by
  refine optimumIs_of (g := fun x => _) (fun x => rfl) ?_ ?_ rfl ?_
  · intro i; fin_cases i <;> norm_num [nvs15, intLit_ofNat, intLit_zero]
  · simp [nvs15, pos]; norm_num
  · intro x hx
    obtain ⟨a, ha, a0, -⟩ := intCoord hx 0 0 200 (by norm_num [nvs15]) (by norm_num [nvs15]) (by simp [nvs15])
    obtain ⟨b, hb, b0, -⟩ := intCoord hx 1 0 200 (by norm_num [nvs15]) (by norm_num [nvs15]) (by simp [nvs15])
    obtain ⟨c, hc, c0, -⟩ := intCoord hx 2 0 200 (by norm_num [nvs15]) (by norm_num [nvs15]) (by simp [nvs15])
    dsimp only [nvs15]
    rw [ha, hb, hc]
    have p1 := le_pos (-(-(a : ℝ) - b - 2 * c + 3))
    have q1 := pos_nonneg (-(-(a : ℝ) - b - 2 * c + 3))
    generalize pos (-(-(a : ℝ) - b - 2 * c + 3)) = P1 at p1 q1 ⊢
    have a0' : (0 : ℝ) ≤ a := by exact_mod_cast a0
    have b0' : (0 : ℝ) ≤ b := by exact_mod_cast b0
    -- the quadratic part as a sum of squares
    have e : 2 * (a : ℝ) ^ 2 - 8 * a + 2 * (b : ℝ) ^ 2 - 6 * b + (c : ℝ) ^ 2 - 4 * c + 2 * a * b
        + 2 * a * c + 9 = ((a : ℝ) - 2) ^ 2 + ((a : ℝ) - 2 + b) ^ 2 + ((b : ℝ) - 1) ^ 2
          + (c : ℝ) ^ 2 - 4 * c + 2 * a * c := by ring
    rw [e]
    rcases lt_or_ge c 2 with h | h
    · interval_cases c
      · have k : 1 ≤ (a - 2) ^ 2 + (a - 2 + b) ^ 2 + (b - 1) ^ 2 := by
          by_contra hh
          have h1 : (a - 2) ^ 2 = 0 := by nlinarith [sq_nonneg (a - 2), sq_nonneg (a - 2 + b), sq_nonneg (b - 1)]
          have h2 : (a - 2 + b) ^ 2 = 0 := by nlinarith [sq_nonneg (a - 2), sq_nonneg (a - 2 + b), sq_nonneg (b - 1)]
          have h3 : (b - 1) ^ 2 = 0 := by nlinarith [sq_nonneg (a - 2), sq_nonneg (a - 2 + b), sq_nonneg (b - 1)]
          have := pow_eq_zero_iff (two_ne_zero) |>.mp h1
          have := pow_eq_zero_iff (two_ne_zero) |>.mp h2
          have := pow_eq_zero_iff (two_ne_zero) |>.mp h3
          omega
        have k' : (1 : ℝ) ≤ ((a : ℝ) - 2) ^ 2 + ((a : ℝ) - 2 + b) ^ 2 + ((b : ℝ) - 1) ^ 2 := by
          exact_mod_cast k
        push_cast at *
        nlinarith
      · by_cases hz : a = 1 ∧ b = 1
        · obtain ⟨h1, h2⟩ := hz
          subst h1 h2
          push_cast at *
          nlinarith
        · have k : 1 ≤ (a - 1) ^ 2 + (a - 2 + b) ^ 2 + (b - 1) ^ 2 := by
            by_contra hh
            have h1 : (a - 1) ^ 2 = 0 := by nlinarith [sq_nonneg (a - 1), sq_nonneg (a - 2 + b), sq_nonneg (b - 1)]
            have h3 : (b - 1) ^ 2 = 0 := by nlinarith [sq_nonneg (a - 1), sq_nonneg (a - 2 + b), sq_nonneg (b - 1)]
            have := pow_eq_zero_iff (two_ne_zero) |>.mp h1
            have := pow_eq_zero_iff (two_ne_zero) |>.mp h3
            omega
          have k' : (1 : ℝ) ≤ ((a : ℝ) - 1) ^ 2 + ((a : ℝ) - 2 + b) ^ 2 + ((b : ℝ) - 1) ^ 2 := by
            exact_mod_cast k
          push_cast at *
          nlinarith
    · have : (2 : ℝ) ≤ c := by exact_mod_cast h
      have := mul_nonneg a0' (by linarith : (0 : ℝ) ≤ c)
      nlinarith [sq_nonneg ((a : ℝ) - 2), sq_nonneg ((a : ℝ) - 2 + b), sq_nonneg ((b : ℝ) - 1),
        sq_nonneg ((c : ℝ) - 2)]

theorem C88_nvs16 : nvs16.OptimumIs 0 := by
  refine optimumIs_of (g := fun x => _) (fun x => rfl) ?_ ?_ rfl ?_
  · intro i; fin_cases i <;> norm_num [nvs16, intLit_ofNat, intLit_zero]
  · norm_num [nvs16]
  · intro x hx
    obtain ⟨a, ha, a0, -⟩ := intCoord hx 0 0 200 (by norm_num [nvs16]) (by norm_num [nvs16]) (by simp [nvs16])
    obtain ⟨b, hb, b0, -⟩ := intCoord hx 1 0 200 (by norm_num [nvs16]) (by norm_num [nvs16]) (by simp [nvs16])
    dsimp only [nvs16]
    rw [ha, hb]
    have a0' : (0 : ℝ) ≤ a := by exact_mod_cast a0
    rcases eq_or_lt_of_le b0 with h | h
    · rw [← h]
      push_cast
      rcases lt_trichotomy a 2 with k | k | k
      · have : (a : ℝ) ≤ 1 := by exact_mod_cast Int.lt_add_one_iff.mp k
        nlinarith
      · rw [k]; norm_num
      · have : (3 : ℝ) ≤ a := by exact_mod_cast Int.add_one_le_iff.mpr k
        nlinarith
    · have hb1 : (1 : ℝ) ≤ b := by exact_mod_cast Int.add_one_le_iff.mpr h
      have h1 : (1.5 : ℝ) ≤ 1.5 - (a : ℝ) * (1 - b) := by nlinarith
      have := pow_le_pow_left₀ (by norm_num) h1 2
      nlinarith [sq_nonneg (2.25 - (a : ℝ) * (1 - (b : ℝ) ^ 2)), sq_nonneg (2.625 - (a : ℝ) * (1 - (b : ℝ) ^ 3))]

theorem C88_prob03 : prob03.OptimumIs 0 := by
  refine optimumIs_of (g := fun x => _) (fun x => rfl) ?_ ?_ rfl ?_
  · intro i; fin_cases i <;> norm_num [prob03, intLit_ofNat]
  · norm_num [prob03, pos]
  · intro x hx
    obtain ⟨a, ha, a0, a1⟩ := intCoord hx 0 1 5 (by norm_num [prob03]) (by norm_num [prob03]) (by simp [prob03])
    obtain ⟨b, hb, b0, b1⟩ := intCoord hx 1 1 5 (by norm_num [prob03]) (by norm_num [prob03]) (by simp [prob03])
    dsimp only [prob03]
    rw [ha, hb]
    interval_cases a <;> interval_cases b <;> norm_num [pos]

theorem C88_st_miqp3 : st_miqp3.OptimumIs 0 := by
  refine optimumIs_of (g := fun x => _) (fun x => rfl) ?_ ?_ rfl ?_
  · intro i; fin_cases i <;> norm_num [st_miqp3, intLit_ofNat, intLit_one]
  · norm_num [st_miqp3, pos]
  · intro x _
    dsimp only [st_miqp3]
    have p1 := le_pos (-(4 * x 0 - x 1))
    have q1 := pos_nonneg (-(4 * x 0 - x 1))
    generalize pos (-(4 * x 0 - x 1)) = P1 at p1 q1 ⊢
    nlinarith [sq_nonneg (x 0 - 1)]

theorem C88_st_test1 : st_test1.OptimumIs 0 := by
  refine optimumIs_of (g := fun x => _) (fun x => rfl) ?_ ?_ rfl ?_
  · intro i; fin_cases i <;> norm_num [st_test1, intLit_zero]
  · simp [st_test1, pos]; norm_num
  · intro x hx
    obtain ⟨a, ha, a0, a1⟩ := intCoord hx 0 0 1 (by norm_num [st_test1]) (by norm_num [st_test1]) (by simp [st_test1])
    obtain ⟨b, hb, b0, b1⟩ := intCoord hx 1 0 1 (by norm_num [st_test1]) (by norm_num [st_test1]) (by simp [st_test1])
    obtain ⟨c, hc, c0, c1⟩ := intCoord hx 2 0 1 (by norm_num [st_test1]) (by norm_num [st_test1]) (by simp [st_test1])
    obtain ⟨d, hd, d0, d1⟩ := intCoord hx 3 0 1 (by norm_num [st_test1]) (by norm_num [st_test1]) (by simp [st_test1])
    obtain ⟨e, he, e0, e1⟩ := intCoord hx 4 0 1 (by norm_num [st_test1]) (by norm_num [st_test1]) (by simp [st_test1])
    dsimp only [st_test1]
    rw [ha, hb, hc, hd, he]
    have q1 := pos_nonneg (-(-20 * (a : ℝ) - 12 * b - 11 * c - 7 * d - 4 * e + 40))
    interval_cases a <;> interval_cases b <;> interval_cases c <;> interval_cases d <;>
      interval_cases e <;> norm_num [pos]

theorem C88_st_miqp1 : st_miqp1.OptimumIs 0 := by
  refine optimumIs_of (g := fun x => _) (fun x => rfl) ?_ ?_ rfl ?_
  · intro i; fin_cases i <;> norm_num [st_miqp1, intLit_zero, intLit_one]
  · simp [st_miqp1, pos]; norm_num
  · intro x hx
    obtain ⟨a, ha, a0, a1⟩ := intCoord hx 0 0 1 (by norm_num [st_miqp1]) (by norm_num [st_miqp1]) (by simp [st_miqp1])
    obtain ⟨b, hb, b0, b1⟩ := intCoord hx 1 0 1 (by norm_num [st_miqp1]) (by norm_num [st_miqp1]) (by simp [st_miqp1])
    obtain ⟨c, hc, c0, c1⟩ := intCoord hx 2 0 1 (by norm_num [st_miqp1]) (by norm_num [st_miqp1]) (by simp [st_miqp1])
    obtain ⟨d, hd, d0, d1⟩ := intCoord hx 3 0 1 (by norm_num [st_miqp1]) (by norm_num [st_miqp1]) (by simp [st_miqp1])
    obtain ⟨e, he, e0, e1⟩ := intCoord hx 4 0 1 (by norm_num [st_miqp1]) (by norm_num [st_miqp1]) (by simp [st_miqp1])
    dsimp only [st_miqp1]
    rw [ha, hb, hc, hd, he]
    interval_cases a <;> interval_cases b <;> interval_cases c <;> interval_cases d <;>
      interval_cases e <;> norm_num [pos]

/-- The third constraint of `nvs02` and `nvs14` needs `x 2 ≥ 9` unless `x 0` is large. -/
theorem nvsPenalty_ge {w s : ℝ} (hw : 0 ≤ w) (x : Fin 5 → ℝ) :
    w * (20 - (0.0047026 * x 2 * x 4 + 0.0012547 * x 0 * x 2 + 0.0019085 * x 2 * x 3 + 9.300961))
      ≤ nvsPenalty w s x ∧ 0 ≤ nvsPenalty w s x := by
  unfold nvsPenalty
  dsimp only
  have h := fun v => mul_nonneg hw (pos_nonneg v)
  constructor
  · have h5 := mul_le_mul_of_nonneg_left (le_pos (-(0.0047026 * x 2 * x 4 + 0.0012547 * x 0 * x 2
      + 0.0019085 * x 2 * x 3 + 9.300961) + 20)) hw
    nlinarith [h (-(0.0056858 * x 1 * x 4 + 0.0006262 * x 0 * x 3 - 0.0022053 * x 2 * x 4 + 85.334407)),
      h (0.0056858 * x 1 * x 4 + 0.0006262 * x 0 * x 3 - 0.0022053 * x 2 * x 4 + 85.334407 - 92),
      h (-(0.0071317 * x 1 * x 4 + 0.0029955 * x 0 * x 1 + 0.0021813 * s + 80.51249) + 90),
      h (0.0071317 * x 1 * x 4 + 0.0029955 * x 0 * x 1 + 0.0021813 * s + 80.51249 - 110),
      h (0.0047026 * x 2 * x 4 + 0.0012547 * x 0 * x 2 + 0.0019085 * x 2 * x 3 + 9.300961 - 25)]
  · have := h (-(0.0056858 * x 1 * x 4 + 0.0006262 * x 0 * x 3 - 0.0022053 * x 2 * x 4 + 85.334407))
    have := h (0.0056858 * x 1 * x 4 + 0.0006262 * x 0 * x 3 - 0.0022053 * x 2 * x 4 + 85.334407 - 92)
    have := h (-(0.0071317 * x 1 * x 4 + 0.0029955 * x 0 * x 1 + 0.0021813 * s + 80.51249) + 90)
    have := h (0.0071317 * x 1 * x 4 + 0.0029955 * x 0 * x 1 + 0.0021813 * s + 80.51249 - 110)
    have := h (-(0.0047026 * x 2 * x 4 + 0.0012547 * x 0 * x 2 + 0.0019085 * x 2 * x 3 + 9.300961) + 20)
    have := h (0.0047026 * x 2 * x 4 + 0.0012547 * x 0 * x 2 + 0.0019085 * x 2 * x 3 + 9.300961 - 25)
    have h0 : (0.0 : ℝ) = 0 := by norm_num
    rw [h0]
    linarith

theorem C88_nvs14 : nvs14.OptimumIs 0 := by
  refine optimumIs_of (g := fun x => _) (fun x => rfl) ?_ ?_ rfl ?_
  · intro i; fin_cases i <;> norm_num [nvs14, intLit_ofNat, intLit_zero]
  · simp [nvs14, nvsPenalty, pos]; norm_num
  · intro x hx
    obtain ⟨a, ha, a0, -⟩ := intCoord hx 0 0 200 (by norm_num [nvs14]) (by norm_num [nvs14]) (by simp [nvs14])
    obtain ⟨c, hc, c0, -⟩ := intCoord hx 2 0 200 (by norm_num [nvs14]) (by norm_num [nvs14]) (by simp [nvs14])
    obtain ⟨d0, d1, -⟩ := hx 3
    obtain ⟨e0, e1, -⟩ := hx 4
    norm_num [nvs14] at d0 d1 e0 e1
    dsimp only [nvs14]
    obtain ⟨h1, h2⟩ := nvsPenalty_ge (w := 1000) (s := x 2 ^ 2) (by norm_num) x
    generalize nvsPenalty 1000 (x 2 ^ 2) x = P at h1 h2 ⊢
    rw [ha, hc] at *
    have a0' : (0 : ℝ) ≤ a := by exact_mod_cast a0
    have ae : (0 : ℝ) ≤ a * x 4 := mul_nonneg a0' e0
    rcases lt_or_ge c 9 with h | h
    · interval_cases c <;> push_cast at h1 ⊢ <;> nlinarith
    · have : (9 : ℝ) ≤ c := by exact_mod_cast h
      nlinarith

theorem C88_nvs02 : nvs02.OptimumIs 1e-12 := by
  have s9 : sqrt 9 = 3 := by
    rw [show (9 : ℝ) = 3 ^ 2 by norm_num]; exact Real.sqrt_sq (by norm_num)
  refine optimumIs_of (g := fun x => _) (fun x => rfl) ?_ ?_ rfl ?_
  · intro i; fin_cases i <;> norm_num [nvs02, intLit_ofNat, intLit_zero]
  · have s9' : sqrt 9.0 = 3 := by rw [show (9.0 : ℝ) = 9 by norm_num, s9]
    simp [nvs02, nvsPenalty, pos, s9']; norm_num [abs_le]
  · intro x hx
    obtain ⟨a, ha, a0, -⟩ := intCoord hx 0 0 200 (by norm_num [nvs02]) (by norm_num [nvs02]) (by simp [nvs02])
    obtain ⟨c, hc, c0, -⟩ := intCoord hx 2 0 200 (by norm_num [nvs02]) (by norm_num [nvs02]) (by simp [nvs02])
    obtain ⟨d0, d1, -⟩ := hx 3
    obtain ⟨e0, e1, -⟩ := hx 4
    norm_num [nvs02] at d0 d1 e0 e1
    dsimp only [nvs02]
    obtain ⟨h1, h2⟩ := nvsPenalty_ge (w := 10) (s := sqrt (x 2)) (by norm_num) x
    generalize nvsPenalty 10 (sqrt (x 2)) x = P at h1 h2 ⊢
    rw [ha, hc] at *
    have a0' : (0 : ℝ) ≤ a := by exact_mod_cast a0
    have c0' : (0 : ℝ) ≤ c := by exact_mod_cast c0
    have ae : (0 : ℝ) ≤ a * x 4 := mul_nonneg a0' e0
    have sq := Real.sqrt_nonneg (c : ℝ)
    rcases lt_or_ge c 9 with h | h
    · have h8 : (c : ℝ) ≤ 8 := by exact_mod_cast Int.lt_add_one_iff.mp h
      have m1 : (c : ℝ) * x 4 ≤ 8 * 200 := mul_le_mul h8 e1 e0 (by norm_num)
      have m2 : (c : ℝ) * x 3 ≤ 8 * 200 := mul_le_mul h8 d1 d0 (by norm_num)
      have m3 : (a : ℝ) * c ≤ a * 8 := mul_le_mul_of_nonneg_left h8 a0'
      rcases lt_or_ge a 10 with k | k
      · have : (a : ℝ) ≤ 9 := by exact_mod_cast Int.lt_add_one_iff.mp k
        nlinarith
      · have : (10 : ℝ) ≤ a := by exact_mod_cast k
        nlinarith
    · have h9 : (9 : ℝ) ≤ c := by exact_mod_cast h
      have := Real.sqrt_le_sqrt h9
      rw [s9] at this
      nlinarith

end TestFns
end Rbfopt
