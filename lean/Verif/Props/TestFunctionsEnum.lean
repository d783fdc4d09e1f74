import Verif.Props.TestFunctionsMore

/-!
# C88: test functions decided by a complete enumeration of their finite domain
-/

set_option Elab.async false

namespace Rbfopt
namespace TestFns
open Real

/-- The formula of `sporttournament06` over the integers. -/
def sportZ (b0 b1 b2 b3 b4 b5 b6 b7 b8 b9 b10 b11 b12 b13 b14 : ℤ) : ℤ :=
  2 * b0 * b2 - 2 * b0 + 2 * b2 + 2 * b0 * b6 - 2 * b6
    + 2 * b1 * b4 - 2 * b1 - 2 * b4 + 2 * b1 * b9
    - 4 * b9 - 2 * b2 * b3 + 2 * b3 - 2 * b2 * b11
    - 2 * b2 * b13 - 2 * b3 * b4 + 2 * b3 * b8 - 2 * b8
    - 2 * b3 * b14 + 2 * b4 * b5 - 2 * b5 + 2 * b4 * b7
    - 2 * b7 + 2 * b5 * b8 - 2 * b6 * b7 + 2 * b6 * b11
    + 2 * b6 * b12 + 2 * b7 * b9 + 2 * b7 * b14
    + 2 * b8 * b10 - 2 * b10 - 2 * b8 * b11 + 2 * b9 * b10
    + 2 * b9 * b11 - 2 * b12 * b14 + 2 * b13 * b14

/-- 0 and 1 as integers. -/
def bz (b : Bool) : ℤ := if b then 1 else 0

theorem sport_key0 : ∀ b3 b4 b5 b6 b7 b8 b9 b10 b11 b12 b13 b14 : Bool,
    -12 ≤ sportZ (bz false) (bz false) (bz false) (bz b3) (bz b4) (bz b5) (bz b6) (bz b7) (bz b8) (bz b9) (bz b10) (bz b11) (bz b12) (bz b13) (bz b14) := by
  decide +kernel

theorem sport_key1 : ∀ b3 b4 b5 b6 b7 b8 b9 b10 b11 b12 b13 b14 : Bool,
    -12 ≤ sportZ (bz false) (bz false) (bz true) (bz b3) (bz b4) (bz b5) (bz b6) (bz b7) (bz b8) (bz b9) (bz b10) (bz b11) (bz b12) (bz b13) (bz b14) := by
  decide +kernel

theorem sport_key2 : ∀ b3 b4 b5 b6 b7 b8 b9 b10 b11 b12 b13 b14 : Bool,
    -12 ≤ sportZ (bz false) (bz true) (bz false) (bz b3) (bz b4) (bz b5) (bz b6) (bz b7) (bz b8) (bz b9) (bz b10) (bz b11) (bz b12) (bz b13) (bz b14) := by
  decide +kernel

theorem sport_key3 : ∀ b3 b4 b5 b6 b7 b8 b9 b10 b11 b12 b13 b14 : Bool,
    -12 ≤ sportZ (bz false) (bz true) (bz true) (bz b3) (bz b4) (bz b5) (bz b6) (bz b7) (bz b8) (bz b9) (bz b10) (bz b11) (bz b12) (bz b13) (bz b14) := by
  decide +kernel

theorem sport_key4 : ∀ b3 b4 b5 b6 b7 b8 b9 b10 b11 b12 b13 b14 : Bool,
    -12 ≤ sportZ (bz true) (bz false) (bz false) (bz b3) (bz b4) (bz b5) (bz b6) (bz b7) (bz b8) (bz b9) (bz b10) (bz b11) (bz b12) (bz b13) (bz b14) := by
  decide +kernel

theorem sport_key5 : ∀ b3 b4 b5 b6 b7 b8 b9 b10 b11 b12 b13 b14 : Bool,
    -12 ≤ sportZ (bz true) (bz false) (bz true) (bz b3) (bz b4) (bz b5) (bz b6) (bz b7) (bz b8) (bz b9) (bz b10) (bz b11) (bz b12) (bz b13) (bz b14) := by
  decide +kernel

theorem sport_key6 : ∀ b3 b4 b5 b6 b7 b8 b9 b10 b11 b12 b13 b14 : Bool,
    -12 ≤ sportZ (bz true) (bz true) (bz false) (bz b3) (bz b4) (bz b5) (bz b6) (bz b7) (bz b8) (bz b9) (bz b10) (bz b11) (bz b12) (bz b13) (bz b14) := by
  decide +kernel

theorem sport_key7 : ∀ b3 b4 b5 b6 b7 b8 b9 b10 b11 b12 b13 b14 : Bool,
    -12 ≤ sportZ (bz true) (bz true) (bz true) (bz b3) (bz b4) (bz b5) (bz b6) (bz b7) (bz b8) (bz b9) (bz b10) (bz b11) (bz b12) (bz b13) (bz b14) := by
  decide +kernel

theorem sport_key : ∀ b0 b1 b2 b3 b4 b5 b6 b7 b8 b9 b10 b11 b12 b13 b14 : Bool,
    -12 ≤ sportZ (bz b0) (bz b1) (bz b2) (bz b3) (bz b4) (bz b5) (bz b6) (bz b7) (bz b8) (bz b9) (bz b10) (bz b11) (bz b12) (bz b13) (bz b14) := by
  intro b0 b1 b2
  cases b0 <;> cases b1 <;> cases b2
  · exact sport_key0
  · exact sport_key1
  · exact sport_key2
  · exact sport_key3
  · exact sport_key4
  · exact sport_key5
  · exact sport_key6
  · exact sport_key7

theorem bz_of {k : ℤ} (h0 : 0 ≤ k) (h1 : k ≤ 1) : ∃ b, k = bz b := by
  interval_cases k
  · exact ⟨false, rfl⟩
  · exact ⟨true, rfl⟩

theorem C88_sporttournament06 : sporttournament06.OptimumIs 0 := by
  refine optimumIs_of (g := fun x => _) (fun x => rfl) ?_ ?_ rfl ?_
  · have hv : sporttournament06.vars = fun _ => ⟨0, 1, .I⟩ := rfl
    have ho : sporttournament06.optPoint = ![0.0, 1.0, 1.0, 1.0, 0.0, 1.0, 1.0, 1.0, 0.0, 0.0, 1.0, 0.0, 0.0, 1.0, 0.0] := rfl
    intro i
    rw [hv, ho]
    fin_cases i <;> norm_num [intLit_zero, intLit_one]
  · simp [sporttournament06]; norm_num
  · intro x hx
    have hi : ∀ i, ∃ b, x i = bz b := by
      intro i
      obtain ⟨k, hk, k0, k1⟩ := intCoord hx i 0 1 (by simp [sporttournament06]) (by simp [sporttournament06]) (by simp [sporttournament06])
      obtain ⟨b, rfl⟩ := bz_of k0 k1
      exact ⟨b, hk⟩
    choose b hb using hi
    have h := sport_key (b 0) (b 1) (b 2) (b 3) (b 4) (b 5) (b 6) (b 7) (b 8) (b 9) (b 10) (b 11) (b 12) (b 13) (b 14)
    have h' : (-12 : ℝ) ≤ (sportZ (bz (b 0)) (bz (b 1)) (bz (b 2)) (bz (b 3)) (bz (b 4)) (bz (b 5)) (bz (b 6)) (bz (b 7)) (bz (b 8)) (bz (b 9)) (bz (b 10)) (bz (b 11)) (bz (b 12)) (bz (b 13)) (bz (b 14)) : ℤ) := by
      exact_mod_cast h
    dsimp only [sporttournament06]
    simp only [hb]
    unfold sportZ at h'
    push_cast at h'
    linarith

/-- For the gear ratio with numerator factor `a` and denominator `q`: no factor `b` between 12 and
60 brings `a * b / q` within 1.6434284739 millionths of 0.14427932477276. -/
def gearGap (a q : ℕ) : Bool :=
  let lo := (1442793247727600 - 16434284739) * q
  let hi := (1442793247727600 + 16434284739) * q
  let m := a * 10000000000000000
  let B := max (lo / m + 1) 12
  decide (60 < B) || decide (hi ≤ B * m)

theorem gearGap_spec {a q b : ℕ} (h : gearGap a q = true) (hb : 12 ≤ b) (hb' : b ≤ 60) :
    b * (a * 10000000000000000) ≤ (1442793247727600 - 16434284739) * q
      ∨ (1442793247727600 + 16434284739) * q ≤ b * (a * 10000000000000000) := by
  unfold gearGap at h
  simp only [Bool.or_eq_true, decide_eq_true_eq] at h
  generalize (1442793247727600 - 16434284739) * q = lo at *
  generalize (1442793247727600 + 16434284739) * q = hi at *
  generalize a * 10000000000000000 = m at *
  by_cases hle : b ≤ lo / m
  · exact Or.inl (le_trans (Nat.mul_le_mul_right _ hle) (Nat.div_mul_le_self _ _))
  · have hB : max (lo / m + 1) 12 ≤ b := max_le (by omega) hb
    rcases h with h | h
    · omega
    · exact Or.inr (le_trans h (Nat.mul_le_mul_right _ hB))

theorem gear_key0 : ∀ c : Fin 7, ∀ d : Fin 49, ∀ a : Fin 49,
    gearGap ((a : ℕ) + 12) (((c : ℕ) + 12) * ((d : ℕ) + 12)) = true := by
  decide +kernel

theorem gear_key1 : ∀ c : Fin 7, ∀ d : Fin 49, ∀ a : Fin 49,
    gearGap ((a : ℕ) + 12) (((c : ℕ) + 19) * ((d : ℕ) + 12)) = true := by
  decide +kernel

theorem gear_key2 : ∀ c : Fin 7, ∀ d : Fin 49, ∀ a : Fin 49,
    gearGap ((a : ℕ) + 12) (((c : ℕ) + 26) * ((d : ℕ) + 12)) = true := by
  decide +kernel

theorem gear_key3 : ∀ c : Fin 7, ∀ d : Fin 49, ∀ a : Fin 49,
    gearGap ((a : ℕ) + 12) (((c : ℕ) + 33) * ((d : ℕ) + 12)) = true := by
  decide +kernel

theorem gear_key4 : ∀ c : Fin 7, ∀ d : Fin 49, ∀ a : Fin 49,
    gearGap ((a : ℕ) + 12) (((c : ℕ) + 40) * ((d : ℕ) + 12)) = true := by
  decide +kernel

theorem gear_key5 : ∀ c : Fin 7, ∀ d : Fin 49, ∀ a : Fin 49,
    gearGap ((a : ℕ) + 12) (((c : ℕ) + 47) * ((d : ℕ) + 12)) = true := by
  decide +kernel

theorem gear_key6 : ∀ c : Fin 7, ∀ d : Fin 49, ∀ a : Fin 49,
    gearGap ((a : ℕ) + 12) (((c : ℕ) + 54) * ((d : ℕ) + 12)) = true := by
  decide +kernel

theorem gear_key (c d a : Fin 49) :
    gearGap ((a : ℕ) + 12) (((c : ℕ) + 12) * ((d : ℕ) + 12)) = true := by
  have hc := c.isLt
  by_cases h0 : (c : ℕ) < 7
  · have := gear_key0 ⟨c - 0, by omega⟩ d a
    simp only at this
    rwa [show (c : ℕ) - 0 + 12 = c + 12 by omega] at this
  by_cases h1 : (c : ℕ) < 14
  · have := gear_key1 ⟨c - 7, by omega⟩ d a
    simp only at this
    rwa [show (c : ℕ) - 7 + 19 = c + 12 by omega] at this
  by_cases h2 : (c : ℕ) < 21
  · have := gear_key2 ⟨c - 14, by omega⟩ d a
    simp only at this
    rwa [show (c : ℕ) - 14 + 26 = c + 12 by omega] at this
  by_cases h3 : (c : ℕ) < 28
  · have := gear_key3 ⟨c - 21, by omega⟩ d a
    simp only at this
    rwa [show (c : ℕ) - 21 + 33 = c + 12 by omega] at this
  by_cases h4 : (c : ℕ) < 35
  · have := gear_key4 ⟨c - 28, by omega⟩ d a
    simp only at this
    rwa [show (c : ℕ) - 28 + 40 = c + 12 by omega] at this
  by_cases h5 : (c : ℕ) < 42
  · have := gear_key5 ⟨c - 35, by omega⟩ d a
    simp only at this
    rwa [show (c : ℕ) - 35 + 47 = c + 12 by omega] at this
  have := gear_key6 ⟨c - 42, by omega⟩ d a
  simp only at this
  rwa [show (c : ℕ) - 42 + 54 = c + 12 by omega] at this

/-- The distance of every gear ratio from the target. -/
theorem gear_gap {a b c d : ℤ} (ha : 12 ≤ a ∧ a ≤ 60) (hb : 12 ≤ b ∧ b ≤ 60) (hc : 12 ≤ c ∧ c ≤ 60)
    (hd : 12 ≤ d ∧ d ≤ 60) :
    1.6434284739 ≤ |1000000 * (a : ℝ) * b / (c * d) - 144279.32477276| := by
  obtain ⟨⟨a0, a1⟩, ⟨b0, b1⟩, ⟨c0, c1⟩, ⟨d0, d1⟩⟩ := And.intro ha (And.intro hb (And.intro hc hd))
  lift a to ℕ using by omega
  lift b to ℕ using by omega
  lift c to ℕ using by omega
  lift d to ℕ using by omega
  have hk := gear_key ⟨c - 12, by omega⟩ ⟨d - 12, by omega⟩ ⟨a - 12, by omega⟩
  simp only at hk
  rw [Nat.sub_add_cancel (by omega), Nat.sub_add_cancel (by omega), Nat.sub_add_cancel (by omega)] at hk
  have hs := gearGap_spec hk (by omega : 12 ≤ b) (by omega)
  have hq : (0 : ℝ) < (c : ℝ) * d := by
    have : (0 : ℝ) < c := by exact_mod_cast (by omega : 0 < c)
    have : (0 : ℝ) < d := by exact_mod_cast (by omega : 0 < d)
    positivity
  push_cast
  rcases hs with h | h
  · have h' : ((b * (a * 10000000000000000) : ℕ) : ℝ) ≤ ((1442793247727600 - 16434284739) * (c * d) : ℕ) := by
      exact_mod_cast h
    push_cast at h'
    have : 1000000 * (a : ℝ) * b / (c * d) ≤ 144279.32477276 - 1.6434284739 := by
      rw [div_le_iff₀ hq]
      norm_num at h' ⊢
      linarith
    rw [abs_sub_comm]
    exact le_trans (by linarith) (le_abs_self _)
  · have h' : (((1442793247727600 + 16434284739) * (c * d) : ℕ) : ℝ) ≤ (b * (a * 10000000000000000) : ℕ) := by
      exact_mod_cast h
    push_cast at h'
    have : 144279.32477276 + 1.6434284739 ≤ 1000000 * (a : ℝ) * b / (c * d) := by
      rw [le_div_iff₀ hq]
      norm_num at h' ⊢
      linarith
    exact le_trans (by linarith) (le_abs_self _)

theorem gear4Value_ge {a b c d s : ℝ} (hs : 0 ≤ s) :
    |1000000 * a * b / (c * d) - 144279.32477276| ≤ gear4Value a b c d s := by
  unfold gear4Value
  have e : -1000000 * a * b / (c * d) = -(1000000 * a * b / (c * d)) := by ring
  rw [e]
  generalize 1000000 * a * b / (c * d) = t
  have p1 := le_pos (-(-t + s + 144279.32477276))
  have q1 := pos_nonneg (-(-t + s + 144279.32477276))
  generalize pos (-(-t + s + 144279.32477276)) = P at *
  rw [abs_le]
  constructor <;> linarith

theorem C88_gear4 : gear4.OptimumIs 1e-9 := by
  refine optimumIs_of (g := fun x => _) (fun x => rfl) ?_ ?_ rfl ?_
  · have hv : gear4.vars = ![⟨12, 60, .I⟩, ⟨12, 60, .I⟩, ⟨12, 60, .I⟩, ⟨12, 60, .I⟩, ⟨0, 100, .R⟩] := rfl
    have ho : gear4.optPoint = ![19.0, 16.0, 43.0, 49.0, 1.64342847396619] := rfl
    intro i
    rw [hv, ho]
    fin_cases i <;> norm_num [intLit_ofNat]
  · simp [gear4, gear4Value, pos]
    norm_num [abs_le, max_def]
  · intro x hx
    obtain ⟨a, ha, a'⟩ := intCoord hx 0 12 60 (by simp [gear4]) (by simp [gear4]) (by simp [gear4])
    obtain ⟨b, hb, b'⟩ := intCoord hx 1 12 60 (by simp [gear4]) (by simp [gear4]) (by simp [gear4])
    obtain ⟨c, hc, c'⟩ := intCoord hx 2 12 60 (by simp [gear4]) (by simp [gear4]) (by simp [gear4])
    obtain ⟨d, hd, d'⟩ := intCoord hx 3 12 60 (by simp [gear4]) (by simp [gear4]) (by simp [gear4])
    have s0 : 0 ≤ x 4 := by simpa [gear4] using (hx 4).1
    dsimp only [gear4]
    have h1 := gear4Value_ge (a := x 0) (b := x 1) (c := x 2) (d := x 3) s0
    rw [ha, hb, hc, hd] at h1 ⊢
    have h2 := gear_gap a' b' c' d'
    linarith

theorem C88_gear4_cat : gear4_cat.OptimumIs 1e-9 := by
  refine optimumIs_of (g := fun x => _) (fun x => rfl) ?_ ?_ rfl ?_
  · have hv : gear4_cat.vars = ![⟨12, 60, .I⟩, ⟨12, 60, .I⟩, ⟨12, 60, .I⟩, ⟨12, 60, .I⟩, ⟨0, 100, .R⟩, ⟨0, 4, .C⟩] := rfl
    have ho : gear4_cat.optPoint = ![19.0, 16.0, 43.0, 49.0, 1.64342847396619, 1] := rfl
    intro i
    rw [hv, ho]
    fin_cases i <;> norm_num [intLit_ofNat, intLit_one]
  · simp [gear4_cat, gear4Value, pos]
    norm_num [abs_le, max_def]
  · intro x hx
    obtain ⟨a, ha, a'⟩ := intCoord hx 0 12 60 (by simp [gear4_cat]) (by simp [gear4_cat]) (by simp [gear4_cat])
    obtain ⟨b, hb, b'⟩ := intCoord hx 1 12 60 (by simp [gear4_cat]) (by simp [gear4_cat]) (by simp [gear4_cat])
    obtain ⟨c, hc, c'⟩ := intCoord hx 2 12 60 (by simp [gear4_cat]) (by simp [gear4_cat]) (by simp [gear4_cat])
    obtain ⟨d, hd, d'⟩ := intCoord hx 3 12 60 (by simp [gear4_cat]) (by simp [gear4_cat]) (by simp [gear4_cat])
    have s0 : 0 ≤ x 4 := by simpa [gear4_cat] using (hx 4).1
    dsimp only [gear4_cat]
    have h1 := gear4Value_ge (a := x 0) (b := x 1) (c := x 2) (d := x 3) s0
    rw [ha, hb, hc, hd] at h1 ⊢
    have h2 := gear_gap a' b' c' d'
    linarith

/-- The declared optimum of `gear` is not one: the value 0 is attained nowhere, and the declared
point is beaten by (19, 16, 43, 49), which is the true optimum. -/
theorem C88_violated_gear :
    (∀ x, gear.Feasible x → ∃ v, gear.eval x = some v ∧ gear.optVal < v) ∧
    gear.Feasible gear.optPoint ∧
    ∃ p : Fin 4 → ℝ, gear.Feasible p ∧ ∃ v w, gear.eval gear.optPoint = some v ∧
      gear.eval p = some w ∧ 1000 * w < v ∧
      ∀ x, gear.Feasible x → ∃ u, gear.eval x = some u ∧ w ≤ u + 1e-20 := by
  have hv : gear.vars = fun _ => ⟨12, 60, .I⟩ := rfl
  have lower : ∀ x, gear.Feasible x → ∃ v, gear.eval x = some v ∧ (1.6434284739e-6) ^ 2 ≤ v := by
    intro x hx
    obtain ⟨a, ha, a'⟩ := intCoord hx 0 12 60 (by simp [gear]) (by simp [gear]) (by simp [gear])
    obtain ⟨b, hb, b'⟩ := intCoord hx 1 12 60 (by simp [gear]) (by simp [gear]) (by simp [gear])
    obtain ⟨c, hc, c'⟩ := intCoord hx 2 12 60 (by simp [gear]) (by simp [gear]) (by simp [gear])
    obtain ⟨d, hd, d'⟩ := intCoord hx 3 12 60 (by simp [gear]) (by simp [gear]) (by simp [gear])
    refine ⟨_, rfl, ?_⟩
    rw [ha, hb, hc, hd]
    have h2 := gear_gap a' b' c' d'
    have e : |1000000 * (a : ℝ) * b / (c * d) - 144279.32477276|
        = 1000000 * |0.14427932477276 - (a : ℝ) * b / (c * d)| := by
      rw [show 1000000 * (a : ℝ) * b / (c * d) - 144279.32477276
        = -(1000000 * (0.14427932477276 - (a : ℝ) * b / (c * d))) by ring, abs_neg, abs_mul]
      norm_num
    rw [e] at h2
    rw [← sq_abs (0.14427932477276 - (a : ℝ) * b / (c * d))]
    exact pow_le_pow_left₀ (by norm_num) (by linarith) 2
  refine ⟨?_, ?_, ![19, 16, 43, 49], ?_, _, _, rfl, rfl, ?_, ?_⟩
  · intro x hx
    obtain ⟨v, hv, hl⟩ := lower x hx
    refine ⟨v, hv, lt_of_lt_of_le ?_ hl⟩
    norm_num [gear]
  · have ho : gear.optPoint = ![12.0, 23.0, 58.0, 33.0] := rfl
    intro i
    rw [hv, ho]
    fin_cases i <;> norm_num [intLit_ofNat]
  · intro i
    rw [hv]
    fin_cases i <;> norm_num [intLit_ofNat]
  · simp [gear]; norm_num
  · intro x hx
    obtain ⟨v, hv, hl⟩ := lower x hx
    refine ⟨v, hv, le_trans ?_ (add_le_add_left hl _)⟩
    simp; norm_num

end TestFns
end Rbfopt
