import Verif.Props.TestFunctionsInt
import Mathlib.Analysis.Complex.ExponentialBounds
import Mathlib.Algebra.Order.BigOperators.Ring.Finset

/-!
# C88: more test functions with integer and categorical variables
-/

namespace Rbfopt
namespace TestFns
open Real

/-- Assembling the parts for a function whose value is given on feasible points only. -/
theorem optimumIs_of_feasible {n : ℕ} {T : BundledFn n} {tol : ℝ}
    (hp : T.Feasible T.optPoint) (hv : ∃ v, T.eval T.optPoint = some v ∧ |v - T.optVal| ≤ tol)
    (he : T.extraOptima = [])
    (hb : ∀ x, T.Feasible x → ∃ v, T.eval x = some v ∧ T.optVal - tol ≤ v) : T.OptimumIs tol :=
  { total := fun x hx => (hb x hx).imp fun _ h => h.1
    attained := ⟨hp, hv⟩
    also := by rw [he]; simp
    least := by
      intro x hx v h
      obtain ⟨w, hw, hl⟩ := hb x hx
      rw [hw] at h
      rw [← Option.some.inj h]
      exact hl }

theorem C88_nvs07_cat : nvs07_cat.OptimumIs 0 := by
  refine optimumIs_of_feasible ?_ ?_ rfl ?_
  · intro i; fin_cases i <;> norm_num [nvs07_cat, intLit_ofNat, intLit_zero]
  · refine ⟨2, ?_, by norm_num [nvs07_cat]⟩
    simp [nvs07_cat, pos]; norm_num
  · intro x hx
    obtain ⟨a, ha, a0, -⟩ := intCoord hx 0 0 200 (by simp [nvs07_cat]) (by simp [nvs07_cat]) (by simp [nvs07_cat])
    obtain ⟨b, hb, b0, -⟩ := intCoord hx 1 0 200 (by simp [nvs07_cat]) (by simp [nvs07_cat]) (by simp [nvs07_cat])
    obtain ⟨c, hc, c0, -⟩ := intCoord hx 2 0 200 (by simp [nvs07_cat]) (by simp [nvs07_cat]) (by simp [nvs07_cat])
    obtain ⟨k, hk, k0, k1⟩ := intCoord hx 3 2 4 (by simp [nvs07_cat]) (by simp [nvs07_cat]) (by simp [nvs07_cat])
    have a0' : (0 : ℝ) ≤ a := by exact_mod_cast a0
    have b0' : (0 : ℝ) ≤ b := by exact_mod_cast b0
    have c0' : (0 : ℝ) ≤ c := by exact_mod_cast c0
    dsimp only [nvs07_cat]
    rw [ha, hb, hc, hk]
    have p2 := le_pos (-((a : ℝ) - c - 2.66))
    have q2 := pos_nonneg (-((a : ℝ) - c - 2.66))
    generalize pos (-((a : ℝ) - c - 2.66)) = P2 at p2 q2 ⊢
    interval_cases k
    · rw [if_pos (by norm_num)]
      refine ⟨_, rfl, ?_⟩
      beta_reduce
      have p1 := le_pos (-(((c : ℝ) - 1) ^ 3 * b + 5 * c + 3 * a - 10))
      have q1 := pos_nonneg (-(((c : ℝ) - 1) ^ 3 * b + 5 * c + 3 * a - 10))
      generalize pos (-(((c : ℝ) - 1) ^ 3 * b + 5 * c + 3 * a - 10)) = P1 at p1 q1 ⊢
      have cube : (-1 : ℝ) ≤ ((b : ℝ) - 1) ^ 3 := by
        rcases eq_or_lt_of_le b0 with h | h
        · subst h; norm_num
        · have : (1 : ℝ) ≤ b := by exact_mod_cast Int.add_one_le_iff.mpr h
          have := pow_nonneg (by linarith : (0 : ℝ) ≤ (b : ℝ) - 1) 3
          linarith
      generalize ((b : ℝ) - 1) ^ 3 = B at cube ⊢
      rcases lt_or_ge a 4 with h | h
      · rcases eq_or_lt_of_le c0 with k | k
        · subst k
          push_cast at *
          rcases lt_or_ge a 3 with l | l
          · have : (a : ℝ) ≤ 2 := by exact_mod_cast Int.lt_add_one_iff.mp l
            nlinarith
          · have : (a : ℝ) = 3 := by exact_mod_cast le_antisymm (Int.lt_add_one_iff.mp h) l
            nlinarith
        · have : (1 : ℝ) ≤ c := by exact_mod_cast Int.add_one_le_iff.mpr k
          nlinarith
      · have : (4 : ℝ) ≤ a := by exact_mod_cast h
        nlinarith
    · rw [if_neg (by norm_num), if_pos (by norm_num)]
      refine ⟨_, rfl, ?_⟩
      beta_reduce
      have q1 := pos_nonneg (-(exp ((c : ℝ) / 50) * b + 5 * c + 3 * a - 10))
      have := Real.one_le_exp (by positivity : (0 : ℝ) ≤ (b : ℝ) / 50)
      nlinarith
    · rw [if_neg (by norm_num), if_neg (by norm_num), if_pos (by norm_num)]
      refine ⟨_, rfl, ?_⟩
      beta_reduce
      have p1 := le_pos (-((c : ℝ) ^ 2 * b + 5 * c + 3 * a - 10))
      have q1 := pos_nonneg (-((c : ℝ) ^ 2 * b + 5 * c + 3 * a - 10))
      generalize pos (-((c : ℝ) ^ 2 * b + 5 * c + 3 * a - 10)) = P1 at p1 q1 ⊢
      have bb := sq_nonneg (b : ℝ)
      rcases lt_or_ge a 4 with h | h
      · rcases eq_or_lt_of_le c0 with k | k
        · subst k
          push_cast at *
          rcases lt_or_ge a 3 with l | l
          · have : (a : ℝ) ≤ 2 := by exact_mod_cast Int.lt_add_one_iff.mp l
            nlinarith
          · have : (a : ℝ) = 3 := by exact_mod_cast le_antisymm (Int.lt_add_one_iff.mp h) l
            nlinarith
        · have : (1 : ℝ) ≤ c := by exact_mod_cast Int.add_one_le_iff.mpr k
          nlinarith
      · have : (4 : ℝ) ≤ a := by exact_mod_cast h
        nlinarith

/-- The value of `st_miqp1_cat` for the category `k`. -/
theorem miqpCat_eval (x : Fin 6 → ℝ) (k : ℕ) (hk : k < 7) (h0 : x 0 = k) :
    st_miqp1_cat.eval x = some (50 * x 1 * x 1 + 42 * x 1 + 50 * x 2 * x 2 + 44 * x 2
      + 50 * x 3 * x 3 + 45 * x 3 + 50 * x 4 * x 4 + 47 * x 4 + 50 * x 5 * x 5 + 47.5 * x 5
      + 100 * pos (-((miqpC ⟨k, hk⟩ 0 : ℝ) * x 1 + miqpC ⟨k, hk⟩ 1 * x 2 + miqpC ⟨k, hk⟩ 2 * x 3
        + miqpC ⟨k, hk⟩ 3 * x 4 + miqpC ⟨k, hk⟩ 4 * x 5) + miqpC ⟨k, hk⟩ 5)) := by
  have hkk : ⌊x 0⌋.toNat = k := by rw [h0]; simp
  have hlt : ⌊x 0⌋.toNat < 7 := by omega
  have e : (⟨⌊x 0⌋.toNat, hlt⟩ : Fin 7) = ⟨k, hk⟩ := Fin.ext hkk
  dsimp only [st_miqp1_cat]
  rw [dif_pos hlt, e, Fin.sum_univ_five]
  rfl

theorem C88_st_miqp1_cat : st_miqp1_cat.OptimumIs 0 := by
  refine optimumIs_of_feasible ?_ ?_ rfl ?_
  · have hv : st_miqp1_cat.vars = ![⟨0, 5, .C⟩, ⟨0, 1, .I⟩, ⟨0, 1, .I⟩, ⟨0, 1, .I⟩, ⟨0, 1, .I⟩, ⟨0, 1, .I⟩] := rfl
    have ho : st_miqp1_cat.optPoint = ![4, 1.0, 1.0, 0.0, 0.0, 0.0] := rfl
    intro i
    rw [hv, ho]
    fin_cases i <;> norm_num [intLit_ofNat, intLit_zero, intLit_one]
  · refine ⟨_, miqpCat_eval _ 4 (by norm_num) (by simp [st_miqp1_cat]), ?_⟩
    simp [st_miqp1_cat, pos, miqpC]
    norm_num
  · intro x hx
    obtain ⟨k, hk, k0, k1⟩ := intCoord hx 0 0 5 (by simp [st_miqp1_cat]) (by simp [st_miqp1_cat]) (by simp [st_miqp1_cat])
    obtain ⟨a, ha, a0, a1⟩ := intCoord hx 1 0 1 (by simp [st_miqp1_cat]) (by simp [st_miqp1_cat]) (by simp [st_miqp1_cat])
    obtain ⟨b, hb, b0, b1⟩ := intCoord hx 2 0 1 (by simp [st_miqp1_cat]) (by simp [st_miqp1_cat]) (by simp [st_miqp1_cat])
    obtain ⟨c, hc, c0, c1⟩ := intCoord hx 3 0 1 (by simp [st_miqp1_cat]) (by simp [st_miqp1_cat]) (by simp [st_miqp1_cat])
    obtain ⟨d, hd, d0, d1⟩ := intCoord hx 4 0 1 (by simp [st_miqp1_cat]) (by simp [st_miqp1_cat]) (by simp [st_miqp1_cat])
    obtain ⟨e, he, e0, e1⟩ := intCoord hx 5 0 1 (by simp [st_miqp1_cat]) (by simp [st_miqp1_cat]) (by simp [st_miqp1_cat])
    have key : ∀ k : Fin 6, ∀ a b c d e : Fin 2,
        (186 : ℤ) ≤ 92 * (a : ℕ) + 94 * (b : ℕ) + 95 * (c : ℕ) + 97 * (d : ℕ) + 97 * (e : ℕ)
          + 100 * max 0 (-((miqpC k.castSucc 0 * (a : ℕ) + miqpC k.castSucc 1 * (b : ℕ)
            + miqpC k.castSucc 2 * (c : ℕ) + miqpC k.castSucc 3 * (d : ℕ)
            + miqpC k.castSucc 4 * (e : ℕ) : ℕ) : ℤ) + miqpC k.castSucc 5) := by decide +kernel
    lift k to ℕ using k0
    lift a to ℕ using a0
    lift b to ℕ using b0
    lift c to ℕ using c0
    lift d to ℕ using d0
    lift e to ℕ using e0
    have hk6 : k < 6 := by omega
    have h := key ⟨k, hk6⟩ ⟨a, by omega⟩ ⟨b, by omega⟩ ⟨c, by omega⟩ ⟨d, by omega⟩ ⟨e, by omega⟩
    have hr : (186 : ℝ) ≤ 92 * a + 94 * b + 95 * c + 97 * d + 97 * e
        + 100 * pos (-((miqpC (Fin.castSucc ⟨k, hk6⟩) 0 * a + miqpC (Fin.castSucc ⟨k, hk6⟩) 1 * b
          + miqpC (Fin.castSucc ⟨k, hk6⟩) 2 * c + miqpC (Fin.castSucc ⟨k, hk6⟩) 3 * d
          + miqpC (Fin.castSucc ⟨k, hk6⟩) 4 * e : ℝ)) + miqpC (Fin.castSucc ⟨k, hk6⟩) 5) := by
      unfold pos
      exact_mod_cast h
    have sqr : ∀ m : ℕ, (m : ℤ) ≤ 1 → (m : ℝ) * m = m := by
      intro m hm
      have : m ≤ 1 := by omega
      interval_cases m <;> norm_num
    refine ⟨_, miqpCat_eval x k (by omega) (by rw [hk]; simp), ?_⟩
    rw [ha, hb, hc, hd, he]
    push_cast
    have e1' := sqr a a1
    have e2' := sqr b b1
    have e3' := sqr c c1
    have e4' := sqr d d1
    have e5' := sqr e e1
    have he0 : (0 : ℝ) ≤ e := by positivity
    dsimp only [Fin.castSucc_mk] at hr
    generalize pos _ = P at hr ⊢
    simp only [st_miqp1_cat]
    nlinarith

end TestFns
end Rbfopt
