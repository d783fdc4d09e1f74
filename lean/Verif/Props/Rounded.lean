import Verif.Model.Rounded
import Verif.Props.Print
import Verif.Props.Domain

/-!
# C105: domain scaling in floating point arithmetic
-/

namespace Rbfopt

/-- What is used of the rounding of floating point numbers: it is monotone, does not change a number that is
the result of a rounding, and 0 and 1 are such numbers. -/
structure Rounding (fl : ℚ → ℚ) : Prop where
  mono : ∀ x y, x ≤ y → fl x ≤ fl y
  idem : ∀ x, fl (fl x) = fl x
  zero : fl 0 = 0
  one : fl 1 = 1

theorem Rounding.nonneg {fl : ℚ → ℚ} (hf : Rounding fl) {x : ℚ} (h : 0 ≤ x) : 0 ≤ fl x :=
  hf.zero.symm.le.trans (hf.mono _ _ h)

/-- The relative error of one operation is at most `eps`. -/
def RelError (fl : ℚ → ℚ) (eps : ℚ) : Prop := ∀ x, |fl x - x| ≤ eps * |x|

/-! ## Rounding to the nearest -/

theorem roundEven_floor (q : ℚ) : ⌊q⌋ ≤ roundEven q ∧ roundEven q ≤ ⌊q⌋ + 1 := by
  unfold roundEven
  split
  · omega
  · split
    · omega
    · split <;> omega

theorem roundEven_mono {q r : ℚ} (h : q ≤ r) : roundEven q ≤ roundEven r := by
  have hf : ⌊q⌋ ≤ ⌊r⌋ := Int.floor_le_floor h
  rcases lt_or_eq_of_le (a := ⌊q⌋) hf with hlt | heq
  · have := (roundEven_floor q).2
    have := (roundEven_floor r).1
    omega
  · unfold roundEven
    rw [heq]
    split
    · split
      · omega
      · split
        · omega
        · split <;> omega
    · rename_i h1
      rw [if_neg (by linarith : ¬ r - ⌊r⌋ < 1 / 2)]
      split
      · rename_i h2
        rw [if_pos (by linarith)]
      · by_cases h3 : 1 / 2 < r - ⌊r⌋
        · rw [if_pos h3]
          split <;> omega
        · rw [if_neg h3]

theorem roundEven_intCast (z : ℤ) : roundEven (z : ℚ) = z := by
  simp [roundEven]

theorem log_spec {x : ℚ} (hx : x ≠ 0) : (2 : ℚ) ^ Int.log 2 |x| ≤ |x| ∧ |x| < (2 : ℚ) ^ (Int.log 2 |x| + 1) := by
  constructor
  · exact_mod_cast Int.zpow_log_le_self (b := 2) (by norm_num) (abs_pos.mpr hx)
  · exact_mod_cast Int.lt_zpow_succ_log_self (b := 2) (by norm_num) |x|

/-- Numbers with a significand of `prec` bits are not changed. -/
theorem rndBits_of_bits {prec : ℕ} (hp : 0 < prec) {m e : ℤ} (hm : |m| ≤ 2 ^ prec) :
    rndBits prec ((m : ℚ) * 2 ^ e) = (m : ℚ) * 2 ^ e := by
  unfold rndBits
  split
  · rename_i h; exact h.symm
  · rename_i hx
    dsimp only
    set x : ℚ := (m : ℚ) * 2 ^ e with hxd
    obtain ⟨h1, h2⟩ := log_spec hx
    have hs : (0 : ℚ) < 2 ^ (Int.log 2 |x| - prec + 1) := by positivity
    suffices h : ∃ z : ℤ, x / 2 ^ (Int.log 2 |x| - prec + 1) = z by
      obtain ⟨z, hz⟩ := h
      rw [hz, roundEven_intCast, ← hz, div_mul_cancel₀ _ hs.ne']
    have habs : |x| = |(m : ℚ)| * 2 ^ e := by
      rw [hxd, abs_mul, abs_of_pos (by positivity : (0 : ℚ) < 2 ^ e)]
    have hmq : |(m : ℚ)| ≤ 2 ^ prec := by exact_mod_cast hm
    by_cases hle : Int.log 2 |x| - prec + 1 ≤ e
    · obtain ⟨k, hk⟩ := Int.eq_ofNat_of_zero_le (sub_nonneg.mpr hle)
      refine ⟨m * 2 ^ k, ?_⟩
      rw [div_eq_iff hs.ne']
      conv_lhs => rw [hxd]
      push_cast
      rw [mul_assoc, ← zpow_natCast, ← zpow_add₀ (by norm_num)]
      congr 2
      omega
    · -- then `|m| = 2 ^ prec`
      have h3 : (2 : ℚ) ^ (e + prec) ≤ |x| := by
        refine le_trans ?_ h1
        exact zpow_le_zpow_right₀ (by norm_num) (by omega)
      have h4 : |x| ≤ (2 : ℚ) ^ (e + prec) := by
        rw [habs, zpow_add₀ (by norm_num), zpow_natCast, mul_comm]
        exact mul_le_mul_of_nonneg_left hmq (by positivity)
      have h5 : |x| = (2 : ℚ) ^ (e + prec) := le_antisymm h4 h3
      have h6 : Int.log 2 |x| = e + prec := by
        rw [h5]
        exact_mod_cast Int.log_zpow (R := ℚ) (b := 2) (by norm_num) (e + prec)
      obtain ⟨k, rfl⟩ : ∃ k, prec = k + 1 := ⟨prec - 1, by omega⟩
      have h7 : |x / 2 ^ (Int.log 2 |x| - (k + 1 : ℕ) + 1)| = (2 : ℚ) ^ k := by
        rw [abs_div, abs_of_pos hs, div_eq_iff hs.ne', h6, h5, ← zpow_natCast, ← zpow_add₀ (by norm_num)]
        congr 1
        push_cast
        ring
      rcases abs_choice (x / 2 ^ (Int.log 2 |x| - (k + 1 : ℕ) + 1)) with h | h
      · exact ⟨2 ^ k, by rw [← h, h7]; push_cast; rfl⟩
      · refine ⟨-2 ^ k, ?_⟩
        rw [h] at h7
        simp only [Int.cast_neg, Int.cast_pow, Int.cast_ofNat]
        linarith

/-- The result of the rounding has a significand of `prec` bits, in the same binary order of magnitude. -/
theorem rndBits_spec {prec : ℕ} (hp : 0 < prec) {x : ℚ} (hx : x ≠ 0) :
    ∃ m : ℤ, rndBits prec x = m * (2 : ℚ) ^ (Int.log 2 |x| - prec + 1) ∧ |m| ≤ 2 ^ prec ∧
      (0 < x → 2 ^ (prec - 1) ≤ m) ∧ (x < 0 → m ≤ -2 ^ (prec - 1)) := by
  obtain ⟨h1, h2⟩ := log_spec hx
  set s : ℚ := 2 ^ (Int.log 2 |x| - prec + 1) with hs
  have hs0 : 0 < s := by rw [hs]; positivity
  obtain ⟨k, rfl⟩ : ∃ k, prec = k + 1 := ⟨prec - 1, by omega⟩
  have e1 : (2 : ℚ) ^ Int.log 2 |x| = 2 ^ k * s := by
    rw [hs, ← zpow_natCast, ← zpow_add₀ (by norm_num)]; congr 1; push_cast; ring
  have e2 : (2 : ℚ) ^ (Int.log 2 |x| + 1) = 2 ^ (k + 1) * s := by
    rw [hs, ← zpow_natCast, ← zpow_add₀ (by norm_num)]; congr 1; push_cast; ring
  rw [e1] at h1
  rw [e2] at h2
  have lo : ∀ (z : ℤ) (q : ℚ), (z : ℚ) ≤ q → z ≤ roundEven q := fun z q h => by
    have := roundEven_mono h; rwa [roundEven_intCast] at this
  have hi : ∀ (z : ℤ) (q : ℚ), q ≤ z → roundEven q ≤ z := fun z q h => by
    have := roundEven_mono h; rwa [roundEven_intCast] at this
  refine ⟨roundEven (x / s), by unfold rndBits; rw [if_neg hx], ?_, fun h => ?_, fun h => ?_⟩
  · rw [abs_le]
    obtain ⟨g1, g2⟩ := abs_lt.mp h2
    constructor
    · apply lo
      push_cast
      rw [le_div_iff₀ hs0]; linarith
    · apply hi
      push_cast
      rw [div_le_iff₀ hs0]; linarith
  · rw [abs_of_pos h] at h1
    simp only [Nat.add_sub_cancel]
    apply lo
    push_cast
    rw [le_div_iff₀ hs0]; exact h1
  · rw [abs_of_neg h] at h1
    simp only [Nat.add_sub_cancel]
    apply hi
    push_cast
    rw [div_le_iff₀ hs0]; linarith

/-- Rounding to the nearest with `prec` bits meets the requirements. -/
theorem rndBits_rounding {prec : ℕ} (hp : 0 < prec) : Rounding (rndBits prec) := by
  have hpow : ∀ e : ℤ, (0 : ℚ) < 2 ^ e := fun e => by positivity
  have sgn : ∀ {x : ℚ}, (0 < x → 0 < rndBits prec x) ∧ (x < 0 → rndBits prec x < 0) := by
    intro x
    constructor
    · intro h
      obtain ⟨m, e, -, h1, -⟩ := rndBits_spec hp h.ne'
      rw [e]
      have h2 : (0 : ℤ) < m := lt_of_lt_of_le (by positivity) (h1 h)
      exact mul_pos (by exact_mod_cast h2) (hpow _)
    · intro h
      obtain ⟨m, e, -, -, h1⟩ := rndBits_spec hp h.ne
      rw [e]
      have h3 : (0 : ℤ) < 2 ^ (prec - 1) := by positivity
      have h2 : m < 0 := by have := h1 h; omega
      exact mul_neg_of_neg_of_pos (by exact_mod_cast h2) (hpow _)
  have hz : rndBits prec 0 = 0 := by simp [rndBits]
  refine ⟨fun x y hxy => ?_, fun x => ?_, hz, ?_⟩
  · rcases lt_trichotomy x 0 with hx | rfl | hx
    · rcases lt_trichotomy y 0 with hy | rfl | hy
      · -- both negative
        have hlog : Int.log 2 |y| ≤ Int.log 2 |x| :=
          Int.log_mono_right (abs_pos.mpr hy.ne) (by rw [abs_of_neg hx, abs_of_neg hy]; linarith)
        rcases lt_or_eq_of_le hlog with hlt | heq
        · obtain ⟨m, e, -, -, h1⟩ := rndBits_spec hp hx.ne
          obtain ⟨m', e', h2, -, -⟩ := rndBits_spec hp hy.ne
          have h1 : (m : ℚ) ≤ -2 ^ (prec - 1) := by exact_mod_cast h1 hx
          have h2 : (-2 ^ prec : ℚ) ≤ m' := by exact_mod_cast (abs_le.mp h2).1
          rw [e, e']
          calc (m : ℚ) * 2 ^ (Int.log 2 |x| - prec + 1)
              ≤ -2 ^ (prec - 1) * 2 ^ (Int.log 2 |x| - prec + 1) := mul_le_mul_of_nonneg_right h1 (hpow _).le
            _ = -2 ^ (Int.log 2 |x|) := by
              rw [neg_mul, ← zpow_natCast, ← zpow_add₀ (by norm_num)]
              congr 2
              have : ((prec - 1 : ℕ) : ℤ) = prec - 1 := by omega
              rw [this]; ring
            _ ≤ -2 ^ (Int.log 2 |y| + 1) := by
              apply neg_le_neg
              exact zpow_le_zpow_right₀ (by norm_num) (by omega)
            _ = -2 ^ prec * 2 ^ (Int.log 2 |y| - prec + 1) := by
              rw [neg_mul, ← zpow_natCast, ← zpow_add₀ (by norm_num)]; congr 2; ring
            _ ≤ _ := mul_le_mul_of_nonneg_right h2 (hpow _).le
        · unfold rndBits
          rw [if_neg hx.ne, if_neg hy.ne, heq]
          dsimp only
          refine mul_le_mul_of_nonneg_right ?_ (hpow _).le
          exact_mod_cast roundEven_mono (div_le_div_of_nonneg_right hxy (hpow _).le)
      · rw [hz]; exact (sgn.2 hx).le
      · exact ((sgn.2 hx).trans (sgn.1 hy)).le
    · rcases lt_or_eq_of_le hxy with hy | rfl
      · rw [hz]; exact (sgn.1 hy).le
      · exact le_rfl
    · have hy : 0 < y := lt_of_lt_of_le hx hxy
      have hlog : Int.log 2 |x| ≤ Int.log 2 |y| :=
        Int.log_mono_right (abs_pos.mpr hx.ne') (by rwa [abs_of_pos hx, abs_of_pos hy])
      rcases lt_or_eq_of_le hlog with hlt | heq
      · obtain ⟨m, e, h1, -, -⟩ := rndBits_spec hp hx.ne'
        obtain ⟨m', e', -, h2, -⟩ := rndBits_spec hp hy.ne'
        have h1 : (m : ℚ) ≤ 2 ^ prec := by exact_mod_cast (abs_le.mp h1).2
        have h2 : (2 ^ (prec - 1) : ℚ) ≤ m' := by exact_mod_cast h2 hy
        rw [e, e']
        calc (m : ℚ) * 2 ^ (Int.log 2 |x| - prec + 1)
            ≤ 2 ^ prec * 2 ^ (Int.log 2 |x| - prec + 1) := mul_le_mul_of_nonneg_right h1 (hpow _).le
          _ = 2 ^ (Int.log 2 |x| + 1) := by
            rw [← zpow_natCast, ← zpow_add₀ (by norm_num)]; congr 1; ring
          _ ≤ 2 ^ (Int.log 2 |y|) := zpow_le_zpow_right₀ (by norm_num) (by omega)
          _ = 2 ^ (prec - 1) * 2 ^ (Int.log 2 |y| - prec + 1) := by
            rw [← zpow_natCast, ← zpow_add₀ (by norm_num)]
            congr 1
            have : ((prec - 1 : ℕ) : ℤ) = prec - 1 := by omega
            rw [this]; ring
          _ ≤ _ := mul_le_mul_of_nonneg_right h2 (hpow _).le
      · unfold rndBits
        rw [if_neg hx.ne', if_neg hy.ne', heq]
        dsimp only
        refine mul_le_mul_of_nonneg_right ?_ (hpow _).le
        exact_mod_cast roundEven_mono (div_le_div_of_nonneg_right hxy (hpow _).le)
  · by_cases hx : x = 0
    · rw [hx, hz, hz]
    · obtain ⟨m, e, h, -, -⟩ := rndBits_spec hp hx
      rw [e]
      exact rndBits_of_bits hp h
  · have := rndBits_of_bits (prec := prec) (m := 1) (e := 0) hp (by simpa using one_le_pow₀ (by norm_num : (1 : ℤ) ≤ 2))
    simpa using this

/-- The relative error is at most `2⁻ᵖ`. -/
theorem rndBits_relError (prec : ℕ) : RelError (rndBits prec) (1 / 2 ^ prec) := by
  intro x
  unfold rndBits
  split
  · rename_i h; simp [h]
  · rename_i hx
    dsimp only
    obtain ⟨h1, -⟩ := log_spec hx
    set s : ℚ := 2 ^ (Int.log 2 |x| - prec + 1) with hs
    have hs0 : 0 < s := by rw [hs]; positivity
    have e1 : (2 : ℚ) ^ Int.log 2 |x| * 2 = 2 ^ prec * s := by
      rw [hs, ← zpow_natCast, ← zpow_add₀ (by norm_num), ← zpow_add_one₀ (by norm_num)]
      congr 1; ring
    have e2 : (roundEven (x / s) : ℚ) * s - x = (roundEven (x / s) - x / s) * s := by
      field_simp
    rw [e2, abs_mul, abs_of_pos hs0]
    have h2 := roundEven_near (x / s)
    rw [div_mul_eq_mul_div, one_mul, le_div_iff₀ (by positivity)]
    calc |(roundEven (x / s) : ℚ) - x / s| * s * 2 ^ prec ≤ 1 / 2 * s * 2 ^ prec := by gcongr
      _ = 2 ^ Int.log 2 |x| := by linarith
      _ ≤ |x| := h1

/-! ## Domain scaling -/

variable {fl : ℚ → ℚ}

/-- Where the upper end of the internal interval is mapped to. -/
def topOf (fl : ℚ → ℚ) (l u : ℚ) : ℚ := fl (fl (u - l) + l)

/-- The bounds that hold for the points evaluated. -/
def roundedUpper (fl : ℚ → ℚ) (l u : Pt) : Pt := List.zipWith (fun a b => max b (topOf fl a b)) l u

/-- The bounds are numbers of the arithmetic. -/
def Representable (fl : ℚ → ℚ) (p : Pt) : Prop := ∀ x ∈ p, fl x = x

/-- **C105** Forward: points of the box are mapped into the unit box also with rounding. -/
theorem C105_forward (hf : Rounding fl) {l u p : Pt} (h : InBox l u p) :
    InBox (List.replicate l.length 0) (List.replicate u.length 1) (affineFwdR fl l u p) := by
  obtain ⟨h1, h2⟩ := h
  induction h1 generalizing u with
  | nil => cases h2; exact ⟨.nil, .nil⟩
  | @cons a x l p hax hlp ih =>
    cases h2 with
    | @cons _ b _ u hxb hpu =>
      obtain ⟨g1, g2⟩ := ih hpu
      have n0 : 0 ≤ fl (x - a) := hf.nonneg (by linarith)
      have n1 : fl (x - a) ≤ fl (b - a) := hf.mono _ _ (by linarith)
      have key : 0 ≤ fl (fl (x - a) / (if fl (b - a) = 0 then 1 else fl (b - a))) ∧
          fl (fl (x - a) / (if fl (b - a) = 0 then 1 else fl (b - a))) ≤ 1 := by
        have h0 : 0 ≤ fl (x - a) / (if fl (b - a) = 0 then 1 else fl (b - a)) ∧
            fl (x - a) / (if fl (b - a) = 0 then 1 else fl (b - a)) ≤ 1 := by
          split
          · rename_i hz
            have : fl (x - a) = 0 := le_antisymm (hz ▸ n1) n0
            rw [this]; simp
          · rename_i hz
            have hpos : 0 < fl (b - a) := lt_of_le_of_ne (n0.trans n1) (Ne.symm hz)
            exact ⟨div_nonneg n0 hpos.le, (div_le_one hpos).mpr n1⟩
        exact ⟨hf.nonneg h0.1, (hf.mono _ _ h0.2).trans hf.one.le⟩
      exact ⟨List.Forall₂.cons key.1 g1, List.Forall₂.cons key.2 g2⟩

/-- One coordinate of the reverse transformation. -/
theorem rev_bounds (hf : Rounding fl) {l u x : ℚ} (hl : fl l = l) (hlu : l ≤ u) (h0 : 0 ≤ x) (h1 : x ≤ 1) :
    l ≤ fl (fl (x * fl (u - l)) + l) ∧ fl (fl (x * fl (u - l)) + l) ≤ topOf fl l u := by
  have hd : 0 ≤ fl (u - l) := hf.nonneg (by linarith)
  have a1 : 0 ≤ fl (x * fl (u - l)) := hf.nonneg (mul_nonneg h0 hd)
  have a2 : fl (x * fl (u - l)) ≤ fl (u - l) := by
    calc _ ≤ fl (fl (u - l)) := hf.mono _ _ (mul_le_of_le_one_left hd h1)
      _ = _ := hf.idem _
  constructor
  · calc l = fl l := hl.symm
      _ ≤ _ := hf.mono _ _ (by linarith)
  · exact hf.mono _ _ (by linarith)

/-- **C105** Reverse: with rounding, points of the unit box are mapped to points that respect the lower
bounds, and the upper bounds replaced by `(u - l) + l` computed with rounding. -/
theorem C105_reverse (hf : Rounding fl) {l u q : Pt} (hl : Representable fl l) (hlu : List.Forall₂ (· ≤ ·) l u)
    (h : InBox (List.replicate l.length 0) (List.replicate u.length 1) q) :
    InBox l (List.zipWith (topOf fl) l u) (affineRevR fl l u q) := by
  obtain ⟨h1, h2⟩ := h
  induction hlu generalizing q with
  | nil => cases h2; exact ⟨.nil, .nil⟩
  | @cons a b l u hab hlu ih =>
    simp only [List.length_cons, List.replicate_succ] at h1 h2
    cases h1 with
    | @cons _ x _ q hx hq =>
      cases h2 with
      | cons hx' hq' =>
        obtain ⟨g1, g2⟩ := ih (fun x hx => hl x (List.mem_cons_of_mem _ hx)) hq hq'
        obtain ⟨k1, k2⟩ := rev_bounds hf (hl a (by simp)) hab hx hx'
        exact ⟨List.Forall₂.cons k1 g1, List.Forall₂.cons k2 g2⟩

/-- **C105** The bound is attained: the upper corner of the unit box is mapped to `(u - l) + l` computed with
rounding. -/
theorem C105_reverse_corner (hf : Rounding fl) {l u : Pt} (h : l.length = u.length) :
    affineRevR fl l u (List.replicate u.length 1) = List.zipWith (topOf fl) l u := by
  induction l generalizing u with
  | nil => cases u <;> simp_all [affineRevR]
  | cons a l ih =>
    cases u with
    | nil => simp at h
    | cons b u =>
      simp only [List.length_cons, Nat.add_right_cancel_iff] at h
      simp only [List.length_cons, List.replicate_succ, affineRevR, List.zipWith_cons_cons, ih h, topOf, one_mul,
        hf.idem]

/-- **C105** If the width of the interval is computed exactly (for instance if the lower bound is 0), the upper
bound is respected. -/
theorem C105_exact_width {l u : ℚ} (hu : fl u = u) (hw : fl (u - l) = u - l) : topOf fl l u = u := by
  unfold topOf
  rw [hw, sub_add_cancel, hu]

/-- **C105** In general it is missed by at most two rounding errors. -/
theorem C105_overshoot {eps : ℚ} (he : RelError fl eps) (h0 : 0 ≤ eps) (l u : ℚ) :
    |topOf fl l u - u| ≤ eps * |u| + eps * (1 + eps) * |u - l| := by
  unfold topOf
  have h1 := he (u - l)
  have h2 := he (fl (u - l) + l)
  have h3 : |fl (u - l) + l| ≤ |u| + eps * |u - l| := by
    calc |fl (u - l) + l| = |u + (fl (u - l) - (u - l))| := by congr 1; ring
      _ ≤ |u| + |fl (u - l) - (u - l)| := abs_add_le _ _
      _ ≤ _ := by linarith
  calc |fl (fl (u - l) + l) - u|
      = |(fl (fl (u - l) + l) - (fl (u - l) + l)) + (fl (u - l) - (u - l))| := by congr 1; ring
    _ ≤ |fl (fl (u - l) + l) - (fl (u - l) + l)| + |fl (u - l) - (u - l)| := abs_add_le _ _
    _ ≤ eps * (|u| + eps * |u - l|) + eps * |u - l| :=
        add_le_add (h2.trans (mul_le_mul_of_nonneg_left h3 h0)) h1
    _ = _ := by ring

/-- **C105** A point of the box that is scaled and scaled back is restored up to a few rounding errors. -/
theorem C105_round_trip (hf : Rounding fl) {eps : ℚ} (he : RelError fl eps) (h0 : 0 ≤ eps) {l u x : ℚ}
    (h1 : l ≤ x) (hw : 0 < fl (u - l)) :
    |fl (fl (fl (fl (x - l) / fl (u - l)) * fl (u - l)) + l) - x| ≤
      ((1 + eps) ^ 4 - 1) * (x - l) + eps * |l| := by
  have hx : 0 ≤ x - l := by linarith
  have pos : ∀ y, 0 ≤ y → 0 ≤ fl y := fun y hy => hf.nonneg hy
  -- rounding a non-negative number that is near `x - l`
  have step : ∀ {y c : ℚ}, 0 ≤ y → |y - (x - l)| ≤ (c - 1) * (x - l) →
      |fl y - (x - l)| ≤ (c * (1 + eps) - 1) * (x - l) := by
    intro y c hy h
    have e1 := he y
    rw [abs_of_nonneg hy] at e1
    have e2 : y ≤ c * (x - l) := by have := (abs_le.mp h).2; linarith
    calc |fl y - (x - l)| = |(fl y - y) + (y - (x - l))| := by congr 1; ring
      _ ≤ |fl y - y| + |y - (x - l)| := abs_add_le _ _
      _ ≤ eps * (c * (x - l)) + (c - 1) * (x - l) :=
          add_le_add (e1.trans (mul_le_mul_of_nonneg_left e2 h0)) h
      _ = _ := by ring
  have a1 : |fl (x - l) - (x - l)| ≤ (1 * (1 + eps) - 1) * (x - l) := step hx (by simp)
  have a2 : |fl (fl (x - l) / fl (u - l)) * fl (u - l) - (x - l)| ≤ (1 * (1 + eps) * (1 + eps) - 1) * (x - l) := by
    have hq : 0 ≤ fl (x - l) / fl (u - l) := div_nonneg (pos _ hx) hw.le
    have e1 := he (fl (x - l) / fl (u - l))
    rw [abs_of_nonneg hq] at e1
    have e2 : |fl (fl (x - l) / fl (u - l)) * fl (u - l) - fl (x - l)| ≤ eps * fl (x - l) := by
      have : fl (fl (x - l) / fl (u - l)) * fl (u - l) - fl (x - l) =
          (fl (fl (x - l) / fl (u - l)) - fl (x - l) / fl (u - l)) * fl (u - l) := by
        rw [sub_mul, div_mul_cancel₀ _ hw.ne']
      rw [this, abs_mul, abs_of_pos hw]
      calc _ ≤ eps * (fl (x - l) / fl (u - l)) * fl (u - l) := mul_le_mul_of_nonneg_right e1 hw.le
        _ = _ := by rw [mul_assoc, div_mul_cancel₀ _ hw.ne']
    have e3 : fl (x - l) ≤ (1 + eps) * (x - l) := by have := (abs_le.mp a1).2; linarith
    calc _ = |(fl (fl (x - l) / fl (u - l)) * fl (u - l) - fl (x - l)) + (fl (x - l) - (x - l))| := by
          congr 1; ring
      _ ≤ _ := abs_add_le _ _
      _ ≤ eps * ((1 + eps) * (x - l)) + (1 * (1 + eps) - 1) * (x - l) :=
          add_le_add (e2.trans (mul_le_mul_of_nonneg_left e3 h0)) a1
      _ = _ := by ring
  have a3 := step (mul_nonneg (pos _ (div_nonneg (pos _ hx) hw.le)) hw.le) a2
  set w := fl (fl (fl (x - l) / fl (u - l)) * fl (u - l)) with hw'
  have e1 := he (w + l)
  have e2 : |w + l| ≤ (1 + eps) ^ 3 * (x - l) + |l| := by
    have hb : |w| ≤ (1 + eps) ^ 3 * (x - l) := by
      have hs : |w| ≤ |w - (x - l)| + |x - l| := by
        have := abs_add_le (w - (x - l)) (x - l)
        rwa [sub_add_cancel] at this
      rw [abs_of_nonneg hx] at hs
      calc _ ≤ _ := hs
        _ ≤ (1 * (1 + eps) * (1 + eps) * (1 + eps) - 1) * (x - l) + (x - l) := by linarith
        _ = _ := by ring
    exact (abs_add_le _ _).trans (by linarith)
  calc |fl (w + l) - x| = |(fl (w + l) - (w + l)) + (w - (x - l))| := by congr 1; ring
    _ ≤ |fl (w + l) - (w + l)| + |w - (x - l)| := abs_add_le _ _
    _ ≤ eps * ((1 + eps) ^ 3 * (x - l) + |l|) + (1 * (1 + eps) * (1 + eps) * (1 + eps) - 1) * (x - l) :=
        add_le_add (e1.trans (mul_le_mul_of_nonneg_left e2 h0)) a3
    _ = _ := by ring

end Rbfopt
