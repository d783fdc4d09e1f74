import Verif.Model.Print
import Verif.Spec.Text
import Verif.Props.Records
import Verif.Props.Parallel
import Verif.Examples.Witness
import Mathlib.Data.String.Basic
import Mathlib.Tactic.Linarith
import Mathlib.Tactic.Positivity
import Mathlib.Tactic.Ring
import Mathlib.Tactic.FieldSimp
import Mathlib.Tactic.NormNum

/-!
# C101: the log can be read back
-/

namespace Rbfopt

/-! ## Words -/

/-- A word: not empty, no space in it. -/
def IsWord (t : List Char) : Prop := t ≠ [] ∧ ' ' ∉ t

theorem words_nil : words [] = [] := by simp [words, firstWord]

theorem words_space (t : List Char) : words (' ' :: t) = words t := by
  simp [words, firstWord]

theorem words_replicate (n : ℕ) (t : List Char) : words (List.replicate n ' ' ++ t) = words t := by
  induction n with
  | zero => rfl
  | succ n ih => rw [List.replicate_succ, List.cons_append, words_space, ih]

theorem firstWord_append {x : List Char} (h : ' ' ∉ x) (t : List Char) :
    firstWord (x ++ t) = (x ++ (firstWord t).1, (firstWord t).2) := by
  induction x with
  | nil => simp
  | cons c x ih =>
    have hc : c ≠ ' ' := fun e => h (by simp [e])
    have := ih (fun hm => h (List.mem_cons_of_mem _ hm))
    simp [firstWord, this, hc]

theorem words_word {x : List Char} (h : IsWord x) : words x = [x] := by
  have := firstWord_append h.2 []
  simp [firstWord] at this
  simp [words, this, h.1]

theorem words_cons {x : List Char} (h : IsWord x) (t : List Char) :
    words (x ++ ' ' :: t) = x :: words t := by
  have := firstWord_append h.2 (' ' :: t)
  simp only [words, this]
  simp [firstWord, h.1]

theorem words_trailing {x : List Char} (h : IsWord x) (n : ℕ) :
    words (x ++ List.replicate n ' ') = [x] := by
  cases n with
  | zero => simpa using words_word h
  | succ n =>
    rw [List.replicate_succ, words_cons h]
    have := words_replicate n []
    rw [List.append_nil] at this
    rw [this, words_nil]

theorem words_padLeft {x : List Char} (h : IsWord x) (w : ℕ) (t : List Char) :
    words (padLeft w x ++ ' ' :: t) = x :: words t := by
  rw [padLeft, List.append_assoc, words_replicate, words_cons h]

theorem words_padLeft_end {x : List Char} (h : IsWord x) (w : ℕ) : words (padLeft w x) = [x] := by
  rw [padLeft, words_replicate, words_word h]

theorem words_padRight {x : List Char} (h : IsWord x) (w : ℕ) (t : List Char) :
    words (padRight w x ++ ' ' :: t) = x :: words t := by
  rw [padRight, List.append_assoc]
  generalize w - x.length = n
  cases n with
  | zero => simpa using words_cons h t
  | succ n =>
    rw [List.replicate_succ, List.cons_append, words_cons h, words_replicate, words_space]

/-! ## Numerals -/

theorem digitCh_toNat {d : ℕ} (h : d < 10) : (digitCh d).toNat = 48 + d := by
  interval_cases d <;> rfl

theorem digitCh_ne {d : ℕ} (h : d < 10) :
    digitCh d ≠ ' ' ∧ digitCh d ≠ '.' ∧ digitCh d ≠ '-' ∧ digitCh d ≠ '~' ∧ digitCh d ≠ 'i' := by
  interval_cases d <;> decide

/-- Characters of digits. -/
def IsDigit (c : Char) : Prop := ∃ d < 10, c = digitCh d

theorem fmtNat_digits (n : ℕ) : ∀ c ∈ fmtNat n, IsDigit c := by
  intro c hc
  unfold fmtNat at hc
  split at hc
  · rw [List.mem_singleton] at hc
    exact ⟨0, by norm_num, by rw [hc]; rfl⟩
  · obtain ⟨d, hd, rfl⟩ := List.mem_map.mp hc
    exact ⟨d, Nat.digits_lt_base (by norm_num) (List.mem_reverse.mp hd), rfl⟩

theorem fmtNat_ne_nil (n : ℕ) : fmtNat n ≠ [] := by
  unfold fmtNat
  split
  · simp
  · rename_i h
    simpa [Nat.digits_ne_nil_iff_ne_zero] using h

theorem fmtDecimals_digits (d m : ℕ) : ∀ c ∈ fmtDecimals d m, IsDigit c := by
  induction d generalizing m with
  | zero => simp [fmtDecimals]
  | succ d ih =>
    intro c hc
    rw [fmtDecimals, List.mem_append, List.mem_singleton] at hc
    rcases hc with h | h
    · exact ih _ c h
    · exact ⟨_, Nat.mod_lt _ (by norm_num), h⟩

theorem fmtDecimals_length (d m : ℕ) : (fmtDecimals d m).length = d := by
  induction d generalizing m with
  | zero => rfl
  | succ d ih => simp [fmtDecimals, ih]

theorem readDigits_append (x : List Char) (c : Char) :
    readDigits (x ++ [c]) = 10 * readDigits x + (c.toNat - 48) := by
  simp [readDigits]

theorem readDigits_fmtNat (n : ℕ) : readDigits (fmtNat n) = n := by
  unfold fmtNat
  split
  · rename_i h; subst h; rfl
  · rename_i h
    have key : ∀ l : List ℕ, (∀ d ∈ l, d < 10) →
        readDigits (l.reverse.map digitCh) = Nat.ofDigits 10 l := by
      intro l
      induction l with
      | nil => intro _; rfl
      | cons d l ih =>
        intro hl
        rw [List.reverse_cons, List.map_append, List.map_singleton, readDigits_append,
          ih (fun e he => hl e (List.mem_cons_of_mem _ he)), digitCh_toNat (hl d (by simp)),
          Nat.ofDigits_cons]
        omega
    rw [key _ (fun d hd => Nat.digits_lt_base (by norm_num) hd), Nat.ofDigits_digits]

theorem readDigits_fmtDecimals (d m : ℕ) (h : m < 10 ^ d) : readDigits (fmtDecimals d m) = m := by
  induction d generalizing m with
  | zero => simp at h; subst h; rfl
  | succ d ih =>
    rw [fmtDecimals, readDigits_append, ih _ (by rw [pow_succ] at h; omega),
      digitCh_toNat (Nat.mod_lt _ (by norm_num))]
    omega

theorem roundEven_near (q : ℚ) : |(roundEven q : ℚ) - q| ≤ 1 / 2 := by
  have h0 := Int.floor_le q
  have h1 := Int.lt_floor_add_one q
  unfold roundEven
  rw [abs_le]
  split
  · constructor <;> linarith
  · split
    · push_cast; constructor <;> linarith
    · split
      · constructor <;> linarith
      · push_cast; constructor <;> linarith

theorem roundEven_nonneg {q : ℚ} (h : 0 ≤ q) : 0 ≤ roundEven q := by
  have := Int.floor_nonneg.mpr h
  unfold roundEven
  split
  · exact this
  · split
    · omega
    · split <;> omega

theorem readNumeral_fmtFixed (d : ℕ) (q : ℚ) :
    readNumeral (fmtFixed d q) =
      (if q < 0 then -1 else 1) * ((roundEven (|q| * 10 ^ d) : ℚ) / 10 ^ d) := by
  unfold fmtFixed
  set m := (roundEven (|q| * 10 ^ d)).toNat with hm
  have hmq : (roundEven (|q| * 10 ^ d) : ℚ) = (m : ℚ) := by
    have h0 : 0 ≤ roundEven (|q| * 10 ^ d) := roundEven_nonneg (by positivity)
    have : ((m : ℤ)) = roundEven (|q| * 10 ^ d) := Int.toNat_of_nonneg h0
    rw [← this]; norm_cast
  rw [hmq]
  clear_value m
  have hbody : ∀ c ∈ fmtNat (m / 10 ^ d), c ≠ '.' := fun c hc => by
    obtain ⟨e, he, rfl⟩ := fmtNat_digits _ c hc
    exact (digitCh_ne he).2.1
  have htake : (fmtNat (m / 10 ^ d) ++ '.' :: fmtDecimals d (m % 10 ^ d)).takeWhile (· ≠ '.')
      = fmtNat (m / 10 ^ d) := by
    rw [List.takeWhile_append_of_pos (by simpa using hbody)]
    simp
  have hdrop : (fmtNat (m / 10 ^ d) ++ '.' :: fmtDecimals d (m % 10 ^ d)).dropWhile (· ≠ '.')
      = '.' :: fmtDecimals d (m % 10 ^ d) := by
    rw [List.dropWhile_append_of_pos (by simpa using hbody)]
    simp
  have hhead : (fmtNat (m / 10 ^ d) ++ '.' :: fmtDecimals d (m % 10 ^ d)).head? ≠ some '-' := by
    obtain ⟨c, l, hcl⟩ := List.exists_cons_of_ne_nil (fmtNat_ne_nil (m / 10 ^ d))
    obtain ⟨e, he, hc⟩ := fmtNat_digits (m / 10 ^ d) c (by rw [hcl]; simp)
    rw [hcl]
    simp [hc, (digitCh_ne he).2.2.1]
  have hval : ((m / 10 ^ d : ℕ) : ℚ) + ((m % 10 ^ d : ℕ) : ℚ) / 10 ^ d = (m : ℚ) / 10 ^ d := by
    have := Nat.div_add_mod m (10 ^ d)
    have h2 : (m : ℚ) = 10 ^ d * ((m / 10 ^ d : ℕ) : ℚ) + ((m % 10 ^ d : ℕ) : ℚ) := by
      exact_mod_cast this.symm
    rw [h2]
    field_simp
  by_cases hq : q < 0
  · simp only [hq, if_true, readNumeral, List.singleton_append, List.cons_append, List.head?_cons,
      List.tail_cons, List.nil_append]
    rw [htake, hdrop]
    simp only [List.tail_cons, fmtDecimals_length]
    rw [readDigits_fmtNat, readDigits_fmtDecimals _ _ (Nat.mod_lt _ (by positivity)), hval]
  · simp only [hq, if_false, readNumeral, List.nil_append]
    rw [if_neg hhead, if_neg hhead, htake, hdrop]
    simp only [List.tail_cons, fmtDecimals_length]
    rw [readDigits_fmtNat, readDigits_fmtDecimals _ _ (Nat.mod_lt _ (by positivity)), hval]

/-- **C101** A number printed with `d` decimals is within half a unit of the last printed decimal of the
exact number, whatever its size: nothing is cut off. -/
theorem C101_number_precision (d : ℕ) (q : ℚ) :
    |readNumeral (fmtFixed d q) - q| ≤ 1 / 2 / 10 ^ d := by
  rw [readNumeral_fmtFixed]
  have h := roundEven_near (|q| * 10 ^ d)
  set r : ℚ := ((roundEven (|q| * 10 ^ d) : ℤ) : ℚ)
  have hp : (0 : ℚ) < 10 ^ d := by positivity
  have h2 : |(r / 10 ^ d - |q| : ℚ)| ≤ 1 / 2 / 10 ^ d := by
    rw [show r / 10 ^ d - |q| = (r - |q| * 10 ^ d) / 10 ^ d by field_simp, abs_div, abs_of_pos hp]
    gcongr
  by_cases hq : q < 0
  · rw [if_pos hq]
    rw [abs_of_neg hq] at h2
    rw [← abs_neg]
    convert h2 using 2
    ring
  · rw [if_neg hq]
    rw [abs_of_nonneg (not_lt.mp hq)] at h2
    convert h2 using 2
    ring

/-- **C101** A number with at most `d` decimals is printed exactly. -/
theorem C101_number_exact (d : ℕ) (q : ℚ) (h : ∃ k : ℤ, q * 10 ^ d = k) :
    readNumeral (fmtFixed d q) = q := by
  obtain ⟨k, hk⟩ := h
  rw [readNumeral_fmtFixed]
  have hp : (0 : ℚ) < 10 ^ d := by positivity
  have hint : |q| * 10 ^ d = ((|k| : ℤ) : ℚ) := by
    rw [Int.cast_abs, ← hk, abs_mul, abs_of_pos hp]
  have hr : roundEven (|q| * 10 ^ d) = |k| := by
    rw [hint]; unfold roundEven; rw [Int.floor_intCast]; simp
  rw [hr, ← hint]
  by_cases hq : q < 0
  · rw [if_pos hq, abs_of_neg hq]; field_simp
  · rw [if_neg hq, abs_of_nonneg (not_lt.mp hq)]; field_simp

/-- **C101** Integers are printed exactly. -/
theorem C101_integer_exact (i : ℤ) : readInt (fmtInt i) = i := by
  unfold fmtInt
  by_cases h : i < 0
  · simp only [h, if_true, readInt, List.head?_cons, List.tail_cons, readDigits_fmtNat]
    omega
  · simp only [h, if_false, readInt]
    have hhead : (fmtNat i.natAbs).head? ≠ some '-' := by
      obtain ⟨c, l, hcl⟩ := List.exists_cons_of_ne_nil (fmtNat_ne_nil i.natAbs)
      obtain ⟨e, he, hc⟩ := fmtNat_digits i.natAbs c (by rw [hcl]; simp)
      rw [hcl]
      simp [hc, (digitCh_ne he).2.2.1]
    rw [if_neg hhead, readDigits_fmtNat]
    omega

/-! ## Lines -/

theorem isWord_fmtNat (n : ℕ) : IsWord (fmtNat n) :=
  ⟨fmtNat_ne_nil n, fun h => by
    obtain ⟨e, he, hc⟩ := fmtNat_digits n _ h
    exact (digitCh_ne he).1 hc.symm⟩

theorem isWord_fmtInt (i : ℤ) : IsWord (fmtInt i) := by
  unfold fmtInt
  split
  · refine ⟨by simp, ?_⟩
    rw [List.mem_cons, not_or]
    exact ⟨by decide, (isWord_fmtNat _).2⟩
  · exact isWord_fmtNat _

theorem isWord_fmtFixed (d : ℕ) (q : ℚ) : IsWord (fmtFixed d q) := by
  unfold fmtFixed
  refine ⟨by simp, ?_⟩
  simp only [List.mem_append, List.mem_cons, not_or]
  refine ⟨⟨?_, (isWord_fmtNat _).2⟩, by decide, fun h => ?_⟩
  · split <;> simp
  · obtain ⟨e, he, hc⟩ := fmtDecimals_digits _ _ _ h
    exact (digitCh_ne he).1 hc.symm

theorem isWord_fmtFloat (d : ℕ) (q : EVal) : IsWord (fmtFloat d q) := by
  induction q using WithTop.recTopCoe with
  | top => exact ⟨by simp [fmtFloat], by simp [fmtFloat]⟩
  | coe q => exact isWord_fmtFixed d q

variable {O : Type} {P : Params} {env : Env O} {o : O}

/-- **C101** The words of a log line with a value are exactly: the iteration, the cycle, the tag, the value
(followed by `~` if it is noisy), the time, the gap in percent, and a star if it improves.  This holds for
numbers of any size: a number that does not fit its column is still separated from its neighbours. -/
theorem C101_value_line (s : Alg O) {tag : List Char} (ht : IsWord tag) (noisy : Bool) (obj : ℚ) (gap : EVal)
    (time : ℚ) :
    words (valueLine s tag noisy obj gap time) =
      [fmtInt s.itercount, fmtInt s.cyc, tag, fmtFixed 6 obj ++ (if noisy then ['~'] else []),
        fmtFixed 2 time, fmtFloat 2 (gap.map (· * 100))] ++
      (if gap < s.bestGapShown ∧ (obj : EVal) = s.fbest then [['*']] else []) := by
  unfold valueLine
  simp only [List.append_assoc, List.cons_append, List.nil_append]
  rw [words_space, words_padLeft (isWord_fmtInt _), words_padLeft (isWord_fmtInt _), words_space,
    words_padRight ht]
  have hend : ∀ c : Char, c = '*' ∨ c = ' ' → words [' ', c] = if c = '*' then [['*']] else [] := by
    rintro c (rfl | rfl) <;> decide
  have htail : words (padLeft 8 (fmtFixed 2 time) ++
      ' ' :: (padLeft 8 (fmtFloat 2 (gap.map (· * 100))) ++
        [' ', if gap < s.bestGapShown ∧ (obj : EVal) = s.fbest then '*' else ' '])) =
      [fmtFixed 2 time, fmtFloat 2 (gap.map (· * 100))] ++
      (if gap < s.bestGapShown ∧ (obj : EVal) = s.fbest then [['*']] else []) := by
    rw [words_padLeft (isWord_fmtFixed _ _), words_padLeft (isWord_fmtFloat _ _)]
    have := hend (if gap < s.bestGapShown ∧ (obj : EVal) = s.fbest then '*' else ' ')
      (by split <;> simp)
    rw [words_space] at this
    rw [this]
    by_cases h : gap < s.bestGapShown ∧ (obj : EVal) = s.fbest
    · simp [h]
    · simp only [h, if_false]; simp
  cases noisy with
  | false =>
    simp only [Bool.false_eq_true, if_false, List.append_nil]
    rw [words_padLeft (isWord_fmtFixed _ _), words_space, htail]
    rfl
  | true =>
    simp only [if_true]
    have hw : IsWord (fmtFixed 6 obj ++ ['~']) := by
      refine ⟨by simp, ?_⟩
      rw [List.mem_append, not_or]
      exact ⟨(isWord_fmtFixed _ _).2, by simp⟩
    rw [padLeft, List.append_assoc, words_replicate]
    rw [show fmtFixed 6 obj ++ '~' :: ' ' :: (padLeft 8 (fmtFixed 2 time) ++
      ' ' :: (padLeft 8 (fmtFloat 2 (gap.map (· * 100))) ++
        [' ', if gap < s.bestGapShown ∧ (obj : EVal) = s.fbest then '*' else ' '])) =
      (fmtFixed 6 obj ++ ['~']) ++ ' ' :: (padLeft 8 (fmtFixed 2 time) ++
      ' ' :: (padLeft 8 (fmtFloat 2 (gap.map (· * 100))) ++
        [' ', if gap < s.bestGapShown ∧ (obj : EVal) = s.fbest then '*' else ' '])) by simp]
    rw [words_cons hw, htail]
    rfl

/-- **C101** The gap is shown as `inf` exactly if it is infinite. -/
theorem C101_infinite_gap (s : Alg O) {tag : List Char} (ht : IsWord tag) (noisy : Bool) (obj : ℚ)
    (gap : EVal) (time : ℚ) :
    (words (valueLine s tag noisy obj gap time))[5]? = some ['i', 'n', 'f'] ↔ gap = ⊤ := by
  rw [C101_value_line s ht]
  have key : fmtFloat 2 (gap.map (· * 100)) = ['i', 'n', 'f'] ↔ gap = ⊤ := by
    induction gap using WithTop.recTopCoe with
    | top => simp [fmtFloat]
    | coe q =>
      refine ⟨fun h0 => ?_, fun h => absurd h (WithTop.coe_ne_top)⟩
      have h1 : fmtFixed 2 (q * 100) = ['i', 'n', 'f'] := h0
      have h2 : '.' ∈ fmtFixed 2 (q * 100) := by simp [fmtFixed]
      rw [h1] at h2
      simp at h2
  simpa using key

/-- **C101** A line carries a star exactly if the object notes the value as a new best. -/
theorem C101_star_is_noted (s : Alg O) {tag : List Char} (ht : IsWord tag) (noisy : Bool) (obj : ℚ)
    (gap : EVal) (time : ℚ) :
    (words (valueLine s tag noisy obj gap time)).getLast? = some ['*'] ↔
      (updateLog s obj gap).stars = s.stars ++ [(gap, obj, s.fbest)] := by
  rw [C101_value_line s ht]
  unfold updateLog
  by_cases h : gap < s.bestGapShown ∧ (obj : EVal) = s.fbest
  · simp [h]
  · have hne : fmtFloat 2 (gap.map (· * 100)) ≠ ['*'] := by
      induction gap using WithTop.recTopCoe with
      | top => simp [fmtFloat]
      | coe q =>
        intro h0
        have : fmtFixed 2 (q * 100) = ['*'] := h0
        have h2 := congrArg List.length this
        simp only [fmtFixed, List.length_append, List.length_cons, fmtDecimals_length] at h2
        simp at h2
    simp only [h, if_false, List.append_nil]
    simp [hne]

/-- **C101** The words of the summary line. -/
theorem C101_summary_line (s : Alg O) (noisy : Bool) (gap : EVal) (time : ℚ) :
    words (summaryLine s noisy gap time) =
      ["Summary:".toList, "iters".toList, fmtInt s.itercount, "evals".toList, fmtInt s.evalcount,
        "noisy_evals".toList, fmtInt s.noisyEvalcount, "cycles".toList, fmtInt s.cyc,
        "opt_time".toList, fmtFixed 2 time, "tot_time".toList, fmtFixed 2 s.elapsed,
        (if noisy then "obj~" else "obj").toList, fmtFloat 6 s.fbest, "gap".toList,
        fmtFloat 2 (gap.map (100 * ·))] := by
  have hw : ∀ (x : List Char) (t : List Char), x ≠ [] ∧ ' ' ∉ x →
      words (x ++ ' ' :: t) = x :: words t := fun x t h => words_cons h t
  have e1 : ∀ t, words ("Summary: iters ".toList ++ t) = "Summary:".toList :: "iters".toList :: words t :=
    fun t => (hw "Summary:".toList ("iters".toList ++ ' ' :: t) (by decide)).trans
      (by rw [hw _ _ (by decide)])
  have e : ∀ (x y : String) (w : ℕ) (a t : List Char), IsWord a →
      x.toList = ' ' :: (y.toList ++ [' ']) → (y.toList ≠ [] ∧ ' ' ∉ y.toList) →
      words (padLeft w a ++ (x.toList ++ t)) = a :: y.toList :: words t := by
    intro x y w a t ha hx hy
    rw [hx, List.cons_append, words_padLeft ha, List.append_assoc, List.singleton_append, hw _ _ hy]
  have hobj : ∀ t, words (padLeft 7 (fmtFixed 2 s.elapsed) ++ (" obj".toList ++
      ([if noisy then '~' else ' '] ++ ([' '] ++ t)))) =
      fmtFixed 2 s.elapsed :: (if noisy then "obj~" else "obj").toList :: words t := by
    intro t
    cases noisy with
    | false =>
      refine (words_padLeft (isWord_fmtFixed _ _) 7 ("obj".toList ++ ' ' :: ' ' :: t)).trans ?_
      rw [hw _ _ (by decide), words_space]
      rfl
    | true =>
      refine (words_padLeft (isWord_fmtFixed _ _) 7 ("obj~".toList ++ ' ' :: t)).trans ?_
      rw [hw _ _ (by decide)]
      rfl
  unfold summaryLine
  simp only [List.append_assoc]
  rw [e1, e " evals " "evals" _ _ _ (isWord_fmtInt _) (by decide) (by decide),
    e " noisy_evals " "noisy_evals" _ _ _ (isWord_fmtInt _) (by decide) (by decide),
    e " cycles " "cycles" _ _ _ (isWord_fmtInt _) (by decide) (by decide),
    e " opt_time " "opt_time" _ _ _ (isWord_fmtInt _) (by decide) (by decide),
    e " tot_time " "tot_time" _ _ _ (isWord_fmtFixed _ _) (by decide) (by decide), hobj,
    e " gap " "gap" _ _ _ (isWord_fmtFloat _ _) (by decide) (by decide),
    words_padLeft_end (isWord_fmtFloat _ _)]

/-- The summary after a call that left the object `s`, if the tracked best value is the returned one. -/
theorem summary_of_return {s : Alg O} {r : OptResult O} (h : optimizeReturn s = .ret r)
    (hfb : s.fbest = (r.value : EVal)) (time : ℚ) :
    ∃ line, optimizeSummary P s time = some line ∧
      (words line)[2]? = some (fmtInt r.itercount) ∧ (words line)[4]? = some (fmtInt r.evalcount) ∧
      (words line)[6]? = some (fmtInt r.noisyEvalcount) ∧
      (words line)[14]? = some (fmtFixed 6 r.value) ∧
      ∃ i : ℕ, s.all.val[i]? = some r.value ∧ s.all.pos[i]? = some r.point ∧
        ((words line)[13]? = some "obj~".toList ↔ s.all.noisy[i]? = some true) := by
  unfold optimizeReturn at h
  split at h
  · cases h
  · rename_i v i hm
    split at h
    · rename_i p e b hp he hb
      cases h
      refine ⟨summaryLine s b (computeGap P (s.fbest + (e.2 : EVal))) time,
        by simp only [optimizeSummary, hm, he, hb], ?_⟩
      rw [C101_summary_line]
      refine ⟨rfl, rfl, rfl, ?_, i, (argminVal_some hm).1, hp, ?_⟩
      · rw [hfb]; rfl
      · rw [hb]; cases b <;> simp
    · cases h

/-- **C101** In single-phase optimization the summary shows the value that `optimize()` returns, to six
decimals, the returned counters, and `~` exactly if the returned record is noisy. -/
theorem C101_summary_shows_result (hP : P.twoPhase = false) (hd : ∀ p, env.dist p p = 0)
    (hm : 0 ≤ P.minDist) {s : Alg O} {fuel pause : ℕ} {r : OptResult O} (hr : Reach P env o .idle s)
    (h : optimize P env fuel pause s = .ret r) (time : ℚ) :
    ∃ line, optimizeSummary P r.final time = some line ∧
      (words line)[2]? = some (fmtInt r.itercount) ∧ (words line)[4]? = some (fmtInt r.evalcount) ∧
      (words line)[6]? = some (fmtInt r.noisyEvalcount) ∧
      (words line)[14]? = some (fmtFixed 6 r.value) ∧
      ∃ i : ℕ, r.final.all.val[i]? = some r.value ∧ r.final.all.pos[i]? = some r.point ∧
        ((words line)[13]? = some "obj~".toList ↔ r.final.all.noisy[i]? = some true) := by
  have hfb := C02_returned_is_tracked hP hd hm hr h
  have hret : optimizeReturn r.final = .ret r := by
    unfold optimize at h
    split at h
    · cases h
    · split at h
      · cases h
      · cases h
      · rename_i s2 _ _
        have hfin : r.final = { s2 with elapsed := s2.elapsed + env.callTime s2 } := by
          have h' := h
          unfold optimizeReturn at h'
          split at h'
          · cases h'
          · split at h'
            · cases h'; rfl
            · cases h'
        rw [hfin]; exact h
  exact summary_of_return hret hfb time

/-- **C101** The same with several CPUs, for any schedule. -/
theorem C101_parallel_summary_shows_result {pe : PEnv O} {c : PCtl} {s : PState O}
    (hP : P.twoPhase = false) (h : PReach P env pe o c s) {r : OptResult O}
    (hret : optimizeReturn s.alg = .ret r) (time : ℚ) :
    ∃ line, optimizeSummary P s.alg time = some line ∧
      (words line)[2]? = some (fmtInt r.itercount) ∧ (words line)[4]? = some (fmtInt r.evalcount) ∧
      (words line)[6]? = some (fmtInt r.noisyEvalcount) ∧
      (words line)[14]? = some (fmtFixed 6 r.value) ∧
      ∃ i : ℕ, s.alg.all.val[i]? = some r.value ∧ s.alg.all.pos[i]? = some r.point ∧
        ((words line)[13]? = some "obj~".toList ↔ s.alg.all.noisy[i]? = some true) := by
  obtain ⟨h1, ⟨i, h2, h3⟩, -⟩ := C01_parallel_returns_best_record hret
  have hne : s.alg.all.pos ≠ [] := by rintro h0; rw [h0] at h2; simp at h2
  obtain ⟨f, b, M, -, e2, -, -, e5, -⟩ := C02_parallel_tracked_best hP h hne
  refine summary_of_return hret ?_ time
  rw [e2]
  congr 1
  exact le_antisymm (e5.2 _ (List.mem_of_getElem? h3)) (h1 _ (List.mem_of_getElem? e5.1))

/-- **C101** (violation, two-phase) The summary shows the tracked best value, which re-evaluation can leave
behind: here it says `0.000000` (with `obj`, not `obj~`) while `optimize()` returns 1. -/
theorem C101_violated_two_phase :
    (optimize { Demo.PNw with maxNoisyIter := 0, maxIter := 3, target := -100 } Demo.envRe 40 10
        (Alg.init Demo.PNw 0)).result?.map
      (fun r => (r.value, (optimizeSummary { Demo.PNw with maxNoisyIter := 0, maxIter := 3, target := -100 }
        r.final 0).map (fun line => (words line)[14]?.map String.ofList))) =
    some (1, some (some "0.000000")) := by
  decide +kernel

/-! ## Columns -/

theorem padLeft_length {w : ℕ} {t : List Char} (h : t.length ≤ w) : (padLeft w t).length = w := by
  simp [padLeft]; omega

theorem padRight_length {w : ℕ} {t : List Char} (h : t.length ≤ w) : (padRight w t).length = w := by
  simp [padRight]; omega

/-- **C101** When every number fits its column, the line has 70 characters and each number ends where its
header ends: value in column 49, time in column 59, gap in column 68. -/
theorem C101_columns (s : Alg O) {tag : List Char} (ht : tag.length ≤ 15) (noisy : Bool) (obj : ℚ)
    (gap : EVal) (time : ℚ) (h1 : (fmtInt s.itercount).length ≤ 5) (h2 : (fmtInt s.cyc).length ≤ 6)
    (h3 : (fmtFixed 6 obj).length ≤ 18) (h4 : (fmtFixed 2 time).length ≤ 8)
    (h5 : (fmtFloat 2 (gap.map (· * 100))).length ≤ 8) :
    (valueLine s tag noisy obj gap time).length = 70 ∧
    ((valueLine s tag noisy obj gap time).drop 31).take 18 = padLeft 18 (fmtFixed 6 obj) ∧
    ((valueLine s tag noisy obj gap time).drop 51).take 8 = padLeft 8 (fmtFixed 2 time) ∧
    ((valueLine s tag noisy obj gap time).drop 60).take 8 = padLeft 8 (fmtFloat 2 (gap.map (· * 100))) ∧
    ∀ l ∈ initLines, l.length = 68 := by
  have a1 := padLeft_length h1
  have a2 := padLeft_length h2
  have a3 := padLeft_length h3
  have a4 := padLeft_length h4
  have a5 := padLeft_length h5
  have a6 := padRight_length ht
  unfold valueLine
  generalize padLeft 5 (fmtInt s.itercount) = x1 at *
  generalize padLeft 6 (fmtInt s.cyc) = x2 at *
  generalize padLeft 18 (fmtFixed 6 obj) = x3 at *
  generalize padLeft 8 (fmtFixed 2 time) = x4 at *
  generalize padLeft 8 (fmtFloat 2 (gap.map (· * 100))) = x5 at *
  generalize padRight 15 tag = x6 at *
  generalize (if noisy then '~' else ' ') = c1
  generalize (if gap < s.bestGapShown ∧ (obj : EVal) = s.fbest then '*' else ' ') = c2
  have cut : ∀ (a b t : List Char) (n k : ℕ), a.length = n → b.length = k →
      ((a ++ b ++ t).drop n).take k = b := by
    rintro a b t n k rfl rfl
    rw [List.append_assoc, List.drop_left, List.take_left]
  refine ⟨by simp [a1, a2, a3, a4, a5, a6], ?_, ?_, ?_, ?_⟩
  · rw [show ([' '] ++ x1 ++ [' '] ++ x2 ++ [' ', ' '] ++ x6 ++ [' '] ++ x3 ++ [c1] ++ [' '] ++ x4 ++ [' ']
      ++ x5 ++ [' ', c2]) = ([' '] ++ x1 ++ [' '] ++ x2 ++ [' ', ' '] ++ x6 ++ [' ']) ++ x3 ++
      ([c1] ++ [' '] ++ x4 ++ [' '] ++ x5 ++ [' ', c2]) by simp only [List.append_assoc]]
    exact cut _ _ _ _ _ (by simp [a1, a2, a6]) a3
  · rw [show ([' '] ++ x1 ++ [' '] ++ x2 ++ [' ', ' '] ++ x6 ++ [' '] ++ x3 ++ [c1] ++ [' '] ++ x4 ++ [' ']
      ++ x5 ++ [' ', c2]) = ([' '] ++ x1 ++ [' '] ++ x2 ++ [' ', ' '] ++ x6 ++ [' '] ++ x3 ++ [c1] ++ [' '])
      ++ x4 ++ ([' '] ++ x5 ++ [' ', c2]) by simp only [List.append_assoc]]
    exact cut _ _ _ _ _ (by simp [a1, a2, a3, a6]) a4
  · exact cut _ _ _ _ _ (by simp [a1, a2, a3, a4, a6]) a5
  · decide

theorem fmtNat_length {n k : ℕ} (hk : 0 < k) (h : n < 10 ^ k) : (fmtNat n).length ≤ k := by
  unfold fmtNat
  split
  · exact hk
  · rename_i h0
    rw [List.length_map, List.length_reverse, Nat.digits_len 10 n (by norm_num) h0]
    exact Nat.log_lt_of_lt_pow h0 h

/-- **C101** The columns are wide enough for values up to ten billion in absolute value, and all tags and
messages of the program fit theirs. -/
theorem C101_values_fit {obj : ℚ} (h : |obj| < 10 ^ 10 - 1) : (fmtFixed 6 obj).length ≤ 18 ∧
    (∀ t ∈ logTags, t.toList.length ≤ 15 ∧ IsWord t.toList) ∧ ∀ m ∈ logMessages, m.toList.length ≤ 35 := by
  refine ⟨?_, ?_, by decide⟩
  · have hr := roundEven_near (|obj| * 10 ^ 6)
    have hr2 := (abs_le.mp hr).2
    have hlt : (roundEven (|obj| * 10 ^ 6) : ℚ) < 10 ^ 16 := by
      norm_num at h hr2 ⊢
      linarith
    have hlt2 : roundEven (|obj| * 10 ^ 6) < 10 ^ 16 := by exact_mod_cast hlt
    unfold fmtFixed
    have hn : (roundEven (|obj| * 10 ^ 6)).toNat / 10 ^ 6 < 10 ^ 10 := by omega
    have hl := fmtNat_length (by norm_num) hn
    simp only [List.length_append, List.length_cons, fmtDecimals_length]
    split
    · rw [List.length_singleton]; omega
    · rw [List.length_nil]; omega
  · unfold IsWord; decide

/-! ## Messages -/

theorem firstWord_general (x t : List Char) :
    firstWord (x ++ ' ' :: t) = ((firstWord x).1, (firstWord x).2 ++ words t) := by
  induction x with
  | nil => simp [firstWord, words]
  | cons c x ih =>
    simp only [List.cons_append, firstWord, ih]
    split
    · split <;> simp_all
    · rfl

theorem words_append (x t : List Char) : words (x ++ ' ' :: t) = words x ++ words t := by
  simp only [words, firstWord_general]
  split <;> rfl

/-- **C101** The words of a message line: iteration, cycle, the words of the message, time. -/
theorem C101_message_line (s : Alg O) (msg : List Char) (time : ℚ) :
    words (messageLine s msg time) =
      [fmtInt s.itercount, fmtInt s.cyc] ++ words msg ++ [fmtFixed 2 time] := by
  unfold messageLine
  simp only [List.append_assoc, List.cons_append, List.nil_append]
  rw [words_space, words_padLeft (isWord_fmtInt _), words_padLeft (isWord_fmtInt _), words_space,
    words_append, words_padLeft_end (isWord_fmtFixed _ _)]
  congr 2
  congr 1
  unfold padRight
  generalize 35 - msg.length = n
  cases n with
  | zero => simp
  | succ n =>
    rw [List.replicate_succ, words_append]
    have := words_replicate n []
    rw [List.append_nil] at this
    rw [this, words_nil, List.append_nil]

/-! ## Settings -/

theorem insertAttr_perm (a : String × List Char) (l : List (String × List Char)) :
    (insertAttr a l).Perm (a :: l) := by
  induction l with
  | nil => exact .refl _
  | cons b l ih =>
    unfold insertAttr
    split
    · exact .refl _
    · exact (ih.cons b).trans (.swap _ _ _)

theorem sortAttrs_perm (l : List (String × List Char)) : (sortAttrs l).Perm l := by
  induction l with
  | nil => exact .refl _
  | cons a l ih => exact (insertAttr_perm a _).trans (ih.cons a)

theorem insertAttr_sorted (a : String × List Char) {l : List (String × List Char)}
    (h : l.Pairwise (fun x y => x.1 ≤ y.1)) : (insertAttr a l).Pairwise (fun x y => x.1 ≤ y.1) := by
  induction l with
  | nil => simp [insertAttr]
  | cons b l ih =>
    rw [List.pairwise_cons] at h
    unfold insertAttr
    split
    · rename_i hab
      rw [List.pairwise_cons, List.pairwise_cons]
      refine ⟨?_, h⟩
      rintro y hy
      rcases List.mem_cons.mp hy with rfl | hy
      · exact hab
      · exact le_trans hab (h.1 y hy)
    · rename_i hab
      rw [List.pairwise_cons]
      refine ⟨fun y hy => ?_, ih h.2⟩
      rcases List.mem_cons.mp ((insertAttr_perm a l).mem_iff.mp hy) with rfl | hy
      · exact (le_total _ _).resolve_left hab
      · exact h.1 y hy

theorem sortAttrs_sorted (l : List (String × List Char)) :
    (sortAttrs l).Pairwise (fun x y => x.1 ≤ y.1) := by
  induction l with
  | nil => exact .nil
  | cons a l ih => exact insertAttr_sorted a ih

theorem commaParts_noComma {t : List Char} (h : ',' ∉ t) : commaParts t = [t] := by
  induction t with
  | nil => rfl
  | cons c t ih =>
    have hc : c ≠ ',' := fun e => h (by simp [e])
    have := ih (fun hm => h (List.mem_cons_of_mem _ hm))
    simp [commaParts, hc, this]

theorem commaParts_cons {x : List Char} (h : ',' ∉ x) (t : List Char) :
    commaParts (x ++ ',' :: t) = x :: commaParts t := by
  induction x with
  | nil => simp [commaParts]
  | cons c x ih =>
    have hc : c ≠ ',' := fun e => h (by simp [e])
    have := ih (fun hm => h (List.mem_cons_of_mem _ hm))
    simp [commaParts, hc, this]

theorem commaParts_space (t : List Char) :
    commaParts (' ' :: t) = (commaParts t).modifyHead (' ' :: ·) := by
  cases h : commaParts t with
  | nil =>
    exfalso
    cases t with
    | nil => simp [commaParts] at h
    | cons c t =>
      unfold commaParts at h
      split at h
      · cases h
      · split at h <;> cases h
  | cons w ws => simp [commaParts, h]

/-- Parts of a joined line. -/
theorem commaParts_join (t : List Char) (ts : List (List Char)) (h : ∀ x ∈ t :: ts, ',' ∉ x) :
    commaParts (joinComma (t :: ts)) = t :: ts.map (' ' :: ·) := by
  induction ts generalizing t with
  | nil => simpa [joinComma] using commaParts_noComma (h t (by simp))
  | cons u us ih =>
    have e : joinComma (t :: u :: us) = t ++ ',' :: ' ' :: joinComma (u :: us) := by
      simp [joinComma]
    rw [e, commaParts_cons (h t (by simp)), commaParts_space, ih u (fun x hx => h x (by simp_all))]
    rfl

/-- **C101** The line with the settings, split at the commas, is the list of all settings in the order of
their names, each exactly once, as `name: value` (if no value is written with a comma). -/
theorem C101_settings_line (str : SVal → List Char) (st : Settings)
    (h : ∀ e ∈ settingsDefaults, ',' ∉ str (st e.1)) :
    ∃ (line : List Char) (attrs : List (String × List Char)),
      settingsLines str st = ["RbfoptSettings:".toList, line, []] ∧
      attrs.Perm (settingsDefaults.map (fun e => (e.1, str (st e.1)))) ∧
      attrs.Pairwise (fun x y => x.1 < y.1) ∧
      (commaParts line).map (fun t => if t.head? = some ' ' then t.tail else t) =
        attrs.map (fun a => a.1.toList ++ [':', ' '] ++ a.2) := by
  set l := settingsDefaults.map (fun e => (e.1, str (st e.1))) with hl
  have hnames : ∀ e ∈ settingsDefaults, ',' ∉ e.1.toList ∧ e.1.toList.head? ≠ some ' ' := by
    decide +kernel
  refine ⟨joinComma ((sortAttrs l).map attrText), sortAttrs l, rfl, sortAttrs_perm l, ?_, ?_⟩
  · have hnd : (settingsDefaults.map Prod.fst).Nodup := by decide +kernel
    have hnd2 : ((sortAttrs l).map Prod.fst).Nodup := by
      rw [((sortAttrs_perm l).map Prod.fst).nodup_iff, hl, List.map_map]
      exact hnd
    have hp : (sortAttrs l).Pairwise (fun x y => x.1 ≠ y.1) := List.pairwise_map.mp hnd2
    exact ((sortAttrs_sorted l).and hp).imp (fun h => lt_of_le_of_ne h.1 h.2)
  · have hmem : ∀ a ∈ sortAttrs l, ',' ∉ attrText a ∧ (attrText a).head? ≠ some ' ' := by
      intro a ha
      rw [(sortAttrs_perm l).mem_iff, hl] at ha
      obtain ⟨e, he, rfl⟩ := List.mem_map.mp ha
      obtain ⟨h1, h2⟩ := hnames e he
      refine ⟨?_, ?_⟩
      · simp [attrText, h1, h e he]
      · unfold attrText
        cases hx : e.1.toList with
        | nil => simp
        | cons c t => rw [hx] at h2; simpa using h2
    cases hs : sortAttrs l with
    | nil =>
      exfalso
      have := (sortAttrs_perm l).length_eq
      rw [hs, hl] at this
      simp [settingsDefaults] at this
    | cons a as =>
      rw [hs] at hmem
      rw [List.map_cons, commaParts_join _ _ (by
        intro x hx
        rw [← List.map_cons] at hx
        obtain ⟨b, hb, rfl⟩ := List.mem_map.mp hx
        exact (hmem b hb).1)]
      rw [List.map_cons, List.map_map, List.map_map, if_neg (hmem a (by simp)).2, List.map_cons]
      rfl

/-- Non-vacuity: a value line of a fresh object, as the program prints it, and its words; a tag of the
program; numbers rounded to even; settings without commas. -/
theorem C101_example :
    String.ofList (valueLine { Alg.init Demo.P (0 : ℕ) with fbest := ((5 / 2 : ℚ) : EVal) } "GlobalStep".toList
      true (5 / 2) ((1 / 4 : ℚ) : EVal) (123 / 100)) =
      "     0     -1  GlobalStep                2.500000~     1.23    25.00 *" ∧
    IsWord "GlobalStep".toList ∧ (fmtFixed 6 (5 / 2)).length ≤ 18 ∧
    String.ofList (fmtFixed 2 (-1 / 8)) = "-0.12" ∧ String.ofList (fmtFixed 2 (3 / 8)) = "0.38" ∧
    String.ofList (fmtFixed 2 (123456789123 / 1000)) = "123456789.12" ∧
    (∀ e ∈ settingsDefaults, ',' ∉ (fun _ : SVal => ['x']) (settingsFill [] e.1)) ∧
    (initLines.map String.ofList).head? =
      some "  Iter  Cycle  Action             Objective value      Time      Gap" := by
  refine ⟨by decide +kernel, ⟨by decide, by decide⟩, by decide +kernel, by decide +kernel, by decide +kernel,
    by decide +kernel, by simp, by decide +kernel⟩

/-- Non-vacuity of the theorem on the summary: a single-phase run that returns. -/
example : ∃ r, optimize Demo.P Demo.env 40 100 (Alg.init Demo.P 0) = .ret r ∧
    Reach Demo.P Demo.env 0 .idle (Alg.init Demo.P 0) ∧ Demo.P.twoPhase = false :=
  Demo.run_exists.imp fun _ h => ⟨h, .init, rfl⟩

end Rbfopt
